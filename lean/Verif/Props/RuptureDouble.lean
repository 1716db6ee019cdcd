import Verif.Props.QuadRrupDouble

/-!
# Distances to ruptures of quadrilaterals in binary arithmetic

C209.
-/

namespace Verif.Props
open Verif.Spec
open Verif.Dbl
open Verif.Rup (Quad sumProd outerNormal)
open Verif.Vec (V3)

namespace Sur
open Geo Len Edge Seg Shape

variable {u e r l X : ℝ} {L : MathLib} {sum : ℚ → ℚ → ℚ → ℚ} {c : Quad V3} {y : V3}

/-- All distances at once, for both kinds. -/
theorem rupture_near (hu : Precise u) (hL : RightTo u L) (hs : SumTo u sum) (he : 0 ≤ e) (h1 : 1 ≤ r) (hX : r ≤ X) (hf : 1000 * ((200000000 * u + e) * X) ≤ r ^ 2) {gs : List (Quad GeoPoint)}
    {cs : List (Quad V3)} (hcs : List.Forall₂ (FlatWithin e r l) gs cs) (hne : gs ≠ []) {site : GeoPoint} (hsite : PlaceOnEarth site) (hy : PlacedAt site y) (hin : ∀ c ∈ cs, CornersIn X y c)
    (zeros : Quad D3 → Quad Bool) (flat : Bool) :
    ∃ D, leastDistance L sum zeros flat (latlon2ecef L site.lat site.lon site.depth) (gs.map (corners L)) (10 ^ 16) = some D ∧ 0 ≤ D ∧
      ((∃ c ∈ cs, ∃ z ∈ surfaceOf c.p0 c.p1 c.p2 c.p3, |(D : ℝ) - kilometres y z| ≤ 2 * ((200000000 * u + e) * X * l / r ^ 2)) ∨
        flat = true ∧ D = 0 ∧ ∃ c ∈ cs, NearlyOver (300 * ((200000000 * u + e) * X * l / r ^ 2)) c y) ∧
      (∀ c ∈ cs, ∀ z ∈ surfaceOf c.p0 c.p1 c.p2 c.p3, (D : ℝ) ≤ kilometres y z + 2 * ((200000000 * u + e) * X * l / r ^ 2)) ∧
      (flat = true → ∀ t, 300 * ((200000000 * u + e) * X / r) < t → (∃ c ∈ cs, WellOver t c y) → D = 0) := by
  obtain ⟨u0, u1, -⟩ := tiny hu
  have hS : Scale u (200000000 * u + e) r X := ⟨by linarith, h1, hX, by rw [← sq]; exact hf⟩
  obtain ⟨κ0, κr, κ1, εr⟩ := hS.ratio hu
  have her : e ≤ r / 1000 := by linarith
  have site_ : Near (200000000 * u + e) (latlon2ecef L site.lat site.lon site.depth) y ∧ Big y :=
    place_big hu hL hsite hy (w := y) (by unfold distSq; simp [he]) (by
      cases hcs with
      | nil => exact absurd rfl hne
      | cons a b =>
        have k := corners_near hu hL her he a
        have := (sub_near hu (by linarith : 200000000 * u ≤ 200000000 * u + e) k.p1 k.p0).2
        have := (sides_pos a.2.1).1
        linarith)
  generalize latlon2ecef L site.lat site.lon site.depth = x at *
  have one : ∀ g c, FlatWithin e r l g c → CornersIn X y c → _ := fun g c h k => quad_distance hu hL hs hS h.2.1 (corners_near hu hL her he h) site_ k (zeros (corners L g)) flat
  have get : ∀ g ∈ gs, ∃ c ∈ cs, FlatWithin e r l g c := by
    clear hne hin one
    induction hcs with
    | nil => simp
    | cons a b ih =>
      intro g hg
      rcases List.mem_cons.1 hg with rfl | hg
      · exact ⟨_, by simp, a⟩
      · obtain ⟨c, hc, h⟩ := ih g hg
        exact ⟨c, by simp [hc], h⟩
  have get' : ∀ c ∈ cs, ∃ g ∈ gs, FlatWithin e r l g c := by
    clear hne hin one get
    induction hcs with
    | nil => simp
    | cons a b ih =>
      intro g hg
      rcases List.mem_cons.1 hg with rfl | hg
      · exact ⟨_, by simp, a⟩
      · obtain ⟨c, hc, h⟩ := ih g hg
        exact ⟨c, by simp [hc], h⟩
  obtain ⟨D, hD, from_, le, all⟩ := least_spec (L := L) (sum := sum) (x := x) zeros flat (gs.map (corners L)) (by
    intro q hq
    obtain ⟨g, hg, rfl⟩ := List.mem_map.1 hq
    obtain ⟨c, hc, h⟩ := get g hg
    obtain ⟨d, hd, -⟩ := one g c h (hin c hc)
    exact ⟨d, hd⟩) (10 ^ 16)
  have from' : ∃ g ∈ gs, quadDistance L sum (zeros (corners L g)) flat (corners L g) x = some D := by
    rcases from_ with rfl | ⟨q, hq, h⟩
    · obtain ⟨g, hg⟩ := List.exists_mem_of_ne_nil gs hne
      obtain ⟨c, hc, h⟩ := get g hg
      obtain ⟨d, hd, d0, d1, -⟩ := one g c h (hin c hc)
      have := all _ (List.mem_map_of_mem hg) d hd
      obtain rfl : d = 10 ^ 16 := le_antisymm d1 this
      exact ⟨g, hg, hd⟩
    · obtain ⟨g, hg, rfl⟩ := List.mem_map.1 hq
      exact ⟨g, hg, h⟩
  have nk : ∀ c : Quad V3, ConvexPlanar c.p0 c.p1 c.p2 c.p3 → (∃ z ∈ surfaceOf c.p0 c.p1 c.p2 c.p3, near c y / 1000 = kilometres y z) ∧ ∀ z ∈ surfaceOf c.p0 c.p1 c.p2 c.p3, near c y / 1000 ≤ kilometres y z := by
    intro c hc
    obtain ⟨⟨z, hz, ez⟩, least⟩ := (C96_surface_distance hc y).1
    refine ⟨⟨z, hz, ?_⟩, fun z hz => ?_⟩
    · unfold near kilometres
      rw [ez]
    · unfold near kilometres
      exact div_le_div_of_nonneg_right (Real.sqrt_le_sqrt (least z hz)) (by norm_num)
  have pos : 0 ≤ D := by
    obtain ⟨g, hg, hq⟩ := from'
    obtain ⟨c, hc, h⟩ := get g hg
    obtain ⟨d, hd, d0, -⟩ := one g c h (hin c hc)
    rw [hd] at hq
    cases hq
    exact d0
  refine ⟨D, hD, pos, ?_, ?_, ?_⟩
  · obtain ⟨g, hg, hq⟩ := from'
    obtain ⟨c, hc, h⟩ := get g hg
    obtain ⟨d, hd, d0, d1, d2, d3, -⟩ := one g c h (hin c hc)
    rw [hd] at hq
    cases hq
    rcases d3 with d3 | ⟨hflat, hD0, z, hz, dz⟩
    · obtain ⟨⟨z, hz, ez⟩, -⟩ := nk c h.2.1.convex
      rw [ez] at d3
      exact .inl ⟨c, hc, z, hz, d3⟩
    · refine .inr ⟨hflat, hD0, c, hc, foot c y, (foot_of h.2.1.convex _).2 rfl, z, hz, ?_⟩
      rwa [← distance_distSq]
  · intro c hc z hz
    obtain ⟨g, hg, h⟩ := get' c hc
    obtain ⟨d, hd, d0, d1, d2, -⟩ := one g c h (hin c hc)
    have k := (Rat.cast_le (K := ℝ)).2 (all _ (List.mem_map_of_mem hg) d hd)
    have := (nk c h.2.1.convex).2 z hz
    linarith
  · rintro hflat t ht ⟨c, hc, f, hf', disc⟩
    obtain ⟨g, hg, h⟩ := get' c hc
    obtain ⟨d, hd, d0, d1, d2, d3, mid⟩ := one g c h (hin c hc)
    obtain ⟨hN, hpl, hsf, z1, z2, z3⟩ := Shape.frame h.2.1.convex
    obtain ⟨-, -, fg⟩ := foot_spec hN y
    obtain ⟨s0, s1, s2, s3⟩ := sides_pos h.2.1
    have e1 := (foot_of h.2.1.convex f).1 hf'
    have fp := (hpl f).1 hf'.1
    have X0 : 0 < X := by linarith
    have r0 : 0 < r := by linarith
    have t0 : 0 ≤ t := by
      have : 0 ≤ 300 * ((200000000 * u + e) * X / r) := by positivity
      linarith
    have mem : ∀ p, sumProd (outerNormal c) (p.sub f) = 0 → f.distance p ≤ t → p ∈ surfaceOf c.p0 c.p1 c.p2 c.p3 := by
      intro p hp hd
      refine disc p ((hpl p).2 ?_) (by rwa [← distance_distSq])
      have : sumProd (outerNormal c) (p.sub c.p0) = sumProd (outerNormal c) (p.sub f) + sumProd (outerNormal c) (f.sub c.p0) := by
        simp only [sumProd, V3.sub]; ring
      rw [this, hp, fp, add_zero]
    have k1 : sumProd (outerNormal c) (c.p2.sub c.p1) = 0 := by
      have : sumProd (outerNormal c) (c.p2.sub c.p1) = sumProd (outerNormal c) (c.p2.sub c.p0) - sumProd (outerNormal c) (c.p1.sub c.p0) := by simp only [sumProd, V3.sub]; ring
      rw [this, z2, z1, sub_zero]
    have k2 : sumProd (outerNormal c) (c.p3.sub c.p2) = 0 := by
      have : sumProd (outerNormal c) (c.p3.sub c.p2) = sumProd (outerNormal c) (c.p3.sub c.p0) - sumProd (outerNormal c) (c.p2.sub c.p0) := by simp only [sumProd, V3.sub]; ring
      rw [this, z3, z2, sub_zero]
    have k3 : sumProd (outerNormal c) (c.p0.sub c.p3) = 0 := by
      have : sumProd (outerNormal c) (c.p0.sub c.p3) = -sumProd (outerNormal c) (c.p3.sub c.p0) := by simp only [sumProd, V3.sub]; ring
      rw [this, z3, neg_zero]
    have g0 := disc_gap t0 hN z1 fun p hp hd => (hsf p (mem p hp hd)).2.1
    have g1 := disc_gap t0 hN k1 fun p hp hd => (hsf p (mem p hp hd)).2.2.1
    have g2 := disc_gap t0 hN k2 fun p hp hd => (hsf p (mem p hp hd)).2.2.2.1
    have g3 := disc_gap t0 hN k3 fun p hp hd => (hsf p (mem p hp hd)).2.2.2.2
    rw [e1, fg] at g0 g1 g2 g3
    have lt : ∀ {m : ℝ}, r ≤ m → 300 * ((200000000 * u + e) * X / r) * m < t * m := fun hm => mul_lt_mul_of_pos_right ht (by linarith)
    have dz := mid hflat ((lt s0).trans_le g0) ((lt s1).trans_le g1) ((lt s2).trans_le g2) ((lt s3).trans_le g3)
    have := all _ (List.mem_map_of_mem hg) d hd
    rw [dz] at this
    exact le_antisymm this pos

theorem moved_flat {gs us : List (Quad GeoPoint)} (h : List.Forall₂ MovedUp gs us) : gs.map flattened = us := by
  induction h with
  | nil => rfl
  | cons a b ih =>
    rw [List.map_cons, ih]
    congr 1
    rename_i g v _ _
    obtain ⟨⟨a1, a2, a3⟩, ⟨b1, b2, b3⟩, ⟨c1, c2, c3⟩, d1, d2, d3⟩ := And.intro (a g.p0 v.p0 (by simp)) (And.intro (a g.p1 v.p1 (by simp)) (And.intro (a g.p2 v.p2 (by simp)) (a g.p3 v.p3 (by simp))))
    obtain ⟨⟨_, _, _⟩, ⟨_, _, _⟩, ⟨_, _, _⟩, ⟨_, _, _⟩⟩ := v
    simp only at a1 a2 a3 b1 b2 b3 c1 c2 c3 d1 d2 d3
    subst a1 a2 a3 b1 b2 b3 c1 c2 c3 d1 d2 d3
    rfl

end Sur

/-- C209, first part: in binary arithmetic the rupture distance is right. Let the corners be within `e` metres of flat quadrilaterals that have room for a disc of radius `r` and are no longer than `l`,
and let the site be within `X` metres of them. Then the rupture distance is a number, and is the distance to some point of the surfaces, and at most the distance to any point, up to
2(200000000u + e)Xl/r² kilometres, whatever the signs of sums that are zero. -/
theorem C209_rrup {u : ℝ} (hu : Precise u) {L : MathLib} (hL : RightTo u L) {sum : ℚ → ℚ → ℚ → ℚ} (hs : SumTo u sum) {e r l X : ℝ} (he : 0 ≤ e) (h1 : 1 ≤ r) (hX : r ≤ X)
    (hf : 1000 * ((200000000 * u + e) * X) ≤ r ^ 2) {qs : List (Quad GeoPoint)} {cs : List (Quad V3)} (hcs : List.Forall₂ (FlatWithin e r l) qs cs) (hne : qs ≠ []) {site : GeoPoint} {y : V3}
    (hsite : PlaceOnEarth site) (hy : PlacedAt site y) (hin : ∀ c ∈ cs, CornersIn X y c) (zeros : Quad D3 → Quad Bool) :
    ∃ D, quadRrup L sum zeros qs site = some D ∧ 0 ≤ D ∧
      (∃ c ∈ cs, ∃ z ∈ surfaceOf c.p0 c.p1 c.p2 c.p3, |(D : ℝ) - kilometres y z| ≤ 2 * ((200000000 * u + e) * X * l / r ^ 2)) ∧
      ∀ c ∈ cs, ∀ z ∈ surfaceOf c.p0 c.p1 c.p2 c.p3, (D : ℝ) ≤ kilometres y z + 2 * ((200000000 * u + e) * X * l / r ^ 2) := by
  obtain ⟨D, hD, d0, d1, d2, -⟩ := Sur.rupture_near hu hL hs he h1 hX hf hcs hne hsite hy hin zeros false
  refine ⟨D, hD, d0, ?_, d2⟩
  rcases d1 with d1 | ⟨h, -⟩
  · exact d1
  · exact absurd h (by simp)

/-- C209, second part: the Joyner-Boore distance, with the quadrilaterals moved up to depth zero. It is at most the distance to any point of their surfaces, up to the same error. It is the distance to some
point of them up to that error, or it is zero and the site is over or under a point that is at most 300(200000000u + e)Xl/r² metres from one of them. It is zero if the site is over or under a point of one
of them that is farther than 300(200000000u + e)X/r metres inside. -/
theorem C209_rjb {u : ℝ} (hu : Precise u) {L : MathLib} (hL : RightTo u L) {sum : ℚ → ℚ → ℚ → ℚ} (hs : SumTo u sum) {e r l X : ℝ} (he : 0 ≤ e) (h1 : 1 ≤ r) (hX : r ≤ X)
    (hf : 1000 * ((200000000 * u + e) * X) ≤ r ^ 2) {qs us : List (Quad GeoPoint)} (hup : List.Forall₂ MovedUp qs us) {cs : List (Quad V3)} (hcs : List.Forall₂ (FlatWithin e r l) us cs) (hne : qs ≠ [])
    {site : GeoPoint} {y : V3} (hsite : PlaceOnEarth site) (hy : PlacedAt site y) (hin : ∀ c ∈ cs, CornersIn X y c) (zeros : Quad D3 → Quad Bool) :
    ∃ D, quadRjb L sum zeros qs site = some D ∧ 0 ≤ D ∧
      ((∃ c ∈ cs, ∃ z ∈ surfaceOf c.p0 c.p1 c.p2 c.p3, |(D : ℝ) - kilometres y z| ≤ 2 * ((200000000 * u + e) * X * l / r ^ 2)) ∨
        D = 0 ∧ ∃ c ∈ cs, NearlyOver (300 * ((200000000 * u + e) * X * l / r ^ 2)) c y) ∧
      (∀ c ∈ cs, ∀ z ∈ surfaceOf c.p0 c.p1 c.p2 c.p3, (D : ℝ) ≤ kilometres y z + 2 * ((200000000 * u + e) * X * l / r ^ 2)) ∧
      ∀ t, 300 * ((200000000 * u + e) * X / r) < t → (∃ c ∈ cs, WellOver t c y) → D = 0 := by
  have e' := Sur.moved_flat hup
  have hne' : us ≠ [] := by
    rw [← e']
    simpa using hne
  obtain ⟨D, hD, d0, d1, d2, d3⟩ := Sur.rupture_near hu hL hs he h1 hX hf hcs hne' hsite hy hin zeros true
  refine ⟨D, ?_, d0, ?_, d2, d3 rfl⟩
  · unfold quadRjb
    rw [show (qs.map fun q => corners L (flattened q)) = us.map (corners L) by rw [← e', List.map_map]; rfl]
    exact hD
  · rcases d1 with d1 | ⟨-, d1⟩
    · exact .inl d1
    · exact .inr d1

namespace Sur

theorem rectangle_room {r x b c : ℝ} (hr : 0 < r) (hb : r ≤ b) (hc : r ≤ c) {p : V3} (hp : p ∈ plane (⟨x, -b, c⟩ : V3) ⟨x, b, c⟩ ⟨x, b, -c⟩) (hd : √(distSq (⟨x, 0, 0⟩ : V3) p) ≤ r) :
    p ∈ surfaceOf (⟨x, -b, c⟩ : V3) ⟨x, b, c⟩ ⟨x, b, -c⟩ ⟨x, -b, -c⟩ := by
  have b0 : 0 < b := by linarith
  have c0 : 0 < c := by linarith
  have inPlane : ∀ p, p ∈ plane (⟨x, -b, c⟩ : V3) ⟨x, b, c⟩ ⟨x, b, -c⟩ → p.x = x := by
    rintro p ⟨s, t, rfl⟩
    simp [combine]
  have fill : ∀ p : V3, p.x = x → |p.y| ≤ b → |p.z| ≤ c → p ∈ surfaceOf (⟨x, -b, c⟩ : V3) ⟨x, b, c⟩ ⟨x, b, -c⟩ ⟨x, -b, -c⟩ := by
    intro p hx hy hz
    obtain ⟨y1, y2⟩ := abs_le.1 hy
    obtain ⟨z1, z2⟩ := abs_le.1 hz
    have hs : 0 ≤ (b + p.y) / (2 * b) := div_nonneg (by linarith) (by linarith)
    have hs' : 0 ≤ (b - p.y) / (2 * b) := div_nonneg (by linarith) (by linarith)
    have ht : 0 ≤ (c + p.z) / (2 * c) := div_nonneg (by linarith) (by linarith)
    have ht' : 0 ≤ (c - p.z) / (2 * c) := div_nonneg (by linarith) (by linarith)
    refine ⟨(b - p.y) / (2 * b) * ((c + p.z) / (2 * c)), (b + p.y) / (2 * b) * ((c + p.z) / (2 * c)), (b + p.y) / (2 * b) * ((c - p.z) / (2 * c)),
      (b - p.y) / (2 * b) * ((c - p.z) / (2 * c)), mul_nonneg hs' ht, mul_nonneg hs ht, mul_nonneg hs ht', mul_nonneg hs' ht', ?_, ?_⟩
    · field_simp
      ring
    · ext
      · show p.x = _ * x + _ * x + _ * x + _ * x
        rw [hx]
        field_simp
        ring
      · show p.y = _ * -b + _ * b + _ * b + _ * -b
        field_simp
        ring
      · show p.z = _ * c + _ * c + _ * -c + _ * -c
        field_simp
        ring
  have hx := inPlane p hp
  rw [← Real.sqrt_sq hr.le] at hd
  have := (Real.sqrt_le_sqrt_iff (by positivity)).1 hd
  simp only [distSq, hx] at this
  refine fill p hx ?_ ?_ <;> refine le_trans (Real.abs_le_sqrt (y := r ^ 2) ?_) (by rw [Real.sqrt_sq hr.le]; assumption) <;> nlinarith [sq_nonneg p.y, sq_nonneg p.z]

/-- A rectangle that stands across the first axis. -/
theorem rectangle_shaped {r x b c : ℝ} (hr : 0 < r) (hb : r ≤ b) (hc : r ≤ c) : WellShaped r (2 * (b + c)) ⟨⟨x, -b, c⟩, ⟨x, b, c⟩, ⟨x, b, -c⟩, ⟨x, -b, -c⟩⟩ := by
  have b0 : 0 < b := by linarith
  have c0 : 0 < c := by linarith
  have bounds : ∀ p, p ∈ surfaceOf (⟨x, -b, c⟩ : V3) ⟨x, b, c⟩ ⟨x, b, -c⟩ ⟨x, -b, -c⟩ → p.x = x ∧ |p.y| ≤ b ∧ |p.z| ≤ c := by
    rintro p ⟨w0, w1, w2, w3, h0, h1, h2, h3, hw, rfl⟩
    obtain rfl : w3 = 1 - w0 - w1 - w2 := by linarith
    simp only [mean4]
    refine ⟨by ring, abs_le.2 ⟨?_, ?_⟩, abs_le.2 ⟨?_, ?_⟩⟩ <;> nlinarith
  have side : ∀ {v w : V3} {d : ℝ}, 0 ≤ d → d ^ 2 ≤ distSq v w → d ≤ √(distSq v w) := fun _ h => Real.le_sqrt_of_sq_le h
  refine ⟨⟨?_, 1, 1, by norm_num, by norm_num, by norm_num, ?_⟩, ⟨⟨x, 0, 0⟩, ?_, ?_⟩, ?_, ⟨?_, ?_⟩, ?_⟩
  · intro s t h
    simp only [combine, V3.mk.injEq] at h
    obtain ⟨-, h2, h3⟩ := h
    constructor <;> nlinarith
  · ext <;> simp only [combine] <;> ring
  · refine ⟨0, 1 / 2, ?_⟩
    ext <;> simp only [combine] <;> ring
  · intro p hp hd
    exact rectangle_room hr hb hc hp hd
  · refine ⟨side hr.le ?_, side hr.le ?_, side hr.le ?_, side hr.le ?_⟩ <;> simp only [distSq] <;> nlinarith
  · rintro p ⟨s, rfl⟩
    refine side hr.le ?_
    simp only [distSq, combine]
    nlinarith [sq_nonneg (b - (-b + s * (b - -b) + 0 * (-b - -b)))]
  · rintro p ⟨s, rfl⟩
    refine side hr.le ?_
    simp only [distSq, combine]
    have e : (x - (x + s * (x - x) + 0 * (x - x))) ^ 2 + (b - (-b + s * (b - -b) + 0 * (-b - -b))) ^ 2 + (c - (c + s * (-c - c) + 0 * (c - c))) ^ 2 = 4 * (b ^ 2 * (1 - s) ^ 2 + c ^ 2 * s ^ 2) := by ring
    rw [e]
    have h1 : r ^ 2 * (1 - s) ^ 2 ≤ b ^ 2 * (1 - s) ^ 2 := mul_le_mul_of_nonneg_right (pow_le_pow_left₀ hr.le hb 2) (sq_nonneg _)
    have h2 : r ^ 2 * s ^ 2 ≤ c ^ 2 * s ^ 2 := mul_le_mul_of_nonneg_right (pow_le_pow_left₀ hr.le hc 2) (sq_nonneg _)
    have h3 : r ^ 2 * 1 ≤ r ^ 2 * (4 * ((1 - s) ^ 2 + s ^ 2)) := mul_le_mul_of_nonneg_left (by nlinarith [sq_nonneg (2 * s - 1)]) (sq_nonneg _)
    linarith
  · intro p hp q hq
    obtain ⟨p1, p2, p3⟩ := bounds p hp
    obtain ⟨q1, q2, q3⟩ := bounds q hq
    refine Real.sqrt_le_iff.2 ⟨by linarith, ?_⟩
    simp only [distSq, p1, q1]
    rw [abs_le] at *
    have h1 : (p.y - q.y) ^ 2 ≤ (2 * b) ^ 2 := sq_le_sq' (by linarith) (by linarith)
    have h2 : (p.z - q.z) ^ 2 ≤ (2 * c) ^ 2 := sq_le_sq' (by linarith) (by linarith)
    nlinarith [mul_pos b0 c0]

/-- The places one degree from the equator and the first meridian. -/
theorem degree_place : ∃ x y z : ℝ, PlacedAt ⟨1, 1, 0⟩ ⟨x, y, z⟩ ∧ PlacedAt ⟨-1, 1, 0⟩ ⟨x, -y, z⟩ ∧ PlacedAt ⟨1, -1, 0⟩ ⟨x, y, -z⟩ ∧ PlacedAt ⟨-1, -1, 0⟩ ⟨x, -y, -z⟩ ∧
    (6300000 ≤ x ∧ x ≤ 6410000) ∧ 60000 ≤ y ∧ y ≤ 120000 ∧ 60000 ≤ z ∧ z ≤ 120000 := by
  have east : ∀ (p : GeoPoint) (v : V3), PlacedAt p v → PlacedAt ⟨-p.lon, p.lat, p.depth⟩ ⟨v.x, -v.y, v.z⟩ := by
    rintro p v ⟨X, Y, Z, k, e, k0, ex, ey, ez, hx, hy, hz⟩
    refine ⟨X, -Y, Z, k, by rw [neg_sq]; exact e, k0, ?_⟩
    simp only [vertical, Rat.cast_neg, neg_mul, neg_div, Real.cos_neg, Real.sin_neg] at *
    refine ⟨ex, by rw [ey]; ring, ez, hx, by rw [hy]; ring, hz⟩
  have north : ∀ (p : GeoPoint) (v : V3), PlacedAt p v → PlacedAt ⟨p.lon, -p.lat, p.depth⟩ ⟨v.x, v.y, -v.z⟩ := by
    rintro p v ⟨X, Y, Z, k, e, k0, ex, ey, ez, hx, hy, hz⟩
    refine ⟨X, Y, -Z, k, by rw [neg_sq]; exact e, k0, ?_⟩
    simp only [vertical, Rat.cast_neg, neg_mul, neg_div, Real.cos_neg, Real.sin_neg] at *
    refine ⟨ex, ey, by rw [ez]; ring, hx, hy, by rw [hz]; ring⟩
  obtain ⟨x, y, z, h, -⟩ := C203_point ((1 : ℚ) : ℝ) ((1 : ℚ) : ℝ) ((0 : ℚ) : ℝ)
  have h1 : PlacedAt ⟨1, 1, 0⟩ ⟨x, y, z⟩ := h
  have h2 : PlacedAt ⟨1, -1, 0⟩ ⟨x, y, -z⟩ := north ⟨1, 1, 0⟩ _ h1
  refine ⟨x, y, z, h1, east ⟨1, 1, 0⟩ _ h1, h2, east ⟨1, -1, 0⟩ _ h2, ?_⟩
  obtain ⟨ex, ey, ez⟩ := Ecef.geodetic_eq h
  have π0 := Real.pi_gt_three
  have π1 := Real.pi_lt_four
  set θ := Oq.radians ((1 : ℚ) : ℝ) with hθ
  have eθ : θ = Real.pi / 180 := by
    rw [hθ]
    unfold Oq.radians
    norm_num
  have s1 : Real.sin θ ≤ θ := Real.sin_le (by rw [eθ]; positivity)
  have s0 : 1 / 90 ≤ Real.sin θ := by
    have := Real.mul_le_sin (x := θ) (by rw [eθ]; positivity) (by rw [eθ]; linarith)
    refine le_trans (le_of_eq ?_) this
    rw [eθ]
    field_simp
    norm_num
  have π2 := Real.pi_lt_d2
  have s2 : Real.sin θ ≤ 175 / 10000 := by
    rw [eθ] at s1 ⊢
    linarith
  have c0 : 999 / 1000 ≤ Real.cos θ := by
    have := Real.one_sub_sq_div_two_le_cos (x := θ)
    have t : θ ≤ 175 / 10000 := by rw [eθ]; linarith
    have t0 : 0 ≤ θ := by rw [eθ]; positivity
    nlinarith
  have c1 := Real.cos_le_one θ
  obtain ⟨r0, r1⟩ := Ecef.radius_bounds (Real.abs_sin_le_one θ)
  have r2 : 6378000 ≤ Ecef.radius (Real.sin θ) := by
    obtain ⟨k0, k1⟩ := Ecef.root_bounds (Real.abs_sin_le_one θ)
    unfold Ecef.radius equatorial
    rw [le_div_iff₀ (by linarith)]
    linarith
  obtain ⟨e0, e1⟩ := Ecef.e2_bounds
  simp only [Rat.cast_zero, neg_zero, zero_mul, add_zero] at ex ey ez
  have w0 : 6350000 ≤ Ecef.radius (Real.sin θ) * Real.cos θ := by nlinarith
  have w1 : Ecef.radius (Real.sin θ) * Real.cos θ ≤ 6410000 := by nlinarith
  have v0 : 6300000 ≤ Ecef.radius (Real.sin θ) * (1 - Ecef.e2) := by nlinarith
  have v1 : Ecef.radius (Real.sin θ) * (1 - Ecef.e2) ≤ 6410000 := by nlinarith
  rw [ex, ey, ez]
  generalize Ecef.radius (Real.sin θ) * Real.cos θ = w at *
  generalize Ecef.radius (Real.sin θ) * (1 - Ecef.e2) = v at *
  generalize Real.sin θ = s at *
  refine ⟨⟨?_, ?_⟩, ?_, ?_, ?_, ?_⟩ <;> nlinarith

end Sur

/-- A quadrilateral between places one degree from the equator and the first meridian, with room for a disc of 60 kilometres, and a site in the middle meet the hypotheses; both distances are then right to
less than a tenth of a metre. -/
example : ∃ (qs : List (Quad GeoPoint)) (c : Quad V3) (y : V3) (D D' : ℚ), qs = [⟨⟨-1, 1, 0⟩, ⟨1, 1, 0⟩, ⟨1, -1, 0⟩, ⟨-1, -1, 0⟩⟩] ∧ PlacedAt ⟨0, 0, 0⟩ y ∧
    quadRrup Geo.someLib (fun a b c => rnd (rnd (a + b) + c)) (fun _ => ⟨true, false, true, false⟩) qs ⟨0, 0, 0⟩ = some D ∧
    quadRjb Geo.someLib (fun a b c => rnd (rnd (a + b) + c)) (fun _ => ⟨true, false, true, false⟩) qs ⟨0, 0, 0⟩ = some D' ∧
    (∃ z ∈ surfaceOf c.p0 c.p1 c.p2 c.p3, |(D : ℝ) - kilometres y z| ≤ 1 / 10000) ∧ D' = 0 := by
  obtain ⟨a, b, c, h1, h2, h3, h4, ⟨a0, a1⟩, b0, b1, c0, c1⟩ := Sur.degree_place
  obtain ⟨y0, y1, y2, hy, -⟩ := C203_point ((0 : ℚ) : ℝ) ((0 : ℚ) : ℝ) ((0 : ℚ) : ℝ)
  have hy' : PlacedAt ⟨0, 0, 0⟩ ⟨y0, y1, y2⟩ := hy
  obtain ⟨k0, k1, k2⟩ := Ecef.geodetic_eq hy
  simp only [Oq.radians, Rat.cast_zero, zero_mul, Real.sin_zero, Real.cos_zero, mul_zero, mul_one, neg_zero, add_zero] at k0 k1 k2
  have ky : 6378000 ≤ y0 ∧ y0 ≤ 6410000 := by
    obtain ⟨r0, r1⟩ := Ecef.radius_bounds (S := 0) (by norm_num)
    refine ⟨?_, by rw [k0]; exact r1⟩
    rw [k0]
    unfold Ecef.radius equatorial
    norm_num
  subst k1 k2
  have shape := Sur.rectangle_shaped (r := 60000) (x := a) (by norm_num) b0 c0
  have flat : FlatWithin 0 60000 (2 * (b + c)) ⟨⟨-1, 1, 0⟩, ⟨1, 1, 0⟩, ⟨1, -1, 0⟩, ⟨-1, -1, 0⟩⟩ ⟨⟨a, -b, c⟩, ⟨a, b, c⟩, ⟨a, b, -c⟩, ⟨a, -b, -c⟩⟩ :=
    ⟨by norm_num [QuadOnEarth, PlaceOnEarth, abs_le], shape, ⟨⟨a, -b, c⟩, ⟨a, b, c⟩, ⟨a, b, -c⟩, ⟨a, -b, -c⟩⟩, ⟨h2, h1, h3, h4⟩, by simp [distSq], by simp [distSq], by simp [distSq], by simp [distSq]⟩
  have near : ∀ v w : ℝ, |v| ≤ 120000 → |w| ≤ 120000 → √(distSq ⟨y0, 0, 0⟩ ⟨a, v, w⟩) ≤ 250000 := by
    intro v w hv hw
    refine Real.sqrt_le_iff.2 ⟨by norm_num, ?_⟩
    simp only [distSq]
    have := sq_le_sq' (by linarith : -120000 ≤ y0 - a) (by linarith : y0 - a ≤ 120000)
    have := sq_le_sq' (a := 0 - v) (b := 120000) (by linarith [(abs_le.1 hv).2]) (by linarith [(abs_le.1 hv).1])
    have := sq_le_sq' (a := 0 - w) (b := 120000) (by linarith [(abs_le.1 hw).2]) (by linarith [(abs_le.1 hw).1])
    linarith
  have B : |b| ≤ 120000 := abs_le.2 ⟨by linarith, b1⟩
  have B' : |-b| ≤ 120000 := by rwa [abs_neg]
  have C : |c| ≤ 120000 := abs_le.2 ⟨by linarith, c1⟩
  have C' : |-c| ≤ 120000 := by rwa [abs_neg]
  have all : ∀ q ∈ [(⟨⟨a, -b, c⟩, ⟨a, b, c⟩, ⟨a, b, -c⟩, ⟨a, -b, -c⟩⟩ : Quad V3)], CornersIn 250000 ⟨y0, 0, 0⟩ q := by
    intro q hq
    rw [List.mem_singleton] at hq
    subst hq
    exact ⟨near _ _ B' C, near _ _ B C, near _ _ B C', near _ _ B' C'⟩
  have site : PlaceOnEarth ⟨0, 0, 0⟩ := by norm_num [PlaceOnEarth]
  have fine : 1000 * ((200000000 * 2 ^ (-49 : ℤ) + 0) * 250000) ≤ (60000 : ℝ) ^ 2 := by norm_num
  obtain ⟨D, hD, -, ⟨q, hq, z, hz, dz⟩, -⟩ := C209_rrup Geo.precise49 Geo.someLib_right (Seg.two_roundings Geo.precise49) (e := 0) (r := 60000) (X := 250000) (by norm_num) (by norm_num) (by norm_num) fine
    (.cons flat .nil) (by simp) site hy' all fun _ => ⟨true, false, true, false⟩
  obtain ⟨D', hD', -, -, -, zero⟩ := C209_rjb Geo.precise49 Geo.someLib_right (Seg.two_roundings Geo.precise49) (e := 0) (r := 60000) (X := 250000) (by norm_num) (by norm_num) (by norm_num) fine
    (qs := [⟨⟨-1, 1, 0⟩, ⟨1, 1, 0⟩, ⟨1, -1, 0⟩, ⟨-1, -1, 0⟩⟩]) (us := [⟨⟨-1, 1, 0⟩, ⟨1, 1, 0⟩, ⟨1, -1, 0⟩, ⟨-1, -1, 0⟩⟩]) (.cons (by unfold MovedUp; aesop) .nil) (.cons flat .nil) (by simp) site hy' all fun _ => ⟨true, false, true, false⟩
  rw [List.mem_singleton] at hq
  subst hq
  refine ⟨_, ⟨⟨a, -b, c⟩, ⟨a, b, c⟩, ⟨a, b, -c⟩, ⟨a, -b, -c⟩⟩, ⟨y0, 0, 0⟩, D, D', rfl, hy', hD, hD', ⟨z, hz, dz.trans ?_⟩, ?_⟩
  · have : 2 * ((200000000 * 2 ^ (-49 : ℤ) + 0) * 250000 * (2 * (b + c)) / (60000 : ℝ) ^ 2) = 2 * ((200000000 * 2 ^ (-49 : ℤ) + 0) * 250000 * 2 / 60000 ^ 2) * (b + c) := by ring
    rw [this]
    have k : 2 * ((200000000 * 2 ^ (-49 : ℤ) + 0) * 250000 * 2 / (60000 : ℝ) ^ 2) ≤ 1 / 2400000000 := by norm_num
    nlinarith
  · have inPlane : ∀ p ∈ plane (⟨a, -b, c⟩ : V3) ⟨a, b, c⟩ ⟨a, b, -c⟩, p.x = a := by
      rintro p ⟨s, t, rfl⟩
      simp [combine]
    have mem0 : (⟨a, 0, 0⟩ : V3) ∈ plane (⟨a, -b, c⟩ : V3) ⟨a, b, c⟩ ⟨a, b, -c⟩ := by
      refine ⟨0, 1 / 2, ?_⟩
      ext <;> simp only [combine] <;> ring
    refine zero 50000 (by norm_num) ⟨_, List.mem_singleton.2 rfl, ⟨a, 0, 0⟩, ⟨mem0, ?_⟩, ?_⟩
    · intro p hp
      have := inPlane p hp
      simp only [distSq, this]
      nlinarith [sq_nonneg (0 - p.y), sq_nonneg (0 - p.z)]
    · intro p hp hd
      have hx := inPlane p hp
      have hd' : √(distSq (⟨a, 0, 0⟩ : V3) p) ≤ 60000 := by linarith
      exact Sur.rectangle_room (by norm_num) b0 c0 hp hd'

end Verif.Props
