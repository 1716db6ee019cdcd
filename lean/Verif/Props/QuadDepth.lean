import Verif.Model.QuadDepth
import Verif.Spec.DepthAt
import Verif.Props.QuadMeasures
import Verif.Props.FromTrace

/-!
# The depth below a point, as a whole (C160)
-/

namespace Verif.Props
open Real Verif.Vec Verif.Rup Verif.QuadR Verif.Spec
open Verif.Oq (middlePoint)

theorem downDip_spec {s0 s1 s3 : ℝ × ℝ} (h : Triangle s0 s1 s3) (sx : ℝ × ℝ) :
    SideDistance s0 s1 s3 sx (downDipDistance s0 s1 s3 sx) := by
  obtain ⟨x0, y0⟩ := s0
  obtain ⟨x1, y1⟩ := s1
  obtain ⟨x3, y3⟩ := s3
  obtain ⟨x, y⟩ := sx
  unfold Triangle at h
  simp only at h
  set a := x1 - x0 with ha
  set b := y1 - y0 with hb
  set c := x3 - x0 with hc
  set d := y3 - y0 with hd
  set k := c * b - d * a with hk
  have hk0 : k ≠ 0 := fun e => h (by linarith)
  have hab : 0 < a ^ 2 + b ^ 2 := by
    by_contra hn
    push Not at hn
    have h1 : a = 0 := by nlinarith [sq_nonneg a, sq_nonneg b]
    have h2 : b = 0 := by nlinarith [sq_nonneg a, sq_nonneg b]
    exact hk0 (by rw [hk, h1, h2]; ring)
  have hk2 : 0 < k ^ 2 := by positivity
  have hpos : 0 < (b * k) ^ 2 + (a * k) ^ 2 := by nlinarith
  set r := √((b * k) ^ 2 + (a * k) ^ 2) with hr
  have hr0 : 0 < r := Real.sqrt_pos.2 hpos
  have hr2 : r ^ 2 = (b * k) ^ 2 + (a * k) ^ 2 := Real.sq_sqrt hpos.le
  refine ⟨(b * k / r, -(a * k) / r), ?_, ?_, ?_, ?_⟩
  · simp only
    field_simp
    linarith
  · simp only
    field_simp
    ring
  · simp only
    have : b * k / r * (x3 - x0) + -(a * k) / r * (y3 - y0) = k ^ 2 / r := by
      rw [← hc, ← hd, hk]; field_simp; ring
    rw [this]
    positivity
  · simp only [downDipDistance, V3.sub, V3.cross, V3.norm, V3.dot]
    simp only [← ha, ← hb, ← hc, ← hd]
    have e1 : √((b * (c * b - d * a) - (0 - 0) * ((0 - 0) * a - c * (0 - 0))) ^ 2 +
        ((0 - 0) * (d * (0 - 0) - (0 - 0) * b) - a * (c * b - d * a)) ^ 2 +
        (a * ((0 - 0) * a - c * (0 - 0)) - b * (d * (0 - 0) - (0 - 0) * b)) ^ 2) = r := by
      rw [hr, hk]; congr 1; ring
    rw [e1, hk]
    ring

theorem nearestLoop_spec (x : V3) (best : Option (Quad Point)) (dmin : ℝ) (qs : List (Quad Point)) :
    (nearestLoop x best dmin qs = best ∧ ∀ q ∈ qs, dmin ≤ quadDistance q x true) ∨
    ∃ l q r, qs = l ++ q :: r ∧ nearestLoop x best dmin qs = some q ∧ quadDistance q x true < dmin ∧
      (∀ q' ∈ l, quadDistance q x true < quadDistance q' x true) ∧ ∀ q' ∈ r, quadDistance q x true ≤ quadDistance q' x true := by
  induction qs generalizing best dmin with
  | nil => left; exact ⟨rfl, by simp⟩
  | cons a qs ih =>
    unfold nearestLoop
    by_cases h : quadDistance a x true < dmin
    · rw [if_pos h]
      right
      rcases ih (some a) (quadDistance a x true) with ⟨e, hall⟩ | ⟨l, q, r, e, hn, hlt, hl, hr⟩
      · exact ⟨[], a, qs, rfl, e, h, by simp, hall⟩
      · refine ⟨a :: l, q, r, by rw [e]; rfl, hn, hlt.trans h, ?_, hr⟩
        intro q' hq'
        rcases List.mem_cons.1 hq' with rfl | hq'
        · exact hlt
        · exact hl q' hq'
    · rw [if_neg h]
      rcases ih best dmin with ⟨e, hall⟩ | ⟨l, q, r, e, hn, hlt, hl, hr⟩
      · left
        refine ⟨e, ?_⟩
        intro q' hq'
        rcases List.mem_cons.1 hq' with rfl | hq'
        · exact not_lt.1 h
        · exact hall q' hq'
      · right
        refine ⟨a :: l, q, r, by rw [e]; rfl, hn, hlt, ?_, hr⟩
        intro q' hq'
        rcases List.mem_cons.1 hq' with rfl | hq'
        · exact hlt.trans_le (not_lt.1 h)
        · exact hl q' hq'

/-- The point is within two metres of one of the quadrilaterals, so the search finds the nearest. -/
theorem nearestQuad_spec {qs : List (Quad Point)} {x : V3} (h : computeRjb qs x ≤ smallDistance) :
    ∃ l q r, qs = l ++ q :: r ∧ nearestQuad qs x = some q ∧
      (∀ q' ∈ l, quadDistance q x true < quadDistance q' x true) ∧ ∀ q' ∈ r, quadDistance q x true ≤ quadDistance q' x true := by
  have hd : ∀ q : Quad Point, quadDistance ⟨surface q.p0, surface q.p1, surface q.p2, surface q.p3⟩ x true = quadDistance q x true :=
    fun _ => rfl
  obtain ⟨-, h2, h3⟩ := foldl_min_spec (fun q => quadDistance q x true) qs (10 ^ 16)
  have hj : computeRjb qs x = qs.foldl (fun m q => min m (quadDistance q x true)) (10 ^ 16) := rfl
  rw [← hj] at h3
  unfold smallDistance at h
  rcases h3 with h3 | ⟨a, ha, h3⟩
  · rw [h3] at h; norm_num at h
  · rcases nearestLoop_spec x none 9999999999999999 qs with ⟨-, hall⟩ | ⟨l, q, r, e, hn, -, hl, hr⟩
    · have := hall a ha
      rw [← h3] at this
      norm_num at h
      linarith
    · exact ⟨l, q, r, e, by unfold nearestQuad; rw [hn], hl, hr⟩

theorem rjb_small {qs : List (Quad Point)} {x : V3} :
    computeRjb qs x > smallDistance ↔ ∀ q ∈ qs, quadDistance q x true > smallDistance := by
  obtain ⟨-, h2, h3⟩ := foldl_min_spec (fun q => quadDistance q x true) qs (10 ^ 16)
  have hj : computeRjb qs x = qs.foldl (fun m q => min m (quadDistance q x true)) (10 ^ 16) := rfl
  rw [← hj] at h2 h3
  constructor
  · intro h q hq
    exact lt_of_lt_of_le h (h2 q hq)
  · intro h
    rcases h3 with h3 | ⟨a, ha, h3⟩
    · rw [h3]; unfold smallDistance; norm_num
    · rw [h3]; exact h a ha

theorem quad_small {q : Quad Point} {x : V3} (h : ConvexAt (atSurface q)) :
    quadDistance q x true > smallDistance ↔
      ¬ Over (atSurface q) x ∧ ∀ y ∈ surfaceAt (atSurface q), 4 < distSq x y := by
  obtain ⟨h1, h2⟩ := (C96_distance_km q x).2 _ _ _ _ rfl rfl rfl rfl h
  have hs : smallDistance = 2 / 1000 := by unfold smallDistance; norm_num
  by_cases ho : Over (atSurface q) x
  · have := h1 ho
    rw [this, hs]
    constructor
    · intro h; norm_num at h
    · intro h; exact absurd ho h.1
  · obtain ⟨m, ⟨⟨y, hy, e⟩, hm⟩, hd⟩ := h2 ho
    rw [hd, hs]
    have hm0 : 0 ≤ m := by rw [← e]; unfold distSq; positivity
    have : √m / 1000 > 2 / 1000 ↔ 4 < m := by
      rw [gt_iff_lt, div_lt_div_iff_of_pos_right (by norm_num), show (4 : ℝ) = 2 ^ 2 by norm_num, Real.lt_sqrt (by norm_num)]
    rw [this]
    constructor
    · exact fun h => ⟨ho, fun z hz => h.trans_le (hm z hz)⟩
    · exact fun h => by rw [← e]; exact h.2 y hy

/-- **C160, no depth.** There is no depth exactly for the points that are not over (or under) one of the quadrilaterals moved to
depth 0, and more than two metres away from all of them. -/
theorem C160_nan (at_ : ℝ → ℝ → ℝ → ℝ → ℝ × ℝ) (qs : List (Quad Point)) (hc : ∀ q ∈ qs, ConvexAt (atSurface q)) (lat lon : ℝ) :
    getDepthAtPoint at_ qs lat lon = .nan ↔ ∀ q ∈ qs, ¬ Over (atSurface q) (fromPoint ⟨lon, lat, 0⟩) ∧
      ∀ y ∈ surfaceAt (atSurface q), 4 < distSq (fromPoint ⟨lon, lat, 0⟩) y := by
  have key : computeRjb qs (fromPoint ⟨lon, lat, 0⟩) > smallDistance ↔ ∀ q ∈ qs, ¬ Over (atSurface q) (fromPoint ⟨lon, lat, 0⟩) ∧
      ∀ y ∈ surfaceAt (atSurface q), 4 < distSq (fromPoint ⟨lon, lat, 0⟩) y := by
    rw [rjb_small]
    exact ⟨fun h q hq => (quad_small (hc q hq)).1 (h q hq), fun h q hq => (quad_small (hc q hq)).2 (h q hq)⟩
  rw [← key]
  unfold getDepthAtPoint
  simp only
  constructor
  · intro h
    by_contra hn
    rw [if_neg hn] at h
    split at h
    · cases h
    · split at h <;> cases h
  · intro h
    rw [if_pos h]

/-- The place of a point in the plane that touches the sphere at (`lon0`, `lat0`). -/
noncomputable def planePlace (lon0 lat0 : ℝ) (p : Point) : ℝ × ℝ := (eastKm lon0 p, northKm lon0 lat0 p)

/-- (`lon0`, `lat0`) is the middle of the box around a quadrilateral, as the library finds it. -/
def MiddleOf (at_ : ℝ → ℝ → ℝ → ℝ → ℝ × ℝ) (q : Quad Point) (lon0 lat0 : ℝ) : Prop :=
  ∃ west east north south, IsLeast {x | x = q.p0.lon ∨ x = q.p1.lon ∨ x = q.p2.lon ∨ x = q.p3.lon} west ∧
    IsGreatest {x | x = q.p0.lon ∨ x = q.p1.lon ∨ x = q.p2.lon ∨ x = q.p3.lon} east ∧
    IsGreatest {x | x = q.p0.lat ∨ x = q.p1.lat ∨ x = q.p2.lat ∨ x = q.p3.lat} north ∧
    IsLeast {x | x = q.p0.lat ∨ x = q.p1.lat ∨ x = q.p2.lat ∨ x = q.p3.lat} south ∧
    middlePoint at_ west north east south = (lon0, lat0)

theorem min4_eq {a b c d m : ℝ} (h : IsLeast {x | x = a ∨ x = b ∨ x = c ∨ x = d} m) : min (min a b) (min c d) = m := by
  obtain ⟨h1, h2⟩ := h
  have ha := h2 (Or.inl rfl)
  have hb := h2 (Or.inr (Or.inl rfl))
  have hc := h2 (Or.inr (Or.inr (Or.inl rfl)))
  have hd := h2 (Or.inr (Or.inr (Or.inr rfl)))
  refine le_antisymm ?_ (le_min (le_min ha hb) (le_min hc hd))
  rcases h1 with rfl | rfl | rfl | rfl <;> simp

theorem max4_eq {a b c d m : ℝ} (h : IsGreatest {x | x = a ∨ x = b ∨ x = c ∨ x = d} m) : max (max a b) (max c d) = m := by
  obtain ⟨h1, h2⟩ := h
  have ha := h2 (Or.inl rfl)
  have hb := h2 (Or.inr (Or.inl rfl))
  have hc := h2 (Or.inr (Or.inr (Or.inl rfl)))
  have hd := h2 (Or.inr (Or.inr (Or.inr rfl)))
  refine le_antisymm (max_le (max_le ha hb) (max_le hc hd)) ?_
  rcases h1 with rfl | rfl | rfl | rfl <;> simp

theorem quadProj_eq {at_ : ℝ → ℝ → ℝ → ℝ → ℝ × ℝ} {q : Quad Point} {lon0 lat0 : ℝ} (h : MiddleOf at_ q lon0 lat0) :
    quadProj at_ q = centredOn lon0 lat0 := by
  obtain ⟨west, east, north, south, h1, h2, h3, h4, h5⟩ := h
  unfold quadProj
  rw [min4_eq h1, max4_eq h2, max4_eq h3, min4_eq h4]
  unfold projOf
  rw [h5]
  rfl

/-- The formula for one quadrilateral. -/
theorem quadDepth_spec {at_ : ℝ → ℝ → ℝ → ℝ → ℝ × ℝ} {q : Quad Point} {lon0 lat0 lat lon : ℝ} (hm : MiddleOf at_ q lon0 lat0)
    (hn : ∀ p ∈ [q.p0, q.p1, q.p2, q.p3, ⟨lon, lat, 0⟩], Near lon0 lat0 p)
    (ht : Triangle (planePlace lon0 lat0 q.p0) (planePlace lon0 lat0 q.p1) (planePlace lon0 lat0 q.p3)) :
    ∃ d, SideDistance (planePlace lon0 lat0 q.p0) (planePlace lon0 lat0 q.p1) (planePlace lon0 lat0 q.p3)
        (planePlace lon0 lat0 ⟨lon, lat, 0⟩) d ∧
      quadDepth at_ q lat lon = some (depthAt d (quadWidth q.ecef) (quadDip q) q.p0.depth q.p3.depth) := by
  refine ⟨_, downDip_spec ht _, ?_⟩
  have hf : ∀ p : Point, Near lon0 lat0 p → (centredOn lon0 lat0).forward p.lon p.lat = some (planePlace lon0 lat0 p) :=
    fun p hp => (C130_forward lon0 lat0 p.lon p.lat).2 hp
  simp only [List.mem_cons, List.not_mem_nil, or_false, forall_eq_or_imp, forall_eq] at hn
  obtain ⟨n0, n1, n2, n3, nx⟩ := hn
  unfold quadDepth
  have hx := hf _ nx
  simp only at hx
  simp only [quadProj_eq hm, hf _ n0, hf _ n1, hf _ n2, hf _ n3, hx]
  rfl

/-- **C160, the depth.** Otherwise one quadrilateral is chosen: one that is over (or under) the point, if there is such a
quadrilateral, else the nearest one, and the first of them. With `d` the distance of the point from its top edge, seen in the
plane that touches the sphere at the middle of the quadrilateral, `w` its width in km and `dip` its dip, the depth is
`top + d / (1000 w cos dip) (1000 bottom - top)`; that is `bottom d / (w cos dip)` for a top edge at the surface. -/
theorem C160_depth_partial (at_ : ℝ → ℝ → ℝ → ℝ → ℝ × ℝ) (qs : List (Quad Point)) (hc : ∀ q ∈ qs, ConvexAt (atSurface q)) (lat lon : ℝ)
    (h : getDepthAtPoint at_ qs lat lon ≠ .nan) :
    ∃ l q r, qs = l ++ q :: r ∧
      ((∃ q' ∈ qs, Over (atSurface q') (fromPoint ⟨lon, lat, 0⟩)) → Over (atSurface q) (fromPoint ⟨lon, lat, 0⟩) ∧
        ∀ q' ∈ l, ¬ Over (atSurface q') (fromPoint ⟨lon, lat, 0⟩)) ∧
      (∀ y' q', q' ∈ qs → y' ∈ surfaceAt (atSurface q') → Over (atSurface q) (fromPoint ⟨lon, lat, 0⟩) ∨
        ∃ y ∈ surfaceAt (atSurface q), distSq (fromPoint ⟨lon, lat, 0⟩) y ≤ distSq (fromPoint ⟨lon, lat, 0⟩) y') ∧
      ∀ lon0 lat0, MiddleOf at_ q lon0 lat0 →
        ((∃ p ∈ [q.p0, q.p1, q.p2, q.p3, ⟨lon, lat, 0⟩], ¬ Near lon0 lat0 p) → getDepthAtPoint at_ qs lat lon = .valueError) ∧
        ((∀ p ∈ [q.p0, q.p1, q.p2, q.p3, ⟨lon, lat, 0⟩], Near lon0 lat0 p) →
          Triangle (planePlace lon0 lat0 q.p0) (planePlace lon0 lat0 q.p1) (planePlace lon0 lat0 q.p3) →
          quadWidth q.ecef ≠ 0 → cos (rad (quadDip q)) ≠ 0 →
          ∃ d, SideDistance (planePlace lon0 lat0 q.p0) (planePlace lon0 lat0 q.p1) (planePlace lon0 lat0 q.p3)
              (planePlace lon0 lat0 ⟨lon, lat, 0⟩) d ∧
            getDepthAtPoint at_ qs lat lon = .depth (q.p0.depth +
              d / (1000 * quadWidth q.ecef * cos (rad (quadDip q))) * (1000 * q.p3.depth - q.p0.depth)) ∧
            (q.p0.depth = 0 → getDepthAtPoint at_ qs lat lon =
              .depth (q.p3.depth * (d / (quadWidth q.ecef * cos (rad (quadDip q))))))) := by
  set x := fromPoint ⟨lon, lat, 0⟩ with hx
  have hr : computeRjb qs x ≤ smallDistance := by
    by_contra hn
    exact h (by unfold getDepthAtPoint; simp only; rw [if_pos (not_le.1 hn)])
  obtain ⟨l, q, r, e, hq, hl, hrr⟩ := nearestQuad_spec hr
  have hmem : q ∈ qs := by rw [e]; simp
  have hres : getDepthAtPoint at_ qs lat lon = match quadDepth at_ q lat lon with
      | none => .valueError
      | some d => .depth d := by
    unfold getDepthAtPoint
    simp only
    rw [if_neg (not_lt.2 hr), hq]
    rfl
  have hle : ∀ q' ∈ qs, quadDistance q x true ≤ quadDistance q' x true := by
    intro q' hq'
    rw [e] at hq'
    rcases List.mem_append.1 hq' with h | h
    · exact (hl q' h).le
    · rcases List.mem_cons.1 h with rfl | h
      · exact le_refl _
      · exact hrr q' h
  have hzero : ∀ q' ∈ qs, (Over (atSurface q') x ↔ quadDistance q' x true = 0) := by
    intro q' hq'
    obtain ⟨h1, h2⟩ := (C96_distance_km q' x).2 _ _ _ _ rfl rfl rfl rfl (hc q' hq')
    refine ⟨h1, fun h0 => ?_⟩
    by_contra ho
    obtain ⟨m, ⟨⟨y, hy, hye⟩, hm⟩, hd⟩ := h2 ho
    rw [hd] at h0
    have hm0 : 0 ≤ m := by rw [← hye]; unfold distSq; positivity
    have : m = 0 := by
      have : √m = 0 := by linarith
      exact (Real.sqrt_eq_zero hm0).1 this
    rw [this] at hye
    have hxy : x = y := by
      unfold distSq at hye
      ext <;> nlinarith [sq_nonneg (x.x - y.x), sq_nonneg (x.y - y.y), sq_nonneg (x.z - y.z)]
    refine ho ⟨0, ?_⟩
    have : x.add ((((fromPoint (atSurface q').p1).sub (fromPoint (atSurface q').p0)).cross
        ((fromPoint (atSurface q').p3).sub (fromPoint (atSurface q').p0))).mul 0) = y := by
      rw [← hxy]; ext <;> simp [V3.add, V3.mul]
    rw [this]
    exact hy
  have hnn : ∀ q' : Quad Point, 0 ≤ quadDistance q' x true := fun q' => by unfold quadDistance; positivity
  refine ⟨l, q, r, e, ?_, ?_, ?_⟩
  · rintro ⟨q', hq', ho⟩
    have h0 : quadDistance q x true = 0 := le_antisymm (by
      have := hle q' hq'
      rwa [(hzero q' hq').1 ho] at this) (hnn q)
    refine ⟨(hzero q hmem).2 h0, fun q'' hq'' ho'' => ?_⟩
    have := hl q'' hq''
    rw [(hzero q'' (by rw [e]; simp [hq''])).1 ho'', h0] at this
    exact lt_irrefl _ this
  · intro y' q' hq' hy'
    by_cases ho : Over (atSurface q) x
    · exact Or.inl ho
    right
    obtain ⟨m, ⟨⟨y, hy, hye⟩, hm⟩, hd⟩ := ((C96_distance_km q x).2 _ _ _ _ rfl rfl rfl rfl (hc q hmem)).2 ho
    refine ⟨y, hy, ?_⟩
    have hle' := hle q' hq'
    by_cases ho' : Over (atSurface q') x
    · have h0 := (hzero q' hq').1 ho'
      rw [h0] at hle'
      exact absurd ((hzero q hmem).2 (le_antisymm hle' (hnn q))) ho
    · obtain ⟨m', ⟨⟨z, hz, hze⟩, hm'⟩, hd'⟩ := ((C96_distance_km q' x).2 _ _ _ _ rfl rfl rfl rfl (hc q' hq')).2 ho'
      rw [hd, hd'] at hle'
      have hm0 : 0 ≤ m' := by rw [← hze]; unfold distSq; positivity
      have : √m ≤ √m' := by linarith
      have := (Real.sqrt_le_sqrt_iff hm0).1 this
      have h1 := hm' y' hy'
      rw [hye]
      exact this.trans h1
  · intro lon0 lat0 hmid
    constructor
    · rintro ⟨p, hp, hf⟩
      have hff : ∀ p : Point, ¬ Near lon0 lat0 p → (centredOn lon0 lat0).forward p.lon p.lat = none :=
        fun p hp => (C130_forward lon0 lat0 p.lon p.lat).1.2 (not_le.1 hp)
      have : quadDepth at_ q lat lon = none := by
        have hpn := hff p hf
        unfold quadDepth
        simp only [quadProj_eq hmid]
        simp only [List.mem_cons, List.not_mem_nil, or_false] at hp
        rcases hp with rfl | rfl | rfl | rfl | rfl
        · rw [hpn]; rfl
        · rw [hpn]; cases (centredOn lon0 lat0).forward q.p0.lon q.p0.lat <;> rfl
        · rw [hpn]; cases (centredOn lon0 lat0).forward q.p0.lon q.p0.lat <;> cases (centredOn lon0 lat0).forward q.p1.lon q.p1.lat <;> rfl
        · rw [hpn]
          cases (centredOn lon0 lat0).forward q.p0.lon q.p0.lat <;> cases (centredOn lon0 lat0).forward q.p1.lon q.p1.lat <;>
            cases (centredOn lon0 lat0).forward q.p2.lon q.p2.lat <;> rfl
        · simp only at hpn
          rw [hpn]
          cases (centredOn lon0 lat0).forward q.p0.lon q.p0.lat <;> cases (centredOn lon0 lat0).forward q.p1.lon q.p1.lat <;>
            cases (centredOn lon0 lat0).forward q.p2.lon q.p2.lat <;> cases (centredOn lon0 lat0).forward q.p3.lon q.p3.lat <;> rfl
      rw [hres, this]
    · intro hn ht hw hcos
      obtain ⟨d, hd, hqd⟩ := quadDepth_spec hmid hn ht
      have hrad : ∀ a, Rup.radians a = rad a := fun _ => rfl
      refine ⟨d, hd, ?_, ?_⟩
      · rw [hres, hqd]
        simp only [DepthResult.depth.injEq]
        unfold depthAt
        simp only [hrad]
        field_simp
        ring
      · intro h0
        rw [hres, hqd]
        simp only [DepthResult.depth.injEq]
        unfold depthAt
        simp only [hrad, h0]
        field_simp
        ring

/-- **C160, single quadrilaterals.** The lengths and widths listed for the quadrilaterals are those of their top edges and the
distances of their lower edges from them; the length of the rupture is the sum of the lengths and its width the mean of the
widths. -/
theorem C160_sizes (qs : List (Quad Point)) :
    (individualTopLengths qs).length = qs.length ∧ (individualWidths qs).length = qs.length ∧
    getLength qs = (individualTopLengths qs).sum ∧
    (qs ≠ [] → getWidth qs = some ((individualWidths qs).sum / qs.length)) ∧
    ∀ (i : ℕ) (q : Quad Point), qs[i]? = some q → (individualTopLengths qs)[i]? = some (kmBetween q.p0 q.p1) ∧
      (NonCollinear (fromPoint q.p0) (fromPoint q.p1) (fromPoint q.p3) → ∃ w, (individualWidths qs)[i]? = some w ∧ 0 < w ∧
        IsMinDistSq (line (fromPoint q.p0) (fromPoint q.p1)) (fromPoint q.p3) ((1000 * w) ^ 2)) := by
  have hsum : ∀ (f : Quad Point → ℝ) (l : List (Quad Point)) (a : ℝ), l.foldl (fun a q => a + f q) a = a + (l.map f).sum := by
    intro f l
    induction l with
    | nil => simp
    | cons q l ih => intro a; simp [ih]; ring
  refine ⟨by simp [individualTopLengths], by simp [individualWidths], ?_, ?_, ?_⟩
  · unfold getLength individualTopLengths
    rw [hsum]
    simp [quadLength, Quad.ecef]
  · intro h
    unfold getWidth individualWidths
    rw [if_neg (by simpa using h), hsum]
    simp
  · intro i q hq
    constructor
    · unfold individualTopLengths kmBetween
      rw [List.getElem?_map, hq]
      simp only [Option.map_some, Option.some.injEq]
      congr 1
      simp only [V3.mag, V3.sub, distSq]
      congr 1
      ring
    · intro h
      obtain ⟨h1, h2, -⟩ := C98_width_dip q (by exact h)
      exact ⟨_, by unfold individualWidths; rw [List.getElem?_map, hq]; rfl, h1, h2⟩

theorem dedup_groups (ns : List ℕ) (k : ℕ) :
    (((ns.zipIdx k).flatMap fun p => List.replicate p.1 p.2).dedup).length = (ns.filter fun n => decide (1 ≤ n)).length := by
  induction ns generalizing k with
  | nil => simp
  | cons n ns ih =>
    have hd : List.Disjoint (List.replicate n k) ((ns.zipIdx (k + 1)).flatMap fun p => List.replicate p.1 p.2) := by
      intro x hx hy
      obtain ⟨-, rfl⟩ := List.mem_replicate.1 hx
      obtain ⟨⟨a, b⟩, hp, hxb⟩ := List.mem_flatMap.1 hy
      obtain ⟨-, rfl⟩ := List.mem_replicate.1 hxb
      have := List.le_snd_of_mem_zipIdx hp
      simp only at this
      omega
    rw [List.zipIdx_cons, List.flatMap_cons, hd.dedup_append, List.length_append, ih]
    rcases Nat.eq_zero_or_pos n with rfl | hn
    · simp
    · rw [List.replicate_dedup hn.ne']
      simp [show 1 ≤ n from hn]
      omega

/-- **C160, counts.** For polygons along a top edge and back along a bottom edge there are as many groups as polygons with at
least two points on the top edge, and one quadrilateral fewer than points on the top edge for each of them. -/
theorem C160_counts (tbs : List (List Point × List Point)) (h : ∀ tb ∈ tbs, tb.1.length = tb.2.length ∧ tb.1 ≠ []) :
    numQuads (tbs.map fun tb => outline tb.1 tb.2) = (tbs.map fun tb => tb.1.length - 1).sum ∧
    numGroups (tbs.map fun tb => outline tb.1 tb.2) = (tbs.filter fun tb => decide (2 ≤ tb.1.length)).length := by
  obtain ⟨-, -, h1, h2, -⟩ := C71_quads_partial tbs h
  constructor
  · unfold numQuads
    rw [← h2, h1]
    clear h1 h2 h
    generalize 0 = k
    induction tbs generalizing k with
    | nil => simp
    | cons tb tbs ih => simp [List.zipIdx_cons, ih]
  · unfold numGroups
    rw [h1]
    have e : (tbs.zipIdx.flatMap fun p => List.replicate (p.1.1.length - 1) p.2) =
        ((tbs.map fun tb => tb.1.length - 1).zipIdx.flatMap fun p => List.replicate p.1 p.2) := by
      rw [List.zipIdx_map, List.flatMap_map]
      rfl
    rw [e, dedup_groups, List.filter_map, List.length_map]
    congr 1
    apply List.filter_congr
    intro tb _
    simp only [Function.comp]
    congr 1
    simp only [eq_iff_iff]
    omega

/-! ### A quadrilateral between two parallels and two meridians -/

/-- From the surface at 30 degrees north to 10 km at 30 degrees south. -/
noncomputable def slopeQuad : Quad Point := ⟨⟨0, 30, 0⟩, ⟨90, 30, 0⟩, ⟨90, -30, 10⟩, ⟨0, -30, 10⟩⟩

theorem slope_ecef : ∃ N : ℝ, wgsA ≤ N ∧ ∀ dep : ℝ,
    fromPoint ⟨0, 30, dep⟩ = ⟨(N - dep * 1000) * cos (π / 6), 0, (N * (1 - wgsE ^ 2) - dep * 1000) * (1 / 2)⟩ ∧
    fromPoint ⟨90, 30, dep⟩ = ⟨0, (N - dep * 1000) * cos (π / 6), (N * (1 - wgsE ^ 2) - dep * 1000) * (1 / 2)⟩ ∧
    fromPoint ⟨90, -30, dep⟩ = ⟨0, (N - dep * 1000) * cos (π / 6), -((N * (1 - wgsE ^ 2) - dep * 1000) * (1 / 2))⟩ ∧
    fromPoint ⟨0, -30, dep⟩ = ⟨(N - dep * 1000) * cos (π / 6), 0, -((N * (1 - wgsE ^ 2) - dep * 1000) * (1 / 2))⟩ := by
  obtain ⟨c, s⟩ := cos_90
  have h30 : (30 : ℝ) * degToRad = π / 6 := by unfold degToRad; ring
  have hn : (-30 : ℝ) * degToRad = -(π / 6) := by unfold degToRad; ring
  have hev : primeVertical (-(1 / 2)) = primeVertical (1 / 2) := by unfold primeVertical; simp
  refine ⟨primeVertical (1 / 2), primeVertical_ge _ (by norm_num), fun dep => ⟨?_, ?_, ?_, ?_⟩⟩ <;> ext <;>
    simp only [fromPoint, latlon2ecef, h30, hn, Real.sin_neg, Real.cos_neg, Real.sin_pi_div_six, hev, c, s, zero_mul,
      Real.sin_zero, Real.cos_zero] <;> ring

theorem slope_convex : ConvexAt (atSurface slopeQuad) := by
  obtain ⟨N, hN, he⟩ := slope_ecef
  obtain ⟨e0, e1, e2, e3⟩ := he 0
  have hA := wgsA_pos
  have hE := wgsE_lt
  have hE0 := wgsE_pos
  have hc : 0 < cos (π / 6) := by rw [Real.cos_pi_div_six]; positivity
  have hl : 0 < 1 - wgsE ^ 2 := by nlinarith
  show ConvexPlanar _ _ _ _
  unfold atSurface slopeQuad
  simp only
  rw [e0, e1, e2, e3]
  have hk : 0 < (N - 0 * 1000) * cos (π / 6) := mul_pos (by linarith) hc
  have hz : 0 < (N * (1 - wgsE ^ 2) - 0 * 1000) * (1 / 2) := by
    have : 0 < N * (1 - wgsE ^ 2) := mul_pos (by linarith) hl
    linarith
  refine ⟨?_, 1, 1, one_pos, one_pos, by norm_num, by ext <;> simp [combine]⟩
  intro s t h
  have h1 := congrArg V3.y h
  have h2 := congrArg V3.z h
  simp only [combine] at h1 h2
  constructor
  · have : s * ((N - 0 * 1000) * cos (π / 6)) = 0 := by linarith
    exact (mul_eq_zero.1 this).resolve_right hk.ne'
  · have : t * ((N * (1 - wgsE ^ 2) - 0 * 1000) * (1 / 2)) = 0 := by linarith
    exact (mul_eq_zero.1 this).resolve_right hz.ne'

theorem slope_over : Over (atSurface slopeQuad) (fromPoint ⟨0, 30, 0⟩) := by
  refine ⟨0, 1, 0, 0, 0, by norm_num, le_refl _, le_refl _, le_refl _, by norm_num, ?_⟩
  ext <;> simp [V3.add, V3.mul, mean4, atSurface, slopeQuad]

theorem slope_middle : MiddleOf (fun _ _ _ _ => (45, 0)) slopeQuad 45 0 := by
  refine ⟨0, 90, 30, -30, ⟨by simp [slopeQuad], ?_⟩, ⟨by simp [slopeQuad], ?_⟩, ⟨by simp [slopeQuad], ?_⟩, ⟨by simp [slopeQuad], ?_⟩, ?_⟩
  · rintro x (rfl | rfl | rfl | rfl) <;> simp [slopeQuad]
  · rintro x (rfl | rfl | rfl | rfl) <;> simp [slopeQuad]
  · rintro x (rfl | rfl | rfl | rfl) <;> simp [slopeQuad]
  · rintro x (rfl | rfl | rfl | rfl) <;> simp [slopeQuad]
  · unfold middlePoint; norm_num

theorem near_of_inner {lon0 lat0 : ℝ} {p : Point} (h : 0 ≤ inner ℝ (onSphere lon0 lat0) (onSphere p.lon p.lat)) : Near lon0 lat0 p := by
  unfold Near greatCircle
  have : InnerProductGeometry.angle (onSphere lon0 lat0) (onSphere p.lon p.lat) ≤ π / 2 := by
    unfold InnerProductGeometry.angle
    rw [Real.arccos_le_pi_div_two]
    positivity
  nlinarith

/-- C160: the corner of the quadrilateral is over it, and all other conditions are met. -/
example : getDepthAtPoint (fun _ _ _ _ => (45, 0)) [slopeQuad] 30 0 ≠ .nan ∧ MiddleOf (fun _ _ _ _ => (45, 0)) slopeQuad 45 0 ∧
    (∀ p ∈ [slopeQuad.p0, slopeQuad.p1, slopeQuad.p2, slopeQuad.p3, ⟨0, 30, 0⟩], Near 45 0 p) ∧
    Triangle (planePlace 45 0 slopeQuad.p0) (planePlace 45 0 slopeQuad.p1) (planePlace 45 0 slopeQuad.p3) ∧
    quadWidth slopeQuad.ecef ≠ 0 ∧ cos (rad (quadDip slopeQuad)) ≠ 0 := by
  have hc : ∀ q ∈ [slopeQuad], ConvexAt (atSurface q) := by simp [slope_convex]
  have hcos : 0 < cos (π / 6) := by rw [Real.cos_pi_div_six]; positivity
  have r30 : rad 30 = π / 6 := by unfold rad; ring
  have rn30 : rad (-30) = -(π / 6) := by unfold rad; ring
  have r45 : rad 45 = π / 4 := by unfold rad; ring
  have r90 : rad 90 = π / 2 := by unfold rad; ring
  have r0 : rad 0 = 0 := by unfold rad; ring
  obtain ⟨N, hN, he⟩ := slope_ecef
  obtain ⟨e0, e1, -, -⟩ := he 0
  obtain ⟨-, -, -, e3⟩ := he 10
  have hA : wgsA = 6378137 := by unfold wgsA; norm_num
  have hE := wgsE_lt
  have hE0 := wgsE_pos
  have hl : 1 / 2 < 1 - wgsE ^ 2 := by nlinarith
  have hl2 : N / 2 < N * (1 - wgsE ^ 2) := by nlinarith
  have hk : 0 < N * cos (π / 6) := mul_pos (by linarith) hcos
  have hnc : NonCollinear slopeQuad.ecef.p0 slopeQuad.ecef.p1 slopeQuad.ecef.p3 := by
    show NonCollinear (fromPoint ⟨0, 30, 0⟩) (fromPoint ⟨90, 30, 0⟩) (fromPoint ⟨0, -30, 10⟩)
    rw [e0, e1, e3]
    intro s t h
    have h1 := congrArg V3.y h
    have h2 := congrArg V3.z h
    simp only [combine] at h1 h2
    constructor
    · have : s * (N * cos (π / 6)) = 0 := by linarith
      exact (mul_eq_zero.1 this).resolve_right hk.ne'
    · have : t * (2 * (N * (1 - wgsE ^ 2)) - 10 * 1000) = 0 := by linarith
      exact (mul_eq_zero.1 this).resolve_right (by linarith)
  obtain ⟨w1, -, hv, -, -, w2⟩ := C98_width_dip slopeQuad hnc
  refine ⟨?_, slope_middle, ?_, ?_, w1.ne', ?_⟩
  · rw [Ne, C160_nan _ _ hc]
    intro h
    exact (h slopeQuad (by simp)).1 slope_over
  · intro p hp
    simp only [slopeQuad, List.mem_cons, List.not_mem_nil, or_false] at hp
    have h2 : 0 ≤ √2 := Real.sqrt_nonneg 2
    have h3 : 0 ≤ √3 := Real.sqrt_nonneg 3
    rcases hp with rfl | rfl | rfl | rfl | rfl <;> apply near_of_inner <;> unfold onSphere <;>
      simp only [PiLp.inner_apply, Fin.sum_univ_three] <;>
      simp [r30, rn30, r45, r90, r0] <;> positivity
  · unfold Triangle planePlace eastKm northKm slopeQuad
    unfold eastOf northOf eastAt northAt onSphere
    simp only [PiLp.inner_apply, Fin.sum_univ_three]
    simp [r30, rn30, r45, r90, r0]
    norm_num
  · have : cos (rad (quadDip slopeQuad)) = (quadNormal slopeQuad.ecef).dot (verticalVector slopeQuad) := w2
    rw [this, hv]
    show (((fromPoint ⟨0, -30, 10⟩).sub (fromPoint ⟨0, 30, 0⟩)).cross ((fromPoint ⟨90, 30, 0⟩).sub (fromPoint ⟨0, 30, 0⟩))).norm.dot _ ≠ 0
    rw [e0, e1, e3]
    have hdn : ∀ a b : V3, a.norm.dot b = a.dot b / a.mag := by
      intro a b
      unfold V3.norm V3.dot V3.mag
      simp only
      ring
    rw [hdn]
    have hx : 0 < (2 * (N * (1 - wgsE ^ 2)) - 10 * 1000) / 2 * (N * cos (π / 6)) := mul_pos (by linarith) hk
    apply ne_of_gt
    apply div_pos
    · have h30 : (30 : ℝ) * degToRad = π / 6 := by unfold degToRad; ring
      simp only [slopeQuad, V3.cross, V3.sub, V3.dot, h30, zero_mul, Real.cos_zero, Real.sin_zero, Real.sin_pi_div_six]
      have : 0 < (N * cos (π / 6)) * cos (π / 6) * (N * (1 - wgsE ^ 2) - 10 * 1000) :=
        mul_pos (mul_pos hk hcos) (by linarith)
      linarith
    · unfold V3.mag
      apply Real.sqrt_pos.2
      have h2 : 0 < ((2 * (N * (1 - wgsE ^ 2)) - 10 * 1000) / 2 * (N * cos (π / 6))) ^ 2 := by positivity
      have e : ∀ a b c x : ℝ, a = x → 0 < x ^ 2 → 0 < a ^ 2 + b ^ 2 + c ^ 2 := by
        intro a b c x h hx
        rw [h]
        positivity
      refine e _ _ _ _ ?_ h2
      simp only [V3.cross, V3.sub]
      ring

end Verif.Props
