import Verif.Props.EdgeArea
import Verif.Props.OqDouble
import Verif.Props.OqObjects
import Verif.Spec.EdgeLength

/-!
# Lengths and widths of ruptures of edges in binary arithmetic

C223.
-/

namespace Verif.Props
open Verif.Spec
open Verif.Dbl
open Verif.Rup (Quad)

namespace Top
open Geo

theorem over_nonneg (q : Quad GeoPoint) : 0 ≤ overTop q := by
  unfold overTop greatCircle
  exact mul_nonneg (by norm_num) (InnerProductGeometry.angle_nonneg _ _)

theorem step_near {u Λ : ℝ} (hu : Precise u) {L : MathLib} (hL : RightTo u L) (hΛ' : Λ ≤ 10000) {q : Quad GeoPoint} (hq : TopUpTo Λ q) :
    ∃ d, surfaceStep L q = some d ∧ 0 ≤ d ∧ |(d : ℝ) - overTop q| ≤ 2750000 * u := by
  obtain ⟨u0, u1, τ0, τ2, τ1, τu⟩ := tiny hu
  obtain ⟨⟨a1, a2, -⟩, ⟨b1, b2, -⟩, hg⟩ := hq
  have g0 := over_nonneg q
  obtain ⟨h, hh⟩ := C200_number hu hL a1 b1 a2 b2 (by unfold overTop at hg; linarith)
  obtain ⟨h0, -, h1⟩ := (C200_distance_partial hu hL a1 b1 a2 b2).1 h hh
  have n := h1 (by unfold overTop at hg; linarith)
  have e : depthDistance L q.p0.lon q.p0.lat 0 q.p1.lon q.p1.lat 0 = some (sqrtRnd (rnd (L.sq h + L.sq (rnd (0 - 0))))) := by
    unfold depthDistance
    rw [hh]
    rfl
  obtain ⟨d0, d1⟩ := C200_depth_partial hu hL hh e
  refine ⟨_, e, d0, ?_⟩
  have r : √(greatCircle q.p0.lon q.p0.lat q.p1.lon q.p1.lat ^ 2 + (((0 : ℚ) : ℝ) - ((0 : ℚ) : ℝ)) ^ 2) = overTop q := by
    rw [sub_self, zero_pow two_ne_zero, add_zero]
    exact Real.sqrt_sq g0
  rw [r] at d1
  change |(h : ℝ) - overTop q| ≤ _ at n
  refine d1.trans ?_
  change 2 * |(h : ℝ) - overTop q| + _ ≤ _
  have := mul_le_mul_of_nonneg_left (hg.trans hΛ') u0.le
  linarith

/-- The sum of the lengths. -/
theorem lengths_near {u Λ : ℝ} (hu : Precise u) {L : MathLib} (hL : RightTo u L) (hΛ : 1 ≤ Λ) (hΛ' : Λ ≤ 10000) :
    ∀ (qs : List (Quad GeoPoint)) (n : ℕ) (s : ℚ) (σ : ℝ), (∀ q ∈ qs, TopUpTo Λ q) → n + qs.length ≤ 1000000 → 0 ≤ s → 0 ≤ σ → σ ≤ Λ * n → |(s : ℝ) - σ| ≤ n * (2800000 + Λ * n) * u →
      ∃ S, qs.foldl (fun s q => s.bind fun s => (surfaceStep L q).map fun d => rnd (s + d)) (some s) = some S ∧ 0 ≤ S ∧
        |(S : ℝ) - (σ + (qs.map overTop).sum)| ≤ (n + qs.length : ℕ) * (2800000 + Λ * (n + qs.length : ℕ)) * u := by
  obtain ⟨u0, u1, τ0, τ2, τ1, τu⟩ := tiny hu
  intro qs
  induction qs with
  | nil =>
    intro n s σ _ _ s0 _ _ hs
    exact ⟨s, rfl, s0, by simpa using hs⟩
  | cons q qs ih =>
    intro n s σ hq hn s0 h0 h1 hs
    have hP := hq q (by simp)
    obtain ⟨d, hd, d0, nd⟩ := step_near hu hL hΛ' hP
    have g0 := over_nonneg q
    have g1 := hP.2.2
    have r := rnd_real hu (s + d)
    rw [List.length_cons] at hn ⊢
    obtain ⟨S, hS, S0, nS⟩ := ih (n + 1) (rnd (s + d)) (σ + overTop q) (fun q hq' => hq q (by simp [hq'])) (by omega) (rnd_nonneg (by positivity)) (by linarith)
      (by push_cast; linarith) (by
        rw [Rat.cast_add] at r
        clear τ1 τ2
        generalize (2 : ℝ) ^ (-1075 : ℤ) = τ at *
        have hn' : (n : ℝ) ≤ 1000000 := by exact_mod_cast (by omega : n ≤ 1000000)
        have hn0 : (0 : ℝ) ≤ n := Nat.cast_nonneg n
        push_cast
        generalize (n : ℝ) = K at *
        generalize ((rnd (s + d) : ℚ) : ℝ) = z at *
        generalize (s : ℝ) = s at *
        generalize (d : ℝ) = d at *
        generalize overTop q = g at *
        have d3 : Λ * (K * u) ≤ Λ * (1 / 1000000) := by
          refine mul_le_mul_of_nonneg_left ?_ (by linarith)
          have := mul_le_mul hn' u1 u0.le (by norm_num : (0 : ℝ) ≤ 1000000)
          linarith
        have hKu : K * (2800000 + Λ * K) * u ≤ K * (Λ / 100) := by
          have e : K * (2800000 + Λ * K) * u = K * (2800000 * u + Λ * (K * u)) := by ring
          rw [e]
          exact mul_le_mul_of_nonneg_left (by linarith) hn0
        have hsum : |s + d| ≤ 11 / 10 * (Λ * (K + 1)) := by
          have : 0 ≤ Λ * K := by positivity
          rw [abs_le] at *
          constructor <;> linarith
        have hu' := mul_le_mul_of_nonneg_left hsum u0.le
        have t : |z - (σ + g)| ≤ u * (11 / 10 * (Λ * (K + 1))) + τ + K * (2800000 + Λ * K) * u + 2750000 * u := by
          rw [abs_le] at *
          constructor <;> linarith
        refine t.trans ?_
        have y2 : 0 ≤ Λ * (K * u) := by positivity
        have y3 : Λ * u ≤ 10000 * u := mul_le_mul_of_nonneg_right hΛ' u0.le
        have e1 : (K + 1) * (2800000 + Λ * (K + 1)) * u = K * (2800000 + Λ * K) * u + 2800000 * u + 2 * (Λ * (K * u)) + Λ * u := by ring
        have e2 : u * (11 / 10 * (Λ * (K + 1))) = 11 / 10 * (Λ * (K * u)) + 11 / 10 * (Λ * u) := by ring
        rw [e1, e2]
        linarith)
    refine ⟨S, ?_, S0, ?_⟩
    · rw [← hS, List.foldl_cons]
      simp only [Option.bind_some, hd, Option.map_some]
    · rw [List.map_cons, List.sum_cons, ← add_assoc, show n + (qs.length + 1) = n + 1 + qs.length by omega]
      exact nS

/-- A quotient of two computed numbers. -/
theorem quotient_near {u A ℓ α β : ℝ} (hu : Precise u) (A0 : 0 ≤ A) (l0 : 0 < ℓ) (hβ : 2 * β ≤ ℓ) {a l : ℚ} (ha : |(a : ℝ) - A| ≤ α) (hl : |(l : ℝ) - ℓ| ≤ β) :
    l ≠ 0 ∧ |((rnd (a / l) : ℚ) : ℝ) - A / ℓ| ≤ 3 * (α + A / ℓ * β) / ℓ + 2 * (u * (A / ℓ)) + u := by
  obtain ⟨u0, u1, τ0, τ2, τ1, τu⟩ := tiny hu
  have α0 : 0 ≤ α := (abs_nonneg _).trans ha
  have β0 : 0 ≤ β := (abs_nonneg _).trans hl
  have l1 : ℓ / 2 ≤ (l : ℝ) := by linarith [(abs_le.1 hl).1]
  have lp : (0 : ℝ) < l := by linarith
  refine ⟨by rintro rfl; simp at lp, ?_⟩
  have r := rnd_real hu (a / l)
  push_cast at r
  generalize ((rnd (a / l) : ℚ) : ℝ) = z at *
  generalize (a : ℝ) = a at *
  generalize (l : ℝ) = l at *
  generalize (2 : ℝ) ^ (-1075 : ℤ) = τ at *
  have w0 : 0 ≤ A / ℓ := by positivity
  have d : |a / l - A / ℓ| ≤ 2 * (α + A / ℓ * β) / ℓ := by
    have e : a / l - A / ℓ = ((a - A) + A / ℓ * (ℓ - l)) / l := by field_simp; ring
    rw [e, abs_div, abs_of_pos lp, div_le_div_iff₀ lp l0]
    have t1 := abs_add_le (a - A) (A / ℓ * (ℓ - l))
    rw [abs_mul, abs_of_nonneg w0, abs_sub_comm ℓ l] at t1
    have t2 := mul_le_mul_of_nonneg_left hl w0
    have t3 : |a - A + A / ℓ * (ℓ - l)| ≤ α + A / ℓ * β := by linarith
    have t4 : 0 ≤ α + A / ℓ * β := by positivity
    calc _ ≤ (α + A / ℓ * β) * ℓ := mul_le_mul_of_nonneg_right t3 l0.le
      _ ≤ (α + A / ℓ * β) * (2 * l) := mul_le_mul_of_nonneg_left (by linarith) t4
      _ = _ := by ring
  have D0 : 0 ≤ (α + A / ℓ * β) / ℓ := by positivity
  rw [mul_div_assoc] at d ⊢
  generalize (α + A / ℓ * β) / ℓ = D at *
  generalize A / ℓ = w at *
  have b : |a / l| ≤ w + 2 * D := by
    rw [abs_le] at *
    constructor <;> linarith
  have m := mul_le_mul_of_nonneg_left b u0.le
  have uD : u * D ≤ 1 / 1000000000000 * D := mul_le_mul_of_nonneg_right u1 D0
  have uw : 0 ≤ u * w := by positivity
  rw [abs_le] at *
  constructor <;> linarith

end Top

/-- C223, first part: `getLength` of up to a million quadrilaterals is a number that is not negative, and is the sum of the great-circle distances between the places over the upper corners, up to
n(2800000 + Λn)u kilometres for n quadrilaterals with distances of up to `Λ` kilometres. -/
theorem C223_length {u Λ : ℝ} (hu : Precise u) {L : MathLib} (hL : RightTo u L) (hΛ : 1 ≤ Λ) (hΛ' : Λ ≤ 10000) {qs : List (Quad GeoPoint)} (hq : ∀ q ∈ qs, TopUpTo Λ q) (hn : qs.length ≤ 1000000) :
    ∃ S, edgeLength L qs = some S ∧ 0 ≤ S ∧ |(S : ℝ) - (qs.map overTop).sum| ≤ qs.length * (2800000 + Λ * qs.length) * u := by
  obtain ⟨S, hS, S0, nS⟩ := Top.lengths_near hu hL hΛ hΛ' qs 0 0 0 hq (by omega) le_rfl le_rfl (by simp) (by simp)
  exact ⟨S, hS, S0, by simpa using nS⟩

/-- C223, second part: `getWidth` is the area divided by the length. With α the error of the area and β that of the length it is right up to 3(α + wβ)/ℓ + 2uw + u for the width w and the length ℓ, if
the length is at least 2β. Without quadrilaterals it divides by zero. -/
theorem C223_width {u B k Λ : ℝ} (hu : Precise u) {L : MathLib} (hL : RightTo u L) (hku : 2000000000 * (k ^ 2 * u) ≤ 1) (hB : 1 ≤ B) (hB' : B ≤ 80000) (hΛ : 1 ≤ Λ) (hΛ' : Λ ≤ 10000)
    {qs : List (Quad GeoPoint)} (hne : qs ≠ []) (hq : ∀ q ∈ qs, PerimetersUpTo B q ∧ Stout k q ∧ TopUpTo Λ q) {As : List ℝ} (hA : List.Forall₂ FoldedArea qs As) (hn : qs.length ≤ 1000000) {α β ℓ w : ℝ}
    (hα : α = qs.length * (4100000 * k * B + B ^ 2 * qs.length) * u) (hβ : β = qs.length * (2800000 + Λ * qs.length) * u) (hℓ : ℓ = (qs.map overTop).sum) (hw : w = As.sum / ℓ) (l0 : 0 < ℓ) (hl : 2 * β ≤ ℓ) :
    (∃ W, edgeWidth L qs = .ok (some W) ∧ |(W : ℝ) - w| ≤ 3 * (α + w * β) / ℓ + 2 * (u * w) + u) ∧ edgeWidth L [] = .error () := by
  refine ⟨?_, rfl⟩
  obtain ⟨a, ha, na⟩ := C222_area hu hL hku hB hB' (fun q h => ⟨(hq q h).1, (hq q h).2.1⟩) hA hn
  obtain ⟨l, hl', -, nl⟩ := C223_length hu hL hΛ hΛ' (fun q h => (hq q h).2.2) hn
  rw [← hα] at na
  rw [← hβ, ← hℓ] at nl
  have A0 : 0 ≤ As.sum := by
    have pos : ∀ (qs : List (Quad GeoPoint)) (As : List ℝ), List.Forall₂ FoldedArea qs As → 0 ≤ As.sum := by
      intro qs As h
      induction h with
      | nil => simp
      | @cons q A qs As h _ ih =>
        obtain ⟨c, S, T, -, ⟨x, x0, -, hS⟩, ⟨y, y0, -, hT⟩, rfl⟩ := h
        rw [List.sum_cons, hS, hT]
        positivity
    exact pos _ _ hA
  obtain ⟨l1, n⟩ := Top.quotient_near hu A0 l0 hl na nl
  refine ⟨rnd (a / l), ?_, by rw [hw]; exact n⟩
  unfold edgeWidth
  have : qs.length ≠ 0 := by simpa using hne
  rw [if_neg this, ha, hl']
  simp [l1]

/-- A quadrilateral below the equator, from longitude 0 to longitude 60 and 1000 kilometres deep. -/
def Top.wide : Quad GeoPoint := ⟨⟨0, 0, 0⟩, ⟨60, 0, 0⟩, ⟨60, 0, 1000⟩, ⟨0, 0, 1000⟩⟩

theorem Top.wide_at {c : Quad Verif.Vec.V3} (h : CornersAt Top.wide c) :
    c.p0 = ⟨equatorial, 0, 0⟩ ∧ c.p1 = ⟨equatorial * (1 / 2), equatorial * (√3 / 2), 0⟩ ∧ c.p2 = ⟨(equatorial - 1000000) * (1 / 2), (equatorial - 1000000) * (√3 / 2), 0⟩ ∧
      c.p3 = ⟨equatorial - 1000000, 0, 0⟩ := by
  obtain ⟨h0, h1, h2, h3⟩ := h
  have r : Ecef.radius 0 = equatorial := by simp [Ecef.radius]
  have h60 : (60 : ℝ) * (Real.pi / 180) = Real.pi / 3 := by ring
  obtain ⟨a0, a1, a2⟩ := Ecef.geodetic_eq h0
  obtain ⟨b0, b1, b2⟩ := Ecef.geodetic_eq h1
  obtain ⟨d0, d1, d2⟩ := Ecef.geodetic_eq h2
  obtain ⟨f0, f1, f2⟩ := Ecef.geodetic_eq h3
  simp only [wide, Oq.radians, Rat.cast_zero, Rat.cast_ofNat, zero_mul, Real.sin_zero, Real.cos_zero, mul_zero, mul_one, neg_zero, add_zero, h60, Real.cos_pi_div_three, Real.sin_pi_div_three, r] at a0 a1 a2 b0 b1 b2 d0 d1 d2 f0 f1 f2
  refine ⟨?_, ?_, ?_, ?_⟩
  · ext <;> assumption
  · ext <;> assumption
  · ext
    · rw [d0]; ring
    · rw [d1]; ring
    · exact d2
  · ext
    · rw [f0]; ring
    · exact f1
    · exact f2

theorem Top.root_three : 17 / 10 ≤ √3 ∧ √3 ≤ 18 / 10 ∧ √3 ^ 2 = 3 :=
  ⟨Real.le_sqrt_of_sq_le (by norm_num), (Real.sqrt_le_left (by norm_num)).2 (by norm_num), Real.sq_sqrt (by norm_num)⟩

theorem Top.wide_areas {c : Quad Verif.Vec.V3} (h : CornersAt Top.wide c) :
    2700000000000 ≤ ((c.p0.sub c.p1).cross (c.p0.sub c.p2)).mag / 2 ∧ 2200000000000 ≤ ((c.p0.sub c.p2).cross (c.p0.sub c.p3)).mag / 2 := by
  obtain ⟨e0, e1, e2, e3⟩ := Top.wide_at h
  obtain ⟨t0, t1, t2⟩ := Top.root_three
  have low : ∀ v : Verif.Vec.V3, v.z ≤ v.mag := fun v => Real.le_sqrt_of_sq_le (by nlinarith [sq_nonneg v.x, sq_nonneg v.y])
  rw [e0, e1, e2, e3]
  constructor
  · refine le_trans ?_ (div_le_div_of_nonneg_right (low _) (by norm_num))
    simp only [Verif.Vec.V3.sub, Verif.Vec.V3.cross, equatorial]
    ring_nf
    linarith
  · refine le_trans ?_ (div_le_div_of_nonneg_right (low _) (by norm_num))
    simp only [Verif.Vec.V3.sub, Verif.Vec.V3.cross, equatorial]
    ring_nf
    linarith

theorem Top.wide_perimeters {c : Quad Verif.Vec.V3} (h : CornersAt Top.wide c) :
    (1 ≤ perimeter c.p0 c.p1 c.p2 ∧ perimeter c.p0 c.p1 c.p2 ≤ 14000000) ∧ 1 ≤ perimeter c.p0 c.p2 c.p3 ∧ perimeter c.p0 c.p2 c.p3 ≤ 14000000 := by
  obtain ⟨e0, e1, e2, e3⟩ := Top.wide_at h
  obtain ⟨t0, t1, t2⟩ := Top.root_three
  have up : ∀ {a b : Verif.Vec.V3} {r : ℝ}, 0 ≤ r → distSq a b ≤ r ^ 2 → √(distSq a b) ≤ r := fun hr h => (Real.sqrt_le_left hr).2 h
  have low : ∀ {a b : Verif.Vec.V3} {r : ℝ}, 0 ≤ r → r ^ 2 ≤ distSq a b → r ≤ √(distSq a b) := fun hr h => Real.le_sqrt_of_sq_le h
  unfold perimeter
  have u1 : √(distSq c.p0 c.p1) ≤ 6400000 := up (by norm_num) (by rw [e0, e1]; simp only [distSq, equatorial]; ring_nf; rw [t2]; norm_num)
  have u2 : √(distSq c.p1 c.p2) ≤ 1000000 := up (by norm_num) (by rw [e1, e2]; simp only [distSq, equatorial]; ring_nf; rw [t2]; norm_num)
  have u3 : √(distSq c.p0 c.p2) ≤ 6400000 := up (by norm_num) (by rw [e0, e2]; simp only [distSq, equatorial]; ring_nf; rw [t2]; norm_num)
  have u4 : √(distSq c.p2 c.p3) ≤ 6400000 := up (by norm_num) (by rw [e2, e3]; simp only [distSq, equatorial]; ring_nf; rw [t2]; norm_num)
  have u5 : √(distSq c.p3 c.p0) ≤ 1000000 := up (by norm_num) (by rw [e3, e0]; simp only [distSq, equatorial]; ring_nf; norm_num)
  have l1 : 1 ≤ √(distSq c.p0 c.p1) := low (by norm_num) (by rw [e0, e1]; simp only [distSq, equatorial]; ring_nf; rw [t2]; norm_num)
  have l3 : 1 ≤ √(distSq c.p0 c.p2) := low (by norm_num) (by rw [e0, e2]; simp only [distSq, equatorial]; ring_nf; rw [t2]; norm_num)
  have n2 := Real.sqrt_nonneg (distSq c.p1 c.p2)
  have n4 := Real.sqrt_nonneg (distSq c.p2 c.p3)
  have n5 := Real.sqrt_nonneg (distSq c.p3 c.p0)
  rw [Her.dist_comm c.p2 c.p0]
  refine ⟨⟨?_, ?_⟩, ?_, ?_⟩ <;> linarith

theorem Top.wide_over : overTop Top.wide = 6371 * (Real.pi / 3) := by
  unfold overTop
  have := equator_distance (a := 0) (b := 60) (by norm_num) (by norm_num)
  simp only [Top.wide, Rat.cast_zero, Rat.cast_ofNat]
  rw [this]
  unfold rad
  ring

theorem Top.wide_shape : PerimetersUpTo 14000 Top.wide ∧ Stout 100 Top.wide ∧ TopUpTo 7000 Top.wide := by
  refine ⟨⟨by norm_num [QuadOnEarth, PlaceOnEarth, wide, abs_le], fun c hc => ?_⟩, fun c hc => ?_, by norm_num [PlaceOnEarth, wide, abs_le], by norm_num [PlaceOnEarth, wide, abs_le], ?_⟩
  · obtain ⟨⟨h1, h2⟩, h3, h4⟩ := Top.wide_perimeters hc
    exact ⟨⟨h1, by linarith⟩, h3, by linarith⟩
  · obtain ⟨⟨h1, h2⟩, h3, h4⟩ := Top.wide_perimeters hc
    obtain ⟨a1, a2⟩ := Top.wide_areas hc
    refine ⟨fun S hS => ?_, fun T hT => ?_⟩
    · rw [Her.area_cross hS]
      have := pow_le_pow_left₀ (by linarith) h2 2
      linarith
    · rw [Her.area_cross hT]
      have := pow_le_pow_left₀ (by linarith) h4 2
      linarith
  · rw [Top.wide_over]
    linarith [Real.pi_lt_d2]

/-- The length of two of these quadrilaterals is computed to a millimetre. -/
example : ∃ S, edgeLength Geo.someLib [Top.wide, Top.wide] = some S ∧ |(S : ℝ) - 2 * (6371 * (Real.pi / 3))| ≤ 1 / 1000000 := by
  obtain ⟨S, hS, -, n⟩ := C223_length (Λ := 7000) Geo.precise49 Geo.someLib_right (by norm_num) (by norm_num) (qs := [Top.wide, Top.wide]) (by simp [Top.wide_shape]) (by simp)
  refine ⟨S, hS, ?_⟩
  rw [show ([Top.wide, Top.wide].map overTop).sum = 2 * (6371 * (Real.pi / 3)) by simp [Top.wide_over]; ring] at n
  refine n.trans ?_
  simp only [List.length_cons, List.length_nil]
  norm_num

/-- The bound for the width of one. -/
example : ∃ (A : ℝ) (W : ℚ), FoldedArea Top.wide A ∧ edgeWidth Geo.someLib [Top.wide] = .ok (some W) ∧
    |(W : ℝ) - A / overTop Top.wide| ≤ 3 * (1 * (4100000 * 100 * 14000 + 14000 ^ 2 * 1) * 2 ^ (-49 : ℤ) + A / overTop Top.wide * (1 * (2800000 + 7000 * 1) * 2 ^ (-49 : ℤ))) / overTop Top.wide +
      2 * (2 ^ (-49 : ℤ) * (A / overTop Top.wide)) + 2 ^ (-49 : ℤ) := by
  obtain ⟨A, hA, -⟩ := C222_one Top.wide
  have big : 6000 ≤ overTop Top.wide := by rw [Top.wide_over]; linarith [Real.pi_gt_three]
  obtain ⟨⟨W, hW, n⟩, -⟩ := C223_width (B := 14000) (k := 100) (Λ := 7000) Geo.precise49 Geo.someLib_right (by norm_num) (by norm_num) (by norm_num) (by norm_num) (by norm_num) (qs := [Top.wide]) (by simp)
    (by simp [Top.wide_shape]) (.cons hA .nil) (by simp) rfl rfl rfl rfl (by simp; linarith) (by simp; norm_num; linarith)
  refine ⟨A, W, hA, hW, ?_⟩
  simpa using n

end Verif.Props
