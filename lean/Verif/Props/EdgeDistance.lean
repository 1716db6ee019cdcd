import Verif.Props.EdgeStrike
import Mathlib.Data.Set.Finite.Lattice
import Mathlib.Data.Set.Finite.Range

/-!
# Distances to ruptures of edges: C114
-/

namespace Verif.Props
open Verif.Vec Verif.Rup Real
open Verif.EdgeR (meshNx meshNy meshNodes npMin)
open Verif.Spec (mean4 surfaceOf surfaceAt atSurface distSq)

/-! ### Lengths of vectors -/

theorem mag_nonneg (v : V3) : 0 ≤ v.mag := Real.sqrt_nonneg _

theorem mag_sq (v : V3) : v.mag ^ 2 = v.x ^ 2 + v.y ^ 2 + v.z ^ 2 := Real.sq_sqrt (by positivity)

theorem mag_add (a b : V3) : (a.add b).mag ≤ a.mag + b.mag := by
  have ha := mag_nonneg a
  have hb := mag_nonneg b
  have hd : a.x * b.x + a.y * b.y + a.z * b.z ≤ a.mag * b.mag := by
    apply le_trans (le_abs_self _)
    rw [← Real.sqrt_sq (mul_nonneg ha hb)]
    apply Real.abs_le_sqrt
    rw [mul_pow, mag_sq, mag_sq]
    nlinarith [sq_nonneg (a.x * b.y - a.y * b.x), sq_nonneg (a.x * b.z - a.z * b.x),
      sq_nonneg (a.y * b.z - a.z * b.y)]
  have h1 := mag_sq a
  have h2 := mag_sq b
  unfold V3.mag
  rw [Real.sqrt_le_left (by exact add_nonneg ha hb)]
  simp only [V3.add]
  have : (√(a.x ^ 2 + a.y ^ 2 + a.z ^ 2) + √(b.x ^ 2 + b.y ^ 2 + b.z ^ 2)) = a.mag + b.mag := rfl
  rw [this]
  nlinarith

theorem distance_mag (a b : V3) : a.distance b = (a.sub b).mag := by
  unfold V3.distance V3.mag V3.sub; rfl

theorem distance_tri (a b c : V3) : a.distance c ≤ a.distance b + b.distance c := by
  rw [distance_mag, distance_mag, distance_mag]
  refine le_trans (le_of_eq ?_) (mag_add _ _)
  congr 1
  ext <;> simp only [V3.add, V3.sub] <;> ring

/-- The length of a mean of two vectors is at most that of the longer one. -/
theorem mag_between (a b : V3) {s : ℝ} (h0 : 0 ≤ s) (h1 : s ≤ 1) :
    ((a.mul (1 - s)).add (b.mul s)).mag ≤ max a.mag b.mag := by
  refine le_trans (mag_add _ _) ?_
  rw [mag_mul, mag_mul, abs_of_nonneg h0, abs_of_nonneg (by linarith)]
  nlinarith [le_max_left a.mag b.mag, le_max_right a.mag b.mag]

/-! ### Nodes -/

/-- Every number from 0 to 1 is at most half a step from one of `n` equidistant ones. -/
theorem nearest_step {s : ℝ} (h0 : 0 ≤ s) (h1 : s ≤ 1) {n : ℕ} (hn : 2 ≤ n) :
    ∃ i < n, |s - linspace01 n i| ≤ 1 / (2 * ((n : ℝ) - 1)) := by
  have hn' : (2 : ℝ) ≤ n := by exact_mod_cast hn
  have hpos : 0 < (n : ℝ) - 1 := by linarith
  refine ⟨⌊((n : ℝ) - 1) * s + 1 / 2⌋₊, ?_, ?_⟩
  · rw [Nat.floor_lt (by positivity)]
    nlinarith
  · have h2 := Nat.floor_le (a := ((n : ℝ) - 1) * s + 1 / 2) (by positivity)
    have h3 := Nat.lt_floor_add_one (((n : ℝ) - 1) * s + 1 / 2)
    unfold linspace01
    rw [show s - (⌊((n : ℝ) - 1) * s + 1 / 2⌋₊ : ℝ) / ((n : ℝ) - 1) =
      (((n : ℝ) - 1) * s - ⌊((n : ℝ) - 1) * s + 1 / 2⌋₊) / ((n : ℝ) - 1) by field_simp, abs_div, abs_of_pos hpos,
      div_le_div_iff₀ hpos (by linarith)]
    have : |((n : ℝ) - 1) * s - ⌊((n : ℝ) - 1) * s + 1 / 2⌋₊| ≤ 1 / 2 := by
      rw [abs_le]; constructor <;> linarith
    nlinarith

/-- The point with coordinates `s` and `t` of the surface swept by a line that moves along two opposite sides
of a quadrilateral. -/
noncomputable def ruledPoint (q : Quad V3) (s t : ℝ) : V3 :=
  mean4 q.p0 q.p1 q.p2 q.p3 ((1 - t) * (1 - s)) ((1 - t) * s) (t * s) (t * (1 - s))

theorem node_ruled (q : Quad V3) (nx ny j i : ℕ) :
    meshNode q nx ny j i = ruledPoint q (linspace01 nx i) (linspace01 ny j) := by
  ext <;> simp only [meshNode, topPoint, bottomPoint, ruledPoint, mean4, V3.add, V3.sub, V3.mul] <;> ring

theorem ruled_surface (q : Quad V3) {s t : ℝ} (hs0 : 0 ≤ s) (hs1 : s ≤ 1) (ht0 : 0 ≤ t) (ht1 : t ≤ 1) :
    ruledPoint q s t ∈ surfaceOf q.p0 q.p1 q.p2 q.p3 :=
  ⟨_, _, _, _, mul_nonneg (by linarith) (by linarith), mul_nonneg (by linarith) hs0, mul_nonneg ht0 hs0,
    mul_nonneg ht0 (by linarith), by ring, rfl⟩

theorem linspace01_mem {n i : ℕ} (hn : 2 ≤ n) (hi : i < n) : 0 ≤ linspace01 n i ∧ linspace01 n i ≤ 1 := by
  have h2 : (2 : ℝ) ≤ n := by exact_mod_cast hn
  have hi' : (i : ℝ) + 1 ≤ n := by exact_mod_cast hi
  unfold linspace01
  constructor
  · apply div_nonneg (by positivity); linarith
  · rw [div_le_one (by linarith)]; linarith

theorem meshCount_two (l dx : ℝ) : 2 ≤ meshCount l dx := by
  unfold meshCount
  have : (2 : ℤ) ≤ max (roundHalfEven (l / dx) + 1) 2 := le_max_right _ _
  omega

/-- The steps along an edge are at most one and a half times the spacing. -/
theorem meshCount_step {l dx : ℝ} (hl : 0 ≤ l) (hd : 0 < dx) : l / ((meshCount l dx : ℝ) - 1) ≤ 3 / 2 * dx := by
  have hr : l / dx - 1 / 2 ≤ roundHalfEven (l / dx) := by
    have h1 := Int.lt_floor_add_one (l / dx)
    unfold roundHalfEven
    split_ifs with a b c
    · linarith
    · push_cast; linarith
    · linarith
    · push_cast; linarith
  have h0 : 0 ≤ l / dx := div_nonneg hl hd.le
  have hc : ((meshCount l dx : ℕ) : ℤ) = max (roundHalfEven (l / dx) + 1) 2 := by
    unfold meshCount
    rw [Int.toNat_of_nonneg (le_trans (by norm_num) (le_max_right _ _))]
  have hc' : (meshCount l dx : ℝ) = max ((roundHalfEven (l / dx) : ℝ) + 1) 2 := by
    have : ((meshCount l dx : ℤ) : ℝ) = ((max (roundHalfEven (l / dx) + 1) 2 : ℤ) : ℝ) := by rw [hc]
    push_cast at this
    exact this
  rw [hc']
  have hp : 0 < max ((roundHalfEven (l / dx) : ℝ) + 1) 2 - 1 := by
    have := le_max_right ((roundHalfEven (l / dx) : ℝ) + 1) 2
    linarith
  rw [div_le_iff₀ hp]
  have key : l / dx ≤ 3 / 2 * (max ((roundHalfEven (l / dx) : ℝ) + 1) 2 - 1) := by
    have h1 := le_max_left ((roundHalfEven (l / dx) : ℝ) + 1) 2
    have h2 := le_max_right ((roundHalfEven (l / dx) : ℝ) + 1) 2
    linarith
  rw [div_le_iff₀ hd] at key
  linarith

theorem nx_two (q : Quad V3) (dx : ℝ) : 2 ≤ meshNx q dx := meshCount_two _ _

theorem ny_two (q : Quad V3) (dx : ℝ) : 2 ≤ meshNy q dx := meshCount_two _ _

theorem nodes_mem {q : Quad V3} {dx : ℝ} {y : V3} :
    y ∈ meshNodes dx q ↔ ∃ j < meshNy q dx, ∃ i < meshNx q dx, meshNode q (meshNx q dx) (meshNy q dx) j i = y := by
  simp [meshNodes]

/-- Half a step along the longer of the first and the third side. -/
noncomputable def halfStepAlong (q : Quad V3) (dx : ℝ) : ℝ :=
  max (q.p1.distance q.p0) (q.p2.distance q.p3) / (2 * ((meshNx q dx : ℝ) - 1))

/-- Half a step along the longer of the second and the fourth side. -/
noncomputable def halfStepDown (q : Quad V3) (dx : ℝ) : ℝ :=
  max (q.p3.distance q.p0) (q.p2.distance q.p1) / (2 * ((meshNy q dx : ℝ) - 1))

/-- A node is near every point of the surface. -/
theorem node_near (q : Quad V3) (dx : ℝ) {s t : ℝ} (hs0 : 0 ≤ s) (hs1 : s ≤ 1) (ht0 : 0 ≤ t) (ht1 : t ≤ 1) :
    ∃ y ∈ meshNodes dx q, (ruledPoint q s t).distance y ≤ halfStepAlong q dx + halfStepDown q dx := by
  obtain ⟨i, hi, hi'⟩ := nearest_step hs0 hs1 (nx_two q dx)
  obtain ⟨j, hj, hj'⟩ := nearest_step ht0 ht1 (ny_two q dx)
  obtain ⟨a0, a1⟩ := linspace01_mem (nx_two q dx) hi
  refine ⟨_, nodes_mem.mpr ⟨j, hj, i, hi, rfl⟩, ?_⟩
  rw [node_ruled]
  set s' := linspace01 (meshNx q dx) i
  set t' := linspace01 (meshNy q dx) j
  have hx : (0 : ℝ) < (meshNx q dx : ℝ) - 1 := by
    have : (2 : ℝ) ≤ meshNx q dx := by exact_mod_cast nx_two q dx
    linarith
  have hy : (0 : ℝ) < (meshNy q dx : ℝ) - 1 := by
    have : (2 : ℝ) ≤ meshNy q dx := by exact_mod_cast ny_two q dx
    linarith
  refine le_trans (distance_tri _ (ruledPoint q s' t) _) (add_le_add ?_ ?_)
  · have e : (ruledPoint q s t).sub (ruledPoint q s' t) =
        ((((q.p1.sub q.p0).mul (1 - t)).add ((q.p2.sub q.p3).mul t))).mul (s - s') := by
      ext <;> simp only [ruledPoint, mean4, V3.add, V3.sub, V3.mul] <;> ring
    rw [distance_mag, e, mag_mul]
    have hb := mag_between (q.p1.sub q.p0) (q.p2.sub q.p3) ht0 ht1
    rw [← distance_mag, ← distance_mag] at hb
    calc _ ≤ 1 / (2 * ((meshNx q dx : ℝ) - 1)) * max (q.p1.distance q.p0) (q.p2.distance q.p3) :=
          mul_le_mul hi' hb (mag_nonneg _) (by positivity)
      _ = halfStepAlong q dx := by unfold halfStepAlong; ring
  · have e : (ruledPoint q s' t).sub (ruledPoint q s' t') =
        ((((q.p3.sub q.p0).mul (1 - s')).add ((q.p2.sub q.p1).mul s'))).mul (t - t') := by
      ext <;> simp only [ruledPoint, mean4, V3.add, V3.sub, V3.mul] <;> ring
    rw [distance_mag, e, mag_mul]
    have hb := mag_between (q.p3.sub q.p0) (q.p2.sub q.p1) a0 a1
    rw [← distance_mag, ← distance_mag] at hb
    calc _ ≤ 1 / (2 * ((meshNy q dx : ℝ) - 1)) * max (q.p3.distance q.p0) (q.p2.distance q.p1) :=
          mul_le_mul hj' hb (mag_nonneg _) (by positivity)
      _ = halfStepDown q dx := by unfold halfStepDown; ring

theorem npMin_spec (l : List ℝ) : (npMin l = none ↔ l = []) ∧ ∀ m, npMin l = some m → m ∈ l ∧ ∀ a ∈ l, m ≤ a := by
  cases l with
  | nil => simp [npMin]
  | cons a l =>
    refine ⟨by simp [npMin], ?_⟩
    intro m hm
    simp only [npMin, Option.some.injEq] at hm
    subst hm
    have key : ∀ (l : List ℝ) (a : ℝ), l.foldl min a ∈ a :: l ∧ ∀ b ∈ a :: l, l.foldl min a ≤ b := by
      intro l
      induction l with
      | nil => intro a; simp
      | cons c l ih =>
        intro a
        rw [List.foldl_cons]
        obtain ⟨h1, h2⟩ := ih (min a c)
        constructor
        · rcases List.mem_cons.mp h1 with h | h
          · rw [h]
            rcases min_choice a c with h' | h' <;> rw [h'] <;> simp
          · simp [h]
        · intro b hb
          have hm := h2 (min a c) (by simp)
          rcases List.mem_cons.mp hb with h | h
          · rw [h]; exact le_trans hm (min_le_left _ _)
          · rcases List.mem_cons.mp h with h' | h'
            · rw [h']; exact le_trans hm (min_le_right _ _)
            · exact h2 b (by simp [h'])
    exact key l a

/-- A quadrilateral is a parallelogram in space. -/
def Parallelogram (q : Quad V3) : Prop := q.p2.sub q.p3 = q.p1.sub q.p0

theorem parallelogram_ruled {q : Quad V3} (hq : Parallelogram q) {y : V3}
    (hy : y ∈ surfaceOf q.p0 q.p1 q.p2 q.p3) :
    ∃ s t, 0 ≤ s ∧ s ≤ 1 ∧ 0 ≤ t ∧ t ≤ 1 ∧ y = ruledPoint q s t := by
  obtain ⟨w0, w1, w2, w3, h0, h1, h2, h3, hs, rfl⟩ := hy
  have e1 := congrArg V3.x hq
  have e2 := congrArg V3.y hq
  have e3 := congrArg V3.z hq
  simp only [V3.sub] at e1 e2 e3
  refine ⟨w1 + w2, w2 + w3, by linarith, by linarith, by linarith, by linarith, ?_⟩
  have hw : w0 = 1 - w1 - w2 - w3 := by linarith
  subst hw
  ext <;> simp only [ruledPoint, mean4]
  · linear_combination (w2 - (w2 + w3) * (w1 + w2)) * e1
  · linear_combination (w2 - (w2 + w3) * (w1 + w2)) * e2
  · linear_combination (w2 - (w2 + w3) * (w1 + w2)) * e3

/-- The steps in a parallelogram are at most one and a half times the spacing. -/
theorem parallelogram_steps {q : Quad V3} (hq : Parallelogram q) {dx : ℝ} (hd : 0 < dx) :
    halfStepAlong q dx + halfStepDown q dx ≤ 3 / 2 * dx * 1000 := by
  have e1 : q.p2.distance q.p3 = q.p1.distance q.p0 := by rw [distance_mag, distance_mag, hq]
  have e2 : q.p2.sub q.p1 = q.p3.sub q.p0 := by
    have e1 := congrArg V3.x hq
    have e2 := congrArg V3.y hq
    have e3 := congrArg V3.z hq
    simp only [V3.sub] at e1 e2 e3
    ext <;> simp only [V3.sub] <;> linarith
  have e2' : q.p2.distance q.p1 = q.p3.distance q.p0 := by rw [distance_mag, distance_mag, e2]
  have hx : (0 : ℝ) < (meshNx q dx : ℝ) - 1 := by
    have : (2 : ℝ) ≤ meshNx q dx := by exact_mod_cast nx_two q dx
    linarith
  have hy : (0 : ℝ) < (meshNy q dx : ℝ) - 1 := by
    have : (2 : ℝ) ≤ meshNy q dx := by exact_mod_cast ny_two q dx
    linarith
  have s1 : q.p1.distance q.p0 / 1000 / ((meshNx q dx : ℝ) - 1) ≤ 3 / 2 * dx := by
    have := meshCount_step (l := quadLength q) (dx := dx) (by unfold quadLength; exact div_nonneg (mag_nonneg _) (by norm_num)) hd
    rw [distance_mag]
    exact this
  have s2 : q.p3.distance q.p0 / 1000 / ((meshNy q dx : ℝ) - 1) ≤ 3 / 2 * dx := by
    have hmean : ((List.range (meshNx q dx)).map fun i =>
        ((topPoint q (meshNx q dx) i).sub (bottomPoint q (meshNx q dx) i)).mag / 1000).sum / (meshNx q dx : ℕ) =
        q.p3.distance q.p0 / 1000 := by
      have hc : ∀ i, ((topPoint q (meshNx q dx) i).sub (bottomPoint q (meshNx q dx) i)).mag = q.p3.distance q.p0 := by
        intro i
        have : (topPoint q (meshNx q dx) i).sub (bottomPoint q (meshNx q dx) i) = (q.p3.sub q.p0).mul (-1) := by
          unfold topPoint bottomPoint
          rw [hq]
          ext <;> simp only [V3.add, V3.sub, V3.mul] <;> ring
        rw [this, mag_mul, distance_mag]; simp
      have hn : (0 : ℝ) < meshNx q dx := by linarith
      simp only [hc, List.map_const', List.length_range, List.sum_replicate, nsmul_eq_mul]
      field_simp
    have := meshCount_step (l := q.p3.distance q.p0 / 1000) (dx := dx)
      (by rw [distance_mag]; exact div_nonneg (mag_nonneg _) (by norm_num)) hd
    have hny : meshNy q dx = meshCount (q.p3.distance q.p0 / 1000) dx := by
      unfold meshNy
      simp only
      rw [hmean]
    rw [hny]
    exact this
  unfold halfStepAlong halfStepDown
  rw [e1, e2', max_self, max_self]
  have t1 : q.p1.distance q.p0 / (2 * ((meshNx q dx : ℝ) - 1)) = q.p1.distance q.p0 / 1000 / ((meshNx q dx : ℝ) - 1) * 500 := by
    field_simp; ring
  have t2 : q.p3.distance q.p0 / (2 * ((meshNy q dx : ℝ) - 1)) = q.p3.distance q.p0 / 1000 / ((meshNy q dx : ℝ) - 1) * 500 := by
    field_simp; ring
  rw [t1, t2]
  linarith

theorem distance_distSq (a b : V3) : a.distance b = √(distSq a b) := by
  unfold V3.distance distSq; rfl

/-- **C114** (partial). `computeRrup` fails exactly when the rupture has no quadrilateral. Otherwise the result is the
distance in km to a point of one of the quadrilaterals. It is larger than the distance to any point of the surface
of a quadrilateral by at most half a step along its longer side and half a step down its longer side; when
the quadrilateral is a parallelogram, this is at most one and a half times the mesh spacing. `computeRjb` does the
same for the quadrilaterals moved to depth 0. What is missing: a bound that depends only on the spacing for all
quadrilaterals, and 0 over the rupture, see below. -/
theorem C114_mesh_distance_partial (qs : List (Quad Point)) (x : V3) {dx : ℝ} (hd : 0 < dx) :
    (EdgeR.computeRrup dx qs x = none ↔ qs = []) ∧
    EdgeR.computeRjb dx qs x = EdgeR.computeRrup dx (qs.map atSurface) x ∧
    ∀ r, EdgeR.computeRrup dx qs x = some r →
      (∃ q ∈ qs, ∃ y ∈ surfaceAt q, r = √(distSq x y) / 1000) ∧
      (∀ q ∈ qs, ∀ s t, 0 ≤ s → s ≤ 1 → 0 ≤ t → t ≤ 1 →
        r ≤ (√(distSq x (ruledPoint q.ecef s t)) + halfStepAlong q.ecef dx + halfStepDown q.ecef dx) / 1000) ∧
      (∀ q ∈ qs, Parallelogram q.ecef → ∀ y ∈ surfaceAt q, r ≤ √(distSq x y) / 1000 + 3 / 2 * dx) := by
  have hne : ∀ q : Quad V3, meshNodes dx q ≠ [] := by
    intro q h
    obtain ⟨y, hy, _⟩ := node_near q dx le_rfl zero_le_one le_rfl zero_le_one
    rw [h] at hy
    simp at hy
  refine ⟨?_, rfl, ?_⟩
  · unfold EdgeR.computeRrup
    rw [Option.map_eq_none_iff, (npMin_spec _).1, List.map_eq_nil_iff, List.flatMap_eq_nil_iff]
    constructor
    · intro h
      cases qs with
      | nil => rfl
      | cons q qs => exact absurd (h q (by simp)) (hne _)
    · rintro rfl; simp
  · intro r hr
    unfold EdgeR.computeRrup at hr
    rw [Option.map_eq_some_iff] at hr
    obtain ⟨m, hm, rfl⟩ := hr
    obtain ⟨h1, h2⟩ := (npMin_spec _).2 m hm
    simp only [List.mem_map, List.mem_flatMap] at h1 h2
    have hnear : ∀ q ∈ qs, ∀ s t, 0 ≤ s → s ≤ 1 → 0 ≤ t → t ≤ 1 →
        m ≤ √(distSq x (ruledPoint q.ecef s t)) + halfStepAlong q.ecef dx + halfStepDown q.ecef dx := by
      intro q hq s t a b c d
      obtain ⟨y, hy, hy'⟩ := node_near q.ecef dx a b c d
      have := h2 _ ⟨y, ⟨q, hq, hy⟩, rfl⟩
      have tri := distance_tri x (ruledPoint q.ecef s t) y
      rw [← distance_distSq]
      linarith
    refine ⟨?_, ?_, ?_⟩
    · obtain ⟨y, ⟨q, hq, hy⟩, rfl⟩ := h1
      obtain ⟨j, hj, i, hi, rfl⟩ := nodes_mem.mp hy
      refine ⟨q, hq, _, ?_, by rw [distance_distSq]⟩
      rw [node_ruled]
      obtain ⟨a0, a1⟩ := linspace01_mem (nx_two _ _) hi
      obtain ⟨b0, b1⟩ := linspace01_mem (ny_two _ _) hj
      exact ruled_surface _ a0 a1 b0 b1
    · intro q hq s t a b c d
      have := hnear q hq s t a b c d
      apply div_le_div_of_nonneg_right this (by norm_num)
    · intro q hq hp y hy
      obtain ⟨s, t, a, b, c, d, rfl⟩ := parallelogram_ruled hp hy
      have h3 := hnear q hq s t a b c d
      have h4 := parallelogram_steps hp hd
      rw [div_add' _ _ _ (by norm_num), div_le_div_iff_of_pos_right (by norm_num)]
      linarith

/-- A quadrilateral with corners at the same depth, symmetric about the equator, is a parallelogram. -/
example (a b c d : ℝ) : Parallelogram (Quad.ecef ⟨⟨a, c, d⟩, ⟨b, c, d⟩, ⟨b, -c, d⟩, ⟨a, -c, d⟩⟩) := by
  unfold Parallelogram Quad.ecef fromPoint latlon2ecef primeVertical
  ext <;> simp [V3.sub]

/-- Such a quadrilateral, with the default spacing of half a kilometre, has a distance from every site. -/
example (x : V3) : ∃ r, EdgeR.computeRrup 0.5 [⟨⟨1, 1, 10⟩, ⟨2, 1, 10⟩, ⟨2, -1, 10⟩, ⟨1, -1, 10⟩⟩] x = some r := by
  have h := (C114_mesh_distance_partial [⟨⟨1, 1, 10⟩, ⟨2, 1, 10⟩, ⟨2, -1, 10⟩, ⟨1, -1, 10⟩⟩] x
    (dx := 0.5) (by norm_num)).1
  cases h' : EdgeR.computeRrup 0.5 [⟨⟨1, 1, 10⟩, ⟨2, 1, 10⟩, ⟨2, -1, 10⟩, ⟨1, -1, 10⟩⟩] x with
  | none => exact absurd (h.mp h') (by simp)
  | some r => exact ⟨r, rfl⟩

/-- **C114** violated: over the rupture the Joyner-Boore distance is not 0. Every quadrilateral with two
different upper corners has, moved to depth 0, points at which the Joyner-Boore distance is not 0. -/
theorem C114_over_violated (qs : List (Quad Point)) (dx : ℝ) (q : Quad Point) (hq : q ∈ qs)
    (hne : fromPoint (atSurface q).p0 ≠ fromPoint (atSurface q).p1) :
    ∃ x ∈ surfaceAt (atSurface q), ∃ r, EdgeR.computeRjb dx qs x = some r ∧ 0 < r := by
  let nodes := (qs.map atSurface).flatMap fun q => meshNodes dx q.ecef
  let f : ℝ → V3 := fun s => ruledPoint (atSurface q).ecef s 0
  have hinj : Function.Injective f := by
    intro s s' h
    have hx := congrArg V3.x h
    have hy := congrArg V3.y h
    have hz := congrArg V3.z h
    simp only [f, ruledPoint, mean4] at hx hy hz
    by_contra hss
    have hs : s - s' ≠ 0 := sub_ne_zero.mpr hss
    apply hne
    have key : ∀ a b : ℝ, (s - s') * (b - a) = 0 → a = b := by
      intro a b h
      rcases mul_eq_zero.mp h with h | h
      · exact absurd h hs
      · linarith
    ext
    · exact key _ _ (by simp only [Quad.ecef] at hx; linear_combination hx)
    · exact key _ _ (by simp only [Quad.ecef] at hy; linear_combination hy)
    · exact key _ _ (by simp only [Quad.ecef] at hz; linear_combination hz)
  have hinf : (f '' Set.Icc 0 1).Infinite := (Set.Icc_infinite (by norm_num)).image hinj.injOn
  obtain ⟨x, ⟨s, ⟨hs0, hs1⟩, rfl⟩, hx⟩ := hinf.exists_notMem_finite (List.finite_toSet nodes)
  refine ⟨f s, ruled_surface _ hs0 hs1 le_rfl zero_le_one, ?_⟩
  have hx : f s ∉ nodes := hx
  cases hr : EdgeR.computeRjb dx qs (f s) with
  | none =>
    exfalso
    rw [show EdgeR.computeRjb dx qs (f s) = (npMin (nodes.map fun y => (f s).distance y)).map (· / 1000) from rfl,
      Option.map_eq_none_iff, (npMin_spec _).1, List.map_eq_nil_iff] at hr
    obtain ⟨y, hy, _⟩ := node_near (atSurface q).ecef dx le_rfl zero_le_one le_rfl zero_le_one
    have : y ∈ nodes := List.mem_flatMap.mpr ⟨_, List.mem_map_of_mem hq, hy⟩
    rw [hr] at this
    simp at this
  | some r =>
    refine ⟨r, rfl, ?_⟩
    rw [show EdgeR.computeRjb dx qs (f s) = (npMin (nodes.map fun y => (f s).distance y)).map (· / 1000) from rfl,
      Option.map_eq_some_iff] at hr
    obtain ⟨m, hm, rfl⟩ := hr
    obtain ⟨h1, _⟩ := (npMin_spec _).2 m hm
    obtain ⟨y, hy, rfl⟩ := List.mem_map.mp h1
    apply div_pos _ (by norm_num)
    rw [distance_mag]
    apply lt_of_le_of_ne (mag_nonneg _)
    intro h0
    have hsq := mag_sq ((f s).sub y)
    rw [← h0] at hsq
    apply hx
    simp only [V3.sub] at hsq
    have : f s = y := by
      ext
      · nlinarith [sq_nonneg ((f s).x - y.x), sq_nonneg ((f s).y - y.y), sq_nonneg ((f s).z - y.z)]
      · nlinarith [sq_nonneg ((f s).x - y.x), sq_nonneg ((f s).y - y.y), sq_nonneg ((f s).z - y.z)]
      · nlinarith [sq_nonneg ((f s).x - y.x), sq_nonneg ((f s).y - y.y), sq_nonneg ((f s).z - y.z)]
    rwa [this]

/-- The upper corners at longitudes 0 and 90 of the equator are different. -/
example : fromPoint (atSurface ⟨⟨0, 0, 3⟩, ⟨90, 0, 3⟩, ⟨90, 0, 9⟩, ⟨0, 0, 9⟩⟩).p0 ≠
    fromPoint (atSurface ⟨⟨0, 0, 3⟩, ⟨90, 0, 3⟩, ⟨90, 0, 9⟩, ⟨0, 0, 9⟩⟩).p1 := by
  intro h
  have h' := congrArg V3.x h
  simp only [atSurface, equator_ecef] at h'
  rw [cos_90.1] at h'
  simp [wgsA] at h'

end Verif.Props
