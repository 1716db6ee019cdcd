import Verif.Model.OqPoints
import Verif.Spec.PlaneFit
import Mathlib.LinearAlgebra.Matrix.DotProduct
import Mathlib.Tactic.Linarith
import Mathlib.Tactic.LinearCombination
import Mathlib.Tactic.FieldSimp

/-!
# C145: fitting a plane
-/

namespace Verif.Props
open Matrix Verif.Oq Verif.Spec

/-- A column of the first factor belongs to its singular value. -/
theorem firstFactor_eigen {m u : Matrix (Fin 3) (Fin 3) ℝ} (hs : mᵀ = m) (hpos : ∀ w : Fin 3 → ℝ, 0 ≤ w ⬝ᵥ m *ᵥ w)
    {s : Fin 3 → ℝ} {v : Matrix (Fin 3) (Fin 3) ℝ} (hm : m = u * diagonal s * v) (hu : uᵀ * u = 1)
    (hv : v * vᵀ = 1) (h0 : ∀ i, 0 ≤ s i) (i : Fin 3) : m *ᵥ u.col i = s i • u.col i := by
  have hmm : m * m = u * diagonal (fun i => s i ^ 2) * uᵀ := by
    have h1 : m * m = m * mᵀ := by rw [hs]
    rw [h1, hm, transpose_mul, transpose_mul, diagonal_transpose]
    calc u * diagonal s * v * (vᵀ * (diagonal s * uᵀ))
        = u * diagonal s * (v * vᵀ) * (diagonal s * uᵀ) := by simp only [Matrix.mul_assoc]
      _ = u * (diagonal s * diagonal s) * uᵀ := by rw [hv]; simp only [Matrix.mul_one, Matrix.mul_assoc]
      _ = _ := by rw [diagonal_mul_diagonal]; simp only [sq]
  have hcol : u.col i = u *ᵥ Pi.single i 1 := by rw [mulVec_single_one]
  have h2 : m *ᵥ (m *ᵥ u.col i) = s i ^ 2 • u.col i := by
    rw [mulVec_mulVec, hmm, hcol, mulVec_mulVec, Matrix.mul_assoc, hu, Matrix.mul_one, ← mulVec_mulVec]
    rw [show diagonal (fun i => s i ^ 2) *ᵥ Pi.single i (1 : ℝ) = s i ^ 2 • Pi.single i 1 by
      ext j
      rw [mulVec_diagonal]
      by_cases hj : j = i
      · subst hj; simp
      · simp [hj]]
    rw [mulVec_smul]
  set x := u.col i
  set r := s i
  have hr : 0 ≤ r := h0 i
  have hz : m *ᵥ x - r • x = 0 := by
    by_cases hr0 : r = 0
    · rw [hr0] at h2 ⊢
      have : (m *ᵥ x) ⬝ᵥ (m *ᵥ x) = 0 := by
        rw [dotProduct_mulVec, ← mulVec_transpose, hs, h2]; simp
      rw [dotProduct_self_eq_zero] at this
      rw [this]; simp
    · have hrp : 0 < r := lt_of_le_of_ne hr (Ne.symm hr0)
      set y := m *ᵥ x - r • x
      have hy : m *ᵥ y = -(r • y) := by
        simp only [y]
        rw [mulVec_sub, mulVec_smul, h2, smul_sub, smul_smul, sq]
        abel
      have h3 := hpos y
      rw [hy, dotProduct_neg, dotProduct_smul, smul_eq_mul] at h3
      have h4 : 0 ≤ y ⬝ᵥ y := by
        simp only [dotProduct]; exact Finset.sum_nonneg fun j _ => mul_self_nonneg _
      have h5 : y ⬝ᵥ y = 0 := by nlinarith
      exact dotProduct_self_eq_zero.1 h5
  exact sub_eq_zero.1 hz

/-- The last column of the first factor makes the quadratic form least. -/
theorem firstFactor_least {m u : Matrix (Fin 3) (Fin 3) ℝ} (hs : mᵀ = m) (hpos : ∀ w : Fin 3 → ℝ, 0 ≤ w ⬝ᵥ m *ᵥ w)
    (h : FirstFactor m u) : u.col 2 ⬝ᵥ u.col 2 = 1 ∧
      ∀ w : Fin 3 → ℝ, w ⬝ᵥ w = 1 → u.col 2 ⬝ᵥ m *ᵥ u.col 2 ≤ w ⬝ᵥ m *ᵥ w := by
  obtain ⟨s, v, hm, hu1, hu2, hv1, hv2, h0, h1, h2⟩ := h
  have horth : ∀ i j, u.col i ⬝ᵥ u.col j = if i = j then 1 else 0 := by
    intro i j
    have := congrFun (congrFun hu2 i) j
    rw [Matrix.mul_apply, Matrix.one_apply] at this
    exact this
  refine ⟨by rw [horth]; simp, ?_⟩
  intro w hw
  have heig := firstFactor_eigen hs hpos hm hu2 hv1 h0
  -- the coordinates of `w`
  have hexp : w = ∑ i, (u.col i ⬝ᵥ w) • u.col i := by
    have : w = (u * uᵀ) *ᵥ w := by rw [hu1, one_mulVec]
    conv_lhs => rw [this, ← mulVec_mulVec]
    ext k
    simp only [mulVec, dotProduct, Finset.sum_apply, Pi.smul_apply, smul_eq_mul, transpose_apply, Matrix.col_apply]
    exact Finset.sum_congr rfl fun i _ => by ring
  set a := fun i => u.col i ⬝ᵥ w with ha
  have hww : w ⬝ᵥ w = ∑ i, a i ^ 2 := by
    conv_lhs => rw [hexp]
    rw [sum_dotProduct]
    refine Finset.sum_congr rfl fun i _ => ?_
    rw [smul_dotProduct, ← hexp, smul_eq_mul, sq]
  have hmw : w ⬝ᵥ m *ᵥ w = ∑ i, s i * a i ^ 2 := by
    conv_lhs => rw [hexp]
    rw [sum_dotProduct]
    refine Finset.sum_congr rfl fun i _ => ?_
    rw [smul_dotProduct, ← hexp, dotProduct_mulVec, ← mulVec_transpose, hs, heig i, smul_dotProduct]
    simp only [smul_eq_mul, ha]
    ring
  rw [heig 2, dotProduct_smul, horth, hmw]
  rw [hww] at hw
  simp only [Fin.sum_univ_three] at hw ⊢
  simp only [if_true, smul_eq_mul, mul_one]
  have e0 := mul_nonneg (sub_nonneg.2 (h2.trans h1)) (sq_nonneg (a 0))
  have e1 := mul_nonneg (sub_nonneg.2 h2) (sq_nonneg (a 1))
  have e2 : s 2 = s 2 * (a 0 ^ 2 + a 1 ^ 2 + a 2 ^ 2) := by rw [hw, mul_one]
  nlinarith

/-- The quadratic form of the matrix of a list of points. -/
theorem scatter_form (pts : List (Fin 3 → ℝ)) (w : Fin 3 → ℝ) :
    w ⬝ᵥ scatter pts *ᵥ w = planeError pts (centre pts) w := by
  unfold planeError scatter
  generalize centre pts = c
  induction pts with
  | nil => simp [dotProduct, mulVec, Fin.sum_univ_three]
  | cons p pts ih =>
    simp only [List.map_cons, List.sum_cons]
    rw [← ih]
    simp [dotProduct, mulVec, Fin.sum_univ_three]
    ring

/-- Moving the plane to the centre makes the error smaller. -/
theorem planeError_centre {pts : List (Fin 3 → ℝ)} (h : pts ≠ []) (c w : Fin 3 → ℝ) :
    planeError pts (centre pts) w ≤ planeError pts c w := by
  have hn : (0 : ℝ) < pts.length := by
    have := List.length_pos_iff.2 h
    exact_mod_cast this
  have key : ∀ (l : List (Fin 3 → ℝ)) (c d : Fin 3 → ℝ), planeError l c w =
      planeError l d w + 2 * (w ⬝ᵥ (d - c)) * (l.map fun p => w ⬝ᵥ (p - d)).sum + l.length * (w ⬝ᵥ (d - c)) ^ 2 := by
    intro l c d
    unfold planeError
    induction l with
    | nil => simp
    | cons p l ih =>
      simp only [List.map_cons, List.sum_cons, List.length_cons]
      rw [ih]
      have : w ⬝ᵥ (p - c) = w ⬝ᵥ (p - d) + w ⬝ᵥ (d - c) := by
        rw [← dotProduct_add]; congr 1; abel
      rw [this]
      push_cast
      ring
  have hzero : (pts.map fun p => w ⬝ᵥ (p - centre pts)).sum = 0 := by
    have h1 : ∀ (l : List (Fin 3 → ℝ)) (d : Fin 3 → ℝ), (l.map fun p => w ⬝ᵥ (p - d)).sum =
        w 0 * ((l.map (· 0)).sum - l.length * d 0) + w 1 * ((l.map (· 1)).sum - l.length * d 1) +
        w 2 * ((l.map (· 2)).sum - l.length * d 2) := by
      intro l d
      induction l with
      | nil => simp
      | cons p l ih =>
        simp only [List.map_cons, List.sum_cons, List.length_cons]
        rw [ih]
        simp [dotProduct, Fin.sum_univ_three]
        ring
    rw [h1]
    unfold centre
    field_simp
    ring
  rw [key pts c (centre pts), hzero]
  have := mul_nonneg hn.le (sq_nonneg (w ⬝ᵥ (centre pts - c)))
  linarith

/-- **C145.** For more than three points, and a function `svd` that returns the first factor of a singular value decomposition of the matrix of the
points: the normal
returned has length 1, and no plane has a smaller sum of squared distances from the points than the plane through the
point returned with this normal. For three points or fewer there is an error. -/
theorem C145_plane_fit {svd : Matrix (Fin 3) (Fin 3) ℝ → Matrix (Fin 3) (Fin 3) ℝ} (pts : List (Fin 3 → ℝ))
    (hsvd : FirstFactor (scatter pts) (svd (scatter pts))) :
    (pts.length ≤ 3 → planeFit svd pts = none) ∧
    (3 < pts.length → ∃ c n, planeFit svd pts = some (c, n) ∧ n ⬝ᵥ n = 1 ∧
      ∀ c' n' : Fin 3 → ℝ, n' ⬝ᵥ n' = 1 → planeError pts c n ≤ planeError pts c' n') := by
  refine ⟨fun h => if_neg (by omega), fun h => ⟨_, _, if_pos h, ?_⟩⟩
  have hs : (scatter pts)ᵀ = scatter pts := by
    ext i j
    simp only [transpose_apply, scatter, Matrix.of_apply]
    congr 1
    exact List.map_congr_left fun p _ => by ring
  have hpos : ∀ w : Fin 3 → ℝ, 0 ≤ w ⬝ᵥ scatter pts *ᵥ w := by
    intro w
    rw [scatter_form]
    exact List.sum_nonneg fun x hx => by
      obtain ⟨p, _, rfl⟩ := List.mem_map.1 hx
      exact sq_nonneg _
  obtain ⟨h1, h2⟩ := firstFactor_least hs hpos hsvd
  refine ⟨h1, fun c' n' hn' => ?_⟩
  have h3 := h2 n' hn'
  rw [scatter_form, scatter_form] at h3
  exact h3.trans (planeError_centre (by intro h0; rw [h0] at h; simp at h) c' n')

/-- Four points of the plane `z = 5`, around the point (0, 0, 5). -/
def planePts : List (Fin 3 → ℝ) := [![2, 0, 5], ![-2, 0, 5], ![0, 1, 5], ![0, -1, 5]]

theorem planePts_centre : centre planePts = ![0, 0, 5] := by
  ext i
  fin_cases i <;> norm_num [centre, planePts]

theorem planePts_scatter : scatter planePts = diagonal ![8, 2, 0] := by
  ext i j
  simp only [scatter, planePts_centre, Matrix.of_apply]
  fin_cases i <;> fin_cases j <;> norm_num [planePts, diagonal]

/-- The four points meet the hypothesis of C145, with the unit matrix as first factor: the plane is `z = 5`. -/
example : FirstFactor (scatter planePts) 1 ∧ 3 < planePts.length ∧
    planeFit (fun _ => 1) planePts = some (![0, 0, 5], ![0, 0, 1]) := by
  refine ⟨⟨![8, 2, 0], 1, by rw [planePts_scatter]; simp, by simp, by simp, by simp, by simp, ?_, ?_, ?_⟩,
    by simp [planePts], ?_⟩
  · intro i; fin_cases i <;> simp
  · norm_num
  · simp
  · unfold planeFit
    rw [if_pos (by simp [planePts]), planePts_centre]
    congr 2
    ext i
    fin_cases i <;> simp [Matrix.one_apply]

end Verif.Props
