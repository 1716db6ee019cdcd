import Verif.Props.Openquake
import Verif.Spec.Longitude

/-!
# Longitudes and boxes (C79, C80, C124)
-/

namespace Verif.Props
open Real Verif.Oq Verif.Spec
open Verif.Vec (npMod)

theorem extent_mod (a b : ℝ) : ∃ k : ℤ, longitudinalExtent a b = b - a + 360 * k :=
  ⟨-⌊(b - a + 180) / 360⌋, by unfold longitudinalExtent npMod; push_cast; ring⟩

theorem extent_range (a b : ℝ) : -180 ≤ longitudinalExtent a b ∧ longitudinalExtent a b < 180 := by
  have := npMod_range (b - a + 180) (m := 360) (by norm_num)
  unfold longitudinalExtent
  constructor <;> linarith [this.1, this.2]

/-- The only number of the range congruent to the difference. -/
theorem extent_unique {a b x : ℝ} (k : ℤ) (h : x = b - a + 360 * k) (h0 : -180 ≤ x) (h1 : x < 180) :
    longitudinalExtent a b = x := by
  obtain ⟨m, hm⟩ := extent_mod a b
  obtain ⟨r0, r1⟩ := extent_range a b
  have : m = k := by
    have e1 : ((m - k : ℤ) : ℝ) < 1 := by push_cast; linarith
    have e2 : (-1 : ℝ) < ((m - k : ℤ) : ℝ) := by push_cast; linarith
    have e1' : m - k < 1 := by exact_mod_cast e1
    have e2' : -1 < m - k := by exact_mod_cast e2
    omega
  rw [hm, h, this]

/-- **C79.** The extent lies in [-180, 180), it leads from the first meridian to the second one, it is the only such number,
and the extent in the opposite direction is its negative, unless it is -180, where both are. -/
theorem C79_extent (lon1 lon2 : ℝ) :
    -180 ≤ longitudinalExtent lon1 lon2 ∧ longitudinalExtent lon1 lon2 < 180 ∧
    SameMeridian lon2 (lon1 + longitudinalExtent lon1 lon2) ∧
    (∀ x, -180 ≤ x → x < 180 → SameMeridian lon2 (lon1 + x) → x = longitudinalExtent lon1 lon2) ∧
    (longitudinalExtent lon1 lon2 ≠ -180 → longitudinalExtent lon2 lon1 = -longitudinalExtent lon1 lon2) ∧
    (longitudinalExtent lon1 lon2 = -180 → longitudinalExtent lon2 lon1 = -180) := by
  obtain ⟨r0, r1⟩ := extent_range lon1 lon2
  obtain ⟨k, hk⟩ := extent_mod lon1 lon2
  refine ⟨r0, r1, ⟨k, by rw [hk]; ring⟩, ?_, ?_, ?_⟩
  · rintro x h0 h1 ⟨m, hm⟩
    exact (extent_unique m (by linarith) h0 h1).symm
  · intro hne
    exact extent_unique (-k) (by rw [hk]; push_cast; ring) (by linarith) (by
      rcases lt_or_eq_of_le r0 with h | h
      · linarith
      · exact absurd h.symm hne)
  · intro h
    exact extent_unique (-1 - k) (by rw [h] at hk; push_cast; linarith) le_rfl (by norm_num)

/-- Across the date line, and half a turn. -/
example : longitudinalExtent 170 (-170) = 20 ∧ longitudinalExtent 0 180 = -180 :=
  ⟨extent_unique 1 (by norm_num) (by norm_num) (by norm_num), extent_unique (-1) (by norm_num) (by norm_num) (by norm_num)⟩

/-! ### Smallest and largest -/

theorem lonMin_spec (a : ℝ) (l : List ℝ) : npMin a l ∈ a :: l ∧ ∀ x ∈ a :: l, npMin a l ≤ x := by
  unfold npMin
  induction l generalizing a with
  | nil => simp
  | cons b l ih =>
    obtain ⟨h1, h2⟩ := ih (min a b)
    simp only [List.foldl_cons]
    constructor
    · rcases List.mem_cons.mp h1 with h | h
      · rw [h]
        rcases min_choice a b with e | e <;> simp [e]
      · simp [h]
    · intro x hx
      have hm := h2 (min a b) (by simp)
      rcases List.mem_cons.mp hx with rfl | hx
      · exact hm.trans (min_le_left _ _)
      · rcases List.mem_cons.mp hx with rfl | hx
        · exact hm.trans (min_le_right _ _)
        · exact h2 x (by simp [hx])

theorem lonMax_spec (a : ℝ) (l : List ℝ) : npMax a l ∈ a :: l ∧ ∀ x ∈ a :: l, x ≤ npMax a l := by
  unfold npMax
  induction l generalizing a with
  | nil => simp
  | cons b l ih =>
    obtain ⟨h1, h2⟩ := ih (max a b)
    simp only [List.foldl_cons]
    constructor
    · rcases List.mem_cons.mp h1 with h | h
      · rw [h]
        rcases max_choice a b with e | e <;> simp [e]
      · simp [h]
    · intro x hx
      have hm := h2 (max a b) (by simp)
      rcases List.mem_cons.mp hx with rfl | hx
      · exact (le_max_left _ _).trans hm
      · rcases List.mem_cons.mp hx with rfl | hx
        · exact (le_max_right _ _).trans hm
        · exact h2 x (by simp [hx])

theorem pyMin_some {l : List ℝ} {m : ℝ} (h : pyMin l = some m) : m ∈ l ∧ ∀ x ∈ l, m ≤ x := by
  cases l with
  | nil => simp [pyMin] at h
  | cons a l => simp only [pyMin, Option.some.injEq] at h; rw [← h]; exact lonMin_spec a l

theorem pyMax_some {l : List ℝ} {m : ℝ} (h : pyMax l = some m) : m ∈ l ∧ ∀ x ∈ l, x ≤ m := by
  cases l with
  | nil => simp [pyMax] at h
  | cons a l => simp only [pyMax, Option.some.injEq] at h; rw [← h]; exact lonMax_spec a l

theorem pyMin_ex {l : List ℝ} (h : l ≠ []) : ∃ m, pyMin l = some m := by
  cases l with
  | nil => exact absurd rfl h
  | cons a l => exact ⟨_, rfl⟩

theorem pyMax_ex {l : List ℝ} (h : l ≠ []) : ∃ m, pyMax l = some m := by
  cases l with
  | nil => exact absurd rfl h
  | cons a l => exact ⟨_, rfl⟩

/-! ### The date line -/

/-- **C80**, longitudes. `fix_lons_idl` keeps the number and the meridians of all longitudes. It flags a crossing exactly if
the smallest is negative, the largest is positive and they are more than 180 degrees apart; then all of them are in
[0, 360) for longitudes in [-360, 360), otherwise they are returned unchanged. -/
theorem C80_fix_lons (lons : List ℝ) (hne : lons ≠ []) : ∃ new flag, fixLonsIdl lons = some (new, flag) ∧
    List.Forall₂ SameMeridian lons new ∧
    (flag = true ↔ ∃ a ∈ lons, ∃ b ∈ lons, (∀ x ∈ lons, a ≤ x ∧ x ≤ b) ∧ a < 0 ∧ 0 < b ∧ b - a > 180) ∧
    (flag = true → (∀ x ∈ lons, -360 ≤ x ∧ x < 360) → ∀ x ∈ new, 0 ≤ x ∧ x < 360) ∧
    (flag = false → new = lons) := by
  obtain ⟨lo, hlo⟩ := pyMin_ex hne
  obtain ⟨hi, hhi⟩ := pyMax_ex hne
  obtain ⟨l1, l2⟩ := pyMin_some hlo
  obtain ⟨u1, u2⟩ := pyMax_some hhi
  have hiff : crossIdl lo hi = true ↔ ∃ a ∈ lons, ∃ b ∈ lons, (∀ x ∈ lons, a ≤ x ∧ x ≤ b) ∧ a < 0 ∧ 0 < b ∧ b - a > 180 := by
    unfold crossIdl
    rw [decide_eq_true_iff]
    have hle : lo ≤ hi := l2 hi u1
    constructor
    · rintro ⟨h1, h2⟩
      refine ⟨lo, l1, hi, u1, fun x hx => ⟨l2 x hx, u2 x hx⟩, ?_, ?_, ?_⟩
      · by_contra hc
        have := mul_nonneg (not_lt.mp hc) ((not_lt.mp hc).trans hle)
        linarith
      · by_contra hc
        have := mul_nonneg_of_nonpos_of_nonpos (hle.trans (not_lt.mp hc)) (not_lt.mp hc)
        linarith
      · rw [abs_sub_comm, abs_of_nonneg (by linarith)] at h2
        exact h2
    · rintro ⟨a, ha, b, hb, hab, h0, h1, h2⟩
      have e1 : lo = a := le_antisymm (l2 a ha) (hab lo l1).1
      have e2 : hi = b := le_antisymm (hab hi u1).2 (u2 b hb)
      rw [e1, e2]
      exact ⟨mul_neg_of_neg_of_pos h0 h1, by rw [abs_sub_comm]; exact lt_of_lt_of_le h2 (le_abs_self _)⟩
  unfold fixLonsIdl
  rw [hlo, hhi]
  simp only
  by_cases hc : crossIdl lo hi = true
  · rw [if_pos hc]
    refine ⟨_, _, rfl, ?_, by rw [← hiff]; simp [hc], ?_, by simp⟩
    · rw [List.forall₂_map_right_iff]
      apply List.forall₂_same.mpr
      intro x _
      by_cases hx : x < 0
      · exact ⟨1, by rw [if_pos hx]; push_cast; ring⟩
      · exact ⟨0, by rw [if_neg hx]; push_cast; ring⟩
    · intro _ hr x hx
      obtain ⟨y, hy, rfl⟩ := List.mem_map.mp hx
      by_cases h0 : y < 0
      · rw [if_pos h0]; constructor <;> linarith [(hr y hy).1]
      · rw [if_neg h0]; exact ⟨not_lt.mp h0, (hr y hy).2⟩
  · rw [if_neg hc]
    refine ⟨_, _, rfl, List.forall₂_same.mpr fun x _ => ⟨0, by simp⟩, by rw [← hiff]; simp [hc], by simp, fun _ => rfl⟩

/-- Two points either side of the date line. -/
example : fixLonsIdl [170, -170] = some ([170, 190], true) := by
  unfold fixLonsIdl pyMin pyMax npMin npMax crossIdl
  norm_num

/-- **C80**, boxes: a box whose west and east are given as the smallest and the largest longitude, on different sides of the
date line, becomes a box from the eastern to the western hemisphere in increasing longitudes: its sides are on the
meridians of the other sides. Other boxes are returned unchanged. -/
theorem C80_fix_box_partial (bb : Box) (h : -180 ≤ bb.minLon) (hle : bb.minLon ≤ bb.maxLon) (hu : bb.maxLon ≤ 180) :
    ∃ new, fixBoxIdl bb false = some new ∧ new.minLon ≤ new.maxLon ∧ new.minLat = bb.minLat ∧ new.maxLat = bb.maxLat ∧
      ((bb.minLon < 0 ∧ 0 < bb.maxLon ∧ bb.maxLon - bb.minLon > 180) → new.minLon = bb.maxLon ∧ new.maxLon = bb.minLon + 360 ∧
        new.maxLon - new.minLon < 180) ∧
      (¬ (bb.minLon < 0 ∧ 0 < bb.maxLon ∧ bb.maxLon - bb.minLon > 180) → new = bb) := by
  have hiff : crossIdl bb.minLon bb.maxLon = true ↔ (bb.minLon < 0 ∧ 0 < bb.maxLon ∧ bb.maxLon - bb.minLon > 180) := by
    unfold crossIdl
    rw [decide_eq_true_iff, abs_sub_comm, abs_of_nonneg (by linarith)]
    constructor
    · rintro ⟨h1, h2⟩
      exact ⟨by nlinarith, by nlinarith, h2⟩
    · rintro ⟨h1, h2, h3⟩
      exact ⟨mul_neg_of_neg_of_pos h1 h2, h3⟩
  unfold fixBoxIdl
  by_cases hc : bb.minLon < 0 ∧ 0 < bb.maxLon ∧ bb.maxLon - bb.minLon > 180
  · rw [if_pos (Or.inl (hiff.mpr hc)), if_pos ⟨hc.1, hc.2.1⟩]
    exact ⟨_, rfl, by simp only; linarith, rfl, rfl, fun _ => ⟨rfl, rfl, by simp only; linarith⟩, fun hn => absurd hc hn⟩
  · rw [if_neg (by simp [hiff]; simpa using hc)]
    exact ⟨bb, rfl, hle, rfl, rfl, fun h => absurd h hc, fun _ => rfl⟩

/-- **C80** violated: a box that crosses the date line, given from its west to its east as usual, comes back with the smallest
longitude above the largest; a box with a side on the meridian of Greenwich has no result if the fix is asked for; and
the fix makes the complement of a box around Greenwich. -/
theorem C80_fix_box_violated (minLat maxLat : ℝ) :
    (∀ w e, 0 < w → w ≤ 180 → -180 ≤ e → e < 0 → w - e > 180 →
      ∃ new, fixBoxIdl ⟨w, minLat, e, maxLat⟩ false = some new ∧ new.maxLon ≤ new.minLon ∧ (w < e + 360 → new.maxLon < new.minLon)) ∧
    (∀ a b, (a = 0 ∨ b = 0) → -180 ≤ a → a ≤ 180 → -180 ≤ b → b ≤ 180 → fixBoxIdl ⟨a, minLat, b, maxLat⟩ true = none) ∧
    (∀ a b, a < 0 → 0 < b → fixBoxIdl ⟨a, minLat, b, maxLat⟩ true = some ⟨b, minLat, a + 360, maxLat⟩) := by
  refine ⟨?_, ?_, ?_⟩
  · intro w e h1 h2 h3 h4 h5
    have hc : crossIdl w e = true := by
      unfold crossIdl
      rw [decide_eq_true_iff]
      exact ⟨mul_neg_of_pos_of_neg h1 h4, lt_of_lt_of_le h5 (le_abs_self _)⟩
    unfold fixBoxIdl
    rw [if_pos (Or.inl hc), if_neg (by simp only; intro h; linarith [h.1]), if_neg (by simp only; intro h; linarith [h.1]),
      if_neg (by simp only; intro h; linarith [h.2]), if_pos ⟨h1, h4⟩]
    exact ⟨_, rfl, by simp only; linarith, fun h => h⟩
  · intro a b h h1 h2 h3 h4
    unfold fixBoxIdl
    rw [if_pos (Or.inr rfl)]
    simp only
    rcases h with rfl | rfl
    · simp
    · simp
  · intro a b h1 h2
    unfold fixBoxIdl
    rw [if_pos (Or.inr rfl), if_pos ⟨h1, h2⟩]

end Verif.Props
