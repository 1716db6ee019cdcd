import Verif.Model.PyBase
import Mathlib.Order.Basic

/-!
# `argmin` returns the first minimum
-/

namespace Verif.Py

theorem argminAux_spec {α : Type} [LinearOrder α] (xs : List α) :
    ∀ (pre : List α) (bi : ℕ) (b : α), pre[bi]? = some b → (∀ y ∈ pre, b ≤ y) →
      (∀ j y, j < bi → pre[j]? = some y → b < y) →
      ∃ m, (pre ++ xs)[argminAux xs pre.length bi b]? = some m ∧ (∀ y ∈ pre ++ xs, m ≤ y) ∧
        ∀ j y, j < argminAux xs pre.length bi b → (pre ++ xs)[j]? = some y → m < y := by
  induction xs with
  | nil =>
    intro pre bi b h1 h2 h3
    refine ⟨b, ?_, ?_, ?_⟩ <;> simpa [argminAux] using by assumption
  | cons x xs ih =>
    intro pre bi b h1 h2 h3
    unfold argminAux
    have hlen : pre.length + 1 = (pre ++ [x]).length := by simp
    have happ : pre ++ x :: xs = (pre ++ [x]) ++ xs := by simp
    have hbi : bi < pre.length := by
      by_contra hc
      rw [List.getElem?_eq_none (by omega)] at h1
      cases h1
    by_cases hx : x < b
    · rw [if_pos hx, happ, hlen]
      apply ih (pre ++ [x]) pre.length x
      · simp
      · intro y hy
        rcases List.mem_append.1 hy with hy | hy
        · exact hx.le.trans (h2 y hy)
        · simp at hy; exact hy.ge
      · intro j y hj hjy
        rw [List.getElem?_append_left hj] at hjy
        exact lt_of_lt_of_le hx (h2 y (List.mem_of_getElem? hjy))
    · rw [if_neg hx, happ, hlen]
      apply ih (pre ++ [x]) bi b
      · rw [List.getElem?_append_left hbi]; exact h1
      · intro y hy
        rcases List.mem_append.1 hy with hy | hy
        · exact h2 y hy
        · simp at hy; rw [hy]; exact not_lt.1 hx
      · intro j y hj hjy
        rw [List.getElem?_append_left (by omega)] at hjy
        exact h3 j y hj hjy

/-- `argmin` of a non-empty list is the index of an element that no element beats, and every earlier
element is strictly larger. -/
theorem argmin_spec {α : Type} [LinearOrder α] (l : List α) (h : l ≠ []) :
    ∃ i m, argmin l = some i ∧ l[i]? = some m ∧ (∀ y ∈ l, m ≤ y) ∧
      ∀ j y, j < i → l[j]? = some y → m < y := by
  cases l with
  | nil => exact absurd rfl h
  | cons x xs =>
    obtain ⟨m, h1, h2, h3⟩ := argminAux_spec xs [x] 0 x rfl (by simp) (by simp)
    exact ⟨_, m, rfl, h1, h2, h3⟩

end Verif.Py
