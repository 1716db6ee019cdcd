import Mathlib.Data.List.Perm.Subperm
import Mathlib.Algebra.Order.Ring.Rat
import Mathlib.Order.Bounds.Basic

/-!
# What "keep exactly these, in order" and "the k best" mean

These specifications mention no model definition.
-/

namespace Verif.Spec

/-- `new` is obtained from `old` by deleting exactly the elements that do not satisfy `P`: order is
kept, elements satisfying `P` occur as often as before, the others do not occur. -/
def KeepsExactly {α : Type} [DecidableEq α] (P : α → Prop) (old new : List α) : Prop :=
  new.Sublist old ∧ (∀ a, P a → new.count a = old.count a) ∧ (∀ a, ¬ P a → a ∉ new)

/-- `kept` is a choice of the `k` elements of `pool` with the greatest `score` (all of them when
there are fewer than `k`). -/
def TopK {α : Type} (score : α → ℚ) (k : ℕ) (pool kept : List α) : Prop :=
  ∃ rest, (kept ++ rest).Perm pool ∧ kept.length = min k pool.length ∧
    ∀ a ∈ kept, ∀ b ∈ rest, score b ≤ score a

/-- A sorting function for decreasing `score`, with no promise about ties. -/
def SortsDown {α : Type} (score : α → ℚ) (sort : List α → List α) : Prop :=
  ∀ xs, (sort xs).Perm xs ∧ (sort xs).Pairwise (fun a b => score b ≤ score a)

/-- `(lon, lat)` lies in column `j` and row `i` of the `nx` by `ny` grid over the rectangle
`[xmin, xmax] × [ymin, ymax]`; cells are open on the west and south, closed on the east and north. -/
def InCell (xmin xmax ymin ymax : ℚ) (nx ny i j : ℕ) (lon lat : ℚ) : Prop :=
  xmin + (xmax - xmin) * j / nx < lon ∧ lon ≤ xmin + (xmax - xmin) * (j + 1) / nx ∧
  ymin + (ymax - ymin) * i / ny < lat ∧ lat ≤ ymin + (ymax - ymin) * (i + 1) / ny

instance (xmin xmax ymin ymax : ℚ) (nx ny i j : ℕ) (lon lat : ℚ) :
    Decidable (InCell xmin xmax ymin ymax nx ny i j lon lat) := by
  unfold InCell; infer_instance

/-- Deleting the elements that fail a test. -/
theorem keepsExactly_filter {α : Type} [DecidableEq α] (P : α → Prop) (p : α → Bool)
    (h : ∀ a, p a = true ↔ P a) (xs : List α) : KeepsExactly P xs (xs.filter p) := by
  refine ⟨List.filter_sublist, ?_, ?_⟩
  · intro a ha
    exact List.count_filter ((h a).2 ha)
  · intro a ha hm
    exact ha ((h a).1 (List.mem_filter.1 hm).2)

/-- The specification determines the result. -/
theorem keepsExactly_unique {α : Type} [DecidableEq α] (P : α → Prop) [DecidablePred P]
    (old new : List α) (h : KeepsExactly P old new) : new = old.filter (fun a => decide (P a)) := by
  obtain ⟨h1, h2, h3⟩ := h
  have hs : new.Sublist (old.filter (fun a => decide (P a))) := by
    have := h1.filter (fun a => decide (P a))
    rwa [List.filter_eq_self.2] at this
    intro a ha
    by_contra hc
    exact h3 a (by simpa using hc) ha
  apply hs.eq_of_length_le
  apply List.Subperm.length_le
  rw [List.subperm_ext_iff]
  intro a ha
  have hP : P a := by simpa using (List.mem_filter.1 ha).2
  rw [List.count_filter (by simpa using hP), h2 a hP]

end Verif.Spec
