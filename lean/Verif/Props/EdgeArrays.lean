import Verif.Props.EdgeRupture

/-!
# Ruptures of edges from arrays: C112
-/

namespace Verif.Props
open Verif.EdgeR
open Verif.Spec (outline)

/-- The elements of an array whose group number is `g`, in order. -/
def pick {α : Type} (l : List α) (idx : List ℕ) (g : ℕ) : List α :=
  ((l.zip idx).filter fun p => p.2 = g).map Prod.fst

theorem atIdx_succ {α : Type} (a : α) (l : List α) (ind : List ℕ) :
    atIdx (a :: l) (ind.map (1 + ·)) = atIdx l ind := by
  unfold atIdx
  rw [List.filterMap_map]
  congr 1
  funext i
  simp [Nat.add_comm 1 i]

theorem atIdx_append {α : Type} (l : List α) (a b : List ℕ) : atIdx l (a ++ b) = atIdx l a ++ atIdx l b := by
  unfold atIdx; rw [List.filterMap_append]

theorem atIdx_pick {α : Type} (l : List α) (idx : List ℕ) (h : l.length = idx.length) (g : ℕ) :
    atIdx l (members idx g) = pick l idx g := by
  induction l generalizing idx with
  | nil =>
    cases idx with
    | nil => rfl
    | cons => simp at h
  | cons a l ih =>
    cases idx with
    | nil => simp at h
    | cons i idx =>
      have e := members_append [i] idx g
      rw [List.singleton_append, List.length_singleton] at e
      rw [e, atIdx_append, atIdx_succ, ih idx (by simpa using h)]
      unfold pick
      rw [List.zip_cons_cons]
      by_cases hg : i = g
      · subst hg
        have : members [i] i = [0] := members_replicate 1 i
        rw [this, List.filter_cons_of_pos (by simp)]
        rfl
      · rw [members_none (by simpa using fun h => hg h.symm), List.filter_cons_of_neg (by simpa using hg)]
        rfl

theorem pick_length {α β : Type} (l : List α) (m : List β) (idx : List ℕ) (h1 : l.length = idx.length)
    (h2 : m.length = idx.length) (g : ℕ) : (pick l idx g).length = (pick m idx g).length := by
  rw [← atIdx_pick l idx h1, ← atIdx_pick m idx h2]
  have key : ∀ {γ : Type} (l : List γ), l.length = idx.length →
      (atIdx l (members idx g)).length = (members idx g).length := by
    intro γ l h
    unfold atIdx
    have : (members idx g).filterMap (fun i => l[i]?) = (members idx g).attach.filterMap (fun i => l[i.1]?) := by
      conv_lhs => rw [← List.attach_map_subtype_val (members idx g)]
      rw [List.filterMap_map]
      rfl
    rw [this]
    have hs : ∀ i ∈ (members idx g).attach, (l[i.1]?).isSome := by
      rintro ⟨i, hi⟩ _
      unfold members at hi
      rw [List.mem_filter, List.mem_range] at hi
      simp [h, hi.1]
    rw [List.length_filterMap_eq_countP, List.countP_eq_length.mpr hs, List.length_attach]
  rw [key l h1, key m h2]

theorem pick_ne_nil {α : Type} (l : List α) (idx : List ℕ) (h : l.length = idx.length) (g : ℕ) (hg : g ∈ idx) :
    pick l idx g ≠ [] := by
  induction l generalizing idx with
  | nil =>
    cases idx with
    | nil => simp at hg
    | cons => simp at h
  | cons a l ih =>
    cases idx with
    | nil => simp at h
    | cons i idx =>
      unfold pick
      rw [List.zip_cons_cons]
      by_cases hi : i = g
      · rw [List.filter_cons_of_pos (by simpa using hi)]; simp
      · rw [List.filter_cons_of_neg (by simpa using hi)]
        rcases List.mem_cons.mp hg with h' | h'
        · exact absurd h'.symm hi
        · exact ih idx (by simpa using h) h'

theorem fromArrays_outline {α : Type} (top bot : List α) (idx : List ℕ) (h1 : top.length = idx.length)
    (h2 : bot.length = idx.length) :
    fromArrays top bot (some idx) = (uniqueNat idx).map fun g => outline (pick top idx g) (pick bot idx g) := by
  unfold fromArrays
  simp only [Option.getD_some]
  apply List.map_congr_left
  intro g _
  rw [atIdx_pick top idx h1, atIdx_pick bot idx h2]
  rfl

/-- **C112.** A rupture made with `fromArrays` has one group for each of the group numbers, in increasing order of
number. Each group consists of the points with that number, in their order, the upper and the lower points alike,
and the groups are numbered from 0. The polygons of the rupture are the outlines of the groups. Without a group index
the points are a single group, as given. -/
theorem C112_from_arrays {α : Type} (top bot : List α) (h : bot.length = top.length) :
    (∀ idx : List ℕ, idx.length = top.length →
      ∃ gs : List ℕ, gs.Pairwise (· < ·) ∧ (∀ g, g ∈ gs ↔ g ∈ idx) ∧
        fromArrays top bot (some idx) = gs.map (fun g => outline (pick top idx g) (pick bot idx g)) ∧
        ofPolygons (fromArrays top bot (some idx)) =
          ⟨gs.flatMap (pick top idx), gs.flatMap (pick bot idx), numbers 0 (gs.map fun g => (pick top idx g).length)⟩) ∧
    (top ≠ [] → fromArrays top bot none = [outline top bot] ∧
      ofPolygons (fromArrays top bot none) = ⟨top, bot, List.replicate top.length 0⟩) := by
  have hmain : ∀ idx : List ℕ, idx.length = top.length →
      fromArrays top bot (some idx) = (uniqueNat idx).map (fun g => outline (pick top idx g) (pick bot idx g)) ∧
        ofPolygons (fromArrays top bot (some idx)) =
          ⟨(uniqueNat idx).flatMap (pick top idx), (uniqueNat idx).flatMap (pick bot idx),
           numbers 0 ((uniqueNat idx).map fun g => (pick top idx g).length)⟩ := by
    intro idx hi
    have e := fromArrays_outline top bot idx hi.symm (by omega)
    refine ⟨e, ?_⟩
    have e2 := addPolygons_outline ((uniqueNat idx).map fun g => (pick top idx g, pick bot idx g)) (by
      intro tb htb
      obtain ⟨g, hg, rfl⟩ := List.mem_map.mp htb
      have hg : g ∈ idx := by
        unfold uniqueNat at hg
        rw [Finset.mem_sort, List.mem_toFinset] at hg
        exact hg
      exact ⟨pick_length top bot idx hi.symm (by omega) g, pick_ne_nil top idx hi.symm g hg⟩) ⟨[], [], []⟩ 0
    rw [List.map_map] at e2
    rw [e]
    unfold ofPolygons
    refine Eq.trans e2 ?_
    simp [List.flatMap_map, Function.comp_def]
  constructor
  · intro idx hi
    refine ⟨uniqueNat idx, ?_, ?_, hmain idx hi⟩
    · exact Finset.sortedLT_sort _ |>.pairwise
    · intro g
      unfold uniqueNat
      rw [Finset.mem_sort, List.mem_toFinset]
  · intro hne
    have hu : uniqueNat (List.replicate top.length 0) = [0] := by
      have hpos : 0 < top.length := List.length_pos_iff.mpr hne
      have := unique_numbers [top.length] (by simpa using hpos) 0
      simpa [numbers] using this
    have hp : ∀ l : List α, l.length = top.length → pick l (List.replicate top.length 0) 0 = l := by
      intro l hl
      unfold pick
      rw [List.filter_eq_self.mpr]
      · rw [List.map_fst_zip]; simp [hl]
      · intro p hp
        have := (List.of_mem_zip hp).2
        simpa using List.eq_of_mem_replicate this
    have e := hmain (List.replicate top.length 0) (by simp)
    rw [hu] at e
    simp only [List.map_cons, List.map_nil, List.flatMap_cons, List.flatMap_nil, List.append_nil, hp top rfl, hp bot h,
      numbers] at e
    exact e

/-- Two groups whose points alternate. -/
example : ofPolygons (fromArrays ["a", "b", "c", "d"] ["A", "B", "C", "D"] (some [7, 3, 7, 3])) =
    ⟨["b", "d", "a", "c"], ["B", "D", "A", "C"], [0, 0, 1, 1]⟩ := by
  have hu : uniqueNat [7, 3, 7, 3] = [3, 7] := by
    unfold uniqueNat
    rw [show [7, 3, 7, 3].toFinset = [3, 7].toFinset by decide, List.toFinset_sort] <;> decide
  rw [fromArrays_outline ["a", "b", "c", "d"] ["A", "B", "C", "D"] [7, 3, 7, 3] rfl rfl, hu]
  rfl

end Verif.Props
