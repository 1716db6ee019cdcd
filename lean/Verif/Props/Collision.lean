import Verif.Model.Collision
import Verif.Spec.Selection
import Verif.Spec.Rect
import Verif.Props.Cities
import Mathlib.Tactic.Linarith

/-!
# C24: label collisions
-/

namespace Verif.Props
open Verif Verif.Cities Verif.Collision Verif.Spec

/-- Two boxes share no point. -/
def Apart (a b : Box) : Prop :=
  RectsDisjoint a.left a.right a.bottom a.top b.left b.right b.bottom b.top

/-- A box with non-negative width and height. -/
def Proper (a : Box) : Prop := a.left ≤ a.right ∧ a.bottom ≤ a.top

theorem apart_of_clear {b e : Box} (h : clear b e = true) : Apart b e := by
  rintro x y ⟨⟨h1, h2, h3, h4⟩, ⟨h5, h6, h7, h8⟩⟩
  unfold clear at h
  simp only [Bool.or_eq_true, decide_eq_true_eq, gt_iff_lt] at h
  rcases h with (h | h) | (h | h) <;> linarith

theorem clear_iff_apart {b e : Box} (hb : Proper b) (he : Proper e) :
    clear b e = true ↔ Apart b e := by
  refine ⟨apart_of_clear, ?_⟩
  intro h
  by_contra hc
  unfold clear at hc
  simp only [Bool.or_eq_true, decide_eq_true_eq, gt_iff_lt, not_or, not_lt] at hc
  obtain ⟨⟨h1, h2⟩, ⟨h3, h4⟩⟩ := hc
  obtain ⟨b1, b2⟩ := hb
  obtain ⟨e1, e2⟩ := he
  refine h (max b.left e.left) (max b.bottom e.bottom)
    ⟨⟨le_max_left _ _, ?_, le_max_left _ _, ?_⟩, ⟨le_max_right _ _, ?_, le_max_right _ _, ?_⟩⟩
  all_goals apply max_le <;> assumption

/-- Padding a proper box by a non-negative fraction leaves it proper. -/
theorem proper_cityEdges (extents : City → Box) (padding : ℚ) (hp : 0 ≤ padding) (row : City)
    (h : Proper (extents row)) : Proper (cityEdges extents padding row) := by
  obtain ⟨h1, h2⟩ := h
  have p1 : 0 ≤ ((extents row).right - (extents row).left) * padding :=
    mul_nonneg (by linarith) hp
  have p2 : 0 ≤ ((extents row).top - (extents row).bottom) * padding :=
    mul_nonneg (by linarith) hp
  unfold Proper cityEdges
  simp only
  constructor <;> linarith

theorem keepLoop_sublist (l : List (City × Box)) : ∀ seen, (keepLoop seen l).Sublist l := by
  induction l with
  | nil => intro seen; simp [keepLoop]
  | cons p rest ih =>
    intro seen
    obtain ⟨r, b⟩ := p
    unfold keepLoop
    split_ifs
    · exact (ih _).cons_cons _
    · exact (ih _).cons _

theorem keepLoop_apart (l : List (City × Box)) : ∀ seen,
    (keepLoop seen l).Pairwise (fun p q => Apart q.2 p.2) ∧
    ∀ p ∈ keepLoop seen l, ∀ e ∈ seen, Apart p.2 e := by
  induction l with
  | nil => intro seen; simp [keepLoop]
  | cons p rest ih =>
    intro seen
    obtain ⟨r, b⟩ := p
    obtain ⟨h1, h2⟩ := ih (seen ++ [b])
    unfold keepLoop
    split_ifs with hc
    · refine ⟨List.pairwise_cons.2 ⟨fun q hq => h2 q hq b (by simp), h1⟩, ?_⟩
      intro p hp e he
      rcases List.mem_cons.1 hp with rfl | hp
      · exact apart_of_clear (List.all_eq_true.1 hc e he)
      · exact h2 p hp e (by simp [he])
    · exact ⟨h1, fun p hp e he => h2 p hp e (by simp [he])⟩

/-- Membership in the loop's result, by position. -/
theorem keepLoop_eq (l : List (City × Box)) : ∀ seen, keepLoop seen l =
    ((List.range l.length).filter (fun i => match l[i]? with
      | none => false
      | some p => (seen ++ (l.take i).map Prod.snd).all (fun e => clear p.2 e))).filterMap
        (fun i => l[i]?) := by
  induction l with
  | nil => intro seen; simp [keepLoop]
  | cons p rest ih =>
    intro seen
    obtain ⟨r, b⟩ := p
    rw [keepLoop, ih (seen ++ [b])]
    rw [List.length_cons, List.range_succ_eq_map, List.filter_cons, List.filter_map]
    simp only [List.getElem?_cons_zero, List.take_zero, List.map_nil, List.append_nil]
    have e : ((fun i => match ((r, b) :: rest)[i]? with
        | none => false
        | some p => (seen ++ (((r, b) :: rest).take i).map Prod.snd).all (fun e => clear p.2 e)) ∘
          Nat.succ) = (fun i => match rest[i]? with
        | none => false
        | some p => (seen ++ [b] ++ (rest.take i).map Prod.snd).all (fun e => clear p.2 e)) := by
      funext i
      simp
    rw [e]
    split_ifs with hc
    · rw [List.filterMap_cons]
      simp only [List.getElem?_cons_zero, List.filterMap_map]
      rfl
    · rw [List.filterMap_map]
      rfl

/-- The cities that are on the map with their boxes: those whose box lies within the map's extent,
and the most populous one in any case. -/
def onMap (edges : City → Box) (ax : Box) : List City → List (City × Box)
  | [] => []
  | r :: rs => (r, edges r) :: (rs.filter (fun r => decide (ax.left ≤ (edges r).left ∧
      (edges r).right ≤ ax.right ∧ ax.bottom ≤ (edges r).bottom ∧
      (edges r).top ≤ ax.top))).map (fun r => (r, edges r))

theorem boxes_eq_onMap (edges : City → Box) (ax : Box) (rows : List City) :
    (boundingBoxes edges ax rows).filterMap (fun p => p.2.map (fun b => (p.1, b))) =
      onMap edges ax rows := by
  cases rows with
  | nil => rfl
  | cons r rs =>
    unfold boundingBoxes onMap
    rw [List.filterMap_cons]
    simp only [Option.map_some, List.cons.injEq, true_and]
    induction rs with
    | nil => rfl
    | cons a as ih =>
      rw [List.map_cons, List.filterMap_cons, List.filter_cons, ih]
      by_cases h : ax.left ≤ (edges a).left ∧ (edges a).right ≤ ax.right ∧
          ax.bottom ≤ (edges a).bottom ∧ (edges a).top ≤ ax.top
      · have : offMap ax (edges a) = false := by
          unfold offMap
          obtain ⟨h1, h2, h3, h4⟩ := h
          simp [not_lt.2 h1, not_lt.2 h2, not_lt.2 h3, not_lt.2 h4]
        simp [this, h]
      · have : offMap ax (edges a) = true := by
          unfold offMap
          simp only [not_and_or, not_le] at h
          simp only [Bool.or_eq_true, decide_eq_true_eq, gt_iff_lt]
          tauto
        simp [this, h]

/-- C24: the labels kept have pairwise disjoint boxes, whatever the labels' sizes. -/
theorem C24_disjoint (sort : List City → List City) (edges : City → Box) (ax : Box)
    (rows : List City) :
    (limitByMapCollision sort edges ax rows).Pairwise (fun p q => Apart q.2 p.2) := by
  unfold limitByMapCollision
  rw [boxes_eq_onMap]
  cases sort rows with
  | nil => exact List.Pairwise.nil
  | cons r rs =>
    unfold onMap keepNonOverlapping
    obtain ⟨h1, h2⟩ := keepLoop_apart ((rs.filter (fun r => decide (ax.left ≤ (edges r).left ∧
      (edges r).right ≤ ax.right ∧ ax.bottom ≤ (edges r).bottom ∧
      (edges r).top ≤ ax.top))).map (fun r => (r, edges r))) [edges r]
    exact List.pairwise_cons.2 ⟨fun q hq => h2 q hq _ (by simp), h1⟩

/-- C24: with `cands` the candidates on the map from the most populous down, the cities kept are, in
that order, exactly those whose box is disjoint from the boxes of all earlier candidates. The first
is therefore always kept. -/
theorem C24_kept_iff (sort : List City → List City) (hs : SortsDown City.pop sort)
    (edges : City → Box) (hp : ∀ r, Proper (edges r)) (ax : Box) (rows : List City) :
    ∃ sorted, sorted.Perm rows ∧ sorted.Pairwise (fun a b => b.pop ≤ a.pop) ∧
      (limitByMapCollision sort edges ax rows).Sublist (onMap edges ax sorted) ∧
      ∃ idx : List ℕ, idx.Pairwise (· < ·) ∧
        (∀ i, i ∈ idx ↔ i < (onMap edges ax sorted).length ∧
          ∀ j < i, ∀ p q, (onMap edges ax sorted)[i]? = some p →
            (onMap edges ax sorted)[j]? = some q → Apart p.2 q.2) ∧
        limitByMapCollision sort edges ax rows =
          idx.filterMap (fun i => (onMap edges ax sorted)[i]?) := by
  refine ⟨sort rows, (hs rows).1, (hs rows).2, ?_, ?_⟩
  · unfold limitByMapCollision
    rw [boxes_eq_onMap]
    cases onMap edges ax (sort rows) with
    | nil => exact List.Sublist.slnil
    | cons p l => exact (keepLoop_sublist l _).cons_cons _
  · have hbox : ∀ p ∈ onMap edges ax (sort rows), Proper p.2 := by
      intro p hpm
      cases hsr : sort rows with
      | nil => rw [hsr] at hpm; cases hpm
      | cons r rs =>
        rw [hsr] at hpm
        rcases List.mem_cons.1 hpm with rfl | hpm
        · exact hp r
        · obtain ⟨a, _, rfl⟩ := List.mem_map.1 hpm
          exact hp a
    unfold limitByMapCollision
    rw [boxes_eq_onMap]
    generalize onMap edges ax (sort rows) = l at *
    have hkeep : keepNonOverlapping l = keepLoop [] l := by
      cases l with
      | nil => rfl
      | cons p l => simp [keepNonOverlapping, keepLoop]
    rw [hkeep, keepLoop_eq]
    refine ⟨_, ?_, ?_, rfl⟩
    · exact List.Pairwise.filter _ List.pairwise_lt_range
    · intro i
      rw [List.mem_filter, List.mem_range]
      refine and_congr_right ?_
      intro hi
      rw [List.getElem?_eq_getElem hi]
      simp only [List.nil_append, List.all_eq_true]
      constructor
      · intro h j hj p q hpe hq
        cases hpe
        apply apart_of_clear
        apply h
        rw [List.mem_map]
        refine ⟨q, ?_, rfl⟩
        rw [List.mem_take_iff_getElem]
        have hjl : j < l.length := by omega
        rw [List.getElem?_eq_getElem hjl] at hq
        cases hq
        exact ⟨j, by omega, rfl⟩
      · intro h e he
        obtain ⟨q, hq, rfl⟩ := List.mem_map.1 he
        obtain ⟨j, hj, rfl⟩ := List.mem_take_iff_getElem.1 hq
        have hjl : j < l.length := by omega
        exact (clear_iff_apart (hbox _ (List.getElem_mem hi)) (hbox _ (List.getElem_mem hjl))).2
          (h j (by omega) _ _ rfl (List.getElem?_eq_getElem hjl))

/-- C24: a city on the map that is not kept collides with an at least as populous one. -/
theorem C24_dropped_collides (sort : List City → List City) (hs : SortsDown City.pop sort)
    (edges : City → Box) (hp : ∀ r, Proper (edges r)) (ax : Box) (rows : List City) (c : City)
    (hc : c ∈ rows) (hin : ax.left ≤ (edges c).left ∧ (edges c).right ≤ ax.right ∧
      ax.bottom ≤ (edges c).bottom ∧ (edges c).top ≤ ax.top)
    (hd : (c, edges c) ∉ limitByMapCollision sort edges ax rows) :
    ∃ d ∈ rows, c.pop ≤ d.pop ∧ ¬ Apart (edges c) (edges d) := by
  obtain ⟨sorted, h1, h2, h3, idx, h4, h5, h6⟩ := C24_kept_iff sort hs edges hp ax rows
  have hmem : (c, edges c) ∈ onMap edges ax sorted := by
    have := h1.symm.subset hc
    cases sorted with
    | nil => cases this
    | cons r rs =>
      rcases List.mem_cons.1 this with rfl | this
      · exact List.mem_cons_self
      · apply List.mem_cons_of_mem
        exact List.mem_map.2 ⟨c, List.mem_filter.2 ⟨this, by simpa using hin⟩, rfl⟩
  have hpair : (onMap edges ax sorted).Pairwise (fun a b => b.1.pop ≤ a.1.pop) ∧
      ∀ p ∈ onMap edges ax sorted, p.1 ∈ sorted ∧ p.2 = edges p.1 := by
    cases sorted with
    | nil => simp [onMap]
    | cons r rs =>
      obtain ⟨g1, g2⟩ := List.pairwise_cons.1 h2
      unfold onMap
      constructor
      · refine List.pairwise_cons.2 ⟨?_, ?_⟩
        · intro p hpm
          obtain ⟨a, ha, rfl⟩ := List.mem_map.1 hpm
          exact g1 a (List.mem_filter.1 ha).1
        · rw [List.pairwise_map]
          exact List.Pairwise.filter _ g2
      · intro p hpm
        rcases List.mem_cons.1 hpm with rfl | hpm
        · exact ⟨List.mem_cons_self, rfl⟩
        · obtain ⟨a, ha, rfl⟩ := List.mem_map.1 hpm
          exact ⟨List.mem_cons_of_mem _ (List.mem_filter.1 ha).1, rfl⟩
  obtain ⟨i, hi, hie⟩ := List.getElem_of_mem hmem
  have hnot : i ∉ idx := by
    intro hc2
    apply hd
    rw [h6, List.mem_filterMap]
    exact ⟨i, hc2, by rw [List.getElem?_eq_getElem hi, hie]⟩
  rw [h5] at hnot
  push Not at hnot
  obtain ⟨j, hj, p, q, e1, e2, h⟩ := hnot hi
  rw [List.getElem?_eq_getElem hi, hie] at e1
  cases e1
  have hjl : j < (onMap edges ax sorted).length := by omega
  rw [List.getElem?_eq_getElem hjl] at e2
  cases e2
  obtain ⟨m1, m2⟩ := hpair.2 _ (List.getElem_mem hjl)
  refine ⟨_, h1.subset m1, ?_, ?_⟩
  · have := List.pairwise_iff_getElem.1 hpair.1 j i hjl hi hj
    rw [hie] at this
    exact this
  · rw [← m2]; exact h

/-- Unit-height label of width 3 at the city's longitude. -/
def sampleEdges (r : City) : Box := ⟨r.lon, r.lon + 3, r.lat, r.lat + 1⟩

/-- Three cities in a row, each label overlapping the next. -/
def threeRows : List City := [⟨"A", 0, 0, 30⟩, ⟨"B", 0, 2, 20⟩, ⟨"C", 0, 4, 10⟩]

/-- Removal is not limited to what is needed: the third label overlaps only the second, which is
itself removed, yet the third is removed too. -/
theorem C24_over_removal : ∃ (edges : City → Box) (ax : Box) (rows : List City) (c : City),
    (∀ r, Proper (edges r)) ∧ c ∈ rows ∧
    (c, edges c) ∉ limitByMapCollision id edges ax rows ∧
    ∀ p ∈ limitByMapCollision id edges ax rows, Apart (edges c) p.2 := by
  refine ⟨sampleEdges, ⟨-10, 10, -10, 10⟩, threeRows, ⟨"C", 0, 4, 10⟩, ?_, ?_, ?_, ?_⟩
  · intro r; unfold Proper sampleEdges; simp only; constructor <;> linarith
  · decide +kernel
  · decide +kernel
  · have : limitByMapCollision id sampleEdges ⟨-10, 10, -10, 10⟩ threeRows =
        [(⟨"A", 0, 0, 30⟩, sampleEdges ⟨"A", 0, 0, 30⟩)] := by decide +kernel
    rw [this]
    intro p hp
    rw [List.mem_singleton] at hp
    subst hp
    exact apart_of_clear (by decide +kernel)

/-- The most populous city is kept even when its label is off the map. -/
theorem C24_first_off_map : ∃ (edges : City → Box) (ax : Box) (c : City),
    (edges c).right < ax.left ∧ limitByMapCollision id edges ax [c] = [(c, edges c)] :=
  ⟨sampleEdges, ⟨50, 60, -10, 10⟩, ⟨"A", 0, 0, 30⟩, by decide +kernel, by decide +kernel⟩

example : limitByMapCollision id sampleEdges ⟨-10, 10, -10, 10⟩
    [⟨"A", 0, 0, 30⟩, ⟨"B", 0, 2, 20⟩, ⟨"C", 5, 4, 10⟩, ⟨"D", 5, 9, 5⟩] =
    [(⟨"A", 0, 0, 30⟩, ⟨0, 3, 0, 1⟩), (⟨"C", 5, 4, 10⟩, ⟨4, 7, 5, 6⟩)] := by decide +kernel

end Verif.Props
