import Verif.Model.Cities
import Verif.Spec.Selection
import Mathlib.Tactic.Linarith
import Mathlib.Tactic.FieldSimp
import Mathlib.Tactic.Positivity
import Mathlib.Data.Rat.Floor
import Mathlib.Data.List.Sort
import Mathlib.Tactic.Ring
import Mathlib.Algebra.Order.Field.Basic

/-!
# C21, C22, C23: city filters
-/

namespace Verif.Props
open Verif Verif.Cities Verif.Spec

/-- The table has the three required columns. Every `Cities` object satisfies this. -/
def HasColumns (t : Table) : Prop := "name" ∈ t.columns ∧ "lat" ∈ t.columns ∧ "lon" ∈ t.columns

theorem cities_mk_ok_iff (t : Table) : Cities.mk t = .ok t ↔ HasColumns t := by
  unfold Cities.mk HasColumns reqFields
  by_cases h1 : "name" ∈ t.columns <;> by_cases h2 : "lat" ∈ t.columns <;>
    by_cases h3 : "lon" ∈ t.columns <;> simp [h1, h2, h3]

/-- The constructor raises KeyError exactly when a required column is missing, otherwise it keeps
the table. -/
theorem C21_constructor (t : Table) :
    (HasColumns t → Cities.mk t = .ok t) ∧ (¬ HasColumns t → Cities.mk t = .error .keyError) := by
  constructor
  · exact (cities_mk_ok_iff t).2
  · unfold Cities.mk HasColumns reqFields
    by_cases h1 : "name" ∈ t.columns <;> by_cases h2 : "lat" ∈ t.columns <;>
      by_cases h3 : "lon" ∈ t.columns <;> simp [h1, h2, h3]

/-- C21: `limitByBounds` keeps exactly the cities of the half-open box, in order. -/
theorem C21_bounds (t : Table) (h : HasColumns t) (xmin xmax ymin ymax : ℚ) :
    ∃ t', limitByBounds t xmin xmax ymin ymax = .ok t' ∧ t'.columns = t.columns ∧
      KeepsExactly (fun c => xmin < c.lon ∧ c.lon ≤ xmax ∧ ymin < c.lat ∧ c.lat ≤ ymax)
        t.rows t'.rows := by
  refine ⟨_, (C21_constructor _).1 h, rfl, ?_⟩
  apply keepsExactly_filter
  intro c
  simp only [Bool.and_eq_true, decide_eq_true_eq, gt_iff_lt]
  tauto

/-- C21: `limitByRadius` keeps exactly the cities within the radius, in order. (A column named
`dist` is lost.) -/
theorem C21_radius (dist : ℚ → ℚ → ℚ → ℚ → ℚ) (t : Table) (h : HasColumns t)
    (lat lon radius : ℚ) :
    ∃ t', limitByRadius dist t lat lon radius = .ok t' ∧
      (∀ col, col ∈ t'.columns ↔ col ∈ t.columns ∧ col ≠ "dist") ∧
      KeepsExactly (fun c => dist lon lat c.lon c.lat ≤ radius) t.rows t'.rows := by
  refine ⟨_, (C21_constructor _).1 ?_, ?_, ?_⟩
  · obtain ⟨h1, h2, h3⟩ := h
    refine ⟨?_, ?_, ?_⟩ <;> simp [*]
  · intro col; simp
  · apply keepsExactly_filter
    intro c
    simp

/-- C21: when it succeeds, `limitByPopulation` keeps exactly the cities at or above the threshold. -/
theorem C21_population (t : Table) (h : HasColumns t) (hp : "pop" ∈ t.columns) (pop minpop : ℚ)
    (hm : minpop < pop) :
    ∃ t', limitByPopulation t pop minpop = .ok t' ∧ t'.columns = t.columns ∧
      KeepsExactly (fun c => pop ≤ c.pop) t.rows t'.rows := by
  unfold limitByPopulation
  rw [if_neg (by simpa using hp), if_neg (by simpa using hm)]
  refine ⟨_, (C21_constructor _).1 h, rfl, ?_⟩
  apply keepsExactly_filter
  intro c
  simp

/-- C21: any two of the filters commute, and each is idempotent, because "keep exactly" does. -/
theorem C21_commute {α : Type} [DecidableEq α] (P Q : α → Prop) (xs p q pq qp : List α)
    (h1 : KeepsExactly P xs p) (h2 : KeepsExactly Q p pq) (h3 : KeepsExactly Q xs q)
    (h4 : KeepsExactly P q qp) : pq = qp := by
  classical
  rw [keepsExactly_unique _ _ _ h2, keepsExactly_unique _ _ _ h1, keepsExactly_unique _ _ _ h4,
    keepsExactly_unique _ _ _ h3, List.filter_filter, List.filter_filter]
  congr 1
  funext a
  exact Bool.and_comm _ _

theorem C21_idempotent {α : Type} [DecidableEq α] (P : α → Prop) (xs p pp : List α)
    (h1 : KeepsExactly P xs p) (h2 : KeepsExactly P p pp) : pp = p := by
  classical
  rw [keepsExactly_unique _ _ _ h2, keepsExactly_unique _ _ _ h1, List.filter_filter]
  simp

/-- C21: bounds and population filters applied in either order give the same table. -/
theorem C21_bounds_population_commute (t : Table) (h : HasColumns t) (hp : "pop" ∈ t.columns)
    (xmin xmax ymin ymax pop minpop : ℚ) (hm : minpop < pop) (a b a' b' : Table)
    (h1 : limitByBounds t xmin xmax ymin ymax = .ok a) (h2 : limitByPopulation a pop minpop = .ok b)
    (h3 : limitByPopulation t pop minpop = .ok a')
    (h4 : limitByBounds a' xmin xmax ymin ymax = .ok b') : b.rows = b'.rows := by
  obtain ⟨t1, e1, c1, k1⟩ := C21_bounds t h xmin xmax ymin ymax
  rw [h1] at e1; cases e1
  obtain ⟨t2, e2, c2, k2⟩ := C21_population a (by unfold HasColumns; rwa [c1]) (by rwa [c1])
    pop minpop hm
  rw [h2] at e2; cases e2
  obtain ⟨t3, e3, c3, k3⟩ := C21_population t h hp pop minpop hm
  rw [h3] at e3; cases e3
  obtain ⟨t4, e4, c4, k4⟩ := C21_bounds a' (by unfold HasColumns; rwa [c3]) xmin xmax ymin ymax
  rw [h4] at e4; cases e4
  exact C21_commute _ _ _ _ _ _ _ k1 k2 k3 k4

/-- A concrete table for the examples. -/
def sampleTable : Table where
  columns := ["name", "lat", "lon", "pop"]
  rows := [⟨"A", 1, 1, 10⟩, ⟨"B", 2, 2, 30⟩, ⟨"C", 3, 2, 20⟩, ⟨"D", 3, 3, 5⟩, ⟨"B", 2, 2, 30⟩]

example : HasColumns sampleTable ∧ "pop" ∈ sampleTable.columns := by
  unfold HasColumns sampleTable; decide

example : ∃ t', limitByBounds sampleTable 1 2 1 2 = .ok t' ∧
    t'.rows = [⟨"B", 2, 2, 30⟩, ⟨"B", 2, 2, 30⟩] := by
  refine ⟨_, (C21_constructor _).1 (by unfold HasColumns; decide), by decide +kernel⟩

/-- C22: the outcome of `limitByPopulation`: KeyError exactly without population data, otherwise
ValueError exactly when `minpop ≥ pop`, otherwise success. -/
theorem C22_outcome (t : Table) (h : HasColumns t) (pop minpop : ℚ) :
    (limitByPopulation t pop minpop = .error .keyError ↔ "pop" ∉ t.columns) ∧
    (limitByPopulation t pop minpop = .error .valueError ↔ "pop" ∈ t.columns ∧ minpop ≥ pop) ∧
    ((∃ t', limitByPopulation t pop minpop = .ok t') ↔ "pop" ∈ t.columns ∧ minpop < pop) := by
  unfold limitByPopulation
  by_cases h1 : "pop" ∈ t.columns
  · rw [if_neg (by simpa using h1)]
    by_cases h2 : minpop ≥ pop
    · rw [if_pos h2]
      have h3 : pop ≤ minpop := h2
      simp [h1, h3]
    · rw [if_neg h2, (C21_constructor _).1 (by exact h)]
      have h3 : minpop < pop := not_le.1 h2
      simp [h1, h3]
  · rw [if_pos h1]
    simp [h1]

example : limitByPopulation sampleTable 5 7 = .error .valueError :=
  ((C22_outcome _ (by unfold HasColumns sampleTable; decide) _ _).2.1).2
    ⟨by unfold sampleTable; decide, by decide +kernel⟩

/-! ### C23 -/

theorem topK_of_sort (sort : List City → List City) (hs : SortsDown City.pop sort) (k : ℕ)
    (pool : List City) : TopK City.pop k pool (sliceTo (sort pool) k) := by
  obtain ⟨h1, h2⟩ := hs pool
  unfold sliceTo
  rw [if_pos (by positivity)]
  refine ⟨(sort pool).drop k, ?_, ?_, ?_⟩
  · simpa using h1
  · simp [h1.length_eq]
  · have := h2
    rw [← List.take_append_drop k (sort pool), List.pairwise_append] at this
    exact this.2.2

theorem mapM_ok {α β ε : Type} (f : α → Except ε β) (g : α → β) (xs : List α)
    (h : ∀ a ∈ xs, f a = .ok (g a)) : xs.mapM f = .ok (xs.map g) := by
  induction xs with
  | nil => rfl
  | cons x xs ih =>
    rw [List.mapM_cons, h x (by simp), ih (fun a ha => h a (by simp [ha]))]
    rfl

/-- The bounds of the table, as used by the statement of C23. -/
def IsBounds (rows : List City) (xmin xmax ymin ymax : ℚ) : Prop :=
  IsLeast {x | ∃ c ∈ rows, c.lon = x} xmin ∧ IsGreatest {x | ∃ c ∈ rows, c.lon = x} xmax ∧
  IsLeast {y | ∃ c ∈ rows, c.lat = y} ymin ∧ IsGreatest {y | ∃ c ∈ rows, c.lat = y} ymax

theorem colMin_eq (xs : List ℚ) (m : ℚ) (h : m ∈ xs) (h2 : ∀ x ∈ xs, m ≤ x) : colMin xs = m := by
  unfold colMin
  have : xs.min? = some m := by
    rw [List.min?_eq_some_iff]
    exact ⟨h, h2⟩
  rw [this]; rfl

theorem colMax_eq (xs : List ℚ) (m : ℚ) (h : m ∈ xs) (h2 : ∀ x ∈ xs, x ≤ m) : colMax xs = m := by
  unfold colMax
  have : xs.max? = some m := by
    rw [List.max?_eq_some_iff]
    exact ⟨h, h2⟩
  rw [this]; rfl

theorem colMin_of_isBounds {rows : List City} {xmin xmax ymin ymax : ℚ}
    (h : IsBounds rows xmin xmax ymin ymax) : colMin (rows.map City.lon) = xmin ∧
    colMax (rows.map City.lon) = xmax ∧ colMin (rows.map City.lat) = ymin ∧
    colMax (rows.map City.lat) = ymax := by
  obtain ⟨⟨h1, h1'⟩, ⟨h2, h2'⟩, ⟨h3, h3'⟩, ⟨h4, h4'⟩⟩ := h
  refine ⟨colMin_eq _ _ ?_ ?_, colMax_eq _ _ ?_ ?_, colMin_eq _ _ ?_ ?_, colMax_eq _ _ ?_ ?_⟩
  all_goals first
    | (obtain ⟨c, hc, e⟩ := h1; exact List.mem_map.2 ⟨c, hc, e⟩)
    | (obtain ⟨c, hc, e⟩ := h2; exact List.mem_map.2 ⟨c, hc, e⟩)
    | (obtain ⟨c, hc, e⟩ := h3; exact List.mem_map.2 ⟨c, hc, e⟩)
    | (obtain ⟨c, hc, e⟩ := h4; exact List.mem_map.2 ⟨c, hc, e⟩)
    | (intro x hx; obtain ⟨c, hc, e⟩ := List.mem_map.1 hx; exact h1' ⟨c, hc, e⟩)
    | (intro x hx; obtain ⟨c, hc, e⟩ := List.mem_map.1 hx; exact h2' ⟨c, hc, e⟩)
    | (intro x hx; obtain ⟨c, hc, e⟩ := List.mem_map.1 hx; exact h3' ⟨c, hc, e⟩)
    | (intro x hx; obtain ⟨c, hc, e⟩ := List.mem_map.1 hx; exact h4' ⟨c, hc, e⟩)

/-- Cells are disjoint. -/
theorem inCell_unique {xmin xmax ymin ymax : ℚ} {nx ny i j i' j' : ℕ} {lon lat : ℚ}
    (hx : xmin ≤ xmax) (hy : ymin ≤ ymax) 
    (h : InCell xmin xmax ymin ymax nx ny i j lon lat)
    (h' : InCell xmin xmax ymin ymax nx ny i' j' lon lat) : i = i' ∧ j = j' := by
  have key : ∀ (a w p : ℚ) (n : ℕ) (u v : ℕ), 0 ≤ w → a + w * u / n < p → p ≤ a + w * (v + 1) / n →
      u ≤ v := by
    intro a w p n u v hw h1 h2
    by_contra hc
    have hc : (v : ℚ) + 1 ≤ u := by exact_mod_cast (by omega : v + 1 ≤ u)
    have : w * (v + 1) / n ≤ w * u / n := by
      apply div_le_div_of_nonneg_right _ (by positivity)
      exact mul_le_mul_of_nonneg_left hc hw
    linarith
  obtain ⟨a1, a2, a3, a4⟩ := h
  obtain ⟨b1, b2, b3, b4⟩ := h'
  have e1 := key _ _ _ _ _ _ (sub_nonneg.2 hx) a1 b2
  have e2 := key _ _ _ _ _ _ (sub_nonneg.2 hx) b1 a2
  have e3 := key _ _ _ _ _ _ (sub_nonneg.2 hy) a3 b4
  have e4 := key _ _ _ _ _ _ (sub_nonneg.2 hy) b3 a4
  omega


theorem filter_range_flatMap {α : Type} (p : α → Bool) (f : ℕ → List α) (i0 : ℕ)
    (h : ∀ i, i ≠ i0 → (f i).filter p = []) (n : ℕ) :
    (((List.range n).map f).flatten).filter p = if i0 < n then (f i0).filter p else [] := by
  induction n with
  | zero => simp
  | succ n ih =>
    rw [List.range_succ, List.map_append, List.flatten_append, List.filter_append, ih]
    simp only [List.map_cons, List.map_nil, List.flatten_cons, List.flatten_nil, List.append_nil]
    rcases Nat.lt_trichotomy i0 n with hc | hc | hc
    · rw [if_pos hc, if_pos (by omega), h n (by omega), List.append_nil]
    · subst hc; simp
    · rw [if_neg (by omega), if_neg (by omega), h n (by omega)]; rfl

/-- The rows of one cell of the model's grid, as the specification sees them. -/
def cellRows (rows : List City) (xmin xmax ymin ymax : ℚ) (nx ny i j : ℕ) : List City :=
  rows.filter (fun c => decide (InCell xmin xmax ymin ymax nx ny i j c.lon c.lat))

theorem limitByGrid_eq (sort : List City → List City) (t : Table) (h : HasColumns t)
    (hp : "pop" ∈ t.columns) (nx ny : ℕ) (k : ℤ) (hnx : 0 < nx) (hny : 0 < ny)
    {xmin xmax ymin ymax : ℚ} (hb : IsBounds t.rows xmin xmax ymin ymax) :
    limitByGrid sort t nx ny k = .ok { t with rows := (((List.range ny).map (fun i =>
      (List.range nx).map (fun j =>
        sliceTo (sort (cellRows t.rows xmin xmax ymin ymax nx ny i j)) k))).flatten).flatten } := by
  obtain ⟨b1, b2, b3, b4⟩ := colMin_of_isBounds hb
  have hcell : ∀ i j, gridCell sort t xmin ymin ((xmax - xmin) / nx) ((ymax - ymin) / ny) k i j =
      .ok (sliceTo (sort (cellRows t.rows xmin xmax ymin ymax nx ny i j)) k) := by
    intro i j
    unfold gridCell limitByBounds
    simp only
    rw [(C21_constructor _).1 (by exact h)]
    have : t.rows.filter (fun c =>
        decide (c.lat > ymin + (i * ((ymax - ymin) / ny))) &&
        decide (c.lat ≤ ymin + (i * ((ymax - ymin) / ny)) + (ymax - ymin) / ny) &&
        decide (c.lon > xmin + (j * ((xmax - xmin) / nx))) &&
        decide (c.lon ≤ xmin + (j * ((xmax - xmin) / nx)) + (xmax - xmin) / nx)) =
        cellRows t.rows xmin xmax ymin ymax nx ny i j := by
      unfold cellRows
      apply List.filter_congr
      intro c _
      unfold InCell
      have e1 : ymin + (i * ((ymax - ymin) / ny)) = ymin + (ymax - ymin) * i / ny := by ring
      have e2 : ymin + (i * ((ymax - ymin) / ny)) + (ymax - ymin) / ny =
        ymin + (ymax - ymin) * (i + 1) / ny := by ring
      have e3 : xmin + (j * ((xmax - xmin) / nx)) = xmin + (xmax - xmin) * j / nx := by ring
      have e4 : xmin + (j * ((xmax - xmin) / nx)) + (xmax - xmin) / nx =
        xmin + (xmax - xmin) * (j + 1) / nx := by ring
      rw [e2, e4, e1, e3, Bool.eq_iff_iff]
      simp only [Bool.and_eq_true, decide_eq_true_eq, gt_iff_lt]
      exact ⟨fun ⟨⟨⟨a, b⟩, c⟩, d⟩ => decide_eq_true ⟨c, d, a, b⟩,
        fun h => have ⟨c, d, a, b⟩ := of_decide_eq_true h; ⟨⟨⟨a, b⟩, c⟩, d⟩⟩
    rw [this]
    rfl
  unfold limitByGrid
  simp only [b1, b2, b3, b4]
  rw [if_neg (by simpa using hp), if_neg (by omega)]
  have hrow : ∀ i ∈ List.range ny, (List.range nx).mapM (fun j => gridCell sort t xmin ymin
      ((xmax - xmin) / nx) ((ymax - ymin) / ny) k i j) = .ok ((List.range nx).map (fun j =>
        sliceTo (sort (cellRows t.rows xmin xmax ymin ymax nx ny i j)) k)) := by
    intro i _
    exact mapM_ok _ _ _ (fun j _ => hcell i j)
  rw [mapM_ok _ _ _ hrow]
  exact (C21_constructor _).1 h

/-- C23 (partial): on a non-empty table with population data, every grid cell contributes a choice
of its `k` most populous cities, every city of the result lies in a cell, nothing is invented or
repeated, and there are at most `nx * ny * k` cities. (Exact arithmetic.)
Missing from the full property: the cells do not cover the western and southern edges of the data,
see `C23_edge_violated`. -/
theorem C23_grid_partial (sort : List City → List City) (hs : SortsDown City.pop sort) (t : Table)
    (h : HasColumns t) (hp : "pop" ∈ t.columns) (nx ny k : ℕ) (hnx : 0 < nx) (hny : 0 < ny)
    (xmin xmax ymin ymax : ℚ) (hb : IsBounds t.rows xmin xmax ymin ymax) :
    ∃ t', limitByGrid sort t nx ny k = .ok t' ∧ t'.columns = t.columns ∧
      (∀ i < ny, ∀ j < nx, TopK City.pop k
        (t.rows.filter (fun c => decide (InCell xmin xmax ymin ymax nx ny i j c.lon c.lat)))
        (t'.rows.filter (fun c => decide (InCell xmin xmax ymin ymax nx ny i j c.lon c.lat)))) ∧
      (∀ c ∈ t'.rows, ∃ i < ny, ∃ j < nx, InCell xmin xmax ymin ymax nx ny i j c.lon c.lat) ∧
      t'.rows.Subperm t.rows ∧ t'.rows.length ≤ nx * ny * k := by
  have hx : xmin ≤ xmax := hb.1.2 hb.2.1.1
  have hy : ymin ≤ ymax := hb.2.2.1.2 hb.2.2.2.1
  set block : ℕ → ℕ → List City := fun i j =>
    sliceTo (sort (cellRows t.rows xmin xmax ymin ymax nx ny i j)) k with hblock
  have htop : ∀ i j, TopK City.pop k (cellRows t.rows xmin xmax ymin ymax nx ny i j) (block i j) :=
    fun i j => topK_of_sort sort hs k _
  have hmem : ∀ i j, ∀ c ∈ block i j, InCell xmin xmax ymin ymax nx ny i j c.lon c.lat := by
    intro i j c hc
    obtain ⟨rest, hr, _⟩ := htop i j
    have := hr.subset (List.mem_append_left _ hc)
    simpa using (List.mem_filter.1 this).2
  have hout : ∀ i j, (((((List.range ny).map (fun i => (List.range nx).map (fun j =>
      block i j))).flatten).flatten).filter
      (fun c => decide (InCell xmin xmax ymin ymax nx ny i j c.lon c.lat))) =
      if i < ny then if j < nx then block i j else [] else [] := by
    intro i j
    have e : (((List.range ny).map (fun i => (List.range nx).map (fun j =>
      block i j))).flatten).flatten = (((List.range ny).map (fun i =>
        ((List.range nx).map (fun j => block i j)).flatten))).flatten := by
      rw [List.flatten_flatten, List.map_map]; rfl
    rw [e, filter_range_flatMap _ _ i]
    · split_ifs with h1 h2
      · rw [filter_range_flatMap _ _ j, if_pos h2]
        · apply List.filter_eq_self.2
          intro c hc
          simpa using hmem i j c hc
        · intro j' hj'
          rw [List.filter_eq_nil_iff]
          intro c hc hcon
          exact hj' (inCell_unique hx hy (hmem i j' c hc) (by simpa using hcon)).2
      · rw [filter_range_flatMap _ _ j, if_neg h2]
        intro j' hj'
        rw [List.filter_eq_nil_iff]
        intro c hc hcon
        exact hj' (inCell_unique hx hy (hmem i j' c hc) (by simpa using hcon)).2
      · rfl
    · intro i' hi'
      rw [List.filter_eq_nil_iff]
      intro c hc hcon
      obtain ⟨l, hl, hcl⟩ := List.mem_flatten.1 hc
      obtain ⟨j', _, rfl⟩ := List.mem_map.1 hl
      exact hi' (inCell_unique hx hy (hmem i' j' c hcl) (by simpa using hcon)).1
  have hin : ∀ c ∈ (((List.range ny).map (fun i => (List.range nx).map (fun j =>
      block i j))).flatten).flatten, ∃ i < ny, ∃ j < nx,
      InCell xmin xmax ymin ymax nx ny i j c.lon c.lat := by
    intro c hc
    obtain ⟨l, hl, hcl⟩ := List.mem_flatten.1 hc
    obtain ⟨l2, hl2, hll⟩ := List.mem_flatten.1 hl
    obtain ⟨i, hi, rfl⟩ := List.mem_map.1 hl2
    obtain ⟨j, hj, rfl⟩ := List.mem_map.1 hll
    exact ⟨i, List.mem_range.1 hi, j, List.mem_range.1 hj, hmem i j c hcl⟩
  refine ⟨_, limitByGrid_eq sort t h hp nx ny k hnx hny hb, rfl, ?_, hin, ?_, ?_⟩
  · intro i hi j hj
    have := hout i j
    rw [if_pos hi, if_pos hj] at this
    rw [this]
    exact htop i j
  · rw [List.subperm_ext_iff]
    intro c hc
    obtain ⟨i, hi, j, hj, hcell⟩ := hin c hc
    have e := hout i j
    rw [if_pos hi, if_pos hj] at e
    have h1 := List.count_filter (p := fun c => decide (InCell xmin xmax ymin ymax nx ny i j c.lon
      c.lat)) (l := (((List.range ny).map (fun i => (List.range nx).map (fun j =>
      block i j))).flatten).flatten) (a := c) (by simpa using hcell)
    rw [e] at h1
    have h2 := List.count_filter (p := fun c => decide (InCell xmin xmax ymin ymax nx ny i j c.lon
      c.lat)) (l := t.rows) (a := c) (by simpa using hcell)
    rw [← h1, ← h2]
    obtain ⟨rest, hr, _⟩ := htop i j
    have := hr.count_eq c
    rw [List.count_append] at this
    unfold cellRows at this
    omega
  · have hlen : ∀ i j, (block i j).length ≤ k := by
      intro i j
      obtain ⟨_, _, h1, _⟩ := htop i j
      omega
    have hrow : ∀ i n, (((List.range n).map (fun j => block i j)).flatten).length ≤ n * k := by
      intro i n
      induction n with
      | zero => simp
      | succ n ih =>
        rw [List.range_succ, List.map_append, List.flatten_append, List.length_append, Nat.succ_mul]
        have := hlen i n
        simp only [List.map_cons, List.map_nil, List.flatten_cons, List.flatten_nil,
          List.append_nil]
        omega
    have hall : ∀ n, ((((List.range n).map (fun i => (List.range nx).map (fun j =>
        block i j))).flatten).flatten).length ≤ n * (nx * k) := by
      intro n
      induction n with
      | zero => simp
      | succ n ih =>
        rw [List.range_succ, List.map_append, List.flatten_append, List.flatten_append,
          List.length_append, Nat.succ_mul]
        have := hrow n nx
        simp only [List.map_cons, List.map_nil, List.flatten_cons, List.flatten_nil,
          List.append_nil]
        omega
    calc _ ≤ ny * (nx * k) := hall ny
      _ = nx * ny * k := by ring

/-- C23: the cells cover every city that is off the western and southern edges, exactly once. -/
theorem C23_cells_cover (xmin xmax ymin ymax lon lat : ℚ) (nx ny : ℕ) (hnx : 0 < nx)
    (hny : 0 < ny) (h1 : xmin < lon) (h2 : lon ≤ xmax) (h3 : ymin < lat) (h4 : lat ≤ ymax) :
    ∃! p : ℕ × ℕ, p.1 < ny ∧ p.2 < nx ∧ InCell xmin xmax ymin ymax nx ny p.1 p.2 lon lat := by
  have key : ∀ (a b p : ℚ) (n : ℕ), 0 < n → a < p → p ≤ b →
      ∃ j < n, a + (b - a) * (j : ℕ) / n < p ∧ p ≤ a + (b - a) * ((j : ℕ) + 1) / n := by
    intro a b p n hn hap hpb
    have hw : 0 < b - a := by linarith
    have hnq : (0 : ℚ) < n := by exact_mod_cast hn
    set q := (p - a) * n / (b - a) with hq
    have hq0 : 0 < q := by
      rw [hq]; exact div_pos (mul_pos (by linarith) hnq) hw
    have hqn : q ≤ n := by
      rw [hq, div_le_iff₀ hw]
      nlinarith
    have hc1 : 1 ≤ ⌈q⌉ := Int.one_le_ceil_iff.2 hq0
    have hc2 : ⌈q⌉ ≤ n := Int.ceil_le.2 (by exact_mod_cast hqn)
    obtain ⟨j, hj⟩ : ∃ j : ℕ, ⌈q⌉ = (j : ℤ) + 1 := ⟨(⌈q⌉ - 1).toNat, by omega⟩
    have hjq : (j : ℚ) < q := by
      have := Int.ceil_lt_add_one q
      rw [hj] at this
      push_cast at this
      linarith
    have hjq2 : q ≤ (j : ℚ) + 1 := by
      have := Int.le_ceil q
      rw [hj] at this
      push_cast at this
      linarith
    have hp : p = a + (b - a) * q / n := by
      rw [hq]; field_simp; ring
    refine ⟨j, by omega, ?_, ?_⟩
    · rw [hp]
      have : (b - a) * j / n < (b - a) * q / n := by
        apply div_lt_div_of_pos_right _ hnq
        exact mul_lt_mul_of_pos_left hjq hw
      linarith
    · have : (b - a) * q / n ≤ (b - a) * (j + 1) / n := by
        apply div_le_div_of_nonneg_right _ hnq.le
        exact mul_le_mul_of_nonneg_left hjq2 hw.le
      linarith
  obtain ⟨j, hj, hj1, hj2⟩ := key xmin xmax lon nx hnx h1 h2
  obtain ⟨i, hi, hi1, hi2⟩ := key ymin ymax lat ny hny h3 h4
  refine ⟨(i, j), ⟨hi, hj, hj1, hj2, hi1, hi2⟩, ?_⟩
  rintro ⟨i', j'⟩ ⟨_, _, hc⟩
  obtain ⟨e1, e2⟩ := inCell_unique (by linarith) (by linarith) hc
    (⟨hj1, hj2, hi1, hi2⟩ : InCell xmin xmax ymin ymax nx ny i j lon lat)
  exact Prod.ext e1 e2

/-- C23 violated: a city on the western or southern edge of the data set never survives, whatever
its population and however large the per-cell limit. In particular a one-city table becomes empty. -/
theorem C23_edge_violated (sort : List City → List City) (hs : SortsDown City.pop sort) (t : Table)
    (h : HasColumns t) (hp : "pop" ∈ t.columns) (nx ny k : ℕ) (hnx : 0 < nx) (hny : 0 < ny)
    (xmin xmax ymin ymax : ℚ) (hb : IsBounds t.rows xmin xmax ymin ymax) (c : City)
    (_hc : c ∈ t.rows) (he : c.lon = xmin ∨ c.lat = ymin) :
    ∃ t', limitByGrid sort t nx ny k = .ok t' ∧ c ∉ t'.rows := by
  obtain ⟨t', e, _, _, h4, _⟩ := C23_grid_partial sort hs t h hp nx ny k hnx hny _ _ _ _ hb
  refine ⟨t', e, ?_⟩
  intro hm
  obtain ⟨i, _, j, _, h1, _, h3, _⟩ := h4 c hm
  have hx : xmin ≤ xmax := hb.1.2 hb.2.1.1
  have hy : ymin ≤ ymax := hb.2.2.1.2 hb.2.2.2.1
  have p1 : 0 ≤ (xmax - xmin) * j / nx := by
    have := sub_nonneg.2 hx; positivity
  have p2 : 0 ≤ (ymax - ymin) * i / ny := by
    have := sub_nonneg.2 hy; positivity
  rcases he with he | he <;> linarith

/-- Without population data `limitByGrid` raises KeyError. -/
theorem C23_keyError (sort : List City → List City) (t : Table) (nx ny : ℕ) (k : ℤ)
    (hp : "pop" ∉ t.columns) : limitByGrid sort t nx ny k = .error .keyError := by
  unfold limitByGrid
  rw [if_pos hp]
  rfl

/-- A sort that meets the assumption exists (insertion sort). -/
theorem sortsDown_exists : SortsDown City.pop
    (fun xs => xs.insertionSort (fun a b => b.pop ≤ a.pop)) := by
  intro xs
  have : Std.Total (fun a b : City => b.pop ≤ a.pop) := ⟨fun a b => le_total _ _⟩
  have : IsTrans City (fun a b : City => b.pop ≤ a.pop) := ⟨fun a b c h1 h2 => h2.trans h1⟩
  exact ⟨List.perm_insertionSort _ _, List.pairwise_insertionSort _ _⟩

example : IsBounds sampleTable.rows 1 3 1 3 := by
  unfold IsBounds sampleTable IsLeast IsGreatest lowerBounds upperBounds
  simp
  refine ⟨?_, ?_, ?_, ?_⟩ <;> · rintro a (rfl | rfl | rfl | rfl) <;> norm_num

end Verif.Props
