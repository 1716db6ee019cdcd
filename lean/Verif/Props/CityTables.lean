import Verif.Spec.CityTables
import Verif.Props.CityCsv
import Mathlib.Data.List.Forall2
import Mathlib.Data.List.Nodup

/-!
# C193: city tables with all their columns, and independent of each other
-/

namespace Verif.Props
open Verif Verif.Csv Verif.CityHeap Verif.Spec

variable {V : Type}

/-! ### Masks -/

/-- The places where a mask is true, counted from `k`. -/
def maskPlaces (k : ℕ) : List Bool → List ℕ
  | [] => []
  | b :: m => if b then k :: maskPlaces (k + 1) m else maskPlaces (k + 1) m

theorem mem_maskPlaces (i : ℕ) : ∀ (m : List Bool) (k : ℕ), i ∈ maskPlaces k m ↔ k ≤ i ∧ m[i - k]? = some true
  | [], k => by simp [maskPlaces]
  | b :: m, k => by
    have ih := mem_maskPlaces i m (k + 1)
    have hs : ∀ h : k + 1 ≤ i, (b :: m)[i - k]? = m[i - (k + 1)]? := by
      intro h
      have : i - k = (i - (k + 1)) + 1 := by omega
      rw [this, List.getElem?_cons_succ]
    by_cases hk : k + 1 ≤ i
    · have h1 : i ≠ k := by omega
      have h2 : k ≤ i := by omega
      cases b <;> simp [maskPlaces, ih, hs hk, hk, h1, h2]
    · by_cases he : i = k
      · subst he
        cases b <;> simp [maskPlaces, ih]
      · have h1 : ¬ k ≤ i := by omega
        cases b <;> simp [maskPlaces, ih, hk, he, h1]

theorem maskPlaces_sorted : ∀ (m : List Bool) (k : ℕ), (maskPlaces k m).Pairwise (· < ·)
  | [], k => by simp [maskPlaces]
  | b :: m, k => by
    have ih := maskPlaces_sorted m (k + 1)
    cases b
    · simpa [maskPlaces] using ih
    · simp only [maskPlaces, if_true, List.pairwise_cons]
      refine ⟨?_, ih⟩
      intro j hj
      have := ((mem_maskPlaces j m (k + 1)).1 hj).1
      omega

theorem pickRows_places {α : Type} (ys : List α) : ∀ (m : List Bool) (xs : List α) (k : ℕ), xs.length = m.length → (∀ j, xs[j]? = ys[k + j]?) →
    List.Forall₂ (fun i w => ys[i]? = some w) (maskPlaces k m) (pick m xs)
  | [], xs, k, hl, _ => by
    have : xs = [] := List.length_eq_zero_iff.1 (by simpa using hl)
    subst this
    simp [maskPlaces, pick]
  | b :: m, [], k, hl, _ => by simp at hl
  | b :: m, x :: xs, k, hl, hj => by
    have ih := pickRows_places ys m xs (k + 1) (by simpa using hl) (by
      intro j
      have := hj (j + 1)
      rw [List.getElem?_cons_succ] at this
      rw [this]
      congr 1
      omega)
    have h0 : ys[k]? = some x := by
      have := hj 0
      simpa using this.symm
    cases b
    · simpa [maskPlaces, pick] using ih
    · simp only [maskPlaces, if_true, pick, List.zip_cons_cons, List.filterMap_cons]
      exact List.Forall₂.cons h0 (by simpa [pick] using ih)

theorem pickRows_length {α β : Type} (m : List Bool) (xs : List α) (ys : List β) (hx : xs.length = m.length) (hy : ys.length = m.length) :
    (pick m xs).length = (pick m ys).length := by
  have h1 := List.Forall₂.length_eq (pickRows_places xs m xs 0 hx (by simp))
  have h2 := List.Forall₂.length_eq (pickRows_places ys m ys 0 hy (by simp))
  omega

theorem rowsWhere_columns (f : Frame V) (m : List Bool) : (rowsWhere f m).columns = f.columns := by
  simp [rowsWhere, Frame.columns, List.map_map, Function.comp_def]

theorem rowsWhere_col (f : Frame V) (m : List Bool) (n : Csv.Text) : (rowsWhere f m).col n = (f.col n).map (pick m) := by
  unfold Frame.col rowsWhere
  simp only
  induction f.cols with
  | nil => rfl
  | cons c cs ih =>
    obtain ⟨a, b⟩ := c
    simp only [List.map_cons, List.lookup_cons]
    by_cases e : n = a
    · have : (n == a) = true := by simpa using e
      simp [this]
    · have : (n == a) = false := by simpa using e
      simp only [this]
      exact ih

theorem col_mem {f : Frame V} {n : Csv.Text} {vs : List V} (h : f.col n = some vs) : (n, vs) ∈ f.cols := by
  unfold Frame.col at h
  generalize f.cols = cs at h ⊢
  induction cs with
  | nil => cases h
  | cons c cs ih =>
    obtain ⟨a, b⟩ := c
    rw [List.lookup_cons] at h
    by_cases e : n = a
    · have : (n == a) = true := by simpa using e
      rw [this] at h
      cases h
      subst e
      simp
    · have : (n == a) = false := by simpa using e
      rw [this] at h
      exact List.mem_cons_of_mem _ (ih h)

theorem col_of_mem {f : Frame V} {n : Csv.Text} (h : n ∈ f.columns) : ∃ vs, f.col n = some vs := by
  unfold Frame.col
  refine Option.ne_none_iff_exists'.mp ?_
  rw [Ne, List.lookup_eq_none_iff]
  intro hn
  obtain ⟨p, hp, rfl⟩ := List.mem_map.mp h
  simpa using hn p hp

theorem GoodTable.where {f : Frame V} (hf : GoodTable f) (m : List Bool) (hm : m.length = f.index.length) : GoodTable (rowsWhere f m) where
  required := by
    rw [rowsWhere_columns]
    exact hf.required
  lengths := by
    intro c hc
    obtain ⟨d, hd, rfl⟩ := List.mem_map.1 hc
    exact pickRows_length m _ _ (by rw [hf.lengths d hd, hm]) hm.symm

theorem rows_where {f : Frame V} (hf : GoodTable f) (m : List Bool) (hm : m.length = f.index.length) :
    KeepsRows f (rowsWhere f m) (fun i => m[i]? = some true) (fun _ => False) := by
  refine ⟨maskPlaces 0 m, maskPlaces_sorted m 0, ?_, pickRows_places f.index m f.index 0 hm.symm (by simp), fun _ h => h.elim, ?_⟩
  · intro i
    rw [mem_maskPlaces]
    simp only [Nat.zero_le, true_and, Nat.sub_zero]
    constructor
    · intro h
      refine ⟨?_, h⟩
      rw [← hm]
      exact (List.getElem?_eq_some_iff.1 h).1
    · exact fun h => h.2
  · intro n _
    refine ⟨by rw [rowsWhere_columns], ?_⟩
    intro vs hv
    refine ⟨pick m vs, by rw [rowsWhere_col, hv]; rfl, ?_⟩
    exact pickRows_places vs m vs 0 (by rw [hf.lengths _ (col_mem hv), hm]) (by simp)

theorem construct_good {f : Frame V} (hf : GoodTable f) : construct f = .ok f := by
  have : cities f = .ok f := by
    unfold cities
    rw [if_pos]
    simp only [List.all_cons, List.all_nil, Bool.and_true, Bool.and_eq_true, decide_eq_true_eq]
    exact ⟨hf.required "name" (by simp), hf.required "lat" (by simp), hf.required "lon" (by simp)⟩
  unfold construct
  rw [this]

theorem column_ok {f : Frame V} {n : String} {vs : List V} (h : f.col n.toList = some vs) : column f n = .ok vs := by
  unfold column
  rw [h]

theorem keepsRows_congr {f g : Frame V} {k k' : ℕ → Prop} {l : Csv.Text → Prop} (h : KeepsRows f g k l) (e : ∀ i, i < f.index.length → (k i ↔ k' i)) :
    KeepsRows f g k' l := by
  obtain ⟨is, h1, h2, h3, h4⟩ := h
  refine ⟨is, h1, ?_, h3, h4⟩
  intro i
  rw [h2]
  constructor
  · rintro ⟨a, b⟩
    exact ⟨a, (e i a).1 b⟩
  · rintro ⟨a, b⟩
    exact ⟨a, (e i a).2 b⟩

/-- C193: `limitByBounds` keeps exactly the rows within the bounds, with all their columns. -/
theorem C193_bounds (c : Cells V) {f : Frame V} (hf : GoodTable f) {lat lon : List V} (hlat : f.col "lat".toList = some lat)
    (hlon : f.col "lon".toList = some lon) (xmin xmax ymin ymax : ℚ) :
    ∃ g, limitByBounds c xmin xmax ymin ymax f = .ok g ∧ GoodTable g ∧
      KeepsRows f g (fun i => ∃ y x, lat[i]? = some y ∧ lon[i]? = some x ∧ c.gt y ymin = true ∧ c.le y ymax = true ∧ c.gt x xmin = true ∧
        c.le x xmax = true) (fun _ => False) := by
  have l1 : lat.length = f.index.length := hf.lengths _ (col_mem hlat)
  have l2 : lon.length = f.index.length := hf.lengths _ (col_mem hlon)
  set m := List.zipWith (fun y x => c.gt y ymin && c.le y ymax && c.gt x xmin && c.le x xmax) lat lon with hmdef
  have hm : m.length = f.index.length := by simp [hmdef, l1, l2]
  refine ⟨rowsWhere f m, ?_, hf.where m hm, keepsRows_congr (rows_where hf m hm) ?_⟩
  · simp only [limitByBounds, column_ok hlat, column_ok hlon, bind, Except.bind]
    exact construct_good (hf.where m hm)
  · intro i _
    rw [hmdef, List.getElem?_zipWith]
    rcases lat[i]? with _ | y <;> rcases lon[i]? with _ | x <;> simp [and_assoc]

/-- C193: `limitByPopulation` keeps exactly the rows of that population or more, with all their columns; without populations it raises KeyError, and
ValueError if the two numbers are in the wrong order. -/
theorem C193_population (c : Cells V) {f : Frame V} (hf : GoodTable f) (pop minpop : ℚ) :
    ("pop".toList ∉ f.columns → limitByPopulation c pop minpop f = .error .key) ∧
    ("pop".toList ∈ f.columns → pop ≤ minpop → limitByPopulation c pop minpop f = .error .value) ∧
    (∀ pops, f.col "pop".toList = some pops → minpop < pop → ∃ g, limitByPopulation c pop minpop f = .ok g ∧ GoodTable g ∧
      KeepsRows f g (fun i => ∃ p, pops[i]? = some p ∧ c.ge p pop = true) (fun _ => False)) := by
  refine ⟨?_, ?_, ?_⟩
  · intro h
    rw [limitByPopulation, if_neg h]
  · intro h1 h2
    rw [limitByPopulation, if_pos h1, if_pos h2]
  · intro pops hp hlt
    have l1 : pops.length = f.index.length := hf.lengths _ (col_mem hp)
    set m := pops.map fun v => c.ge v pop with hmdef
    have hm : m.length = f.index.length := by simp [hmdef, l1]
    refine ⟨rowsWhere f m, ?_, hf.where m hm, keepsRows_congr (rows_where hf m hm) ?_⟩
    · have hmem : "pop".toList ∈ f.columns := List.mem_map.2 ⟨_, col_mem hp, rfl⟩
      rw [limitByPopulation, if_pos hmem, if_neg (not_le.2 hlt)]
      simp only [column_ok hp, bind, Except.bind]
      exact construct_good (hf.where m hm)
    · intro i _
      rw [hmdef, List.getElem?_map]
      rcases pops[i]? with _ | y <;> simp

/-- C193: `limitByName` keeps exactly the rows with such a name, with all their columns. -/
theorem C193_name (c : Cells V) {f : Frame V} (hf : GoodTable f) {names : List V} (hn : f.col "name".toList = some names) (name : Csv.Text) :
    ∃ g, limitByName c name f = .ok g ∧ GoodTable g ∧
      KeepsRows f g (fun i => ∃ v, names[i]? = some v ∧ c.contains name v = true) (fun _ => False) := by
  have l1 : names.length = f.index.length := hf.lengths _ (col_mem hn)
  set m := names.map fun v => c.contains name v with hmdef
  have hm : m.length = f.index.length := by simp [hmdef, l1]
  refine ⟨rowsWhere f m, ?_, hf.where m hm, keepsRows_congr (rows_where hf m hm) ?_⟩
  · simp only [limitByName, column_ok hn, bind, Except.bind]
    exact construct_good (hf.where m hm)
  · intro i _
    rw [hmdef, List.getElem?_map]
    rcases names[i]? with _ | y <;> simp

theorem setCol_col (f : Frame V) (name n : Csv.Text) (vs : List V) : (f.setCol name vs).col n = if n = name then some vs else f.col n := by
  unfold Frame.setCol
  split_ifs with h1 h2 h2
  · subst h2
    unfold Frame.col
    simp only
    rw [lookup_replace _ _ _ _ h1, if_pos rfl]
  · unfold Frame.col
    simp only
    rw [lookup_replace _ _ _ _ h1, if_neg h2]
  · subst h2
    unfold Frame.col
    simp only [List.lookup_append]
    have : f.cols.lookup n = none := by
      rw [List.lookup_eq_none_iff]
      intro p hp
      have : p.1 ≠ n := fun e => h1 (List.mem_map.2 ⟨p, hp, e⟩)
      simpa using fun e => this e.symm
    rw [this]
    simp
  · unfold Frame.col
    simp only [List.lookup_append]
    have : List.lookup n [(name, vs)] = none := by
      rw [List.lookup_eq_none_iff]
      simpa using h2
    rw [this]
    simp

theorem setCol_columns (f : Frame V) (name n : Csv.Text) (vs : List V) : n ∈ (f.setCol name vs).columns ↔ n = name ∨ n ∈ f.columns := by
  unfold Frame.setCol
  split_ifs with h1
  · unfold Frame.columns
    simp only [List.map_map, List.mem_map, Function.comp_apply]
    constructor
    · rintro ⟨p, hp, e⟩
      split_ifs at e with h
      · exact .inl e.symm
      · exact .inr ⟨p, hp, e⟩
    · rintro (rfl | ⟨p, hp, rfl⟩)
      · obtain ⟨p, hp, e⟩ := List.mem_map.1 h1
        exact ⟨p, hp, by simp [e]⟩
      · refine ⟨p, hp, ?_⟩
        split_ifs with h
        · exact h.symm
        · rfl
  · unfold Frame.columns
    simp [or_comm]

theorem GoodTable.setCol {f : Frame V} (hf : GoodTable f) (name : Csv.Text) (vs : List V) (hv : vs.length = f.index.length) : GoodTable (f.setCol name vs) where
  required n hn := (setCol_columns f name _ vs).2 (.inr (hf.required n hn))
  lengths := by
    unfold Frame.setCol
    split_ifs with h
    · intro c hc
      obtain ⟨d, hd, rfl⟩ := List.mem_map.1 hc
      split_ifs with he
      · exact hv
      · exact hf.lengths d hd
    · intro c hc
      rcases List.mem_append.1 hc with hc | hc
      · exact hf.lengths c hc
      · rw [List.mem_singleton] at hc
        subst hc
        exact hv

theorem setCol_index (f : Frame V) (name : Csv.Text) (vs : List V) : (f.setCol name vs).index = f.index := by
  unfold Frame.setCol
  split_ifs <;> rfl

theorem deleteColumn_col (f : Frame V) (name n : Csv.Text) (h : n ≠ name) : (deleteColumn f name).col n = f.col n := by
  unfold Frame.col deleteColumn
  simp only
  induction f.cols with
  | nil => rfl
  | cons c cs ih =>
    obtain ⟨a, b⟩ := c
    by_cases e : a = name
    · subst e
      have : (n == a) = false := by simpa using h
      rw [List.lookup_cons, this, List.filter_cons]
      simpa using ih
    · rw [List.filter_cons]
      simp only [ne_eq, e, not_false_eq_true, decide_true, if_true, List.lookup_cons]
      rw [ih]

theorem deleteColumn_columns (f : Frame V) (name n : Csv.Text) : n ∈ (deleteColumn f name).columns ↔ n ≠ name ∧ n ∈ f.columns := by
  unfold Frame.columns deleteColumn
  simp only [List.mem_map, List.mem_filter, decide_eq_true_eq]
  constructor
  · rintro ⟨p, ⟨hp, h⟩, rfl⟩
    exact ⟨h, p, hp, rfl⟩
  · rintro ⟨h, p, hp, rfl⟩
    exact ⟨p, ⟨hp, h⟩, rfl⟩

/-- C193: `limitByRadius` keeps exactly the rows within the radius, with all their columns except one called `dist`. -/
theorem C193_radius (c : Cells V) {f : Frame V} (hf : GoodTable f) {lats lons : List V} (hlat : f.col "lat".toList = some lats)
    (hlon : f.col "lon".toList = some lons) (lat lon r : ℚ) :
    ∃ g, limitByRadius c lat lon r f = .ok g ∧ GoodTable g ∧
      KeepsRows f g (fun i => ∃ x y, lons[i]? = some x ∧ lats[i]? = some y ∧ c.le (c.dist lon lat x y) r = true) (fun n => n = "dist".toList) := by
  have l1 : lats.length = f.index.length := hf.lengths _ (col_mem hlat)
  have l2 : lons.length = f.index.length := hf.lengths _ (col_mem hlon)
  set ds := List.zipWith (c.dist lon lat) lons lats with hds
  have hdl : ds.length = f.index.length := by simp [hds, l1, l2]
  set e := f.setCol "dist".toList ds with he
  have hei : e.index = f.index := setCol_index f _ ds
  have heg : GoodTable e := hf.setCol _ ds hdl
  have hec : e.col "dist".toList = some ds := by rw [he, setCol_col, if_pos rfl]
  set m := ds.map fun v => c.le v r with hmdef
  have hm : m.length = e.index.length := by simp [hmdef, hdl, hei]
  set g := deleteColumn (rowsWhere e m) "dist".toList with hg
  have hgood : GoodTable g := by
    refine ⟨?_, ?_⟩
    · intro n hn
      rw [hg, deleteColumn_columns]
      refine ⟨?_, (heg.where m hm).required n hn⟩
      simp only [List.mem_cons, List.not_mem_nil, or_false] at hn
      rcases hn with rfl | rfl | rfl <;> decide
    · intro d hd
      exact (heg.where m hm).lengths d (List.mem_of_mem_filter hd)
  refine ⟨g, ?_, hgood, ?_⟩
  · simp only [limitByRadius, column_ok hlat, column_ok hlon, bind, Except.bind]
    rw [column_ok hec]
    exact construct_good hgood
  · obtain ⟨is, h1, h2, h3, -, h5⟩ := rows_where heg m hm
    refine ⟨is, h1, ?_, ?_, ?_, ?_⟩
    · intro i
      rw [h2, hei]
      simp only
      rw [hmdef, List.getElem?_map, hds, List.getElem?_zipWith]
      rcases lons[i]? with _ | x <;> rcases lats[i]? with _ | y <;> simp
    · rw [hei] at h3
      exact h3
    · rintro n rfl
      rw [hg, deleteColumn_columns]
      simp
    · intro n hn
      obtain ⟨h6, h7⟩ := h5 n (fun h => h)
      refine ⟨?_, ?_⟩
      · rw [hg, deleteColumn_columns, h6, he, setCol_columns]
        exact ⟨fun h => h.2.resolve_left hn, fun h => ⟨hn, .inr h⟩⟩
      · intro vs hv
        obtain ⟨ws, hw, hf2⟩ := h7 vs (by rw [he, setCol_col, if_neg hn]; exact hv)
        exact ⟨ws, by rw [hg, deleteColumn_col _ _ _ hn]; exact hw, hf2⟩

/-! ### Independence -/

/-- The tables in memory are those of the program with values, each behind one variable or object only. -/
structure SameTables (h : Heap V) (s : Values V) : Prop where
  df : ∀ k : ℕ, (h.dfs[k]?).bind (h.frames[·]?) = s.dfs[k]?
  obj : ∀ i : ℕ, (h.objs[i]?).bind (h.frames[·]?) = s.objs[i]?
  lenD : h.dfs.length = s.dfs.length
  lenO : h.objs.length = s.objs.length
  lenA : h.arrays.length = s.arrays
  boundD : ∀ a ∈ h.dfs, a < h.frames.length
  boundO : ∀ a ∈ h.objs, a < h.frames.length
  nodupD : h.dfs.Nodup
  nodupO : h.objs.Nodup
  apart : ∀ a ∈ h.dfs, a ∉ h.objs

theorem new_lookup {frames : List (Frame V)} {as : List ℕ} {f : Frame V} (hb : ∀ a ∈ as, a < frames.length) (k : ℕ) :
    (as[k]?).bind ((frames ++ [f])[·]?) = (as[k]?).bind (frames[·]?) := by
  rcases hx : as[k]? with _ | a
  · rfl
  · simp only [Option.bind_some]
    exact List.getElem?_append_left (hb a (List.mem_of_getElem? hx))

theorem snoc_lookup {frames : List (Frame V)} {as : List ℕ} {f : Frame V} {vs : List (Frame V)} (hb : ∀ a ∈ as, a < frames.length)
    (hl : as.length = vs.length) (hv : ∀ k : ℕ, (as[k]?).bind (frames[·]?) = vs[k]?) (k : ℕ) :
    ((as ++ [frames.length])[k]?).bind ((frames ++ [f])[·]?) = (vs ++ [f])[k]? := by
  by_cases h : k < as.length
  · rw [List.getElem?_append_left h, List.getElem?_append_left (by omega), new_lookup hb, hv]
  · rw [List.getElem?_append_right (by omega), List.getElem?_append_right (by omega), hl]
    rcases hx : k - vs.length with _ | n
    · simp
    · simp

theorem set_lookup {frames : List (Frame V)} {as : List ℕ} {f : Frame V} {vs : List (Frame V)} (hn : as.Nodup) (hb : ∀ a ∈ as, a < frames.length)
    (hv : ∀ k : ℕ, (as[k]?).bind (frames[·]?) = vs[k]?) {k a : ℕ} (hk : as[k]? = some a) (j : ℕ) :
    (as[j]?).bind ((frames.set a f)[·]?) = (vs.set k f)[j]? := by
  have ha := hb a (List.mem_of_getElem? hk)
  by_cases e : k = j
  · subst e
    have hvk := hv k
    rw [hk, Option.bind_some, List.getElem?_eq_getElem ha] at hvk
    have hlt : k < vs.length := (List.getElem?_eq_some_iff.1 hvk.symm).1
    rw [hk, Option.bind_some, List.getElem?_set_self ha, List.getElem?_set_self hlt]
  · rw [List.getElem?_set_ne e, ← hv j]
    rcases hx : as[j]? with _ | b
    · rfl
    · simp only [Option.bind_some]
      refine List.getElem?_set_ne ?_
      rintro rfl
      obtain ⟨h1, h2⟩ := List.getElem?_eq_some_iff.1 hk
      obtain ⟨h3, h4⟩ := List.getElem?_eq_some_iff.1 hx
      exact e ((List.Nodup.getElem_inj_iff hn).1 (h2.trans h4.symm))

theorem set_other {frames : List (Frame V)} {as : List ℕ} {f : Frame V} {a : ℕ} (ha : a ∉ as) (j : ℕ) :
    (as[j]?).bind ((frames.set a f)[·]?) = (as[j]?).bind (frames[·]?) := by
  rcases hx : as[j]? with _ | b
  · rfl
  · simp only [Option.bind_some]
    refine List.getElem?_set_ne ?_
    rintro rfl
    exact ha (List.mem_of_getElem? hx)

theorem SameTables.newDf {h : Heap V} {s : Values V} (r : SameTables h s) (f : Frame V) :
    SameTables { h.alloc f with dfs := h.dfs ++ [h.frames.length] } { s with dfs := s.dfs ++ [f] } where
  df := snoc_lookup r.boundD r.lenD r.df
  obj i := (new_lookup r.boundO i).trans (r.obj i)
  lenD := by simp [r.lenD]
  lenO := r.lenO
  lenA := r.lenA
  boundD := by
    intro a ha
    simp only [Heap.alloc, List.length_append, List.length_singleton]
    rcases List.mem_append.1 ha with ha | ha
    · have := r.boundD a ha; omega
    · rw [List.mem_singleton] at ha; omega
  boundO := by
    intro a ha
    have := r.boundO a ha
    simp only [Heap.alloc, List.length_append, List.length_singleton]
    omega
  nodupD := by
    refine List.nodup_append.2 ⟨r.nodupD, by simp, ?_⟩
    intro a ha b hb
    rw [List.mem_singleton] at hb
    have := r.boundD a ha
    omega
  nodupO := r.nodupO
  apart := by
    intro a ha
    rcases List.mem_append.1 ha with ha | ha
    · exact r.apart a ha
    · rw [List.mem_singleton] at ha
      intro ho
      have := r.boundO a ho
      omega

theorem SameTables.newObj {h : Heap V} {s : Values V} (r : SameTables h s) (f : Frame V) :
    SameTables { h.alloc f with objs := h.objs ++ [h.frames.length] } { s with objs := s.objs ++ [f] } where
  df i := (new_lookup r.boundD i).trans (r.df i)
  obj := snoc_lookup r.boundO r.lenO r.obj
  lenD := r.lenD
  lenO := by simp [r.lenO]
  lenA := r.lenA
  boundD := by
    intro a ha
    have := r.boundD a ha
    simp only [Heap.alloc, List.length_append, List.length_singleton]
    omega
  boundO := by
    intro a ha
    simp only [Heap.alloc, List.length_append, List.length_singleton]
    rcases List.mem_append.1 ha with ha | ha
    · have := r.boundO a ha; omega
    · rw [List.mem_singleton] at ha; omega
  nodupD := r.nodupD
  nodupO := by
    refine List.nodup_append.2 ⟨r.nodupO, by simp, ?_⟩
    intro a ha b hb
    rw [List.mem_singleton] at hb
    have := r.boundO a ha
    omega
  apart := by
    intro a ha ho
    rcases List.mem_append.1 ho with ho | ho
    · exact r.apart a ha ho
    · rw [List.mem_singleton] at ho
      have := r.boundD a ha
      omega

theorem SameTables.setDf {h : Heap V} {s : Values V} (r : SameTables h s) (f : Frame V) {k a : ℕ} (hk : h.dfs[k]? = some a) :
    SameTables { h with frames := h.frames.set a f } { s with dfs := s.dfs.set k f } where
  df := set_lookup r.nodupD r.boundD r.df hk
  obj i := (set_other (r.apart a (List.mem_of_getElem? hk)) i).trans (r.obj i)
  lenD := by simp [r.lenD]
  lenO := r.lenO
  lenA := r.lenA
  boundD := by simpa using r.boundD
  boundO := by simpa using r.boundO
  nodupD := r.nodupD
  nodupO := r.nodupO
  apart := r.apart

theorem SameTables.setObj {h : Heap V} {s : Values V} (r : SameTables h s) (f : Frame V) {k a : ℕ} (hk : h.objs[k]? = some a) :
    SameTables { h with frames := h.frames.set a f } { s with objs := s.objs.set k f } where
  df i := (set_other (fun ha => r.apart a ha (List.mem_of_getElem? hk)) i).trans (r.df i)
  obj := set_lookup r.nodupO r.boundO r.obj hk
  lenD := r.lenD
  lenO := by simp [r.lenO]
  lenA := r.lenA
  boundD := by simpa using r.boundD
  boundO := by simpa using r.boundO
  nodupD := r.nodupD
  nodupO := r.nodupO
  apart := r.apart

theorem tables_step (c : Cells V) {h : Heap V} {s : Values V} (r : SameTables h s) (op : Op V) (hop : ∀ k name values, op ≠ .write k name values) :
    (CityHeap.step c h op).2 = (valueStep c s op).2 ∧ SameTables (CityHeap.step c h op).1 (valueStep c s op).1 := by
  cases op with
  | write k name values => exact (hop k name values rfl).elim
  | frame f => exact ⟨rfl, r.newDf f⟩
  | change k f =>
    simp only [CityHeap.step, valueStep]
    rcases hk : h.dfs[k]? with _ | a
    · have : ¬ k < s.dfs.length := by
        rw [← r.lenD]
        simpa using hk
      rw [if_neg this]
      exact ⟨rfl, r⟩
    · have : k < s.dfs.length := by
        rw [← r.lenD]
        exact (List.getElem?_eq_some_iff.1 hk).1
      rw [if_pos this]
      exact ⟨rfl, r.setDf f hk⟩
  | cities k =>
    simp only [CityHeap.step, valueStep, r.df k]
    rcases s.dfs[k]? with _ | f
    · exact ⟨rfl, r⟩
    · simp only
      rcases construct f with e | g
      · exact ⟨rfl, r⟩
      · exact ⟨rfl, r.newObj g⟩
  | limit i q =>
    simp only [CityHeap.step, valueStep, r.obj i]
    rcases s.objs[i]? with _ | f
    · exact ⟨rfl, r⟩
    · simp only
      rcases limited c q f with e | g
      · exact ⟨rfl, r⟩
      · exact ⟨rfl, r.newObj g⟩
  | dataFrame i =>
    simp only [CityHeap.step, valueStep, r.obj i]
    rcases s.objs[i]? with _ | f
    · exact ⟨rfl, r⟩
    · exact ⟨rfl, r.newDf f⟩
  | project i =>
    have ho := r.obj i
    simp only [CityHeap.step, valueStep]
    rcases hk : h.objs[i]? with _ | a
    · rw [hk] at ho
      rw [← ho]
      exact ⟨rfl, r⟩
    · rw [hk, Option.bind_some] at ho
      rw [← ho]
      simp only
      rcases h.frames[a]? with _ | f
      · exact ⟨rfl, r⟩
      · simp only
        rcases projected c f with e | g
        · exact ⟨rfl, r⟩
        · exact ⟨rfl, r.setObj g hk⟩
  | arrays i =>
    simp only [CityHeap.step, valueStep]
    rcases hk : h.objs[i]? with _ | a
    · have : ¬ i < s.objs.length := by
        rw [← r.lenO]
        simpa using hk
      rw [if_neg this]
      exact ⟨rfl, r⟩
    · have : i < s.objs.length := by
        rw [← r.lenO]
        exact (List.getElem?_eq_some_iff.1 hk).1
      rw [if_pos this]
      exact ⟨rfl, { r with lenA := by simp [r.lenA] }⟩
  | lookFrame k =>
    simp only [CityHeap.step, valueStep, r.df k]
    rcases s.dfs[k]? with _ | f <;> exact ⟨rfl, r⟩
  | look i =>
    simp only [CityHeap.step, valueStep, r.obj i]
    rcases s.objs[i]? with _ | f <;> exact ⟨rfl, r⟩

theorem tables_run (c : Cells V) : ∀ (ops : List (Op V)) {h : Heap V} {s : Values V}, SameTables h s → NoWrites ops →
    CityHeap.run c h ops = valueRun c s ops
  | [], _, _, _, _ => rfl
  | op :: ops, h, s, r, hn => by
    obtain ⟨h1, h2⟩ := tables_step c r op (fun k name values e => hn k name values (by simp [e]))
    rw [CityHeap.run, valueRun, h1, tables_run c ops h2 (fun k name values hm => hn k name values (List.mem_cons_of_mem _ hm))]

/-- C193: a program that does not write into the arrays of `getCities` sees what it would see if every data frame and every `Cities` object had a table of its
own: no table changes because of another one. -/
theorem C193_independent_partial (c : Cells V) (ops : List (Op V)) (hn : NoWrites ops) :
    CityHeap.run c ⟨[], [], [], []⟩ ops = valueRun c ⟨[], [], 0⟩ ops := by
  refine tables_run c ops ?_ hn
  exact ⟨by simp, by simp, rfl, rfl, rfl, by simp, by simp, by simp, by simp, by simp⟩

theorem columns_col {f : Frame V} {n : Csv.Text} (h : n ∈ f.columns) : ∃ vs, f.col n = some vs := by
  unfold Frame.columns at h
  unfold Frame.col
  generalize f.cols = cs at h
  induction cs with
  | nil => simp at h
  | cons p cs ih =>
    rw [List.lookup_cons]
    by_cases hp : n = p.1
    · simp [hp]
    · rw [List.map_cons, List.mem_cons, or_iff_right hp] at h
      simpa [beq_eq_false_iff_ne.2 hp] using ih h

/-- C193: a step of a program that limits the cities of an object makes a new object, and its table has exactly the rows that were asked for, with all columns but `dist`; every other object and
data frame stays. -/
theorem C193_limited (c : Cells V) (s : Values V) (i : ℕ) (q : Limit) {f : Frame V} (hi : s.objs[i]? = some f) (hf : GoodTable f) (hq : CanAsk f q) :
    ∃ g, valueStep c s (.limit i q) = ({ s with objs := s.objs ++ [g] }, .done) ∧ GoodTable g ∧ KeepsRows f g (AskedFor c f q) (Lost q) := by
  obtain ⟨lats, hlat⟩ := columns_col (hf.required "lat" (by simp))
  obtain ⟨lons, hlon⟩ := columns_col (hf.required "lon" (by simp))
  obtain ⟨names, hname⟩ := columns_col (hf.required "name" (by simp))
  have key : ∃ g, limited c q f = .ok g ∧ GoodTable g ∧ KeepsRows f g (AskedFor c f q) (Lost q) := by
    cases q with
    | bounds a b x y =>
      obtain ⟨g, h1, h2, h3⟩ := C193_bounds c hf hlat hlon a b x y
      refine ⟨g, h1, h2, keepsRows_congr h3 fun i _ => ?_⟩
      simp only [AskedFor, hlat, hlon, Option.some.injEq]
      constructor
      · rintro ⟨y, x, h⟩
        exact ⟨_, _, y, x, rfl, rfl, h⟩
      · rintro ⟨_, _, y, x, rfl, rfl, h⟩
        exact ⟨y, x, h⟩
    | radius lat lon r =>
      obtain ⟨g, h1, h2, h3⟩ := C193_radius c hf hlat hlon lat lon r
      refine ⟨g, h1, h2, keepsRows_congr h3 fun i _ => ?_⟩
      simp only [AskedFor, hlat, hlon, Option.some.injEq]
      constructor
      · rintro ⟨x, y, hx, hy, h⟩
        exact ⟨_, _, y, x, rfl, rfl, hy, hx, h⟩
      · rintro ⟨_, _, y, x, rfl, rfl, hy, hx, h⟩
        exact ⟨x, y, hx, hy, h⟩
    | population pop minpop =>
      obtain ⟨hp, hlt⟩ := hq
      obtain ⟨pops, hpop⟩ := columns_col hp
      obtain ⟨g, h1, h2, h3⟩ := (C193_population c hf pop minpop).2.2 pops hpop hlt
      refine ⟨g, h1, h2, keepsRows_congr h3 fun i _ => ?_⟩
      simp only [AskedFor, hpop, Option.some.injEq]
      constructor
      · rintro ⟨p, h⟩
        exact ⟨_, p, rfl, h⟩
      · rintro ⟨_, p, rfl, h⟩
        exact ⟨p, h⟩
    | name n =>
      obtain ⟨g, h1, h2, h3⟩ := C193_name c hf hname n
      refine ⟨g, h1, h2, keepsRows_congr h3 fun i _ => ?_⟩
      simp only [AskedFor, hname, Option.some.injEq]
      constructor
      · rintro ⟨p, h⟩
        exact ⟨_, p, rfl, h⟩
      · rintro ⟨_, p, rfl, h⟩
        exact ⟨p, h⟩
  obtain ⟨g, h1, h2, h3⟩ := key
  refine ⟨g, ?_, h2, h3⟩
  simp only [valueStep, hi, h1]

/-- C193: a table without the column that a limit looks at raises KeyError. -/
theorem C193_missing (c : Cells V) (f : Frame V) :
    (("lat".toList ∉ f.columns ∨ "lon".toList ∉ f.columns) → (∀ a b x y, limitByBounds c a b x y f = .error .key) ∧ ∀ lat lon r, limitByRadius c lat lon r f = .error .key) ∧
    ("name".toList ∉ f.columns → ∀ n, limitByName c n f = .error .key) := by
  have none : ∀ {n : String}, n.toList ∉ f.columns → column f n = .error .key := by
    intro n h
    have : f.col n.toList = none := by
      cases hc : f.col n.toList with
      | none => rfl
      | some vs => exact absurd (List.mem_map.2 ⟨_, col_mem hc, rfl⟩) h
    unfold column
    rw [this]
  have two : ∀ n : String, (∃ vs, column f n = .ok vs) ∨ column f n = .error .key := by
    intro n
    unfold column
    cases f.col n.toList <;> simp
  refine ⟨fun h => ⟨fun a b x y => ?_, fun lat lon r => ?_⟩, fun h n => ?_⟩
  · unfold limitByBounds
    rcases h with h | h
    · rw [none h]; rfl
    · rcases two "lat" with ⟨vs, e⟩ | e
      · rw [e, none h]; rfl
      · rw [e]; rfl
  · unfold limitByRadius
    rcases h with h | h
    · rcases two "lon" with ⟨vs, e⟩ | e
      · rw [e, none h]; rfl
      · rw [e]; rfl
    · rw [none h]; rfl
  · unfold limitByName
    rw [none h]; rfl

/-- Cells for the examples: numbers. -/
def numberCells : Cells ℚ :=
  ⟨fun v q => decide (v > q), fun v q => decide (v ≤ q), fun v q => decide (v ≥ q), fun _ _ x y => x + y, fun _ _ => true, fun x y => (x, y)⟩

/-- A table for the examples. -/
def twoCities : Frame ℚ :=
  ⟨[0, 1], [("name".toList, [7, 8]), ("lat".toList, [10, 20]), ("lon".toList, [30, 40]), ("pop".toList, [500, 9000]), ("elevation".toList, [1, 2])]⟩

/-- C193 violated: a program that adds 1 to the latitudes it got moves the cities of the object. -/
theorem C193_arrays_violated (c : Cells ℚ) :
    CityHeap.run c ⟨[], [], [], []⟩ [.frame twoCities, .cities 0, .arrays 0, .write 0 "lat".toList [11, 21], .look 0] =
      [.done, .done, .done, .done, .table (twoCities.setCol "lat".toList [11, 21])] ∧
    valueRun c ⟨[], [], 0⟩ [.frame twoCities, .cities 0, .arrays 0, .write 0 "lat".toList [11, 21], .look 0] =
      [.done, .done, .done, .done, .table twoCities] ∧
    (twoCities.setCol "lat".toList [11, 21]).col "lat".toList ≠ twoCities.col "lat".toList := by
  refine ⟨rfl, rfl, by decide +kernel⟩

/-- C193 violated: a column of the user called `dist` is gone after a limit by radius that keeps every city. -/
theorem C193_dist_violated : ∃ g, limitByRadius numberCells 0 0 100 (twoCities.setCol "dist".toList [3, 4]) = .ok g ∧ g.index = [0, 1] ∧
    (twoCities.setCol "dist".toList [3, 4]).col "dist".toList = some [3, 4] ∧ g.col "dist".toList = none :=
  ⟨_, rfl, by decide +kernel, by decide +kernel, by decide +kernel⟩

/-- The table is good; a limit by population keeps the second row with all five columns. -/
example : GoodTable twoCities ∧ ∃ g, limitByPopulation numberCells 1000 0 twoCities = .ok g ∧ g.index = [1] ∧ g.cols =
    [("name".toList, [8]), ("lat".toList, [20]), ("lon".toList, [40]), ("pop".toList, [9000]), ("elevation".toList, [2])] := by
  refine ⟨⟨by decide +kernel, by decide +kernel⟩, _, rfl, by decide +kernel, by decide +kernel⟩

/-- A program with several tables, one of which is changed after the others were made from it. -/
example : CityHeap.run numberCells ⟨[], [], [], []⟩
    [.frame twoCities, .cities 0, .limit 0 (.population 1000 0), .change 0 ⟨[], []⟩, .project 0, .look 1, .lookFrame 0] =
      [.done, .done, .done, .done, .done, .table (rowsWhere twoCities [false, true]), .table ⟨[], []⟩] := rfl

end Verif.Props
