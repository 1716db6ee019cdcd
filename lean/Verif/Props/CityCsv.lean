import Verif.Model.CityCsv
import Mathlib.Tactic.Common

/-!
# C170: city tables that are saved and loaded; C171: sorting and projecting them
-/

namespace Verif.Props
open Verif.Csv

/-- No carriage return in a text. -/
def NoReturn (t : Text) : Prop := '\r' ∉ t

theorem scan_escape (f : Text) : ∀ (cur : Text) (fs : List Text) (rest : Text),
    scan .quoted cur fs (escape f ++ '"' :: rest) = scan .quote (f.reverse ++ cur) fs rest := by
  induction f with
  | nil => intro cur fs rest; simp [escape, scan]
  | cons c cs ih =>
    intro cur fs rest
    unfold escape
    by_cases h : c = '"'
    · subst h
      rw [if_pos rfl, List.cons_append, List.cons_append]
      simp only [scan, if_true]
      rw [if_neg (by decide), if_neg (by decide), ih]
      simp
    · rw [if_neg h, List.cons_append]
      simp only [scan]
      rw [if_neg h, ih]
      simp

theorem scan_plain (f : Text) (h : ∀ c ∈ f, c ≠ ',' ∧ c ≠ '\n' ∧ c ≠ '\r') : ∀ (cur : Text) (fs : List Text) (rest : Text),
    scan .plain cur fs (f ++ rest) = scan .plain (f.reverse ++ cur) fs rest := by
  induction f with
  | nil => intro cur fs rest; rfl
  | cons c cs ih =>
    intro cur fs rest
    obtain ⟨h1, h2, h3⟩ := h c (by simp)
    rw [List.cons_append]
    simp only [scan]
    rw [if_neg (by simp [h2, h3]), if_neg h1, ih (fun d hd => h d (List.mem_cons_of_mem _ hd))]
    simp

/-- What follows a field: a comma or the end of the row. -/
theorem scan_field (st : St) (hst : st = .row ∨ st = .field) (f : Text) (hf : NoReturn f) (fs : List Text) (rest : Text) :
    scan st [] fs (writeField f ++ ',' :: rest) = scan .field [] (f :: fs) rest := by
  unfold writeField
  by_cases hq : (f.any fun c => c = ',' || c = '"' || c = '\n') = true
  · rw [if_pos hq, List.cons_append, List.append_assoc]
    have : scan st [] fs ('"' :: (escape f ++ (['"'] ++ ',' :: rest))) = scan .quoted [] fs (escape f ++ '"' :: ',' :: rest) := by
      rcases hst with rfl | rfl <;> simp [scan]
    rw [this, scan_escape]
    simp [scan]
  · rw [if_neg hq]
    simp only [Bool.not_eq_true, List.any_eq_false, Bool.or_eq_true, decide_eq_true_eq, not_or] at hq
    cases f with
    | nil => rcases hst with rfl | rfl <;> simp [scan]
    | cons c cs =>
      obtain ⟨⟨h1, h2⟩, h3⟩ := hq c (by simp)
      have hr : ∀ d ∈ c :: cs, d ≠ '\r' := fun d hd e => hf (e ▸ hd)
      have h4 := hr c (by simp)
      have : scan st [] fs (c :: cs ++ ',' :: rest) = scan .plain [c] fs (cs ++ ',' :: rest) := by
        rcases hst with rfl | rfl <;> simp [scan, h1, h2, h3, h4]
      rw [this, scan_plain cs (fun d hd => ⟨(hq d (by simp [hd])).1.1, (hq d (by simp [hd])).2, hr d (by simp [hd])⟩)]
      simp [scan]

theorem scan_last (f : Text) (hf : NoReturn f) (fs : List Text) (rest : Text) :
    scan .field [] fs (writeField f ++ '\n' :: rest) = (scan .row [] [] rest).map ((f :: fs).reverse :: ·) := by
  unfold writeField
  by_cases hq : (f.any fun c => c = ',' || c = '"' || c = '\n') = true
  · rw [if_pos hq, List.cons_append, List.append_assoc]
    have : scan .field [] fs ('"' :: (escape f ++ (['"'] ++ '\n' :: rest))) = scan .quoted [] fs (escape f ++ '"' :: '\n' :: rest) := by
      simp [scan]
    rw [this, scan_escape]
    simp [scan]
  · rw [if_neg hq]
    simp only [Bool.not_eq_true, List.any_eq_false, Bool.or_eq_true, decide_eq_true_eq, not_or] at hq
    cases f with
    | nil => simp [scan]
    | cons c cs =>
      obtain ⟨⟨h1, h2⟩, h3⟩ := hq c (by simp)
      have hr : ∀ d ∈ c :: cs, d ≠ '\r' := fun d hd e => hf (e ▸ hd)
      have h4 := hr c (by simp)
      have : scan .field [] fs (c :: cs ++ '\n' :: rest) = scan .plain [c] fs (cs ++ '\n' :: rest) := by
        simp [scan, h1, h2, h3, h4]
      rw [this, scan_plain cs (fun d hd => ⟨(hq d (by simp [hd])).1.1, (hq d (by simp [hd])).2, hr d (by simp [hd])⟩)]
      simp [scan]

theorem scan_fields (r : List Text) : ∀ (fs : List Text) (rest : Text), (∀ f ∈ r, NoReturn f) → r ≠ [] →
    scan .field [] fs (writeFields r ++ '\n' :: rest) = (scan .row [] [] rest).map ((fs.reverse ++ r) :: ·) := by
  induction r with
  | nil => intro fs rest _ h; exact absurd rfl h
  | cons f r ih =>
    intro fs rest hr _
    cases r with
    | nil =>
      show scan .field [] fs (writeField f ++ '\n' :: rest) = _
      rw [scan_last f (hr f (by simp))]
      simp
    | cons g gs =>
      show scan .field [] fs ((writeField f ++ ',' :: writeFields (g :: gs)) ++ '\n' :: rest) = _
      rw [List.append_assoc, List.cons_append, scan_field .field (Or.inr rfl) f (hr f (by simp)),
        ih _ _ (fun x hx => hr x (List.mem_cons_of_mem _ hx)) (by simp)]
      simp

/-- **C170**, the text: rows of at least two fields without carriage returns are read as they were written, whatever commas, quotation marks and
ends of lines they have. -/
theorem C170_text (rows : List (List Text)) (h : ∀ r ∈ rows, 2 ≤ r.length ∧ ∀ f ∈ r, '\r' ∉ f) :
    scan .row [] [] (writeRows rows) = some rows := by
  induction rows with
  | nil => rfl
  | cons r rs ih =>
    obtain ⟨hl, hr⟩ := h r (by simp)
    match r, hl, hr with
    | f :: g :: gs, _, hr =>
      show scan .row [] [] ((writeField f ++ ',' :: writeFields (g :: gs)) ++ '\n' :: writeRows rs) = _
      rw [List.append_assoc, List.cons_append, scan_field .row (Or.inl rfl) f (hr f (by simp)),
        scan_fields (g :: gs) [f] _ (fun x hx => hr x (List.mem_cons_of_mem _ hx)) (by simp),
        ih (fun r hr => h r (List.mem_cons_of_mem _ hr))]
      simp

/-- A table that the constructor accepts, with all columns as long as there are cities. -/
structure GoodTable {V : Type} (f : Frame V) : Prop where
  required : ∀ n ∈ ["name", "lat", "lon"], n.toList ∈ f.columns
  lengths : ∀ c ∈ f.cols, c.2.length = f.index.length

/-- **C170** (partial). A table that is saved can be loaded: it has as many cities, and the same values in each of its columns, in the same order. What is missing:
there is one more column, see `C170_columns_violated`. -/
theorem C170_save_partial {V : Type} (render : V → Text) (convert : List Text → List V) (label : ℕ → Text) (f : Frame V) (hf : GoodTable f)
    (hlabel : ∀ n, '\r' ∉ label n)
    (hname : ∀ n ∈ f.columns, n ≠ [] ∧ '\r' ∉ n)
    (hcells : ∀ c ∈ f.cols, (∀ v ∈ c.2, '\r' ∉ render v) ∧ convert (c.2.map render) = c.2) :
    ∃ g, fromCSV convert label (save render label f) = .ok g ∧
      g.index.length = f.index.length ∧
      g.cols = ("Unnamed: ".toList ++ label 0, convert (f.index.map label)) :: f.cols ∧
      ∀ n, n ≠ "Unnamed: ".toList ++ label 0 → g.col n = f.col n := by
  have hne : f.cols ≠ [] := by
    intro h
    have := hf.required "name" (by simp)
    simp [Frame.columns, h] at this
  have hlen : 1 ≤ f.cols.length := List.length_pos_iff.mpr hne
  have hscan : scan .row [] [] (save render label f) = some (fileRows render label f) := by
    refine C170_text _ ?_
    intro r hr
    unfold fileRows at hr
    rcases List.mem_cons.mp hr with rfl | hr
    · refine ⟨by simp [Frame.columns]; omega, ?_⟩
      intro x hx
      rcases List.mem_cons.mp hx with rfl | hx
      · simp
      · exact (hname x hx).2
    · obtain ⟨i, -, rfl⟩ := List.mem_map.mp hr
      refine ⟨by simp; omega, ?_⟩
      intro x hx
      rcases List.mem_cons.mp hx with rfl | hx
      · exact hlabel _
      · obtain ⟨c, hc, rfl⟩ := List.mem_map.mp hx
        rw [List.getElem?_map]
        cases hi : c.2[i]? with
        | none => simp
        | some v => exact (hcells c hc).1 v (List.mem_of_getElem? hi)
  have hcol : ∀ c ∈ f.cols, (List.range f.index.length).map (fun i => ((c.2.map render)[i]?).getD []) = c.2.map render := by
    intro c hc
    refine List.ext_getElem (by simp [hf.lengths c hc]) ?_
    intro i h1 h2
    simp at h2
    simp [h2]
  have hidx : (List.range f.index.length).map (fun i => label (f.index.getD i 0)) = f.index.map label := by
    refine List.ext_getElem (by simp) ?_
    intro i h1 h2
    simp at h2
    simp [h2]
  have hcols : ((([] : Text) :: f.columns).mapIdx fun i h => (columnName label h i, convert
      (((List.range f.index.length).map fun i =>
        label (f.index.getD i 0) :: f.cols.map fun c => ((c.2.map render)[i]?).getD []).map fun r => r.getD i []))) =
      ("Unnamed: ".toList ++ label 0, convert (f.index.map label)) :: f.cols := by
    rw [List.mapIdx_cons]
    congr 1
    · rw [List.map_map]
      unfold columnName
      rw [if_pos rfl]
      congr 2
    · refine List.ext_getElem (by simp [Frame.columns]) ?_
      intro i h1 h2
      have hi : i < f.cols.length := h2
      have hm := List.getElem_mem hi
      rw [List.getElem_mapIdx]
      have hn : f.columns[i]'(by simpa [Frame.columns] using hi) = (f.cols[i]).1 := by simp [Frame.columns]
      rw [hn]
      have h3 := hname (f.cols[i]).1 (List.mem_map.mpr ⟨_, hm, rfl⟩)
      unfold columnName
      rw [if_neg h3.1, List.map_map]
      have h4 : (List.range f.index.length).map ((fun r : List Text => r.getD (i + 1) []) ∘ fun j =>
          label (f.index.getD j 0) :: f.cols.map fun c => ((c.2.map render)[j]?).getD []) = (f.cols[i]).2.map render := by
        rw [← hcol _ hm]
        refine List.map_congr_left ?_
        intro j _
        simp [hi]
      rw [h4, (hcells _ hm).2]
  refine ⟨⟨List.range f.index.length, ("Unnamed: ".toList ++ label 0, convert (f.index.map label)) :: f.cols⟩, ?_, by simp, rfl, ?_⟩
  · unfold fromCSV
    rw [hscan]
    unfold fileRows
    simp only [List.length_map, List.length_range]
    rw [hcols]
    unfold cities
    rw [if_pos]
    rw [List.all_eq_true]
    intro n hn
    simp only [List.mem_cons, List.not_mem_nil, or_false] at hn
    simp only [Frame.columns, List.map_cons, List.mem_cons, decide_eq_true_eq]
    right
    rcases hn with rfl | rfl | rfl
    · exact hf.required "name" (by simp)
    · exact hf.required "lat" (by simp)
    · exact hf.required "lon" (by simp)
  · intro n hn
    unfold Frame.col
    rw [List.lookup_cons]
    rw [beq_eq_false_iff_ne.mpr hn]

/-- **C170** is violated for every table: the loaded one does not have the same columns. -/
theorem C170_columns_violated {V : Type} (render : V → Text) (convert : List Text → List V) (label : ℕ → Text) (f g : Frame V) (hf : GoodTable f)
    (hlabel : ∀ n, '\r' ∉ label n) (hname : ∀ n ∈ f.columns, n ≠ [] ∧ '\r' ∉ n)
    (hcells : ∀ c ∈ f.cols, (∀ v ∈ c.2, '\r' ∉ render v) ∧ convert (c.2.map render) = c.2)
    (hg : fromCSV convert label (save render label f) = .ok g) :
    g.columns = ("Unnamed: ".toList ++ label 0) :: f.columns ∧ g.columns ≠ f.columns := by
  obtain ⟨g', h1, -, h2, -⟩ := C170_save_partial render convert label f hf hlabel hname hcells
  rw [hg] at h1
  cases h1
  have : g.columns = ("Unnamed: ".toList ++ label 0) :: f.columns := by
    unfold Frame.columns
    rw [h2]
    rfl
  refine ⟨this, fun h => ?_⟩
  have := congrArg List.length (this.symm.trans h)
  simp at this

/-- A file without one of the required columns is refused. -/
theorem C170_refused {V : Type} (convert : List Text → List V) (label : ℕ → Text) (header : List Text) (body : List (List Text)) (n : Text)
    (hn : n ∈ ["name".toList, "lat".toList, "lon".toList]) (hmiss : n ∉ header) (h : ∀ r ∈ header :: body, 2 ≤ r.length ∧ ∀ f ∈ r, '\r' ∉ f) :
    fromCSV convert label (writeRows (header :: body)) = .error .key := by
  unfold fromCSV
  rw [C170_text _ h]
  simp only
  unfold cities
  rw [if_neg]
  rw [List.all_eq_true]
  intro hall
  have h1 := hall n hn
  rw [decide_eq_true_eq] at h1
  unfold Frame.columns at h1
  obtain ⟨p, hp, rfl⟩ := List.mem_map.mp h1
  obtain ⟨i, hi, rfl⟩ := List.mem_mapIdx.mp hp
  simp only [columnName] at hn hmiss
  split_ifs at hn hmiss with he
  · simp only [List.mem_cons, List.not_mem_nil, or_false] at hn
    rcases hn with hn | hn | hn <;> exact absurd (congrArg List.head? hn) (by simp)
  · exact hmiss (List.getElem_mem hi)

/-- A table with two cities, one of which has a comma and quotation marks in its name. -/
def sampleFrame : Frame Text :=
  ⟨[4, 7], [("name".toList, ["San \"Q\", Jose".toList, "Oakland".toList]), ("lat".toList, ["37.3".toList, "37.8".toList]),
    ("lon".toList, ["-121".toList, "-122".toList])]⟩

/-- The table meets the hypotheses, and is read from its text. -/
example : GoodTable sampleFrame ∧
    ((fromCSV id (fun n => if n = 0 then "0".toList else "9".toList) (save id (fun n => if n = 0 then "0".toList else "9".toList) sampleFrame)).toOption.map
      fun g => (g.index, g.cols)) = some ([0, 1], ("Unnamed: 0".toList, ["9".toList, "9".toList]) :: sampleFrame.cols) := by
  refine ⟨⟨by decide +kernel, by decide +kernel⟩, by decide +kernel⟩

/-! ### C171 -/

/-- **C171** is violated: `sortByColumns` sorts nothing and raises `TypeError`, also for columns that are there. -/
theorem C171_sort_violated {V : Type} (f : Frame V) (columns : List Text) (ascending : Bool) :
    (sortByColumns f columns ascending).1 = f ∧ (sortByColumns f columns ascending).2 = .error .type := ⟨rfl, rfl⟩

theorem lookup_replace {V : Type} (cs : List (Text × V)) (name n : Text) (v : V) (h : name ∈ cs.map Prod.fst) :
    (cs.map fun c => if c.1 = name then (name, v) else c).lookup n = if n = name then some v else cs.lookup n := by
  have hne : n ≠ name → (cs.map fun c => if c.1 = name then (name, v) else c).lookup n = cs.lookup n := by
    intro hn
    clear h
    induction cs with
    | nil => rfl
    | cons c cs ih =>
      obtain ⟨a, b⟩ := c
      by_cases hc : a = name
      · subst hc
        have : (n == a) = false := by simpa using hn
        simp only [List.map_cons, if_true, List.lookup_cons, this]
        exact ih
      · simp only [List.map_cons, hc, if_false, List.lookup_cons, ih]
  split_ifs with hn
  · subst hn
    clear hne
    induction cs with
    | nil => simp at h
    | cons c cs ih =>
      obtain ⟨a, b⟩ := c
      by_cases hc : a = n
      · simp [hc]
      · have : (n == a) = false := by simpa using fun e => hc e.symm
        simp only [List.map_cons, hc, if_false, List.lookup_cons, this]
        refine ih ?_
        rcases List.mem_cons.mp h with h | h
        · exact absurd h.symm hc
        · exact h
  · exact hne hn

theorem lookup_missing {V : Type} (cs : List (Text × V)) (n : Text) (h : n ∉ cs.map Prod.fst) : cs.lookup n = none := by
  induction cs with
  | nil => rfl
  | cons c cs ih =>
    obtain ⟨a, b⟩ := c
    rw [List.map_cons, List.mem_cons, not_or] at h
    have : (n == a) = false := by simpa using h.1
    simp only [List.lookup_cons, this]
    exact ih h.2

theorem col_setCol {V : Type} (f : Frame V) (name n : Text) (v : List V) :
    (f.setCol name v).col n = if n = name then some v else f.col n := by
  unfold Frame.setCol Frame.col
  split_ifs with h1 h2 h2
  · rw [lookup_replace _ _ _ _ h1, if_pos h2]
  · rw [lookup_replace _ _ _ _ h1, if_neg h2]
  · subst h2
    rw [List.lookup_append, lookup_missing _ _ h1]
    simp [List.lookup_cons]
  · have : (n == name) = false := by simpa using h2
    rw [List.lookup_append]
    simp [List.lookup_cons, this]

/-- **C171** (partial), the projection: the columns `x` and `y` hold what the map makes of longitudes and latitudes, all other columns stay as they are. A table without longitudes or
latitudes cannot exist. -/
theorem C171_project_partial {V : Type} (basemap : List V → List V → List V × List V) (f : Frame V) (hf : GoodTable f) :
    ∃ g lon lat, project basemap f = .ok g ∧ f.col "lon".toList = some lon ∧ f.col "lat".toList = some lat ∧
      g.col "x".toList = some (basemap lon lat).1 ∧ g.col "y".toList = some (basemap lon lat).2 ∧ g.index = f.index ∧
      ∀ n, n ≠ "x".toList → n ≠ "y".toList → g.col n = f.col n := by
  have hs : ∀ n ∈ f.columns, ∃ v, f.col n = some v := by
    intro n hn
    unfold Frame.col
    refine Option.ne_none_iff_exists'.mp ?_
    rw [Ne, List.lookup_eq_none_iff]
    intro h
    obtain ⟨p, hp, rfl⟩ := List.mem_map.mp hn
    simpa using h p hp
  obtain ⟨lon, hlon⟩ := hs _ (hf.required "lon" (by simp))
  obtain ⟨lat, hlat⟩ := hs _ (hf.required "lat" (by simp))
  refine ⟨(f.setCol "x".toList (basemap lon lat).1).setCol "y".toList (basemap lon lat).2, lon, lat, ?_, hlon, hlat, ?_, ?_, ?_, ?_⟩
  · unfold project
    rw [hlon, hlat]
  · rw [col_setCol, if_neg (by decide), col_setCol, if_pos rfl]
  · rw [col_setCol, if_pos rfl]
  · unfold Frame.setCol
    split_ifs <;> rfl
  · intro n h1 h2
    rw [col_setCol, if_neg h2, col_setCol, if_neg h1]

end Verif.Props
