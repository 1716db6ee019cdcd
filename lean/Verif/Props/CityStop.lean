import Verif.Spec.CityStop
import Verif.Props.CityCsv

/-!
# C216: a city table whose saving was interrupted
-/

namespace Verif.Props
open Verif.Csv Verif.Spec

theorem prefix_cut {α : Type} {c : α} {b : List α} : ∀ {a p : List α}, p <+: a ++ c :: b →
    p <+: a ∨ ∃ p', p = a ++ c :: p' ∧ p' <+: b := by
  intro a
  induction a with
  | nil =>
    intro p h
    cases p with
    | nil => exact Or.inl (List.nil_prefix)
    | cons d p =>
      obtain ⟨rfl, h'⟩ := List.cons_prefix_cons.1 h; clear h; have h := h'; clear h'
      exact Or.inr ⟨p, rfl, h⟩
  | cons x a ih =>
    intro p h
    cases p with
    | nil => exact Or.inl (List.nil_prefix)
    | cons d p =>
      obtain ⟨rfl, h'⟩ := List.cons_prefix_cons.1 h; clear h; have h := h'; clear h'
      rcases ih h with h1 | ⟨p', rfl, h1⟩ <;> clear h <;> have h := h1 <;> clear h1
      · exact Or.inl (List.cons_prefix_cons.2 ⟨rfl, h⟩)
      · exact Or.inr ⟨p', rfl, h⟩

/-- A text in quotation marks that is cut off is refused, or its beginning is read. -/
theorem cut_quoted (f : Text) : ∀ (p cur : Text) (fs : List Text), p <+: escape f ++ ['"'] →
    scan .quoted cur fs p = none ∨ ∃ g, g <+: f ∧ scan .quoted cur fs p = some [fs.reverse ++ [cur.reverse ++ g]] := by
  induction f with
  | nil =>
    intro p cur fs h
    cases p with
    | nil => exact Or.inl (by rw [scan])
    | cons d p =>
      obtain ⟨rfl, h'⟩ := List.cons_prefix_cons.1 h; clear h; have h := h'; clear h'
      rw [List.prefix_nil.1 h]
      exact Or.inr ⟨[], List.nil_prefix, by simp [scan]⟩
  | cons c cs ih =>
    intro p cur fs h
    cases p with
    | nil => exact Or.inl (by rw [scan])
    | cons d p =>
      unfold escape at h
      by_cases hc : c = '"'
      · subst hc
        rw [if_pos rfl] at h
        obtain ⟨rfl, h'⟩ := List.cons_prefix_cons.1 h; clear h; have h := h'; clear h'
        cases p with
        | nil => exact Or.inr ⟨[], List.nil_prefix, by simp [scan]⟩
        | cons d p =>
          obtain ⟨rfl, h'⟩ := List.cons_prefix_cons.1 h; clear h; have h := h'; clear h'
          have e : scan .quoted cur fs ('"' :: '"' :: p) = scan .quoted ('"' :: cur) fs p := by simp [scan]
          rw [e]
          rcases ih p ('"' :: cur) fs h with h | ⟨g, hg, h⟩
          · exact Or.inl h
          · exact Or.inr ⟨'"' :: g, List.cons_prefix_cons.2 ⟨rfl, hg⟩, by rw [h]; simp⟩
      · rw [if_neg hc] at h
        obtain ⟨rfl, h'⟩ := List.cons_prefix_cons.1 h; clear h; have h := h'; clear h'
        have e : scan .quoted cur fs (d :: p) = scan .quoted (d :: cur) fs p := by simp [scan, hc]
        rw [e]
        rcases ih p (d :: cur) fs h with h | ⟨g, hg, h⟩
        · exact Or.inl h
        · exact Or.inr ⟨d :: g, List.cons_prefix_cons.2 ⟨rfl, hg⟩, by rw [h]; simp⟩

/-- A field that is cut off is refused, or its beginning is read. -/
theorem cut_field (st : St) (f : Text) (hf : NoReturn f) (p : Text) (fs : List Text) (hst : st = .row ∧ p ≠ [] ∨ st = .field)
    (h : p <+: writeField f) :
    scan st [] fs p = none ∨ ∃ g, g <+: f ∧ scan st [] fs p = some [fs.reverse ++ [g]] := by
  cases p with
  | nil =>
    rcases hst with ⟨-, h0⟩ | rfl
    · exact absurd rfl h0
    · exact Or.inr ⟨[], List.nil_prefix, by simp [scan]⟩
  | cons d p =>
    unfold writeField at h
    by_cases hq : (f.any fun c => c = ',' || c = '"' || c = '\n') = true
    · rw [if_pos hq] at h
      obtain ⟨rfl, h'⟩ := List.cons_prefix_cons.1 h; clear h; have h := h'; clear h'
      have e : scan st [] fs ('"' :: p) = scan .quoted [] fs p := by
        rcases hst with ⟨rfl, -⟩ | rfl <;> simp [scan]
      rw [e]
      rcases cut_quoted f p [] fs h with h | ⟨g, hg, h⟩
      · exact Or.inl h
      · exact Or.inr ⟨g, hg, by rw [h]; rfl⟩
    · rw [if_neg hq] at h
      have hall : ∀ c ∈ f, c ≠ ',' ∧ c ≠ '"' ∧ c ≠ '\n' ∧ c ≠ '\r' := by
        intro c hc
        simp only [List.any_eq_true, not_exists, not_and] at hq
        have := hq c hc
        simp only [Bool.or_eq_true, decide_eq_true_eq, not_or] at this
        exact ⟨this.1.1, this.1.2, this.2, fun he => hf (he ▸ hc)⟩
      have hp : ∀ c ∈ d :: p, c ≠ ',' ∧ c ≠ '"' ∧ c ≠ '\n' ∧ c ≠ '\r' := fun c hc => hall c (h.subset hc)
      obtain ⟨h1, h2, h3, h4⟩ := hp d (by simp)
      have e : scan st [] fs (d :: p) = scan .plain [d] fs (p ++ []) := by
        rcases hst with ⟨rfl, -⟩ | rfl <;> simp [scan, h1, h2, h3, h4]
      rw [e, scan_plain p (fun c hc => ⟨(hp c (by simp [hc])).1, (hp c (by simp [hc])).2.2.1, (hp c (by simp [hc])).2.2.2⟩)]
      exact Or.inr ⟨d :: p, h, by simp [scan]⟩

theorem cutOf_head {f : Text} {r : List Text} {g : Text} (h : g <+: f) : CutOf (f :: r) [g] :=
  ⟨[], g, f, rfl, List.cons_prefix_cons.2 ⟨rfl, List.nil_prefix⟩, h⟩

theorem cutOf_cons {f : Text} {r last : List Text} (h : CutOf r last) : CutOf (f :: r) (f :: last) := by
  obtain ⟨fs, g, f', rfl, h1, h2⟩ := h
  exact ⟨f :: fs, g, f', rfl, List.cons_prefix_cons.2 ⟨rfl, h1⟩, h2⟩

theorem cutOf_self {r : List Text} (h : r ≠ []) : CutOf r r :=
  ⟨r.dropLast, r.getLast h, r.getLast h, (List.dropLast_append_getLast h).symm, by rw [List.dropLast_append_getLast h]; exact List.prefix_rfl,
    List.prefix_rfl⟩

theorem cutOf_getD {r last : List Text} (h : CutOf r last) (i : ℕ) : last.getD i [] <+: r.getD i [] := by
  obtain ⟨fs, g, f, rfl, ⟨t, rfl⟩, h2⟩ := h
  rcases Nat.lt_trichotomy i fs.length with hi | rfl | hi
  · have e : ∀ l : List Text, (fs ++ l).getD i [] = fs.getD i [] := by
      intro l
      rw [List.getD_eq_getElem?_getD, List.getD_eq_getElem?_getD, List.getElem?_append_left hi]
    rw [List.append_assoc, e, e]
    exact List.prefix_rfl
  · simpa using h2
  · rw [List.getD_eq_getElem?_getD, List.getElem?_eq_none (by simp; omega)]
    exact List.nil_prefix

/-- A row that is cut off is refused, or some of it is read. -/
theorem cut_fields (r : List Text) : ∀ (p : Text) (fs : List Text), (∀ f ∈ r, NoReturn f) → r ≠ [] → p <+: writeFields r →
    scan .field [] fs p = none ∨ ∃ last, CutOf r last ∧ scan .field [] fs p = some [fs.reverse ++ last] := by
  induction r with
  | nil => intro p fs _ h; exact absurd rfl h
  | cons f r ih =>
    intro p fs hr _ h
    cases r with
    | nil =>
      rcases cut_field .field f (hr f (by simp)) p fs (Or.inr rfl) h with h | ⟨g, hg, h⟩
      · exact Or.inl h
      · exact Or.inr ⟨[g], cutOf_head hg, h⟩
    | cons f' r =>
      rcases prefix_cut (show p <+: writeField f ++ ',' :: writeFields (f' :: r) from h) with h1 | ⟨p', rfl, h1⟩ <;> clear h <;> have h := h1 <;> clear h1
      · rcases cut_field .field f (hr f (by simp)) p fs (Or.inr rfl) h with h | ⟨g, hg, h⟩
        · exact Or.inl h
        · exact Or.inr ⟨[g], cutOf_head hg, h⟩
      · rw [scan_field .field (Or.inr rfl) f (hr f (by simp))]
        rcases ih p' (f :: fs) (fun x hx => hr x (List.mem_cons_of_mem _ hx)) (by simp) h with h | ⟨last, hl, h⟩
        · exact Or.inl h
        · exact Or.inr ⟨f :: last, cutOf_cons hl, by rw [h]; simp⟩

/-- **C216**, the rows. What is read from the beginning of a file of rows is nothing, or some of the rows, of which only the last one may have been cut
off. -/
theorem C216_rows (rows : List (List Text)) (h : ∀ r ∈ rows, 2 ≤ r.length ∧ ∀ f ∈ r, '\r' ∉ f) :
    ∀ {p : Text} {read : List (List Text)}, p <+: writeRows rows → scan .row [] [] p = some read →
      read = [] ∨ ∃ k row last, rows[k]? = some row ∧ CutOf row last ∧ read = rows.take k ++ [last] := by
  induction rows with
  | nil =>
    intro p read hp hs
    rw [List.prefix_nil.1 hp, scan] at hs
    cases hs
    exact Or.inl rfl
  | cons r rs ih =>
    intro p read hp hs
    obtain ⟨hl, hr⟩ := h r (by simp)
    match r, hl, hr with
    | f :: g :: gs, _, hr =>
      have nr : ∀ x ∈ g :: gs, NoReturn x := fun x hx => hr x (List.mem_cons_of_mem _ hx)
      rcases prefix_cut (show p <+: writeFields (f :: g :: gs) ++ '\n' :: writeRows rs from hp) with h1 | ⟨p', rfl, h1⟩ <;> clear hp <;> have hp := h1 <;> clear h1
      · by_cases h0 : p = []
        · subst h0
          rw [scan] at hs
          cases hs
          exact Or.inl rfl
        right
        refine ⟨0, f :: g :: gs, ?_⟩
        rcases prefix_cut (show p <+: writeField f ++ ',' :: writeFields (g :: gs) from hp) with h1 | ⟨p', rfl, h1⟩ <;> clear hp <;> have hp := h1 <;> clear h1
        · rcases cut_field .row f (hr f (by simp)) p [] (Or.inl ⟨rfl, h0⟩) hp with h | ⟨g', hg, h⟩
          · rw [h] at hs; cases hs
          · rw [h] at hs; cases hs
            exact ⟨[g'], rfl, cutOf_head hg, rfl⟩
        · rw [scan_field .row (Or.inl rfl) f (hr f (by simp))] at hs
          rcases cut_fields (g :: gs) p' [f] nr (by simp) hp with h | ⟨last, hl, h⟩
          · rw [h] at hs; cases hs
          · rw [h] at hs; cases hs
            exact ⟨f :: last, rfl, cutOf_cons hl, rfl⟩
      · rw [show writeFields (f :: g :: gs) = writeField f ++ ',' :: writeFields (g :: gs) from rfl, List.append_assoc, List.cons_append,
          scan_field .row (Or.inl rfl) f (hr f (by simp)), scan_fields (g :: gs) [f] _ nr (by simp)] at hs
        obtain ⟨read', hs', rfl⟩ := Option.map_eq_some_iff.1 hs
        right
        rcases ih (fun r hr => h r (List.mem_cons_of_mem _ hr)) hp hs' with rfl | ⟨k, row, last, h1, h2, rfl⟩
        · exact ⟨0, f :: g :: gs, f :: g :: gs, rfl, cutOf_self (by simp), rfl⟩
        · exact ⟨k + 1, row, last, h1, h2, rfl⟩

theorem columnName_of (label : ℕ → Text) {h : Text} (hh : h ≠ []) (i : ℕ) : columnName label h i = h := if_neg hh

/-- **C216** (partial). Whatever the table is and wherever saving it is interrupted: `fromCSV` raises an error for the file that is left, or gives a table of no
cities, or one of the first cities with all the columns, in which all cities but the last one have the values that were saved, and the last one has in each column what is made of the beginning
of a text that was saved. Missing: the values of the last city, see `C216_last_violated`, and that the other cities are missed, see `C216_lines_violated`. -/
theorem C216_saved_partial {V : Type} (render : V → Text) (convert : List Text → List V) (label : ℕ → Text) (f : Frame V) (hf : GoodTable f)
    (hlabel : ∀ n, '\r' ∉ label n)
    (hname : ∀ n ∈ f.columns, n ≠ [] ∧ '\r' ∉ n)
    (hcells : ∀ c ∈ f.cols, ∀ v ∈ c.2, '\r' ∉ render v) {p : Text} (hp : p <+: save render label f) {g : Frame V}
    (hg : fromCSV convert label p = .ok g) :
    g.index.length ≤ f.index.length ∧
    (g.index = [] ∨ g.columns = ("Unnamed: ".toList ++ label 0) :: f.columns ∧
      ∀ i (hi : i < f.cols.length), ∃ cell t, (f.cols[i]).2[g.index.length - 1]? = some cell ∧ t <+: render cell ∧
        g.cols[i + 1]? = some ((f.cols[i]).1, convert (((f.cols[i]).2.take (g.index.length - 1)).map render ++ [t]))) := by
  have hne : f.cols ≠ [] := by
    intro h
    have := hf.required "name" (by simp)
    simp [Frame.columns, h] at this
  have hlen : 1 ≤ f.cols.length := List.length_pos_iff.mpr hne
  have hrows : ∀ r ∈ fileRows render label f, 2 ≤ r.length ∧ ∀ x ∈ r, '\r' ∉ x := by
    intro r hr
    unfold fileRows at hr
    rcases List.mem_cons.mp hr with rfl | hr
    · refine ⟨by simp [Frame.columns]; omega, ?_⟩
      intro x hx
      rcases List.mem_cons.mp hx with rfl | hx
      · simp
      · exact (hname x hx).2
    · obtain ⟨i, -, rfl⟩ := List.mem_map.mp hr
      refine ⟨by simp; omega, ?_⟩
      intro x hx
      rcases List.mem_cons.mp hx with rfl | hx
      · exact hlabel _
      · obtain ⟨c, hc, rfl⟩ := List.mem_map.mp hx
        rw [List.getElem?_map]
        cases hi : c.2[i]? with
        | none => simp
        | some v => exact hcells c hc v (List.mem_of_getElem? hi)
  unfold fromCSV at hg
  cases hs : scan .row [] [] p with
  | none => rw [hs] at hg; cases hg
  | some read =>
    rw [hs] at hg
    rcases C216_rows _ hrows hp hs with rfl | ⟨k, row, last, h1, h2, h3⟩
    · cases hg
    have hcut : ∀ {fr : Frame V}, cities fr = .ok g → g = fr := by
      intro fr h
      unfold cities at h
      split_ifs at h
      cases h; rfl
    cases k with
    | zero =>
      rw [List.take_zero, List.nil_append] at h3
      subst h3
      have := hcut hg
      subst this
      exact ⟨Nat.zero_le _, Or.inl rfl⟩
    | succ k =>
      unfold fileRows at h1 h3
      rw [List.take_succ_cons, List.cons_append] at h3
      subst h3
      have := hcut hg
      subst this
      rw [List.getElem?_cons_succ, List.getElem?_map] at h1
      obtain ⟨j, hj, rfl⟩ := Option.map_eq_some_iff.1 h1
      have hk : k < f.index.length := by
        have := (List.getElem?_eq_some_iff.1 hj).1
        simpa using this
      have hjk : j = k := by
        rw [List.getElem?_range hk] at hj
        exact (Option.some.inj hj).symm
      subst hjk
      set body := ((List.range f.index.length).map fun i =>
        label (f.index.getD i 0) :: f.cols.map fun c => ((c.2.map render)[i]?).getD []).take j ++ [last] with hbody
      have hbl : body.length = j + 1 := by
        rw [hbody]; simp; omega
      simp only [List.length_range, hbl]
      refine ⟨hk, Or.inr ⟨?_, ?_⟩⟩
      · unfold Frame.columns
        rw [List.mapIdx_cons, List.map_cons]
        congr 1
        refine List.ext_getElem (by simp) ?_
        intro i a b
        have hb : i < f.cols.length := by simpa using b
        have h3 := hname (f.cols[i]).1 (List.mem_map.mpr ⟨_, List.getElem_mem hb, rfl⟩)
        rw [List.getElem_map, List.getElem_mapIdx, List.getElem_map]
        exact columnName_of label h3.1 _
      · intro i hi
        have hm := List.getElem_mem hi
        have hcl := hf.lengths _ hm
        have hj' : j < (f.cols[i]).2.length := by omega
        refine ⟨(f.cols[i]).2[j], last.getD (i + 1) [], ?_, ?_, ?_⟩
        · rw [Nat.add_sub_cancel]
          exact List.getElem?_eq_getElem hj'
        · have := cutOf_getD h2 (i + 1)
          rw [List.getD_cons_succ] at this
          have e : (f.cols.map fun c => ((c.2.map render)[j]?).getD []).getD i [] = render (f.cols[i]).2[j] := by
            rw [List.getD_eq_getElem?_getD, List.getElem?_map, List.getElem?_eq_getElem hi]
            simp [hj']
          rw [e] at this
          exact this
        · have h3 := hname (f.cols[i]).1 (List.mem_map.mpr ⟨_, hm, rfl⟩)
          rw [Nat.add_sub_cancel, List.getElem?_mapIdx]
          have hn : (([] : Text) :: f.columns)[i + 1]? = some (f.cols[i]).1 := by
            simp [Frame.columns, hi]
          rw [hn, Option.map_some]
          rw [columnName_of label h3.1]
          congr 2
          congr 1
          rw [hbody, List.map_append]
          congr 1
          refine List.ext_getElem (by simp; omega) ?_
          intro l a b
          have hlj : l < j := by
            simp at a; omega
          have hl' : l < (f.cols[i]).2.length := by omega
          simp [hi, hl']

theorem writeRows_append (rs qs : List (List Text)) : writeRows (rs ++ qs) = writeRows rs ++ writeRows qs := by
  induction rs with
  | nil => rfl
  | cons r rs ih => simp [writeRows, ih]

/-- **C216** is violated for every file of rows: a file that stops after some of its rows is read as these rows, without an error. -/
theorem C216_lines_violated (rows : List (List Text)) (h : ∀ r ∈ rows, 2 ≤ r.length ∧ ∀ f ∈ r, '\r' ∉ f) (k : ℕ) :
    ∃ p, p <+: writeRows rows ∧ scan .row [] [] p = some (rows.take k) :=
  ⟨writeRows (rows.take k), ⟨writeRows (rows.drop k), by rw [← writeRows_append, List.take_append_drop]⟩,
    C170_text _ fun r hr => h r (List.mem_of_mem_take hr)⟩

/-- A table of one city. -/
def stopFrame : Frame Text := ⟨[0], [("name".toList, ["Seattle".toList]), ("lat".toList, ["47.60621".toList]),
  ("lon".toList, ["-122.33207".toList]), ("pop".toList, ["608660".toList])]⟩

/-- **C216** is violated for the last city: from a file that stops within the number of its people, fewer people are read, and from one that stops
within its longitude, another place, both without an error. -/
theorem C216_last_violated : GoodTable stopFrame ∧
    (∃ p g, p <+: save id (fun _ => "0".toList) stopFrame ∧ fromCSV id (fun _ => "0".toList) p = .ok g ∧ g.col "pop".toList = some ["6086".toList]) ∧
    ∃ p g, p <+: save id (fun _ => "0".toList) stopFrame ∧ fromCSV id (fun _ => "0".toList) p = .ok g ∧ g.col "lon".toList = some ["-12".toList] := by
  refine ⟨⟨by decide +kernel, by decide +kernel⟩, ⟨",name,lat,lon,pop\n0,Seattle,47.60621,-122.33207,6086".toList, _, ⟨"60\n".toList, by decide +kernel⟩, rfl, by decide +kernel⟩,
    ",name,lat,lon,pop\n0,Seattle,47.60621,-12".toList, _, ⟨"2.33207,608660\n".toList, by decide +kernel⟩, rfl, by decide +kernel⟩

/-! ### Cases that meet the hypotheses -/

/-- The hypotheses of `C216_saved_partial`. -/
example : GoodTable stopFrame ∧ (∀ n : ℕ, '\r' ∉ (fun _ => "0".toList : ℕ → Text) n) ∧ (∀ n ∈ stopFrame.columns, n ≠ [] ∧ '\r' ∉ n) ∧
    (∀ c ∈ stopFrame.cols, ∀ v ∈ c.2, '\r' ∉ id v) ∧ (save id (fun _ => "0".toList) stopFrame).take 31 = ",name,lat,lon,pop\n0,Seattle,47.".toList ∧
    ((fromCSV id (fun _ => "0".toList) ((save id (fun _ => "0".toList) stopFrame).take 31)).toOption.map fun g => g.cols.map Prod.snd) =
      some [["0".toList], ["Seattle".toList], ["47.".toList], [[]], [[]]] := by
  refine ⟨C216_last_violated.1, fun _ => (by decide : (Char.ofNat 13) ∉ "0".toList), by decide +kernel, by decide +kernel, by decide +kernel, by decide +kernel⟩

/-- A name with a comma, cut off between its quotation marks, is refused. -/
example : "0,\"Yakima, W".toList <+: writeRows [["0".toList, "Yakima, WA".toList]] ∧ scan .row [] [] "0,\"Yakima, W".toList = none := by
  refine ⟨⟨"A\"\n".toList, by decide +kernel⟩, by decide +kernel⟩

end Verif.Props
