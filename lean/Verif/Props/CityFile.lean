import Verif.Model.CityFile
import Verif.Spec.GeoNames
import Verif.Props.EventFile
import Verif.Props.Cities

/-!
# C162: GeoNames files, cities by name, arrays of cities
-/

namespace Verif.Props
open Verif Verif.Cities Verif.Spec
open Verif.Factory (strip isSpace lstrip)

/-! ### Lines and fields -/

theorem readlines_body {b : List Char} (h : '\n' ∉ b) (cur r : List Char) :
    readlines cur (b ++ '\n' :: r) = (cur.reverse ++ b ++ ['\n']) :: readlines [] r := by
  induction b generalizing cur with
  | nil => simp [readlines]
  | cons c b ih =>
    simp only [List.mem_cons, not_or] at h
    rw [List.cons_append, readlines, if_neg (fun e => h.1 e.symm), ih h.2]
    simp

/-- The line of a record. -/
def geoLine (r : List (List Char)) : List Char := List.intercalate ['\t'] r ++ ['\n']

theorem intercalate_no {r : List (List Char)} (h : ∀ f ∈ r, '\n' ∉ f) : '\n' ∉ List.intercalate ['\t'] r := by
  induction r with
  | nil => simp
  | cons f r ih =>
    have hf := h f (by simp)
    have hr := ih fun g hg => h g (by simp [hg])
    cases r with
    | nil => simpa [List.intercalate] using hf
    | cons g r =>
      have e : List.intercalate ['\t'] (f :: g :: r) = f ++ '\t' :: List.intercalate ['\t'] (g :: r) := by
        simp [List.intercalate]
      rw [e]
      simp only [List.mem_append, List.mem_cons, not_or]
      exact ⟨hf, by decide, hr⟩

theorem readlines_geo (rs : List (List (List Char))) (h : ∀ r ∈ rs, Writable r) :
    readlines [] (geoText rs) = rs.map geoLine := by
  induction rs with
  | nil => simp [geoText, readlines]
  | cons r rs ih =>
    have e : geoText (r :: rs) = List.intercalate ['\t'] r ++ '\n' :: geoText rs := by simp [geoText]
    rw [e, readlines_body (intercalate_no fun f hf => ((h r (by simp)).2 f hf).2), ih fun q hq => h q (by simp [hq])]
    simp [geoLine]

theorem trims_strip {s t : List Char} (h : TrimsTo s t) : strip s = t := by
  obtain ⟨w, w', g, g', e, t1, t2⟩ := h
  rw [e]
  exact strip_trimmed g g' ⟨t1, t2⟩

theorem lstrip_head (s : List Char) (c : Char) (h : (lstrip s).head? = some c) : ¬ White c := by
  intro hw
  rw [← isSpace_iff] at hw
  have := List.head?_dropWhile_not isSpace s
  rw [lstrip] at h
  rw [h] at this
  simp [hw] at this

/-- Every text can be trimmed. -/
theorem trims_exists (s : List Char) : ∃ t, TrimsTo s t := by
  have e1 : s = s.takeWhile isSpace ++ lstrip s := List.takeWhile_append_dropWhile.symm
  have e2 : lstrip s = strip s ++ ((lstrip s).reverse.takeWhile isSpace).reverse := by
    have := (List.takeWhile_append_dropWhile (p := isSpace) (l := (lstrip s).reverse)).symm
    have h := congrArg List.reverse this
    rw [List.reverse_reverse, List.reverse_append] at h
    exact h
  refine ⟨strip s, s.takeWhile isSpace, ((lstrip s).reverse.takeWhile isSpace).reverse, ?_, ?_, ?_, ?_, ?_⟩
  · intro c hc
    exact (isSpace_iff c).1 (List.all_eq_true.1 List.all_takeWhile c hc)
  · intro c hc
    exact (isSpace_iff c).1 (List.all_eq_true.1 List.all_takeWhile c (List.mem_reverse.1 hc))
  · rw [List.append_assoc, ← e2]; exact e1
  · intro c hc
    refine lstrip_head s c ?_
    rw [e2, List.head?_append, hc]; rfl
  · intro c hc
    rw [strip, List.getLast?_reverse] at hc
    exact lstrip_head _ c hc

theorem strip_trims (s : List Char) : TrimsTo s (strip s) := by
  obtain ⟨t, h⟩ := trims_exists s
  rw [trims_strip h]; exact h

theorem strip_newline (s : List Char) : strip (s ++ ['\n']) = strip s := by
  obtain ⟨w, w', g, g', e, t1, t2⟩ := strip_trims s
  refine trims_strip ⟨w, w' ++ ['\n'], g, ?_, ?_, t1, t2⟩
  · intro c hc
    rcases List.mem_append.1 hc with hc | hc
    · exact g' c hc
    · rw [List.mem_singleton.1 hc]; decide
  · rw [← List.append_assoc, ← e]

theorem intercalate_last (r : List (List Char)) (f : List Char) :
    List.intercalate ['\t'] (r ++ [f]) ++ ['\n'] = List.intercalate ['\t'] (r ++ [f ++ ['\n']]) := by
  induction r with
  | nil => simp [List.intercalate]
  | cons g r ih =>
    have e : ∀ x : List Char, List.intercalate ['\t'] (g :: (r ++ [x])) = g ++ '\t' :: List.intercalate ['\t'] (r ++ [x]) := by
      intro x
      cases r <;> simp [List.intercalate]
    rw [List.cons_append, List.cons_append, e, e, ← ih]
    simp

theorem field_geo {r : List (List Char)} (h : Writable r) (i : ℕ) : field ((geoLine r).splitOn '\t') i = field r i := by
  obtain ⟨q, f, rfl⟩ : ∃ q f, r = q ++ [f] := ⟨r.dropLast, r.getLast h.1, (List.dropLast_append_getLast h.1).symm⟩
  rw [geoLine, intercalate_last, List.splitOn_intercalate]
  · unfold field
    by_cases hi : i < q.length
    · rw [List.getElem?_append_left hi, List.getElem?_append_left hi]
    · rw [List.getElem?_append_right (by omega), List.getElem?_append_right (by omega)]
      cases hk : i - q.length with
      | zero => simp [strip_newline]
      | succ k => simp
  · intro l hl
    rcases List.mem_append.1 hl with hl | hl
    · exact (h.2 l (by simp [hl])).1
    · rw [List.mem_singleton.1 hl]
      have := (h.2 f (by simp)).1
      simp [this]
  · simp

/-- The turn of the loop for a record, in terms of its fields. -/
def cityOfFields (num : List Char → Option ℚ) (int : List Char → Option ℤ) (r : List (List Char)) : Except GeoErr (Option Place) := do
  let tname ← field r 2
  if tname.isEmpty then return none
  if tname.any (fun c => decide (c.toNat > 127)) then return none
  let ccode ← field r 8
  let lat ← number num (← field r 4)
  let lon ← number num (← field r 5)
  let capfield ← field r 7
  let pop ← number int (← field r 14)
  return some ⟨tname, ccode, lat, lon, capfield == "PPLC".toList || capfield == "PPLA".toList, pop⟩

theorem cityOfLine_geo (num : List Char → Option ℚ) (int : List Char → Option ℤ) {r : List (List Char)} (h : Writable r) :
    cityOfLine num int (geoLine r) = cityOfFields num int r := by
  simp only [cityOfLine, cityOfFields, field_geo h]

theorem field_trims {r : List (List Char)} {i : ℕ} {f t : List Char} (h : r[i]? = some f) (ht : TrimsTo f t) : field r i = .ok t := by
  rw [field, h]
  simp [trims_strip ht]

theorem number_some {α : Type} {f : List Char → Option α} {s : List Char} {x : α} (h : f s = some x) : number f s = .ok x := by
  rw [number, h]

theorem city_of_means (num : List Char → Option ℚ) (int : List Char → Option ℤ) {r : List (List Char)} {o : Option Place}
    (h : GeoMeans num int r o) : cityOfFields num int r = .ok o := by
  cases h with
  | blank f h t => rw [cityOfFields, field_trims h t]; rfl
  | foreign f name h t hc =>
    rw [cityOfFields, field_trims h t]
    obtain ⟨c, hc, hn⟩ := hc
    have h1 : name.isEmpty = false := by cases name <;> simp_all
    have h2 : name.any (fun c => decide (c.toNat > 127)) = true := List.any_eq_true.2 ⟨c, hc, by simpa using hn⟩
    simp only [bind, Except.bind, h1, h2, pure, Except.pure]
    rfl
  | city f2 f4 f5 f7 f8 f14 name lat lon kind country pop x y n cap h2 h4 h5 h7 h8 h14 t2 t4 t5 t7 t8 t14 hne ha hx hy hn hcap =>
    have e1 : name.isEmpty = false := by cases name <;> simp_all
    have e2 : name.any (fun c => decide (c.toNat > 127)) = false := by
      rw [List.any_eq_false]
      intro c hc
      have := ha c hc
      simp; omega
    have e3 : (kind == "PPLC".toList || kind == "PPLA".toList) = cap := by
      rw [Bool.eq_iff_iff, hcap, Bool.or_eq_true, beq_iff_eq, beq_iff_eq]
    simp only [cityOfFields, field_trims h2 t2, field_trims h4 t4, field_trims h5 t5, field_trims h7 t7, field_trims h8 t8,
      field_trims h14 t14, bind, Except.bind, e1, e2, e3, number_some hx, number_some hy, number_some hn, pure, Except.pure]
    rfl

theorem readlines_rest {b : List Char} (h : '\n' ∉ b) (cur : List Char) (hne : cur ≠ [] ∨ b ≠ []) : readlines cur b = [cur.reverse ++ b] := by
  induction b generalizing cur with
  | nil =>
    have hc : cur ≠ [] := hne.resolve_right (by simp)
    simp [readlines, hc]
  | cons c b ih =>
    simp only [List.mem_cons, not_or] at h
    rw [readlines, if_neg (fun e => h.1 e.symm), ih h.2 (c :: cur) (.inl (by simp))]
    simp

theorem readlines_geo_rest (rs : List (List (List Char))) (h : ∀ r ∈ rs, Writable r) (rest : List Char) :
    readlines [] (geoText rs ++ rest) = rs.map geoLine ++ readlines [] rest := by
  induction rs with
  | nil => simp [geoText]
  | cons r rs ih =>
    have e : geoText (r :: rs) ++ rest = List.intercalate ['\t'] r ++ '\n' :: (geoText rs ++ rest) := by simp [geoText]
    rw [e, readlines_body (intercalate_no fun f hf => ((h r (by simp)).2 f hf).2), ih fun q hq => h q (by simp [hq])]
    simp [geoLine]

theorem cityOfLine_bare (num : List Char → Option ℚ) (int : List Char → Option ℤ) {r : List (List Char)} (h : Writable r) :
    cityOfLine num int (List.intercalate ['\t'] r) = cityOfLine num int (geoLine r) := by
  rw [cityOfLine_geo num int h]
  unfold cityOfLine cityOfFields
  rw [List.splitOn_intercalate _ (fun l hl => (h.2 l hl).1) h.1]

/-- **C162**: the last record is read also if its line has no end. -/
theorem C162_last_line (num : List Char → Option ℚ) (int : List Char → Option ℤ) (rs : List (List (List Char))) (r : List (List Char))
    (hw : ∀ q ∈ rs ++ [r], Writable q) (hne : ∃ f ∈ r, f ≠ []) :
    fromGeoNames num int (geoText rs ++ List.intercalate ['\t'] r) = fromGeoNames num int (geoText (rs ++ [r])) := by
  have hr : Writable r := hw r (by simp)
  have hne' : List.intercalate ['\t'] r ≠ [] := by
    obtain ⟨f, hf, hf'⟩ := hne
    cases r with
    | nil => simp at hf
    | cons g r =>
      cases r with
      | nil =>
        rw [List.mem_singleton] at hf
        subst hf
        simpa [List.intercalate] using hf'
      | cons g' r => simp [List.intercalate]
  unfold fromGeoNames
  rw [readlines_geo _ hw, readlines_geo_rest rs (fun q hq => hw q (by simp [hq])),
    readlines_rest (intercalate_no fun f hf => (hr.2 f hf).2) [] (.inr hne'), List.map_append]
  induction rs with
  | nil => simp only [List.map_nil, List.nil_append, List.map_cons, List.reverse_nil, citiesOfLines, cityOfLine_bare num int hr]
  | cons q rs ih =>
    simp only [List.map_cons, List.cons_append, citiesOfLines]
    rw [ih fun p hp => hw p (by simp only [List.cons_append, List.mem_cons]; exact .inr hp)]
    rfl

/-- The loop gives one city for each record that stands for one. -/
theorem C162_cities (num : List Char → Option ℚ) (int : List Char → Option ℤ) (rs : List (List (List Char))) (os : List (Option Place))
    (hw : ∀ r ∈ rs, Writable r) (h : List.Forall₂ (GeoMeans num int) rs os) :
    fromGeoNames num int (geoText rs) = .ok os.reduceOption := by
  rw [fromGeoNames, readlines_geo rs hw]
  induction h with
  | nil => rfl
  | @cons r o rs os h1 h2 ih =>
    rw [List.map_cons, citiesOfLines, cityOfLine_geo num int (hw r (by simp)), city_of_means num int h1,
      ih fun q hq => hw q (by simp [hq])]
    cases o <;> rfl

theorem field_ok {r : List (List Char)} {i : ℕ} {t : List Char} (h : field r i = .ok t) : ∃ f, r[i]? = some f ∧ TrimsTo f t := by
  unfold field at h
  cases hf : r[i]? with
  | none => rw [hf] at h; cases h
  | some f =>
    rw [hf] at h
    obtain rfl := Except.ok.inj h
    exact ⟨f, rfl, strip_trims f⟩

theorem field_error {r : List (List Char)} {i : ℕ} {e : GeoErr} (h : field r i = .error e) : e = .indexError ∧ r.length ≤ i := by
  unfold field at h
  cases hf : r[i]? with
  | none => rw [hf] at h; exact ⟨(Except.error.inj h).symm, List.getElem?_eq_none_iff.1 hf⟩
  | some f => rw [hf] at h; cases h

theorem number_ok {α : Type} {f : List Char → Option α} {s : List Char} {x : α} (h : number f s = .ok x) : f s = some x := by
  unfold number at h
  cases hf : f s with
  | none => rw [hf] at h; cases h
  | some y => rw [hf] at h; rw [Except.ok.inj h]

theorem number_error {α : Type} {f : List Char → Option α} {s : List Char} {e : GeoErr} (h : number f s = .error e) : e = .valueError := by
  unfold number at h
  cases hf : f s with
  | none => rw [hf] at h; exact (Except.error.inj h).symm
  | some y => rw [hf] at h; cases h

/-- The two outcomes of a record. -/
theorem city_cases (num : List Char → Option ℚ) (int : List Char → Option ℤ) (r : List (List Char)) :
    (∃ o, GeoMeans num int r o ∧ cityOfFields num int r = .ok o) ∨
      ∃ e, cityOfFields num int r = .error e ∧ (e = .indexError → r.length < 15) ∧ (e = .valueError → 9 ≤ r.length) := by
  cases h2 : field r 2 with
  | error e =>
    obtain ⟨he, hl⟩ := field_error h2
    refine .inr ⟨e, by simp only [cityOfFields, h2, bind, Except.bind], fun _ => by omega, fun h => ?_⟩
    rw [he] at h; cases h
  | ok name =>
    obtain ⟨f2, g2, t2⟩ := field_ok h2
    cases e1 : name.isEmpty with
    | true =>
      rw [List.isEmpty_iff] at e1
      subst e1
      have := GeoMeans.blank (num := num) (int := int) f2 g2 t2
      exact .inl ⟨none, this, city_of_means num int this⟩
    | false =>
      cases e2 : name.any (fun c => decide (c.toNat > 127)) with
      | true =>
        obtain ⟨c, hc, hn⟩ := List.any_eq_true.1 e2
        have := GeoMeans.foreign (num := num) (int := int) f2 name g2 t2 ⟨c, hc, by simpa using hn⟩
        exact .inl ⟨none, this, city_of_means num int this⟩
      | false =>
        have hne : name ≠ [] := by intro h; rw [h] at e1; cases e1
        have ha : ∀ c ∈ name, c.toNat ≤ 127 := by
          intro c hc
          have := List.any_eq_false.1 e2 c hc
          simpa using this
        have start : ∀ x, cityOfFields num int r = x ↔ (do
            let ccode ← field r 8
            let lat ← number num (← field r 4)
            let lon ← number num (← field r 5)
            let capfield ← field r 7
            let pop ← number int (← field r 14)
            return some ⟨name, ccode, lat, lon, capfield == "PPLC".toList || capfield == "PPLA".toList, pop⟩) = x := by
          intro x
          simp only [cityOfFields, h2, bind, Except.bind, e1, e2]
          rfl
        have ix : ∀ i e, field r i = .error e → i < 15 →
            (e = .indexError → r.length < 15) ∧ (e = .valueError → 9 ≤ r.length) := by
          intro i e h hi
          obtain ⟨he, hl⟩ := field_error h
          exact ⟨fun _ => by omega, fun h => by rw [he] at h; cases h⟩
        cases h8 : field r 8 with
        | error e => exact .inr ⟨e, (start _).2 (by simp only [h8, bind, Except.bind]), ix 8 e h8 (by omega)⟩
        | ok country =>
        obtain ⟨f8, g8, t8⟩ := field_ok h8
        have hl : 9 ≤ r.length := by
          have := (List.getElem?_eq_some_iff.1 g8).1
          omega
        have vx : ∀ e : GeoErr, e = .valueError → (e = .indexError → r.length < 15) ∧ (e = .valueError → 9 ≤ r.length) :=
          fun e h => ⟨fun h' => (by rw [h] at h'; cases h'), fun _ => hl⟩
        cases h4 : field r 4 with
        | error e => exact .inr ⟨e, (start _).2 (by simp only [h8, h4, bind, Except.bind]), ix 4 e h4 (by omega)⟩
        | ok lat =>
        obtain ⟨f4, g4, t4⟩ := field_ok h4
        cases hx : number num lat with
        | error e => exact .inr ⟨e, (start _).2 (by simp only [h8, h4, hx, bind, Except.bind]), vx e (number_error hx)⟩
        | ok x =>
        cases h5 : field r 5 with
        | error e => exact .inr ⟨e, (start _).2 (by simp only [h8, h4, hx, h5, bind, Except.bind]), ix 5 e h5 (by omega)⟩
        | ok lon =>
        obtain ⟨f5, g5, t5⟩ := field_ok h5
        cases hy : number num lon with
        | error e => exact .inr ⟨e, (start _).2 (by simp only [h8, h4, hx, h5, hy, bind, Except.bind]), vx e (number_error hy)⟩
        | ok y =>
        cases h7 : field r 7 with
        | error e => exact .inr ⟨e, (start _).2 (by simp only [h8, h4, hx, h5, hy, h7, bind, Except.bind]), ix 7 e h7 (by omega)⟩
        | ok kind =>
        obtain ⟨f7, g7, t7⟩ := field_ok h7
        cases h14 : field r 14 with
        | error e => exact .inr ⟨e, (start _).2 (by simp only [h8, h4, hx, h5, hy, h7, h14, bind, Except.bind]), ix 14 e h14 (by omega)⟩
        | ok pop =>
        obtain ⟨f14, g14, t14⟩ := field_ok h14
        cases hn : number int pop with
        | error e => exact .inr ⟨e, (start _).2 (by simp only [h8, h4, hx, h5, hy, h7, h14, hn, bind, Except.bind]), vx e (number_error hn)⟩
        | ok n =>
        have := GeoMeans.city (num := num) (int := int) f2 f4 f5 f7 f8 f14 name lat lon kind country pop x y n
          (decide (kind = "PPLC".toList ∨ kind = "PPLA".toList)) g2 g4 g5 g7 g8 g14 t2 t4 t5 t7 t8 t14 hne ha (number_ok hx) (number_ok hy)
          (number_ok hn) (by rw [decide_eq_true_eq])
        exact .inl ⟨_, this, city_of_means num int this⟩

theorem cities_error (num : List Char → Option ℚ) (int : List Char → Option ℤ) (pre : List (List (List Char))) (os : List (Option Place))
    (r : List (List Char)) (post : List (List (List Char))) (hw : ∀ q ∈ pre ++ r :: post, Writable q)
    (h : List.Forall₂ (GeoMeans num int) pre os) {e : GeoErr} (he : cityOfFields num int r = .error e) :
    fromGeoNames num int (geoText (pre ++ r :: post)) = .error e := by
  rw [fromGeoNames, readlines_geo _ hw]
  induction h with
  | nil =>
    rw [List.nil_append, List.map_cons, citiesOfLines, cityOfLine_geo num int (hw r (by simp)), he]
    rfl
  | @cons q o qs os h1 h2 ih =>
    rw [List.cons_append, List.map_cons, citiesOfLines, cityOfLine_geo num int (hw q (by simp)), city_of_means num int h1,
      ih fun p hp => hw p (by simp only [List.cons_append, List.mem_cons]; exact .inr hp)]
    rfl

/-- The first record that stands for nothing ends the reading: an IndexError can come only from a record with fewer than 15 fields, a
ValueError only from one with nine or more. -/
theorem C162_bad_record (num : List Char → Option ℚ) (int : List Char → Option ℤ) (pre : List (List (List Char))) (os : List (Option Place))
    (r : List (List Char)) (post : List (List (List Char))) (hw : ∀ q ∈ pre ++ r :: post, Writable q)
    (h : List.Forall₂ (GeoMeans num int) pre os) (hr : ∀ o, ¬ GeoMeans num int r o) :
    ∃ e, fromGeoNames num int (geoText (pre ++ r :: post)) = .error e ∧ (15 ≤ r.length → e = .valueError) ∧
      (r.length < 9 → e = .indexError) := by
  rcases city_cases num int r with ⟨o, h1, _⟩ | ⟨e, h1, h2, h3⟩
  · exact absurd h1 (hr o)
  · refine ⟨e, cities_error num int pre os r post hw h h1, fun hl => ?_, fun hl => ?_⟩
    · cases e with
      | indexError => have := h2 rfl; omega
      | valueError => rfl
    · cases e with
      | indexError => rfl
      | valueError => have := h3 rfl; omega

/-- A file is read if and only if every record stands for something. -/
theorem C162_iff (num : List Char → Option ℚ) (int : List Char → Option ℤ) (rs : List (List (List Char))) (hw : ∀ r ∈ rs, Writable r) :
    (∃ ps, fromGeoNames num int (geoText rs) = .ok ps) ↔ ∀ r ∈ rs, ∃ o, GeoMeans num int r o := by
  constructor
  · rintro ⟨ps, h⟩
    rw [fromGeoNames, readlines_geo rs hw] at h
    induction rs generalizing ps with
    | nil => simp
    | cons r rs ih =>
      rw [List.map_cons, citiesOfLines, cityOfLine_geo num int (hw r (by simp))] at h
      rcases city_cases num int r with ⟨o, h1, h2⟩ | ⟨e, h1, _⟩
      · rw [h2] at h
        cases hq : citiesOfLines num int (rs.map geoLine) with
        | error e => rw [hq] at h; cases h
        | ok qs =>
          intro q hm
          rcases List.mem_cons.1 hm with rfl | hm
          · exact ⟨o, h1⟩
          · exact ih (fun p hp => hw p (by simp [hp])) qs hq q hm
      · rw [h1] at h; cases h
  · intro h
    obtain ⟨os, hos⟩ : ∃ os, List.Forall₂ (GeoMeans num int) rs os := by
      clear hw
      induction rs with
      | nil => exact ⟨[], .nil⟩
      | cons r rs ih =>
        obtain ⟨o, ho⟩ := h r (by simp)
        obtain ⟨os, hos⟩ := ih fun q hq => h q (by simp [hq])
        exact ⟨o :: os, .cons ho hos⟩
    exact ⟨_, C162_cities num int rs os hw hos⟩

/-- A line without text, or any line with fewer than three fields, ends the reading with IndexError: the file may not end with an empty
line. -/
theorem C162_short_line (num : List Char → Option ℚ) (int : List Char → Option ℤ) (pre : List (List (List Char))) (os : List (Option Place))
    (r : List (List Char)) (post : List (List (List Char))) (hw : ∀ q ∈ pre ++ r :: post, Writable q)
    (h : List.Forall₂ (GeoMeans num int) pre os) (hr : r.length < 3) :
    fromGeoNames num int (geoText (pre ++ r :: post)) = .error .indexError := by
  have no : ∀ o, ¬ GeoMeans num int r o := by
    intro o ho
    have h2 : r[2]? = none := List.getElem?_eq_none_iff.2 (by omega)
    cases ho <;> simp_all
  obtain ⟨e, h1, _, h3⟩ := C162_bad_record num int pre os r post hw h no
  rw [h1, h3 (by omega)]

/-- **C162** violated: the folder of a downloaded file is removed when the file is read and left behind when reading it fails. -/
theorem C162_download_violated (num : List Char → Option ℚ) (int : List Char → Option ℤ) (text : List Char) :
    (fromDownload num int text).1 = fromGeoNames num int text ∧
      ((fromDownload num int text).2 = true ↔ ∃ e, (fromDownload num int text).1 = .error e) := by
  unfold fromDownload
  cases h : fromGeoNames num int text <;> simp

/-- `limitByName` keeps exactly the cities whose name matches, in order. -/
theorem C162_name (search : String → String → Bool) (t : Table) (h : HasColumns t) (pattern : String) :
    ∃ t', limitByName search t pattern = .ok t' ∧ t'.columns = t.columns ∧
      KeepsExactly (fun c => search pattern c.name = true) t.rows t'.rows :=
  ⟨_, (C21_constructor _).1 h, rfl, keepsExactly_filter _ _ (fun _ => Iff.rfl) _⟩

/-- `getCities` gives three arrays of one length; the entries at one place belong to one city. -/
theorem C162_arrays (t : Table) (i : ℕ) :
    (getCities t).1[i]? = (t.rows[i]?).map City.lat ∧ (getCities t).2.1[i]? = (t.rows[i]?).map City.lon ∧
      (getCities t).2.2[i]? = (t.rows[i]?).map City.name := by
  simp [getCities]

/-! ### A file with two records -/

/-- A record for the examples. -/
def geoRecord (name kind lat : String) : List (List Char) :=
  ["1", "x", name, "", lat, "-3.5", "P", kind, "FR", "", "", "", "", "", "12"].map String.toList

/-- A parser for the examples. -/
def geoNum (s : List Char) : Option ℚ :=
  if s = "48".toList then some 48 else if s = "-3.5".toList then some (-7 / 2) else none

/-- A parser for the examples. -/
def geoInt (s : List Char) : Option ℤ := if s = "12".toList then some 12 else none

example : fromGeoNames geoNum geoInt (geoText [geoRecord " Brest " "PPLA" "48", geoRecord "Köln" "PPL" "48", geoRecord "Lyon" "PPL" "48"]) =
      .ok [⟨"Brest".toList, "FR".toList, 48, -7 / 2, true, 12⟩, ⟨"Lyon".toList, "FR".toList, 48, -7 / 2, false, 12⟩] ∧
    fromGeoNames geoNum geoInt (geoText [geoRecord "Brest" "PPLA" "48", geoRecord "Lyon" "PPL" "?"]) = .error .valueError ∧
    fromGeoNames geoNum geoInt (geoText [geoRecord "Brest" "PPLA" "48", [[]]]) = .error .indexError := by
  refine ⟨?_, ?_, ?_⟩ <;> decide +kernel

example : ∃ os, List.Forall₂ (GeoMeans geoNum geoInt) [geoRecord " Brest " "PPLA" "48", geoRecord "Köln" "PPL" "48"] os ∧
    ∀ r ∈ [geoRecord " Brest " "PPLA" "48", geoRecord "Köln" "PPL" "48"], Writable r := by
  have w : ∀ r ∈ [geoRecord " Brest " "PPLA" "48", geoRecord "Köln" "PPL" "48"], Writable r := by
    unfold Writable
    decide +kernel
  have := (C162_iff geoNum geoInt _ w).1 ⟨[⟨"Brest".toList, "FR".toList, 48, -7 / 2, true, 12⟩], by decide +kernel⟩
  obtain ⟨o1, h1⟩ := this _ (List.mem_cons_self)
  obtain ⟨o2, h2⟩ := this _ (List.mem_cons_of_mem _ List.mem_cons_self)
  exact ⟨[o1, o2], .cons h1 (.cons h2 .nil), w⟩

end Verif.Props
