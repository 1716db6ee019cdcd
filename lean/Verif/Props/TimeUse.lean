import Verif.Model.TimeUse
import Verif.Props.TimeText
import Verif.Props.EventFile
import Verif.Props.RuptureOutput
import Verif.Props.JsonFloat

/-!
# C194 used: ruptures and events with Python's formats
-/

namespace Verif.Props
open Verif.Time Verif.Spec Verif.Dbl Verif.RupDict Verif.Origin Verif.Factory Verif.Json

theorem timeOf_code {t : Moment} (h : ValidTime t) : timeOf (timeCode t) = t := by
  obtain ⟨h1, h2, h3, h4, h5, -, h7, h8, h9, h10⟩ := id h
  have h6 := day_le h
  obtain ⟨y, mo, d, hh, mi, s, us⟩ := t
  simp only at *
  simp only [timeOf, timeCode, Moment.mk.injEq]
  omega

/-- **C194** (partial). What ruptures ask of times holds of Python's formats, for every time from the year 1000 on that can be written. -/
theorem C194_ruptures_partial (hist date : ℕ → Bool) (hs : ∀ n, hist n = true → date n = true) (t : Moment) (hv : ValidTime t) (hw : WritableYear t.year)
    (h : 1000 ≤ t.year) : TimesReadBack hist date rupFormat (rupParse timeFormat) (timeCode t) := by
  refine ⟨hs, ?_⟩
  obtain ⟨⟨s, h1, -, h2⟩, -⟩ := C194_back_partial t hv hw h
  unfold rupFormat rupParse
  rw [timeOf_code hv, h1]
  simp [String.toList_ofList, h2]

theorem unread {t : Moment} (hv : ValidTime t) (hw : WritableYear t.year) (h : t.year < 1000) :
    rupParse timeFormat (rupFormat (timeCode t)) = none ∧ rupParse altTimeFormat (rupFormat (timeCode t)) = none := by
  obtain ⟨⟨s, h1, h2⟩, -⟩ := C194_year_violated t hw h
  unfold Time.readTime at h2
  rw [Option.or_eq_none_iff] at h2
  unfold rupFormat rupParse
  rw [timeOf_code hv, h1]
  simp [String.toList_ofList, h2.1, h2.2]

theorem unread_dict (parse : String → Option Fl) (hist date : ℕ → Bool) {t : Moment} (hv : ValidTime t) (hw : WritableYear t.year) (h : t.year < 1000) (d : RDict)
    (hd : d.metadata.lookup "time" = some (.str (rupFormat (timeCode t)))) :
    ruptureFromDict parse hist date rupFormat (rupParse timeFormat) (rupParse altTimeFormat) d = .error .value := by
  have : RupDict.readTime (rupParse timeFormat) (rupParse altTimeFormat) d.metadata = .error .value := by
    unfold RupDict.readTime
    rw [show d.metadata.get "time" = _ from hd]
    simp only [(unread hv hw h).1, (unread hv hw h).2]
  unfold ruptureFromDict
  rw [this]

/-- C168 is violated in the years before 1000: a rupture of any class is made and written, and refused with ValueError when it is read. -/
theorem C168_year_violated (parse : String → Option Fl) (hist date : ℕ → Bool) (hs : ∀ n, hist n = true → date n = true) (t : Moment) (hv : ValidTime t)
    (hw : WritableYear t.year) (h : t.year < 1000) (o : Dict) (ho : PlainOrigin parse hist o (timeCode t)) :
    (∀ ref, ruptureFromDict parse hist date rupFormat (rupParse timeFormat) (rupParse altTimeFormat) (pointRup hist rupFormat o ref).geojson = .error .value) ∧
    (∀ d r, JsonDict d.metadata → quadRup date rupFormat d o = .ok r →
      ruptureFromDict parse hist date rupFormat (rupParse timeFormat) (rupParse altTimeFormat) r.geojson = .error .value) ∧
    ∀ d dx r, JsonDict d.metadata → edgeRup hist rupFormat d o dx = .ok r →
      ruptureFromDict parse hist date rupFormat (rupParse timeFormat) (rupParse altTimeFormat) r.geojson = .error .value := by
  refine ⟨fun ref => ?_, fun d r hd hr => ?_, fun d dx r hd hr => ?_⟩
  · obtain ⟨-, w2, -⟩ := written parse hist rupFormat hist o [("reference", .str ref)] _ ho
      ⟨by simp [UniqueKeys], by intro k n; simp only [List.lookup]; split <;> simp⟩ ho.hist
    exact unread_dict parse hist date hv hw h _ w2
  · obtain ⟨-, w2, -⟩ := written parse hist rupFormat date o d.metadata _ ho hd (hs _ ho.hist)
    refine unread_dict parse hist date hv hw h _ ?_
    unfold quadRup at hr
    simp only at hr
    split at hr
    · cases hr
    · cases hr; exact w2
  · obtain ⟨-, w2, -⟩ := written parse hist rupFormat hist o d.metadata _ ho hd ho.hist
    refine unread_dict parse hist date hv hw h _ ?_
    unfold edgeRup at hr
    split at hr
    · cases hr
    · cases hr
      show ((addOrigin hist rupFormat o d.metadata).set "mesh_dx" dx).lookup "time" = _
      rw [show ((addOrigin hist rupFormat o d.metadata).set "mesh_dx" dx).lookup "time" = _ from get_set _ _ _ _, if_neg (by decide)]
      exact w2

/-! ### Event files -/

/-- `float` reads decimals: a sign or none, digits, a point and digits. -/
def ReadsDecimals (num : String → Option ℚ) : Prop :=
  ∀ (neg : Bool) (i d : List Char), i ≠ [] → d ≠ [] → (∀ c ∈ i ++ d, c.isDigit = true) →
    num (String.ofList ((if neg then ['-'] else []) ++ i ++ '.' :: d)) = some ((if neg then -1 else 1) * ((decimalValue (i ++ d) : ℚ) / 10 ^ d.length))

/-- Decimals with `k` places are read to half a unit of the last one. -/
theorem fixed_back {num : String → Option ℚ} (hn : ReadsDecimals num) (k : ℕ) (hk : 1 ≤ k) (x : ℚ) :
    ∃ y, num (String.ofList (fixedText k x)) = some y ∧ |y - x| ≤ 1 / (2 * 10 ^ k) := by
  have hp : (0 : ℚ) < 10 ^ k := by positivity
  set n := (Py.round (|x| * 10 ^ k)).natAbs with hndef
  have hr := Py.round_abs_sub_le (|x| * 10 ^ k)
  have hn0 : (0 : ℤ) ≤ Py.round (|x| * 10 ^ k) := by
    by_contra hneg
    have h1 : (Py.round (|x| * 10 ^ k) : ℚ) ≤ -1 := by exact_mod_cast (by omega : Py.round (|x| * 10 ^ k) ≤ -1)
    have h2 : 0 ≤ |x| * 10 ^ k := by positivity
    rw [abs_le] at hr
    linarith [hr.2]
  have hnq : (n : ℚ) = Py.round (|x| * 10 ^ k) := by
    have : (n : ℤ) = Py.round (|x| * 10 ^ k) := by omega
    exact_mod_cast congrArg (Int.cast (R := ℚ)) this
  have hlen : (padded k (n % 10 ^ k)).length = k := padded_length hk (Nat.mod_lt _ (by positivity))
  have hval : decimalValue (Nat.toDigits 10 (n / 10 ^ k) ++ padded k (n % 10 ^ k)) = n := by
    rw [decimalValue_append, decimalValue_toDigits, padded_value, hlen, Nat.div_add_mod']
  have hread := hn (decide (x < 0)) (Nat.toDigits 10 (n / 10 ^ k)) (padded k (n % 10 ^ k)) Nat.toDigits_ne_nil padded_ok.1 (by
    intro c hc
    rcases List.mem_append.1 hc with hc | hc
    · exact Nat.isDigit_of_mem_toDigits (by norm_num) (by norm_num) hc
    · exact padded_ok.2 c hc)
  rw [hval, hlen] at hread
  simp only [decide_eq_true_eq] at hread
  refine ⟨_, hread, ?_⟩
  have hb : |(n : ℚ) / 10 ^ k - (|x|)| ≤ 1 / (2 * 10 ^ k) := by
    rw [hnq]
    have : (Py.round (|x| * 10 ^ k) : ℚ) / 10 ^ k - |x| = (Py.round (|x| * 10 ^ k) - |x| * 10 ^ k) / 10 ^ k := by field_simp
    rw [this, abs_div, abs_of_pos hp, abs_sub_comm, div_le_iff₀ hp]
    refine hr.trans (le_of_eq ?_)
    field_simp
  split_ifs with hx
  · rw [abs_of_neg hx] at hb
    rw [abs_sub_comm] at hb
    convert hb using 2
    ring
  · rw [abs_of_nonneg (not_lt.1 hx)] at hb
    simpa using hb

/-- What C117 asks of formats and parsers holds of Python's, for every time of the calendar from the year 1000 on. -/
theorem C194_events_partial (num : String → Option ℚ) (hn : ReadsDecimals num) (t : Moment) (hv : ValidTime t) (h : 1000 ≤ t.year) :
    Faithful eventFormats (eventParsers num) (fun t => { t with micro := 0 }) t := by
  have key : ∀ s, eventFormats.strf t = some s → ∃ u, timeText altTimeFormat t = .ok u ∧ s = String.ofList u := by
    intro s hs
    simp only [eventFormats] at hs
    split at hs
    · rename_i u hu; cases hs; exact ⟨u, hu, rfl⟩
    · cases hs
  refine ⟨fun x => ?_, fun x => ?_, fun s hs => ?_, fun s hs => ?_⟩
  · obtain ⟨y, h1, h2⟩ := fixed_back hn 4 (by norm_num) x
    exact ⟨y, h1, h2.trans (by norm_num)⟩
  · obtain ⟨y, h1, h2⟩ := fixed_back hn 1 (by norm_num) x
    exact ⟨y, h1, h2.trans (by norm_num)⟩
  · obtain ⟨u, hu, rfl⟩ := key s hs
    have hw := (C194_written t hv).2.2.2.1.1 ⟨u, hu⟩
    obtain ⟨-, u', h1, -, h3, -⟩ := C194_back_partial t hv hw h
    rw [h1] at hu
    cases hu
    simpa [eventParsers, String.toList_ofList] using h3
  · obtain ⟨u, hu, rfl⟩ := key s hs
    have hw := (C194_written t hv).2.2.2.1.1 ⟨u, hu⟩
    obtain ⟨-, u', h1, -, -, h4⟩ := C194_back_partial t hv hw h
    rw [h1] at hu
    cases hu
    simpa [eventParsers, String.toList_ofList] using h4

open Verif.EventFile in
/-- **C117** (partial), with Python's texts. `write_event_file` returns a message exactly when the kind of event is neither `ACTUAL` nor `SCENARIO` or the year is
1100 or 1500; otherwise the event is read back, with its time in whole seconds. For the years before 1000 see `C117_year_violated`. -/
theorem C117_python_partial (num : String → Option ℚ) (hn : ReadsDecimals num) (e : Event Moment) (hv : ValidTime e.time) (h : 1000 ≤ e.time.year)
    (old : Option Attrs) (path : Bool) :
    ((writeEvent eventFormats e old).1 = true ↔ (∃ k, e.eventType = some k ∧ k ≠ "ACTUAL" ∧ k ≠ "SCENARIO") ∨ e.time.year ∈ [1100, 1500]) ∧
    ((writeEvent eventFormats e old).1 = true → (writeEvent eventFormats e old).2 = old) ∧
    ((writeEvent eventFormats e old).1 = false → ∃ a r, (writeEvent eventFormats e old).2 = some a ∧ readEvent (eventParsers num) path a = .ok r ∧
      r.id = e.id ∧ r.netid = e.netid ∧ r.network = e.network ∧ r.locstring = e.locstring ∧ r.mech = e.mech ∧
      r.reference = e.reference ∧ r.time = { e.time with micro := 0 } ∧
      |r.lat - e.lat| ≤ 1 / 20000 ∧ |r.lon - e.lon| ≤ 1 / 20000 ∧ |r.depth - e.depth| ≤ 1 / 20 ∧
      |r.mag - e.mag| ≤ 1 / 20 ∧ r.productcode = (e.productcode.or (if path then some e.id else none))) := by
  obtain ⟨h1, h2, h3⟩ := C117_event_file_partial eventFormats (eventParsers num) _ e (C194_events_partial num hn e.time hv h) old path
  refine ⟨h1.trans (or_congr_right ?_), h2, fun hw => ?_⟩
  · obtain ⟨-, -, -, w1, w2⟩ := C194_written e.time hv
    have : eventFormats.strf e.time = none ↔ ¬ ∃ s, timeText altTimeFormat e.time = .ok s := by
      simp only [eventFormats]
      split
      · rename_i s hs; simp [hs]
      · rename_i hs
        simp only [true_iff]
        rintro ⟨s, hs'⟩
        exact hs s hs'
    rw [this, w1, w2]
    simp only [List.mem_cons, List.not_mem_nil, or_false]
    omega
  · obtain ⟨a, r, b1, b2, b3, b4, b5, b6, b7, b8, -, b9⟩ := h3 hw
    exact ⟨a, r, b1, b2, b3, b4, b5, b6, b7, b8, b9⟩

open Verif.EventFile in
/-- C117 is violated in the years before 1000: the file is written without a message, and is refused with ValueError when it is read. -/
theorem C117_year_violated (num : String → Option ℚ) (e : Event Moment) (hw : WritableYear e.time.year) (h : e.time.year < 1000)
    (hk : e.eventType = none ∨ e.eventType = some "ACTUAL" ∨ e.eventType = some "SCENARIO") (old : Option Attrs) (path : Bool) :
    ∃ a, writeEvent eventFormats e old = (false, some a) ∧ readEvent (eventParsers num) path a = .error .value := by
  obtain ⟨-, s, h1, h2⟩ := C194_year_violated e.time hw h
  unfold Time.readTime at h2
  rw [Option.or_eq_none_iff] at h2
  have hs : eventFormats.strf e.time = some (String.ofList s) := by simp [eventFormats, h1]
  unfold writeEvent eventAttrs
  rw [hs]
  rcases hk with hk | hk | hk <;> rw [hk] <;> simp only [true_or, or_true, if_true] <;> refine ⟨_, rfl, ?_⟩ <;>
    cases e.mech <;> cases e.reference <;> cases e.productcode <;>
    simp [readEvent, need, EventFile.readTime, List.lookup, eventParsers, String.toList_ofList, h2.1, h2.2, bind, Except.bind]

/-- A reader of decimals. -/
def plainFloat (s : String) : Option ℚ :=
  let u := if s.toList.head? = some '-' then s.toList.tail else s.toList
  let i := u.takeWhile Char.isDigit
  let d := (u.dropWhile Char.isDigit).tail
  some ((if s.toList.head? = some '-' then -1 else 1) * ((decimalValue (i ++ d) : ℚ) / 10 ^ d.length))

theorem plainFloat_reads : ReadsDecimals plainFloat := by
  intro neg i d hi hd hc
  have hi' : ∀ c ∈ i, c.isDigit = true := fun c h => hc c (by simp [h])
  have ht : (i ++ '.' :: d).takeWhile Char.isDigit = i := by
    rw [List.takeWhile_append_of_pos hi']; simp
  have hdr : (i ++ '.' :: d).dropWhile Char.isDigit = '.' :: d := by
    rw [List.dropWhile_append_of_pos hi']; simp
  unfold plainFloat
  cases neg with
  | true => simp [String.toList_ofList, ht, hdr]
  | false =>
    obtain ⟨c, i, rfl⟩ := List.exists_cons_of_ne_nil hi
    have : c ≠ '-' := by rintro rfl; exact absurd (hi' '-' (by simp)) (by decide)
    simp only [List.cons_append] at ht hdr
    simp [String.toList_ofList, ht, hdr, this]

/-- An event of 1811 and one of 869. -/
example : ReadsDecimals plainFloat ∧ ValidTime ⟨1811, 12, 16, 8, 15, 0, 500000⟩ ∧ WritableYear 869 ∧
    fixedText 4 (-90 - 1 / 3) = "-90.3333".toList ∧ fixedText 1 (1 / 4) = "0.2".toList ∧
    (EventFile.eventAttrs eventFormats ⟨"a", "us", "", 1, 2, 3, 4, ⟨869, 7, 13, 0, 0, 0, 0⟩, "Sendai", none, none, none, none⟩).isSome = true := by
  refine ⟨plainFloat_reads, by simp [ValidTime], by simp [WritableYear], ?_, ?_, ?_⟩ <;> decide +kernel

end Verif.Props
