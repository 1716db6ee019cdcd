import Verif.Model.EventFile
import Verif.Props.RuptureText

/-!
# Event and source files: C116-C118
-/

namespace Verif.Props
open Verif.EventFile
open Verif.Factory (strip)
open Verif.Spec (White Gap)

/-! ### C116: source.txt -/

/-- A text without white space at its ends. -/
def Trimmed (s : List Char) : Prop := (∀ c, s.head? = some c → ¬ White c) ∧ ∀ c, s.getLast? = some c → ¬ White c

/-- What a line of `source.txt` can be: a comment, or a key and a value with `=` between them and white space around
them. -/
inductive SourceLine : List Char → Option (List Char × List Char) → Prop where
  | comment (s : List Char) : SourceLine ('#' :: s) none
  | setting {w0 k w1 w2 v w3 : List Char} (g0 : Gap w0) (g1 : Gap w1) (g2 : Gap w2) (g3 : Gap w3) (hk : Trimmed k)
      (hv : Trimmed v) (hk' : '=' ∉ k) (hv' : '=' ∉ v) (h : (w0 ++ k).head? ≠ some '#') :
      SourceLine (w0 ++ k ++ w1 ++ ['='] ++ w2 ++ v ++ w3) (some (k, v))

theorem strip_trimmed {w s w' : List Char} (h : Gap w) (h' : Gap w') (hs : Trimmed s) : strip (w ++ s ++ w') = s := by
  cases s with
  | nil =>
    rw [List.append_nil]
    apply strip_gap
    intro c hc
    rcases List.mem_append.mp hc with hc | hc
    · exact h c hc
    · exact h' c hc
  | cons c body => exact strip_exact h h' (hs.1 c rfl) hs.2

theorem splitEq_part {a : List Char} (h : '=' ∉ a) (cur r : List Char) :
    splitEq cur (a ++ r) = splitEq (a.reverse ++ cur) r := by
  induction a generalizing cur with
  | nil => rfl
  | cons c a ih =>
    simp only [List.mem_cons, not_or] at h
    rw [List.cons_append, splitEq, if_neg (fun e => h.1 e.symm), ih h.2]
    simp

theorem splitEq_all {a : List Char} (h : '=' ∉ a) : splitEq [] a = [a] := by
  have := splitEq_part h [] []
  rw [List.append_nil, List.append_nil] at this
  rw [this]
  simp [splitEq]

theorem splitEq_cons {a : List Char} (h : '=' ∉ a) (r : List Char) : splitEq [] (a ++ '=' :: r) = a :: splitEq [] r := by
  rw [splitEq_part h]
  simp [splitEq]

theorem gap_noeq {w : List Char} (h : Gap w) : '=' ∉ w := fun hc => absurd (h _ hc) (by decide)

theorem setKey_lookup (d : List (List Char × SVal)) (k k' : List Char) (v : SVal) :
    (setKey d k v).lookup k' = if k' = k then some v else d.lookup k' := by
  induction d with
  | nil =>
    unfold setKey
    by_cases h : k' = k
    · simp [List.lookup, h]
    · simp [List.lookup, h, beq_eq_false_iff_ne.mpr h]
  | cons p d ih =>
    obtain ⟨a, b⟩ := p
    unfold setKey
    by_cases h : a = k
    · subst h
      rw [if_pos rfl]
      by_cases h2 : k' = a
      · simp [List.lookup, h2]
      · simp [List.lookup, h2, beq_eq_false_iff_ne.mpr h2]
    · rw [if_neg h]
      simp only [List.lookup, ih]
      by_cases h2 : k' = a
      · subst h2; simp [h]
      · rw [beq_eq_false_iff_ne.mpr h2]

/-- The value in the last setting of a key. -/
def lastValue (k : List Char) (kinds : List (Option (List Char × List Char))) : Option (List Char) :=
  ((kinds.filterMap id).reverse.find? fun p => p.1 = k).map Prod.snd

theorem lastValue_cons_none (k : List Char) (ks : List (Option (List Char × List Char))) :
    lastValue k (none :: ks) = lastValue k ks := by
  simp [lastValue]

theorem lastValue_cons_some (k a b : List Char) (ks : List (Option (List Char × List Char))) :
    lastValue k (some (a, b) :: ks) = (lastValue k ks).or (if a = k then some b else none) := by
  have e : (some (a, b) :: ks).filterMap id = (a, b) :: ks.filterMap id := by simp
  unfold lastValue
  rw [e, List.reverse_cons, List.find?_append]
  cases (ks.filterMap id).reverse.find? fun p => decide (p.1 = k) with
  | some q => rfl
  | none => by_cases h : a = k <;> simp [h]

/-- **C116** (partial). When every line of `source.txt` is a comment or a setting without further `=`, `read_source`
succeeds and every key has the value of its last setting: an integer or a number if the text is one, and the text
otherwise. Keys without a setting are not in the result. What is missing: other lines, see below. -/
theorem C116_source_partial (int : List Char → Option ℤ) (num : List Char → Option ℚ) (lines : List (List Char))
    (kinds : List (Option (List Char × List Char))) (h : List.Forall₂ SourceLine lines kinds) :
    ∃ d, readSource int num lines = some d ∧ ∀ k, d.lookup k = (lastValue k kinds).map fun s =>
      match int s, num s with
      | some n, _ => .int n
      | none, some q => .num q
      | none, none => .str s := by
  have hrv : ∀ s, readValue int num s = (match int s, num s with
      | some n, _ => .int n
      | none, some q => .num q
      | none, none => .str s) := by
    intro s
    unfold readValue
    cases int s with
    | some n => rfl
    | none => cases num s <;> rfl
  have key : ∀ d0, ∃ d, readLines int num d0 lines = some d ∧
      ∀ k, d.lookup k = ((lastValue k kinds).map (readValue int num)).or (d0.lookup k) := by
    induction h with
    | nil =>
      intro d0
      exact ⟨d0, rfl, by simp [lastValue]⟩
    | cons hl _ ih =>
      rename_i l kd lines ks _
      intro d0
      cases hl with
      | comment s =>
        obtain ⟨d, h1, h2⟩ := ih d0
        refine ⟨d, ?_, ?_⟩
        · rw [readLines, if_pos (by rfl)]; exact h1
        · intro k; rw [h2, lastValue_cons_none]
      | setting g0 g1 g2 g3 hk hv hk' hv' hh =>
        rename_i w0 k w1 w2 v w3
        obtain ⟨d, h1, h2⟩ := ih (setKey d0 k (readValue int num v))
        refine ⟨d, ?_, ?_⟩
        · have e : w0 ++ k ++ w1 ++ ['='] ++ w2 ++ v ++ w3 = (w0 ++ k ++ w1) ++ '=' :: (w2 ++ v ++ w3) := by simp
          have n1 : '=' ∉ w0 ++ k ++ w1 := by simp [gap_noeq g0, gap_noeq g1, hk']
          have n2 : '=' ∉ w2 ++ v ++ w3 := by simp [gap_noeq g2, gap_noeq g3, hv']
          have hhash : (w0 ++ k ++ w1 ++ ['='] ++ w2 ++ v ++ w3).head? ≠ some '#' := by
            intro hc
            rw [e] at hc
            cases hwk : w0 ++ k with
            | cons c r => rw [hwk] at hh hc; exact hh hc
            | nil =>
              rw [hwk] at hc
              cases hw1 : w1 with
              | nil => rw [hw1] at hc; simp at hc
              | cons c r =>
                rw [hw1] at hc
                have hc' : c = '#' := by simpa using hc
                exact absurd (g1 c (by rw [hw1]; simp)) (by rw [hc']; decide)
          rw [readLines, if_neg hhash, e, splitEq_cons n1, splitEq_all n2]
          simp only
          rw [strip_trimmed g0 g1 hk, strip_trimmed g2 g3 hv]
          exact h1
        · intro k'
          rw [h2, setKey_lookup, lastValue_cons_some]
          cases hlv : lastValue k' ks with
          | some s => simp
          | none =>
            simp only [Option.map_none, Option.none_or]
            by_cases hkk : k' = k
            · subst hkk; simp
            · rw [if_neg hkk, if_neg (fun e => hkk e.symm)]; simp
  obtain ⟨d, h1, h2⟩ := key []
  refine ⟨d, h1, ?_⟩
  intro k
  rw [h2]
  simp only [List.lookup_nil, Option.or_none]
  congr 1
  funext s
  exact hrv s

/-- A file with two settings and a comment. -/
example : List.Forall₂ SourceLine ["a = 1\n".toList, "# b=2\n".toList, "a=x y\n".toList]
    [some ("a".toList, "1".toList), none, some ("a".toList, "x y".toList)] := by
  have g0 : Gap [] := by intro c hc; simp at hc
  have g1 : Gap [' '] := by intro c hc; simp at hc; subst hc; decide
  have g2 : Gap ['\n'] := by intro c hc; simp at hc; subst hc; decide
  have t : ∀ s ∈ ["a".toList, "1".toList, "x y".toList], Trimmed s := by
    intro s hs
    simp only [List.mem_cons, List.not_mem_nil, or_false] at hs
    rcases hs with rfl | rfl | rfl <;> refine ⟨?_, ?_⟩ <;> intro c hc <;> simp at hc <;> subst hc <;> decide
  refine .cons ?_ (.cons ?_ (.cons ?_ .nil))
  · exact SourceLine.setting (w0 := []) (k := ['a']) (w1 := [' ']) (w2 := [' ']) (v := ['1']) (w3 := ['\n']) g0 g1 g1 g2
      (t _ (by decide)) (t _ (by decide)) (by decide) (by decide) (by decide)
  · exact SourceLine.comment _
  · exact SourceLine.setting (w0 := []) (k := ['a']) (w1 := []) (w2 := []) (v := ['x', ' ', 'y']) (w3 := ['\n']) g0 g0 g0 g2
      (t _ (by decide)) (t _ (by decide)) (by decide) (by decide) (by decide)

/-- **C116** violated: an empty line, or any other line without `=` that is no comment, makes `read_source` fail after
lines that can be read. -/
theorem C116_blank_violated (int : List Char → Option ℤ) (num : List Char → Option ℚ) (before after : List (List Char))
    (kinds : List (Option (List Char × List Char))) (h : List.Forall₂ SourceLine before kinds) (l : List Char)
    (hl : '=' ∉ l) (hc : l.head? ≠ some '#') : readSource int num (before ++ l :: after) = none := by
  have key : ∀ d0, readLines int num d0 (before ++ l :: after) = none := by
    induction h with
    | nil =>
      intro d0
      rw [List.nil_append, readLines, if_neg hc, splitEq_all hl]
    | cons hb _ ih =>
      rename_i b kd bs ks
      intro d0
      rw [List.cons_append, readLines]
      split_ifs
      · exact ih d0
      · split
        · exact ih _
        · rfl
  exact key []

/-- **C116** violated: the text after a second `=` is lost. -/
theorem C116_second_equals_violated (int : List Char → Option ℤ) (num : List Char → Option ℚ) (k v rest : List Char)
    (hk : Trimmed k) (hv : Trimmed v) (hk' : '=' ∉ k) (hv' : '=' ∉ v) (hc : k.head? ≠ some '#') (hne : k ≠ []) :
    readSource int num [k ++ '=' :: (v ++ '=' :: rest)] = some [(k, readValue int num v)] := by
  have hh : (k ++ '=' :: (v ++ '=' :: rest)).head? ≠ some '#' := by
    cases k with
    | nil => exact absurd rfl hne
    | cons c r => exact hc
  have g0 : Gap [] := by intro c hc; simp at hc
  have s1 := strip_trimmed g0 g0 hk
  have s2 := strip_trimmed g0 g0 hv
  simp only [List.nil_append, List.append_nil] at s1 s2
  rw [readSource, readLines, if_neg hh, splitEq_cons hk', splitEq_cons hv']
  simp only [s1, s2]
  rfl

/-! ### C117: event.xml -/

/-- How the formats and parsers go together: numbers are read to half a unit of the last decimal, and the time `t` written in
whole seconds is read as that time without its fraction. Python's formats and parsers do so for the times from the year 1000 on (C194). -/
structure Faithful {T : Type} (f : Formats T) (p : Parsers T) (whole : T → T) (t : T) : Prop where
  four : ∀ x, ∃ y, p.num (f.f4 x) = some y ∧ |y - x| ≤ 1 / 20000
  one : ∀ x, ∃ y, p.num (f.f1 x) = some y ∧ |y - x| ≤ 1 / 20
  full : ∀ s, f.strf t = some s → p.full s = none
  alt : ∀ s, f.strf t = some s → p.alt s = some (whole t)

/-- `write_event_file` and `read_event_file`, when the numbers are read with the relations `near4` and `near1` to those that were written. -/
theorem event_back {T : Type} (f : Formats T) (p : Parsers T) (whole : T → T)
    (e : Event T) (near4 near1 : ℚ → ℚ → Prop) (h4 : ∀ x ∈ [e.lat, e.lon], ∃ y, p.num (f.f4 x) = some y ∧ near4 y x)
    (h1 : ∀ x ∈ [e.depth, e.mag], ∃ y, p.num (f.f1 x) = some y ∧ near1 y x) (hfl : ∀ s, f.strf e.time = some s → p.full s = none)
    (hal : ∀ s, f.strf e.time = some s → p.alt s = some (whole e.time)) (old : Option Attrs) (path : Bool) :
    ((writeEvent f e old).1 = true ↔ (∃ k, e.eventType = some k ∧ k ≠ "ACTUAL" ∧ k ≠ "SCENARIO") ∨ f.strf e.time = none) ∧
    ((writeEvent f e old).1 = true → (writeEvent f e old).2 = old) ∧
    ((writeEvent f e old).1 = false → ∃ a r, (writeEvent f e old).2 = some a ∧ readEvent p path a = .ok r ∧
      r.id = e.id ∧ r.netid = e.netid ∧ r.network = e.network ∧ r.locstring = e.locstring ∧ r.mech = e.mech ∧
      r.reference = e.reference ∧ r.type = none ∧ r.time = whole e.time ∧
      near4 r.lat e.lat ∧ near4 r.lon e.lon ∧ near1 r.depth e.depth ∧
      near1 r.mag e.mag ∧ r.productcode = (e.productcode.or (if path then some e.id else none))) := by
  cases ht : f.strf e.time with
  | none =>
    have : eventAttrs f e = none := by unfold eventAttrs; rw [ht]
    unfold writeEvent
    rw [this]
    simp
  | some t =>
    have hfull := hfl _ ht
    have halt := hal _ ht
    obtain ⟨lat, hlat, hlat'⟩ := h4 e.lat (by simp)
    obtain ⟨lon, hlon, hlon'⟩ := h4 e.lon (by simp)
    obtain ⟨depth, hdepth, hdepth'⟩ := h1 e.depth (by simp)
    obtain ⟨mag, hmag, hmag'⟩ := h1 e.mag (by simp)
    have hread : ∀ k : String, ∃ r, readEvent p path ([("id", e.id), ("netid", e.netid), ("network", e.network),
        ("lat", f.f4 e.lat), ("lon", f.f4 e.lon), ("depth", f.f1 e.depth), ("mag", f.f1 e.mag), ("time", t),
        ("locstring", e.locstring)] ++ (match e.mech with | some s => [("mech", s)] | none => []) ++
        (match e.reference with | some s => [("reference", s)] | none => []) ++
        (match e.productcode with | some s => [("productcode", s)] | none => []) ++ [("event_type", k)]) = .ok r ∧
        r.id = e.id ∧ r.netid = e.netid ∧ r.network = e.network ∧ r.locstring = e.locstring ∧ r.mech = e.mech ∧
        r.reference = e.reference ∧ r.type = none ∧ r.time = whole e.time ∧
        near4 r.lat e.lat ∧ near4 r.lon e.lon ∧ near1 r.depth e.depth ∧
        near1 r.mag e.mag ∧ r.productcode = (e.productcode.or (if path then some e.id else none)) := by
      intro k
      refine ⟨⟨e.id, e.netid, e.network, lat, lon, depth, mag, whole e.time, e.locstring, e.mech, none, e.reference,
        e.productcode.or (if path then some e.id else none)⟩, ?_, rfl, rfl, rfl, rfl, rfl, rfl, rfl, rfl, hlat', hlon',
        hdepth', hmag', rfl⟩
      cases e.mech <;> cases e.reference <;> cases e.productcode <;> cases path <;>
        simp [readEvent, need, needNum, readTime, List.lookup, hlat, hlon, hdepth, hmag, hfull, halt, pure, bind,
          Except.bind, Except.pure]
    unfold writeEvent eventAttrs
    rw [ht]
    simp only
    cases het : e.eventType with
    | none =>
      obtain ⟨r, h⟩ := hread "ACTUAL"
      refine ⟨by simp, by simp, ?_⟩
      intro _
      exact ⟨_, r, rfl, h⟩
    | some k =>
      simp only
      by_cases hk : k = "ACTUAL" ∨ k = "SCENARIO"
      · rw [if_pos hk]
        obtain ⟨r, h⟩ := hread k
        refine ⟨?_, by simp, ?_⟩
        · simp only [Bool.false_eq_true, false_iff, reduceCtorEq, or_false]
          rintro ⟨k', h1, h2, h3⟩
          cases h1
          exact hk.elim h2 h3
        · intro _
          exact ⟨_, r, rfl, h⟩
      · rw [if_neg hk]
        push Not at hk
        refine ⟨?_, fun _ => rfl, by simp⟩
        simp only [true_iff, reduceCtorEq, or_false]
        exact ⟨k, rfl, hk⟩

/-- **C117** (partial). `write_event_file` returns a message exactly when the kind of event is neither `ACTUAL` nor `SCENARIO`
or the time cannot be formatted, and then leaves the file as it was. Otherwise reading the file gives the same strings,
the latitude and longitude to four decimals, the depth and magnitude to one, the time in whole seconds, the product code
or, from a path, the id in its place, and no `type`. What is missing: the kind of event and the fraction of the
second, see below. -/
theorem C117_event_file_partial {T : Type} (f : Formats T) (p : Parsers T) (whole : T → T)
    (e : Event T) (hf : Faithful f p whole e.time) (old : Option Attrs) (path : Bool) :
    ((writeEvent f e old).1 = true ↔ (∃ k, e.eventType = some k ∧ k ≠ "ACTUAL" ∧ k ≠ "SCENARIO") ∨ f.strf e.time = none) ∧
    ((writeEvent f e old).1 = true → (writeEvent f e old).2 = old) ∧
    ((writeEvent f e old).1 = false → ∃ a r, (writeEvent f e old).2 = some a ∧ readEvent p path a = .ok r ∧
      r.id = e.id ∧ r.netid = e.netid ∧ r.network = e.network ∧ r.locstring = e.locstring ∧ r.mech = e.mech ∧
      r.reference = e.reference ∧ r.type = none ∧ r.time = whole e.time ∧
      |r.lat - e.lat| ≤ 1 / 20000 ∧ |r.lon - e.lon| ≤ 1 / 20000 ∧ |r.depth - e.depth| ≤ 1 / 20 ∧
      |r.mag - e.mag| ≤ 1 / 20 ∧ r.productcode = (e.productcode.or (if path then some e.id else none))) :=
  event_back f p whole e (fun y x => |y - x| ≤ 1 / 20000) (fun y x => |y - x| ≤ 1 / 20) (fun x _ => hf.four x) (fun x _ => hf.one x) hf.full hf.alt old path

/-- **C117** violated: events that differ only in their kind, and a time with a fraction of a second, are not read back. An
`ACTUAL` and a `SCENARIO` event give the same result, and the time that is read is never one with a fraction. -/
theorem C117_kind_violated {T : Type} (f : Formats T) (p : Parsers T) (whole : T → T)
    (e : Event T) (hf : Faithful f p whole e.time) (s : String) (hs : f.strf e.time = some s) (path : Bool) :
    ∃ a b r, (writeEvent f { e with eventType := some "ACTUAL" } none).2 = some a ∧
      (writeEvent f { e with eventType := some "SCENARIO" } none).2 = some b ∧
      readEvent p path a = .ok r ∧ readEvent p path b = .ok r ∧ (e.time ≠ whole e.time → r.time ≠ e.time) := by
  have h1 := (C117_event_file_partial f p whole { e with eventType := some "ACTUAL" } hf none path)
  have hw : (writeEvent f { e with eventType := some "ACTUAL" } none).1 = false := by
    unfold writeEvent eventAttrs; simp [hs]
  obtain ⟨a, r, ha, hr, hrest⟩ := h1.2.2 hw
  have hb : ∃ b, (writeEvent f { e with eventType := some "SCENARIO" } none).2 = some b := by
    unfold writeEvent eventAttrs; simp [hs]
  obtain ⟨b, hb⟩ := hb
  refine ⟨a, b, r, ha, hb, hr, ?_, ?_⟩
  · rw [← hr]
    unfold writeEvent eventAttrs at ha hb
    simp only [hs] at ha hb
    rw [if_pos (by simp)] at ha hb
    simp only [Option.some.injEq] at ha hb
    subst ha hb
    cases e.mech <;> cases e.reference <;> cases e.productcode <;> rfl
  · intro hne
    rw [hrest.2.2.2.2.2.2.2.1]
    exact fun h => hne h.symm

/-- An integer as a text. -/
def enc (n : ℤ) : String := String.ofList (List.replicate n.natAbs (if n < 0 then '-' else '+'))

/-- The integer in a text. -/
def dec (s : String) : ℤ := if '-' ∈ s.toList then -(s.toList.length : ℤ) else s.toList.length

theorem dec_enc (n : ℤ) : dec (enc n) = n := by
  unfold dec enc
  rw [String.toList_ofList, List.length_replicate]
  by_cases h : n < 0
  · rw [if_pos h, if_pos (by simp; omega)]; omega
  · rw [if_neg h, if_neg (by simp)]; omega

/-- Formats and parsers that meet the hypotheses: a number is written as a whole number of ten-thousandths, a time is a
whole number of seconds and a fraction. -/
example (t : ℤ × ℚ) : Faithful (T := ℤ × ℚ) ⟨fun x => enc (round (10000 * x)), fun x => enc (1000 * round (10 * x)),
    fun t => some (enc t.1)⟩ ⟨fun s => some (dec s / 10000), fun _ => none, fun s => some (dec s, 0)⟩
    (fun t => (t.1, 0)) t := by
  refine ⟨?_, ?_, ?_, ?_⟩
  · intro x
    refine ⟨_, rfl, ?_⟩
    rw [dec_enc]
    have := abs_sub_round (10000 * x)
    rw [abs_le] at this ⊢
    constructor <;> linarith [this.1, this.2]
  · intro x
    refine ⟨_, rfl, ?_⟩
    rw [dec_enc]
    have := abs_sub_round (10 * x)
    rw [abs_le] at this ⊢
    push_cast
    constructor <;> linarith [this.1, this.2]
  · intro s _; rfl
  · intro s h
    cases h
    simp [dec_enc]

/-! ### C118: old dates -/

/-- **C118** violated: a file with the date and time as `year`, `month`, `day`, `hour`, `minute` and `second`, which the code
says it supports, is never read. -/
theorem C118_old_dates_violated {T : Type} (p : Parsers T) (path : Bool) (a : Attrs) (h : a.lookup "time" = none) :
    ∀ r, readEvent p path a ≠ .ok r := by
  intro r hr
  have ht : ∃ e, readTime p a = .error e := by
    unfold readTime
    rw [h]
    simp only
    split_ifs
    · exact ⟨_, rfl⟩
    · exact ⟨_, rfl⟩
  obtain ⟨e, he⟩ := ht
  unfold readEvent at hr
  simp only [bind, Except.bind, he] at hr
  cases h1 : need a "id" with
  | error e => rw [h1] at hr; simp at hr
  | ok i =>
    rw [h1] at hr
    cases h2 : need a "netid" with
    | error e => simp [h2] at hr
    | ok n => simp [h2] at hr

/-- **C117.** Reading succeeds exactly when the id, the network id and the place are there, the four numbers are there and can be
read, and there is a time in one of the two formats. A missing id, network id or place (with all else in order) is reported as a
missing key. -/
theorem C117_required {T : Type} (p : Parsers T) (path : Bool) (a : Attrs) :
    ((∃ r, readEvent p path a = .ok r) ↔
      (∀ k ∈ ["id", "netid", "locstring"], (a.lookup k).isSome) ∧
      (∀ k ∈ ["lat", "lon", "depth", "mag"], ∃ s, a.lookup k = some s ∧ (p.num s).isSome) ∧
      ∃ s, a.lookup "time" = some s ∧ ((p.full s).isSome ∨ (p.alt s).isSome)) ∧
    (a.lookup "id" = none → readEvent p path a = .error .key) ∧
    (∀ i, a.lookup "id" = some i → a.lookup "netid" = none → readEvent p path a = .error .key) ∧
    (∀ b r, readEvent p path b = .ok r → a.lookup "locstring" = none → (∀ k, k ≠ "locstring" → a.lookup k = b.lookup k) →
      readEvent p path a = .error .key) := by
  have hn : ∀ (a : Attrs) k, (∃ v, need a k = .ok v) ↔ (a.lookup k).isSome := by
    intro a k; unfold need; cases a.lookup k <;> simp
  have hq : ∀ (a : Attrs) k, (∃ v, needNum p a k = .ok v) ↔ ∃ s, a.lookup k = some s ∧ (p.num s).isSome := by
    intro a k
    unfold needNum
    cases a.lookup k with
    | none => simp
    | some s => cases h : p.num s <;> simp [h]
  have ht : ∀ (a : Attrs), (∃ v, readTime p a = .ok v) ↔ ∃ s, a.lookup "time" = some s ∧ ((p.full s).isSome ∨ (p.alt s).isSome) := by
    intro a
    unfold readTime
    cases a.lookup "time" with
    | none => simp only; split_ifs <;> simp
    | some s => cases h : p.full s <;> cases h' : p.alt s <;> simp [h, h']
  have hnone : ∀ (a : Attrs) k, a.lookup k = none → need a k = .error .key := by
    intro a k h; unfold need; rw [h]
  have hsplit : ∀ (a : Attrs), (∃ r, readEvent p path a = .ok r) ↔ (∃ v, need a "id" = .ok v) ∧ (∃ v, need a "netid" = .ok v) ∧
      (∃ v, readTime p a = .ok v) ∧ (∃ v, needNum p a "lat" = .ok v) ∧ (∃ v, needNum p a "lon" = .ok v) ∧
      (∃ v, needNum p a "depth" = .ok v) ∧ (∃ v, needNum p a "mag" = .ok v) ∧ (∃ v, need a "locstring" = .ok v) := by
    intro a
    unfold readEvent
    simp only [bind, Except.bind, pure, Except.pure]
    cases need a "id" <;> [simp; skip]
    cases need a "netid" <;> [simp; skip]
    cases readTime p a <;> [simp; skip]
    cases needNum p a "lat" <;> [simp; skip]
    cases needNum p a "lon" <;> [simp; skip]
    cases needNum p a "depth" <;> [simp; skip]
    cases needNum p a "mag" <;> [simp; skip]
    cases need a "locstring" <;> simp
  refine ⟨?_, ?_, ?_, ?_⟩
  · rw [hsplit]
    simp only [hn, hq, ht, List.forall_mem_cons, List.not_mem_nil, IsEmpty.forall_iff, implies_true, and_true]
    constructor
    · rintro ⟨a1, a2, a3, a4, a5, a6, a7, a8⟩
      exact ⟨⟨a1, a2, a8⟩, ⟨a4, a5, a6, a7⟩, a3⟩
    · rintro ⟨⟨a1, a2, a8⟩, ⟨a4, a5, a6, a7⟩, a3⟩
      exact ⟨a1, a2, a3, a4, a5, a6, a7, a8⟩
  · intro h
    unfold readEvent
    rw [hnone a _ h]; rfl
  · intro i hi h
    unfold readEvent
    rw [hnone a _ h]
    have : need a "id" = .ok i := by unfold need; rw [hi]
    rw [this]; rfl
  · intro b r hb hl hab
    obtain ⟨⟨v1, h1⟩, ⟨v2, h2⟩, ⟨v3, h3⟩, ⟨v4, h4⟩, ⟨v5, h5⟩, ⟨v6, h6⟩, ⟨v7, h7⟩, -⟩ := (hsplit b).1 ⟨r, hb⟩
    have n1 : need a "id" = .ok v1 := by unfold need at h1 ⊢; rw [hab _ (by decide)]; exact h1
    have n2 : need a "netid" = .ok v2 := by unfold need at h2 ⊢; rw [hab _ (by decide)]; exact h2
    have n4 : needNum p a "lat" = .ok v4 := by unfold needNum at h4 ⊢; rw [hab _ (by decide)]; exact h4
    have n5 : needNum p a "lon" = .ok v5 := by unfold needNum at h5 ⊢; rw [hab _ (by decide)]; exact h5
    have n6 : needNum p a "depth" = .ok v6 := by unfold needNum at h6 ⊢; rw [hab _ (by decide)]; exact h6
    have n7 : needNum p a "mag" = .ok v7 := by unfold needNum at h7 ⊢; rw [hab _ (by decide)]; exact h7
    have n3 : readTime p a = .ok v3 := by
      unfold readTime at h3 ⊢
      rw [hab "time" (by decide)]
      cases hb : b.lookup "time" with
      | none => rw [hb] at h3; simp only at h3; split_ifs at h3
      | some s => rw [hb] at h3; exact h3
    unfold readEvent
    simp only [bind, Except.bind, n1, n2, n3, n4, n5, n6, n7, hnone a _ hl]

/-- The attributes of an event that can be read, and the same without the place. -/
def exComplete : Attrs := [("id", "a1"), ("netid", "us"), ("time", "t"), ("lat", "1"), ("lon", "2"), ("depth", "3"), ("mag", "4"),
  ("locstring", "there")]

example : (∃ r, readEvent (T := ℕ) ⟨fun _ => some 1, fun _ => none, fun _ => some 7⟩ true exComplete = .ok r) ∧
    readEvent (T := ℕ) ⟨fun _ => some 1, fun _ => none, fun _ => some 7⟩ true exComplete.dropLast = .error .key :=
  ⟨⟨_, rfl⟩, rfl⟩

end Verif.Props
