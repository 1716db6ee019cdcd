import Verif.Spec.RuptureText
import Verif.Props.RuptureFactory
import Verif.Props.RuptureGeometry

/-!
# Text ruptures: C100
-/

namespace Verif.Props
open Verif.Factory Verif.Spec

instance (c : Char) : Decidable (White c) := by unfold White; infer_instance

theorem isSpace_iff (c : Char) : isSpace c = true ↔ White c := by
  have h : c = ' ' ↔ c.toNat = 32 := by
    constructor
    · rintro rfl; rfl
    · intro h
      exact Char.toNat_inj.1 h
  unfold isSpace White
  simp only [Bool.or_eq_true, Bool.and_eq_true, decide_eq_true_eq, h, List.mem_cons, List.not_mem_nil,
    or_false]
  constructor <;> omega

theorem isSpace_false {c : Char} (h : ¬ White c) : isSpace c = false := by
  rw [Bool.eq_false_iff]; exact fun hh => h ((isSpace_iff c).1 hh)

theorem lstrip_gap {w : List Char} (h : Gap w) (r : List Char) : lstrip (w ++ r) = lstrip r := by
  induction w with
  | nil => rfl
  | cons c w ih =>
    have h1 : isSpace c = true := (isSpace_iff c).2 (h c (by simp))
    have h2 := ih (fun x hx => h x (by simp [hx]))
    unfold lstrip at h2 ⊢
    rw [List.cons_append, List.dropWhile_cons, if_pos h1, h2]

theorem lstrip_cons {c : Char} (h : ¬ White c) (r : List Char) : lstrip (c :: r) = c :: r := by
  unfold lstrip
  rw [List.dropWhile_cons, if_neg]
  rw [isSpace_false h]; simp

theorem strip_gap {w : List Char} (h : Gap w) : strip w = [] := by
  have : lstrip w = [] := by
    have := lstrip_gap h []
    rw [List.append_nil] at this
    exact this
  unfold strip
  rw [this]; rfl

/-- The first character that is not white is the first of the stripped text. -/
theorem strip_head {w : List Char} (h : Gap w) {c : Char} (hc : ¬ White c) (r : List Char) :
    (strip (w ++ c :: r)).head? = some c := by
  unfold strip
  rw [lstrip_gap h, lstrip_cons hc]
  have key : ∀ l : List Char, ∃ l', lstrip (l ++ [c]) = l' ++ [c] := by
    intro l
    induction l with
    | nil => exact ⟨[], lstrip_cons hc []⟩
    | cons d l ih =>
      by_cases hd : White d
      · obtain ⟨l', e⟩ := ih
        refine ⟨l', ?_⟩
        unfold lstrip at e ⊢
        rw [List.cons_append, List.dropWhile_cons, if_pos ((isSpace_iff d).2 hd), e]
      · exact ⟨d :: l, lstrip_cons hd _⟩
  obtain ⟨l', e⟩ := key r.reverse
  rw [List.reverse_cons, e]
  simp

/-- Stripping takes off exactly the white space around a text. -/
theorem strip_exact {w w' : List Char} (h : Gap w) (h' : Gap w') {c : Char} (hc : ¬ White c)
    {body : List Char} (hb : ∀ d, (c :: body).getLast? = some d → ¬ White d) :
    strip (w ++ (c :: body) ++ w') = c :: body := by
  unfold strip
  rw [List.append_assoc, lstrip_gap h, List.cons_append, lstrip_cons hc, ← List.cons_append,
    List.reverse_append, lstrip_gap (fun d hd => h' d (by simpa using hd))]
  have : ∃ d l, (c :: body).reverse = d :: l ∧ ¬ White d := by
    cases hr : (c :: body).reverse with
    | nil => simp at hr
    | cons d l =>
      refine ⟨d, l, rfl, hb d ?_⟩
      have := congrArg List.reverse hr
      rw [List.reverse_reverse] at this
      rw [this]; simp
  obtain ⟨d, l, e, hd⟩ := this
  rw [e, lstrip_cons hd, ← e, List.reverse_reverse]

/-! ### Words -/

theorem splitWords_gap {w : List Char} (h : Gap w) (r : List Char) :
    splitWords [] (w ++ r) = splitWords [] r := by
  induction w with
  | nil => rfl
  | cons c w ih =>
    rw [List.cons_append, splitWords, if_pos ((isSpace_iff c).2 (h c (by simp)))]
    exact ih (fun x hx => h x (by simp [hx]))

theorem splitWords_word {a : List Char} (h : ∀ c ∈ a, ¬ White c) (cur r : List Char) :
    splitWords cur (a ++ r) = splitWords (a.reverse ++ cur) r := by
  induction a generalizing cur with
  | nil => rfl
  | cons c a ih =>
    rw [List.cons_append, splitWords, if_neg (by rw [isSpace_false (h c (by simp))]; simp),
      ih (fun x hx => h x (by simp [hx]))]
    simp

theorem splitWords_end {w : List Char} (h : Gap w) (hw : w ≠ []) {cur : List Char} (hc : cur ≠ [])
    (r : List Char) : splitWords cur (w ++ r) = cur.reverse :: splitWords [] r := by
  cases w with
  | nil => exact absurd rfl hw
  | cons c w =>
    rw [List.cons_append, splitWords, if_pos ((isSpace_iff c).2 (h c (by simp))), if_neg (by simpa using hc),
      splitWords_gap (fun x hx => h x (by simp [hx]))]

theorem splitWords_last {w : List Char} (h : Gap w) {cur : List Char} (hc : cur ≠ []) :
    splitWords cur w = [cur.reverse] := by
  by_cases hw : w = []
  · subst hw; rw [splitWords, if_neg (by simpa using hc)]
  · have := splitWords_end h hw hc []
    rw [List.append_nil] at this
    rw [this]; rfl

/-- Three words. -/
theorem splitWords_three {w0 a w1 b w2 c w3 : List Char} (g0 : Gap w0) (ha : Word a) (g1 : Gap w1)
    (n1 : w1 ≠ []) (hb : Word b) (g2 : Gap w2) (n2 : w2 ≠ []) (hc : Word c) (g3 : Gap w3) :
    splitWords [] (w0 ++ a ++ w1 ++ b ++ w2 ++ c ++ w3) = [a, b, c] := by
  simp only [List.append_assoc]
  rw [splitWords_gap g0, splitWords_word ha.2, List.append_nil,
    splitWords_end g1 n1 (by simpa using ha.1), splitWords_word hb.2, List.append_nil,
    splitWords_end g2 n2 (by simpa using hb.1), splitWords_word hc.2, List.append_nil,
    splitWords_last g3 (by simpa using hc.1)]
  simp

theorem splitCommas_part {a : List Char} (h : ',' ∉ a) (cur r : List Char) :
    splitCommas cur (a ++ r) = splitCommas (a.reverse ++ cur) r := by
  induction a generalizing cur with
  | nil => rfl
  | cons c a ih =>
    have : c ≠ ',' := fun hc => h (by simp [hc])
    rw [List.cons_append, splitCommas, if_neg this, ih (fun hx => h (by simp [hx]))]
    simp

theorem splitCommas_three {a b c : List Char} (ha : ',' ∉ a) (hb : ',' ∉ b) (hc : ',' ∉ c) :
    splitCommas [] (a ++ ',' :: (b ++ ',' :: c)) = [a, b, c] := by
  rw [splitCommas_part ha, splitCommas, if_pos rfl, splitCommas_part hb, splitCommas, if_pos rfl]
  have := splitCommas_part hc [] []
  rw [List.append_nil] at this
  rw [this, splitCommas]
  simp

theorem comma_not_white : ¬ White ',' := by decide

theorem not_comma_of_gap {w : List Char} (h : Gap w) : ',' ∉ w := fun hm => comma_not_white (h _ hm)

/-! ### Lines -/

/-- The vertex of three numbers, in the order of the format. -/
def formatVert (newFormat : Bool) (a b c : ℚ) : Vert := if newFormat then ⟨a, b, c⟩ else ⟨b, a, c⟩

/-- The step of a line of each kind. -/
def stepOf (newFormat : Bool) (st : RState) : Kind → RState
  | .nothing => st
  | .reference t => { st with reference := st.reference ++ t }
  | .separator =>
    if st.polygon = [] then st else { st with polygons := st.polygons ++ [st.polygon], polygon := [] }
  | .vertex a b c => { st with polygon := st.polygon ++ [formatVert newFormat a b c] }

theorem readLine_coords {num : List Char → Option ℚ} {nf : Bool} {st : RState} {line w a r : List Char}
    (e : line = w ++ a ++ r) (g : Gap w) (ha : Word a) (h1 : a.head? ≠ some '#') (h2 : a.head? ≠ some '>') :
    readLine num nf st line = readCoords num nf st line := by
  cases a with
  | nil => exact absurd rfl ha.1
  | cons c a =>
    have hs : (strip line).head? = some c := by
      rw [e, List.append_assoc, List.cons_append]
      exact strip_head g (ha.2 c (by simp)) _
    simp at h1 h2
    unfold readLine
    simp only [hs]
    rw [if_neg (by intro h; rw [h] at hs; simp at hs), if_neg (by simpa using h1), if_neg (by simpa using h2)]

theorem readLine_spec {num : List Char → Option ℚ} {nf : Bool} {line : List Char} {k : Kind}
    (h : LineIs num (nf = false) line k) (st : RState) :
    readLine num nf st line = .ok (stepOf nf st k) := by
  cases h with
  | nothing g =>
    unfold readLine
    rw [strip_gap g]; rfl
  | @reference w body w' g g' hb =>
    have hs : strip (w ++ '#' :: body ++ w') = '#' :: body := by
      apply strip_exact g g' (by decide)
      intro d hd
      cases body with
      | nil => simp at hd; rw [← hd]; decide
      | cons b body => rw [List.getLast?_cons_cons] at hd; exact hb d hd
    unfold readLine
    simp only [hs]
    simp [stepOf]
  | @separator w rest g =>
    have hs := strip_head g (c := '>') (by decide) rest
    unfold readLine
    simp only [hs]
    rw [if_neg (by intro h; rw [h] at hs; simp at hs), if_neg (by decide), if_pos trivial]
    unfold stepOf
    by_cases hp : st.polygon = []
    · rw [if_pos hp, if_pos hp]
    · rw [if_neg hp, if_neg hp]
  | @vertex w0 a w1 b w2 c w3 x y z g0 ha g1 n1 hb g2 n2 hc g3 h1 h2 e1 e2 e3 =>
    rw [readLine_coords (w := w0) (a := a) (r := w1 ++ b ++ w2 ++ c ++ w3) (by simp) g0 ha h1 h2]
    unfold readCoords lineParts
    simp only [splitWords_three g0 ha g1 n1 hb g2 n2 hc g3]
    rw [if_neg (by simp)]
    simp only [readVert, e1, e2, e3]
    rfl
  | @commas w0 a b c w3 x y z ho g0 ha hb hc g3 ca cb cc h1 h2 e1 e2 e3 =>
    rw [readLine_coords (w := w0) (a := a) (r := ',' :: b ++ ',' :: c ++ w3) (by simp) g0 ha h1 h2]
    have hw : splitWords [] (w0 ++ a ++ ',' :: b ++ ',' :: c ++ w3) = [a ++ ',' :: b ++ ',' :: c] := by
      have : w0 ++ a ++ ',' :: b ++ ',' :: c ++ w3 = w0 ++ ((a ++ ',' :: b ++ ',' :: c) ++ w3) := by simp
      rw [this, splitWords_gap g0, splitWords_word, List.append_nil, splitWords_last g3 (by simp)]
      · simp
      · intro d hd
        simp only [List.mem_append, List.mem_cons] at hd
        rcases hd with (hd | rfl | hd) | rfl | hd
        · exact ha.2 d hd
        · exact comma_not_white
        · exact hb.2 d hd
        · exact comma_not_white
        · exact hc.2 d hd
    have hcm : splitCommas [] (w0 ++ a ++ ',' :: b ++ ',' :: c ++ w3) = [w0 ++ a, b, c ++ w3] := by
      have : w0 ++ a ++ ',' :: b ++ ',' :: c ++ w3 = (w0 ++ a) ++ ',' :: (b ++ ',' :: (c ++ w3)) := by simp
      rw [this]
      apply splitCommas_three
      · simp [not_comma_of_gap g0, ca]
      · exact cb
      · simp [not_comma_of_gap g3, cc]
    unfold readCoords lineParts
    simp only [hw, hcm, ho]
    rw [if_pos (by simp), if_neg (by simp), if_neg (by simp)]
    simp only [readVert, e1, e2, e3]
    rfl

theorem groups_ne {m : ℚ → ℚ → ℚ → Vert} (ks : List Kind) : ∃ g gs, groups m ks = g :: gs := by
  induction ks with
  | nil => exact ⟨[], [], rfl⟩
  | cons k ks ih =>
    obtain ⟨g, gs, e⟩ := ih
    cases k with
    | nothing => exact ⟨g, gs, e⟩
    | reference t => exact ⟨g, gs, e⟩
    | separator => exact ⟨_, _, rfl⟩
    | vertex a b c => exact ⟨m a b c :: g, gs, by rw [groups, e]⟩

theorem readLines_spec {num : List Char → Option ℚ} {nf : Bool} {lines : List (List Char)}
    {ks : List Kind} (h : List.Forall₂ (LineIs num (nf = false)) lines ks) (st : RState) :
    ∃ st', readLines num nf st lines = .ok st' ∧ st'.reference = st.reference ++ references ks ∧
      ∀ g gs, groups (formatVert nf) ks = g :: gs →
        (if st'.polygon = [] then st'.polygons else st'.polygons ++ [st'.polygon]) =
          st.polygons ++ ((st.polygon ++ g) :: gs).filter (fun g => !g.isEmpty) := by
  induction h generalizing st with
  | nil =>
    refine ⟨st, rfl, by simp [references], ?_⟩
    intro g gs e
    simp [groups] at e
    obtain ⟨rfl, rfl⟩ := e
    by_cases hp : st.polygon = [] <;> simp [hp]
  | @cons l k ls ks hl _ ih =>
    obtain ⟨st', e, er, eg⟩ := ih (stepOf nf st k)
    refine ⟨st', by rw [readLines, readLine_spec hl]; exact e, ?_, ?_⟩
    · rw [er]
      cases k with
      | nothing => rfl
      | reference t => simp [stepOf, references]
      | separator =>
        unfold stepOf
        by_cases hp : st.polygon = [] <;> simp [hp, references]
      | vertex a b c => rfl
    · intro g gs hg
      cases k with
      | nothing => exact eg g gs hg
      | reference t => exact eg g gs hg
      | separator =>
        rw [groups] at hg
        injection hg with h1 h2
        subst h1
        obtain ⟨g', gs', e'⟩ := groups_ne (m := formatVert nf) ks
        rw [eg g' gs' e', ← h2, e']
        unfold stepOf
        by_cases hp : st.polygon = []
        · simp [hp]
        · rw [if_neg hp]
          simp [hp]
      | vertex a b c =>
        obtain ⟨g', gs', e'⟩ := groups_ne (m := formatVert nf) ks
        rw [groups, e'] at hg
        simp only [List.cons.injEq] at hg
        obtain ⟨rfl, rfl⟩ := hg
        rw [eg g' gs' e']
        simp [stepOf]

/-- **C100** (partial). A file whose every line is white space, a reference, a separator or three numbers
separated by white space - or, in the old format, by commas - is read to the references and to the
vertices between the separators, with longitude first in the new format and latitude first in the old one.
What is missing: commas in the new format, and commas followed by a space. -/
theorem C100_text_partial (num : List Char → Option ℚ) (newFormat : Bool) (lines : List (List Char))
    (ks : List Kind) (h : List.Forall₂ (LineIs num (newFormat = false)) lines ks) :
    readText num newFormat lines = .ok (references ks,
      polygonsOf (fun a b c => if newFormat then ⟨a, b, c⟩ else ⟨b, a, c⟩) ks) := by
  obtain ⟨st', e, er, eg⟩ := readLines_spec h ⟨[], [], []⟩
  obtain ⟨g, gs, hg⟩ := groups_ne (m := formatVert newFormat) ks
  unfold readText
  simp only [e]
  rw [eg g gs hg, er]
  have : (fun a b c => if newFormat then (⟨a, b, c⟩ : Vert) else ⟨b, a, c⟩) = formatVert newFormat := rfl
  unfold polygonsOf
  rw [this, hg]
  simp

/-- **C100** violated: the description of the format allows commas in place of spaces. With a comma and a
space between the numbers a line is refused in both formats, given that `float` does not take a text that
ends in a comma; with commas alone it is refused in the new format. -/
theorem C100_commas_violated (num : List Char → Option ℚ) (hnum : ∀ a, num (a ++ [',']) = none)
    (st : RState) {a b c : List Char} (ha : Word a) (hb : Word b) (hc : Word c)
    (h1 : a.head? ≠ some '#') (h2 : a.head? ≠ some '>') :
    (∀ nf, readLine num nf st (a ++ ", ".toList ++ b ++ ", ".toList ++ c) = .error .valueError) ∧
    readLine num true st (a ++ ",".toList ++ b ++ ",".toList ++ c) = .error .exception := by
  have hcm : (", ".toList : List Char) = [','] ++ [' '] := by decide
  have hg : Gap [' '] := by intro d hd; simp at hd; subst hd; decide
  have word : ∀ {w : List Char}, Word w → Word (w ++ [',']) := by
    intro w hw
    refine ⟨by simp, ?_⟩
    intro d hd
    simp at hd
    rcases hd with hd | rfl
    · exact hw.2 d hd
    · exact comma_not_white
  constructor
  · intro nf
    have e : a ++ ", ".toList ++ b ++ ", ".toList ++ c =
        [] ++ (a ++ [',']) ++ [' '] ++ (b ++ [',']) ++ [' '] ++ c ++ [] := by rw [hcm]; simp
    have hh : ∀ ch, (a ++ [',']).head? = some ch → a.head? = some ch := by
      intro ch h
      cases a with
      | nil => exact absurd rfl ha.1
      | cons d a => simpa using h
    rw [e, readLine_coords (w := []) (a := a ++ [',']) (r := [' '] ++ (b ++ [',']) ++ [' '] ++ c ++ [])
      (by simp) (by intro d hd; simp at hd) (word ha) (fun h => h1 (hh _ h)) (fun h => h2 (hh _ h))]
    unfold readCoords lineParts
    simp only [splitWords_three (w0 := []) (w3 := []) (by intro d hd; simp at hd) (word ha) hg (by simp)
      (word hb) hg (by simp) hc (by intro d hd; simp at hd)]
    rw [if_neg (by simp)]
    simp only [readVert, hnum]
  · have e1 : (",".toList : List Char) = [','] := by decide
    rw [e1, readLine_coords (w := []) (a := a) (r := [','] ++ b ++ [','] ++ c) (by simp)
      (by intro d hd; simp at hd) ha h1 h2]
    have hw : splitWords [] (a ++ [','] ++ b ++ [','] ++ c) = [a ++ [','] ++ b ++ [','] ++ c] := by
      have := splitWords_word (a := a ++ [','] ++ b ++ [','] ++ c) (cur := []) (r := []) ?_
      · rw [List.append_nil] at this
        rw [this, splitWords]; simp
      · intro d hd
        simp only [List.mem_append, List.mem_singleton] at hd
        rcases hd with (((hd | rfl) | hd) | rfl) | hd
        · exact ha.2 d hd
        · exact comma_not_white
        · exact hb.2 d hd
        · exact comma_not_white
        · exact hc.2 d hd
    unfold readCoords lineParts
    simp only [hw]
    rfl

/-- Single digits as numbers. -/
def digitNum : List Char → Option ℚ
  | [c] => if c.isDigit then some ((c.toNat - 48 : ℕ) : ℚ) else none
  | _ => none

/-- A file with a reference, an empty line, a separator at the start, and a vertex. -/
example : ∃ ks, List.Forall₂ (LineIs digitNum (true = false))
    ["# Ref\n".toList, "\n".toList, ">\n".toList, "1 2  3\n".toList] ks ∧
    polygonsOf (fun a b c => ⟨a, b, c⟩) ks = [[⟨1, 2, 3⟩]] ∧ references ks = " Ref".toList := by
  have g : Gap ['\n'] := by intro c hc; simp at hc; subst hc; decide
  have g0 : Gap [] := by intro c hc; simp at hc
  have g1 : Gap [' '] := by intro c hc; simp at hc; subst hc; decide
  have g2 : Gap [' ', ' '] := by intro c hc; simp at hc; subst hc; decide
  refine ⟨[.reference " Ref".toList, .nothing, .separator, .vertex 1 2 3], ?_, rfl, rfl⟩
  refine .cons ?_ (.cons ?_ (.cons ?_ (.cons ?_ .nil)))
  · exact .reference (w := []) (body := [' ', 'R', 'e', 'f']) (w' := ['\n']) g0 g (by
      intro c hc; simp at hc; subst hc; decide)
  · exact .nothing g
  · exact .separator (w := []) (rest := ['\n']) g0
  · have w : ∀ c : Char, ¬ White c → Word [c] := fun c hc => ⟨by simp, by simpa using hc⟩
    exact .vertex (w0 := []) (a := ['1']) (w1 := [' ']) (b := ['2']) (w2 := [' ', ' ']) (c := ['3'])
      (w3 := ['\n']) g0 (w _ (by decide)) g1 (by simp) (w _ (by decide)) g2 (by simp) (w _ (by decide)) g
      (by decide) (by decide) (by decide +kernel) (by decide +kernel) (by decide +kernel)

/-! ### C101: the kind of rupture -/

theorem isQuad_true (q : Rup.Quad Rup.Point) : (Rup.isQuad q).1 = true := C63_always_accepted_violated q

theorem quadOk_iff (q : Rup.Quad Vert) : quadOk q = true ↔ Level q.p0 q.p1 ∧ Level q.p2 q.p3 := by
  unfold quadOk Level depthTol
  rw [isQuad_true]
  simp

theorem classify_spec (qs : List (Rup.Quad Vert)) :
    ((∀ q ∈ qs, pointsOk q = true) →
      ∃ b, classify qs = .ok b ∧ (b = true ↔ ∀ q ∈ qs, Level q.p0 q.p1 ∧ Level q.p2 q.p3)) ∧
    (∀ e, classify qs = .error e → e = .valueError ∧ ∃ q ∈ qs, pointsOk q = false) ∧
    (classify qs = .ok true → ∀ q ∈ qs, pointsOk q = true) := by
  induction qs with
  | nil => exact ⟨fun _ => ⟨true, rfl, by simp⟩, fun e h => by simp [classify] at h, fun _ q hq => by simp at hq⟩
  | cons q qs ih =>
    obtain ⟨i1, i2, i3⟩ := ih
    by_cases hp : pointsOk q = true
    · by_cases hq : quadOk q = true
      · have e : classify (q :: qs) = classify qs := by rw [classify, if_pos hp, if_pos hq]
        rw [e]
        refine ⟨?_, ?_, ?_⟩
        · intro h
          obtain ⟨b, eb, hb⟩ := i1 (fun x hx => h x (by simp [hx]))
          exact ⟨b, eb, by rw [hb, List.forall_mem_cons]; exact (and_iff_right ((quadOk_iff q).1 hq)).symm⟩
        · intro er h
          obtain ⟨a, x, hx, hb⟩ := i2 er h
          exact ⟨a, x, by simp [hx], hb⟩
        · intro h
          exact List.forall_mem_cons.2 ⟨hp, i3 h⟩
      · have e : classify (q :: qs) = .ok false := by rw [classify, if_pos hp, if_neg hq]
        rw [e]
        refine ⟨fun _ => ⟨false, rfl, ?_⟩, fun er h => by simp at h, fun h => by simp at h⟩
        simp only [Bool.false_eq_true, List.forall_mem_cons, false_iff, not_and]
        intro hl
        exact absurd ((quadOk_iff q).2 hl) hq
    · have e : classify (q :: qs) = .error .valueError := by rw [classify, if_neg hp]
      rw [e]
      refine ⟨fun h => absurd (h q (by simp)) hp, fun er h => ?_, fun h => by simp at h⟩
      simp at h
      exact ⟨h.symm, q, by simp, by simpa using hp⟩

theorem outline_valid {top bottom : List Vert}
    (h : List.Forall₂ (fun t b => t.depth < b.depth) top bottom) (hne : top ≠ []) :
    ValidPolygon (outline top bottom) := by
  cases top with
  | nil => exact absurd rfl hne
  | cons a top =>
    refine ⟨by simp [outline], ?_, a :: top, bottom, ?_, h⟩
    · unfold Closed outline
      rw [List.getLast?_append]; simp
    · exact List.dropLast_concat

theorem quads_of_outline {top bottom : List Vert} (h : top.length = bottom.length) (hne : top ≠ [])
    (q : Rup.Quad Vert) : q ∈ quadsOf (outline top bottom) ↔
      ∃ (k : ℕ) (h1 : k + 1 < top.length) (h2 : k + 1 < bottom.length),
        q = ⟨top[k], top[k + 1], bottom[k + 1], bottom[k]⟩ := by
  have hl : (outline top bottom).length = 2 * top.length + 1 := by
    cases top with
    | nil => exact absurd rfl hne
    | cons a top => simp [outline, ← h]; omega
  have ht : ∀ k (hk : k < top.length), vertAt (outline top bottom) k = top[k] := by
    intro k hk
    unfold vertAt outline
    rw [List.getD_eq_getElem?_getD, List.append_assoc, List.getElem?_append_left hk,
      List.getElem?_eq_getElem hk]; rfl
  have hb : ∀ k (hk : k < bottom.length),
      vertAt (outline top bottom) (2 * top.length + 1 - (k + 2)) = bottom[k] := by
    intro k hk
    unfold vertAt outline
    rw [List.getD_eq_getElem?_getD, List.append_assoc, List.getElem?_append_right (by omega),
      List.getElem?_append_left (by simp; omega), List.getElem?_reverse (by omega)]
    have : bottom.length - 1 - (2 * top.length + 1 - (k + 2) - top.length) = k := by omega
    rw [this, List.getElem?_eq_getElem hk]; rfl
  have hn : nPairs (outline top bottom) - 1 = top.length - 1 := by
    unfold nPairs; rw [hl]; omega
  unfold quadsOf
  rw [hn]
  simp only [List.mem_map, List.mem_range]
  have hq : ∀ k (h1 : k + 1 < top.length) (h2 : k + 1 < bottom.length), quadAt (outline top bottom) k =
      ⟨top[k], top[k + 1], bottom[k + 1], bottom[k]⟩ := by
    intro k h1 h2
    unfold quadAt
    rw [hl, ht k (by omega), ht (k + 1) h1, hb k (by omega), show k + 3 = (k + 1) + 2 from rfl, hb (k + 1) h2]
  constructor
  · rintro ⟨k, hk, rfl⟩
    exact ⟨k, by omega, by omega, hq k (by omega) (by omega)⟩
  · rintro ⟨k, h1, h2, rfl⟩
    exact ⟨k, by omega, hq k h1 h2⟩

theorem pointOk_iff (v : Vert) : pointOk v = true ↔ OnEarth v := by
  unfold pointOk OnEarth
  simp only [Bool.and_eq_true, decide_eq_true_eq]
  tauto

/-- **C101** (partial). A rupture whose polygons go along a top edge and back below it is represented by
quadrilaterals if and only if along each top edge and along each bottom edge neighbouring points differ in
depth by no more than 50 m, and as an edge rupture otherwise; a polygon with a top point not above its
bottom point is refused. What is missing: the corners of a quadrilateral need not be in a plane. -/
theorem C101_kind_partial (tbs : List (List Vert × List Vert))
    (hne : ∀ tb ∈ tbs, tb.1 ≠ [] ∧ tb.1.length = tb.2.length)
    (he : ∀ tb ∈ tbs, (∀ v ∈ tb.1, OnEarth v) ∧ ∀ v ∈ tb.2, OnEarth v) :
    let ps := tbs.map (fun tb => outline tb.1 tb.2)
    let Below := ∀ tb ∈ tbs, List.Forall₂ (fun t b => t.depth < b.depth) tb.1 tb.2
    let Flat := ∀ tb ∈ tbs, List.IsChain Level tb.1 ∧ List.IsChain Level tb.2
    (Below ∧ Flat → fromDictAndOrigin (.multiPolygon ps) = .ok (.quad ps)) ∧
    (Below ∧ ¬ Flat → fromDictAndOrigin (.multiPolygon ps) = .ok (.edge ps)) ∧
    (¬ Below → fromDictAndOrigin (.multiPolygon ps) = .error .valueError) := by
  intro ps Below Flat
  have hB : (∀ p ∈ ps, ValidPolygon p) ↔ Below := by
    constructor
    · intro h tb htb
      obtain ⟨n1, n2⟩ := hne tb htb
      obtain ⟨-, -, top, bottom, hd, hf⟩ := h (outline tb.1 tb.2) (List.mem_map.2 ⟨tb, htb, rfl⟩)
      have e : (outline tb.1 tb.2).dropLast = tb.1 ++ tb.2.reverse := by
        unfold outline
        cases h1 : tb.1 with
        | nil => exact absurd h1 n1
        | cons a l => exact List.dropLast_concat
      rw [e] at hd
      have hl := congrArg List.length hd
      have hl2 := hf.length_eq
      simp only [List.length_append, List.length_reverse] at hl
      obtain ⟨e1, e2⟩ := List.append_inj hd (by omega)
      rw [e1, List.reverse_injective e2]
      exact hf
    · intro h p hp
      obtain ⟨tb, htb, rfl⟩ := List.mem_map.1 hp
      exact outline_valid (h tb htb) (hne tb htb).1
  have hQ : ∀ q, q ∈ ps.flatMap quadsOf ↔ ∃ tb ∈ tbs, ∃ (k : ℕ) (h1 : k + 1 < tb.1.length)
      (h2 : k + 1 < tb.2.length), q = ⟨tb.1[k], tb.1[k + 1], tb.2[k + 1], tb.2[k]⟩ := by
    intro q
    simp only [ps, List.mem_flatMap, List.mem_map]
    constructor
    · rintro ⟨p, ⟨tb, htb, rfl⟩, hq⟩
      exact ⟨tb, htb, (quads_of_outline (hne tb htb).2 (hne tb htb).1 q).1 hq⟩
    · rintro ⟨tb, htb, hq⟩
      exact ⟨_, ⟨tb, htb, rfl⟩, (quads_of_outline (hne tb htb).2 (hne tb htb).1 q).2 hq⟩
  have hP : ∀ q ∈ ps.flatMap quadsOf, pointsOk q = true := by
    intro q hq
    obtain ⟨tb, htb, k, h1, h2, rfl⟩ := (hQ q).1 hq
    obtain ⟨a, b⟩ := he tb htb
    unfold pointsOk
    simp only [Bool.and_eq_true, pointOk_iff]
    exact ⟨⟨⟨a _ (List.getElem_mem _), a _ (List.getElem_mem _)⟩, b _ (List.getElem_mem _)⟩,
      b _ (List.getElem_mem _)⟩
  have hF : (∀ q ∈ ps.flatMap quadsOf, Level q.p0 q.p1 ∧ Level q.p2 q.p3) ↔ Flat := by
    constructor
    · intro h tb htb
      have hl := (hne tb htb).2
      constructor <;> rw [List.isChain_iff_getElem] <;> intro k hk
      · exact (h _ ((hQ _).2 ⟨tb, htb, k, hk, by omega, rfl⟩)).1
      · have := (h _ ((hQ _).2 ⟨tb, htb, k, by omega, hk, rfl⟩)).2
        unfold Level at this ⊢
        rw [abs_sub_comm]; exact this
    · intro h q hq
      obtain ⟨tb, htb, k, h1, h2, rfl⟩ := (hQ q).1 hq
      obtain ⟨a, b⟩ := h tb htb
      refine ⟨List.isChain_iff_getElem.1 a k h1, ?_⟩
      have := List.isChain_iff_getElem.1 b k h2
      unfold Level at this ⊢
      rw [abs_sub_comm]; exact this
  obtain ⟨b, eb, hb⟩ := (classify_spec (ps.flatMap quadsOf)).1 hP
  rw [hF] at hb
  obtain ⟨c1, c2⟩ := checkAll_iff ps
  rw [hB] at c1 c2
  refine ⟨?_, ?_, ?_⟩
  · rintro ⟨h1, h2⟩
    unfold fromDictAndOrigin isQuadRupture
    simp only [c1.2 h1, eb, hb.2 h2, if_true]
  · rintro ⟨h1, h2⟩
    have : b = false := by rw [Bool.eq_false_iff]; exact fun h => h2 (hb.1 h)
    unfold fromDictAndOrigin isQuadRupture
    simp only [c1.2 h1, eb, this, Bool.false_eq_true, if_false]
  · intro h1
    unfold fromDictAndOrigin
    simp only [c2 h1]

/-- **C101** violated: four corners that are nowhere near a plane. The first, second and fourth are on the
equator, the third below the north pole. -/
theorem C101_plane_violated :
    let p : List Vert := [⟨0, 0, 0⟩, ⟨90, 0, 0⟩, ⟨0, 90, 5⟩, ⟨0, 0, 5⟩, ⟨0, 0, 0⟩]
    fromDictAndOrigin (.multiPolygon [p]) = .ok (.quad [p]) ∧
    Rup.fromPoint ⟨0, 90, 5⟩ ∉ plane (Rup.fromPoint ⟨0, 0, 0⟩) (Rup.fromPoint ⟨90, 0, 0⟩)
      (Rup.fromPoint ⟨0, 0, 5⟩) := by
  intro p
  constructor
  · have := (C101_kind_partial [([⟨0, 0, 0⟩, ⟨90, 0, 0⟩], [⟨0, 0, 5⟩, ⟨0, 90, 5⟩])] (by simp)
      (by simp only [List.mem_singleton, forall_eq, List.forall_mem_cons, OnEarth]; norm_num)).1
      ⟨by simp, by simp [Level]; norm_num⟩
    exact this
  · rintro ⟨s, t, h⟩
    have hz := congrArg Vec.V3.z h
    simp only [combine, Rup.fromPoint, Vec.latlon2ecef] at hz
    have e1 : (90 : ℝ) * Vec.degToRad = Real.pi / 2 := by unfold Vec.degToRad; ring
    rw [e1] at hz
    simp only [zero_mul, Real.sin_zero, mul_zero, Real.sin_pi_div_two, mul_one, add_zero,
      sub_self] at hz
    have h2 : Vec.wgsA ≤ Vec.primeVertical 1 := by
      unfold Vec.primeVertical
      have ha : 0 < Vec.wgsA := by unfold Vec.wgsA; norm_num
      have hs : 0 < √(1 - Vec.wgsE * Vec.wgsE * 1 * 1) := by
        apply Real.sqrt_pos.2; unfold Vec.wgsE; norm_num
      rw [le_div_iff₀ hs]
      have : √(1 - Vec.wgsE * Vec.wgsE * 1 * 1) ≤ 1 := by
        rw [Real.sqrt_le_one]; unfold Vec.wgsE; norm_num
      nlinarith
    have h3 : (1 / 2 : ℝ) ≤ 1 - Vec.wgsE * Vec.wgsE := by unfold Vec.wgsE; norm_num
    have h4 : (6000000 : ℝ) ≤ Vec.wgsA := by unfold Vec.wgsA; norm_num
    nlinarith

end Verif.Props
