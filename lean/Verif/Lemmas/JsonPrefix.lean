import Verif.Lemmas.Json

/-!
# What was read from a text is read from every longer text

A value that ends with a bracket, a brace or a quotation mark, or is followed by something, does not depend on what is appended.
-/

namespace Verif.Props
open Verif.Json Verif.Spec

variable {F : Type}

theorem dropWhile_append_of {p : Char → Bool} {s : Text} (q : Text) (h : s.dropWhile p ≠ []) :
    (s ++ q).dropWhile p = s.dropWhile p ++ q ∧ (s ++ q).takeWhile p = s.takeWhile p := by
  induction s with
  | nil => exact absurd rfl h
  | cons c s ih =>
    by_cases hc : p c = true
    · rw [List.dropWhile_cons_of_pos hc] at h
      obtain ⟨h1, h2⟩ := ih h
      rw [List.cons_append, List.dropWhile_cons_of_pos hc, List.dropWhile_cons_of_pos hc, List.takeWhile_cons_of_pos hc,
        List.takeWhile_cons_of_pos hc, h1, h2]
      exact ⟨rfl, rfl⟩
    · rw [List.cons_append, List.dropWhile_cons_of_neg hc, List.dropWhile_cons_of_neg hc, List.takeWhile_cons_of_neg hc,
        List.takeWhile_cons_of_neg hc]
      exact ⟨rfl, rfl⟩

theorem skip_append_of {s : Text} (q : Text) (h : skip s ≠ []) : skip (s ++ q) = skip s ++ q :=
  (dropWhile_append_of q h).1

theorem head_ne {s : Text} {c : Char} (h : s.head? = some c) : s ≠ [] := by
  rintro rfl; cases h

theorem head_append_of {s : Text} {c : Char} (q : Text) (h : s.head? = some c) : (s ++ q).head? = some c := by
  cases s with
  | nil => cases h
  | cons a s => exact h

theorem tail_append_of {s : Text} {c : Char} (q : Text) (h : s.head? = some c) : (s ++ q).tail = s.tail ++ q := by
  cases s with
  | nil => cases h
  | cons a s => rfl

theorem readHex4_append {s r : Text} {a : ℕ} (q : Text) (h : readHex4 s = some (a, r)) :
    readHex4 (s ++ q) = some (a, r ++ q) := by
  match s, h with
  | [], h => simp [readHex4] at h
  | [_], h => simp [readHex4] at h
  | [_, _], h => simp [readHex4] at h
  | [_, _, _], h => simp [readHex4] at h
  | a' :: b :: c :: d :: s, h =>
    simp only [List.cons_append]
    rw [readHex4] at h ⊢
    simp only [Option.bind_eq_bind, Option.bind_eq_some_iff, Option.pure_def, Option.some.injEq, Prod.mk.injEq] at h ⊢
    obtain ⟨x, hx, y, hy, z, hz, w, hw, e1, e2⟩ := h
    exact ⟨x, hx, y, hy, z, hz, w, hw, e1, by rw [e2]⟩

theorem readUnicode_append {s r : Text} {c : Char} (q : Text) (h : readUnicode s = some (c, r)) :
    readUnicode (s ++ q) = some (c, r ++ q) := by
  unfold readUnicode at h ⊢
  simp only [Option.bind_eq_bind, Option.bind_eq_some_iff, Prod.exists] at h ⊢
  obtain ⟨a, r1, ha, h⟩ := h
  refine ⟨a, r1 ++ q, readHex4_append q ha, ?_⟩
  split_ifs at h ⊢ with h1
  · split at h
    · rename_i r'
      simp only [List.cons_append]
      simp only [Option.bind_eq_some_iff, Prod.exists] at h ⊢
      obtain ⟨b, r2, hb, h⟩ := h
      refine ⟨b, r2 ++ q, readHex4_append q hb, ?_⟩
      split_ifs at h ⊢
      simp only [Option.bind_eq_some_iff, Option.pure_def, Option.some.injEq, Prod.mk.injEq] at h ⊢
      obtain ⟨d, hd, e1, e2⟩ := h
      exact ⟨d, hd, e1, by rw [e2]⟩
    · cases h
  · simp only [Option.bind_eq_some_iff, Option.pure_def, Option.some.injEq, Prod.mk.injEq] at h ⊢
    obtain ⟨d, hd, e1, e2⟩ := h
    exact ⟨d, hd, e1, by rw [e2]⟩

theorem readEscape_append {s r : Text} {c : Char} (q : Text) (h : readEscape s = some (c, r)) :
    readEscape (s ++ q) = some (c, r ++ q) := by
  unfold readEscape at h
  split at h <;> first | exact readUnicode_append q h | (cases h; done) | (cases h; rfl)

theorem scanString_append {n : ℕ} : ∀ {s t r : Text} (q : Text), scanString n s = some (t, r) →
    scanString n (s ++ q) = some (t, r ++ q) := by
  induction n with
  | zero => intro s t r q h; cases s <;> cases h
  | succ n ih =>
    intro s t r q h
    cases s with
    | nil => cases h
    | cons c s =>
      rw [List.cons_append]
      rw [scanString] at h ⊢
      split_ifs at h ⊢ with h1 h2 h3
      · cases h; rfl
      · simp only [Option.bind_eq_bind, Option.bind_eq_some_iff, Option.pure_def, Option.some.injEq, Prod.exists, Prod.mk.injEq] at h ⊢
        obtain ⟨a, r1, ha, b, r2, hb, e1, e2⟩ := h
        exact ⟨a, r1 ++ q, readEscape_append q ha, b, r2 ++ q, ih q hb, e1, by rw [e2]⟩
      · simp only [Option.bind_eq_bind, Option.bind_eq_some_iff, Option.pure_def, Option.some.injEq, Prod.exists, Prod.mk.injEq] at h ⊢
        obtain ⟨b, r2, hb, e1, e2⟩ := h
        exact ⟨b, r2 ++ q, ih q hb, e1, by rw [e2]⟩

/-- Something follows that is no part of a number. -/
def Stop (r : Text) : Prop := ∃ c r', r = c :: r' ∧ c.isDigit = false ∧ c ≠ '.' ∧ c ≠ 'e' ∧ c ≠ 'E'

theorem exponent_append {s e r : Text} (q : Text) (h : exponent s = (e, r)) (hr : Stop r) : exponent (s ++ q) = (e, r ++ q) := by
  cases s with
  | nil => cases h; obtain ⟨c, r', h, -⟩ := hr; cases h
  | cons c s =>
    rw [List.cons_append]
    rw [exponent] at h ⊢
    split_ifs at h with h1 h2
    · cases h
      obtain ⟨d, r', h, -, -, n1, n2⟩ := hr
      cases h
      rcases h1 with h1 | h1
      · exact absurd h1 n1
      · exact absurd h1 n2
    · rw [if_pos h1]
      have hs : expSign (s ++ q) = ((expSign s).1, (expSign s).2 ++ q) := by
        cases s with
        | nil => simp [expSign] at h2
        | cons d s => by_cases hd : d = '-'
                      · subst hd; rfl
                      · by_cases hd' : d = '+'
                        · subst hd'; rfl
                        · have e1 : ∀ x, expSign (d :: x) = ([], d :: x) := by
                            intro x
                            rw [expSign]
                            · intro y hy; cases hy; exact hd rfl
                            · intro y hy; cases hy; exact hd' rfl
                          rw [List.cons_append, e1, e1]
                          rfl
      simp only [Prod.mk.injEq] at h
      have hne : (expSign s).2.dropWhile Char.isDigit ≠ [] := by
        rw [h.2]; obtain ⟨d, r', h, -⟩ := hr; rw [h]; simp
      obtain ⟨d1, d2⟩ := dropWhile_append_of q hne
      rw [hs]
      simp only [d1, d2]
      rw [if_neg h2, h.1, h.2]
    · rw [if_neg h1]
      cases h; rfl

theorem fraction_append {s f r e r2 : Text} (q : Text) (h : fraction s = (f, r)) (he : exponent r = (e, r2)) (hr : Stop r2) :
    fraction (s ++ q) = (f, r ++ q) := by
  have hne : r ≠ [] := by
    rintro rfl
    cases he; obtain ⟨c, r', h, -⟩ := hr; cases h
  cases s with
  | nil => cases h; exact absurd rfl hne
  | cons c s =>
    rw [List.cons_append]
    by_cases hc : c = '.'
    · subst hc
      rw [fraction] at h ⊢
      split_ifs at h with h1
      · cases h
        rw [exponent, if_neg (by decide)] at he
        cases he
        obtain ⟨d, r', h, -, n, -⟩ := hr
        cases h
        exact absurd rfl n
      · simp only [Prod.mk.injEq] at h
        obtain ⟨d1, d2⟩ := dropWhile_append_of (p := Char.isDigit) (s := s) q (by rw [h.2]; exact hne)
        rw [d1, d2, if_neg h1, h.1, h.2]
    · have e1 : ∀ x, fraction (c :: x) = ([], c :: x) := by
        intro x
        rw [fraction]
        intro y hy
        cases hy
        exact hc rfl
      rw [e1] at h ⊢
      cases h; rfl

theorem integerPart_append {s i r : Text} (q : Text) (h : integerPart s = some (i, r)) (hr : r ≠ []) :
    integerPart (s ++ q) = some (i, r ++ q) := by
  cases s with
  | nil => cases h
  | cons c s =>
    rw [List.cons_append]
    rw [integerPart] at h ⊢
    split_ifs at h ⊢ with h1 h2
    · cases h; rfl
    · simp only [Option.some.injEq, Prod.mk.injEq] at h
      obtain ⟨d1, d2⟩ := dropWhile_append_of (p := Char.isDigit) (s := s) q (by rw [h.2]; exact hr)
      rw [d1, d2, h.1, h.2]

theorem scanDigits_append {fl : Floats F} {neg : Bool} {s r : Text} {v : Val F} (q : Text) (h : scanDigits fl neg s = some (v, r))
    (hr : Stop r) : scanDigits fl neg (s ++ q) = some (v, r ++ q) := by
  unfold scanDigits at h ⊢
  simp only [Option.bind_eq_bind, Option.bind_eq_some_iff, Prod.exists] at h ⊢
  obtain ⟨i, r0, hi, h⟩ := h
  generalize hF : fraction r0 = fr at h
  obtain ⟨f, r1⟩ := fr
  generalize hE : exponent r1 = er at h
  obtain ⟨e, r2⟩ := er
  have hr2 : r2 = r := by
    split_ifs at h <;> (simp only [Option.pure_def, Option.some.injEq, Prod.mk.injEq] at h; exact h.2)
  subst hr2
  have hf := fraction_append q hF hE hr
  have he := exponent_append q hE hr
  have hne : r0 ≠ [] := by
    rintro rfl
    obtain ⟨c, r', hc, -⟩ := hr
    cases hF
    cases hE
    exact absurd hc (by simp)
  refine ⟨i, r0 ++ q, integerPart_append q hi hne, ?_⟩
  rw [hf]
  simp only
  rw [he]
  simp only
  split_ifs at h ⊢ <;>
  · simp only [Option.pure_def, Option.some.injEq, Prod.mk.injEq] at h ⊢
    exact ⟨h.1, trivial⟩

theorem scanDigits_first {fl : Floats F} {neg : Bool} {s : Text} {x : Val F × Text} (h : scanDigits fl neg s = some x) :
    ∃ c s', s = c :: s' ∧ c.isDigit = true := by
  unfold scanDigits at h
  simp only [Option.bind_eq_bind, Option.bind_eq_some_iff, Prod.exists] at h
  obtain ⟨i, r0, hi, -⟩ := h
  cases s with
  | nil => cases hi
  | cons c s =>
    refine ⟨c, s, rfl, ?_⟩
    rw [integerPart] at hi
    split_ifs at hi with h1 h2
    · subst h1; rfl
    · exact h2

theorem prefix_drop_append {p s : Text} (q : Text) (h : p <+: s) : (s ++ q).drop p.length = s.drop p.length ++ q := by
  obtain ⟨t, rfl⟩ := h
  simp

/-- A number with its sign. -/
def signed (fl : Floats F) (s : Text) : Option (Val F × Text) :=
  match s with
  | '-' :: r => scanDigits fl true r
  | _ => scanDigits fl false s

theorem signed_first {fl : Floats F} {s : Text} {x : Val F × Text} (h : signed fl s = some x) :
    (∃ c s', s = c :: s' ∧ c.isDigit = true) ∨ ∃ c s', s = '-' :: c :: s' ∧ c.isDigit = true := by
  unfold signed at h
  split at h
  · obtain ⟨c, s', e, hc⟩ := scanDigits_first h
    exact Or.inr ⟨c, s', by rw [e], hc⟩
  · obtain ⟨c, s', e, hc⟩ := scanDigits_first h
    exact Or.inl ⟨c, s', e, hc⟩

theorem signed_append {fl : Floats F} {s r : Text} {v : Val F} (q : Text) (h : signed fl s = some (v, r)) (hr : Stop r) :
    signed fl (s ++ q) = some (v, r ++ q) := by
  rcases signed_first h with ⟨c, s', rfl, hc⟩ | ⟨c, s', rfl, hc⟩
  · have hm : c ≠ '-' := by rintro rfl; revert hc; decide
    have e : ∀ x : Text, signed fl (c :: x) = scanDigits fl false (c :: x) := by
      intro x
      unfold signed
      split
      · rename_i heq; cases heq; exact absurd rfl hm
      · rfl
    rw [e] at h
    rw [List.cons_append, e, ← List.cons_append]
    exact scanDigits_append q h hr
  · exact scanDigits_append q h hr

/-- A number begins with no word. -/
theorem signed_no_word {fl : Floats F} {s : Text} {x : Val F × Text} (q : Text) (h : signed fl s = some x) :
    ¬ "null".toList <+: s ++ q ∧ ¬ "true".toList <+: s ++ q ∧ ¬ "false".toList <+: s ++ q ∧ ¬ "NaN".toList <+: s ++ q ∧
    ¬ "Infinity".toList <+: s ++ q ∧ ¬ "-Infinity".toList <+: s ++ q := by
  have one : ∀ {c d : Char} {p t : Text}, (d :: p) <+: (c :: t) → d = c ∧ p <+: t := fun h => List.cons_prefix_cons.1 h
  rcases signed_first h with ⟨c, s', rfl, hc⟩ | ⟨c, s', rfl, hc⟩
  · refine ⟨?_, ?_, ?_, ?_, ?_, ?_⟩ <;>
    · intro hp
      have := (one hp).1
      subst this
      revert hc; decide
  · refine ⟨?_, ?_, ?_, ?_, ?_, ?_⟩
    all_goals
      intro hp
      first
      | (have := (one hp).1
         revert this; decide)
      | (have := (one (one hp).2).1
         subst this
         revert hc; decide)

theorem scanPlain_append {fl : Floats F} {s r : Text} {v : Val F} (q : Text) (h : scanPlain fl s = some (v, r))
    (hr : Stop r) : scanPlain fl (s ++ q) = some (v, r ++ q) := by
  have pre : ∀ {p : Text}, p <+: s → p <+: s ++ q := fun h => h.trans (List.prefix_append _ _)
  have first : ∀ {p p' : Text} {c c' : Char}, p <+: s ++ q → p' <+: s ++ q → p.head? = some c → p'.head? = some c' → c = c' := by
    intro p p' c c' h1 h2 h3 h4
    obtain ⟨a, ha⟩ := h1
    obtain ⟨b, hb⟩ := h2
    have e1 : (s ++ q).head? = some c := by rw [← ha]; exact head_append_of a h3
    have e2 : (s ++ q).head? = some c' := by rw [← hb]; exact head_append_of b h4
    rw [e1] at e2
    exact Option.some.inj e2
  have eq : ∀ x, scanPlain fl x = if "null".toList <+: x then some (.none, x.drop 4)
      else if "true".toList <+: x then some (.bool true, x.drop 4)
      else if "false".toList <+: x then some (.bool false, x.drop 5)
      else if "NaN".toList <+: x then some (.float (fl.read "NaN".toList), x.drop 3)
      else if "Infinity".toList <+: x then some (.float (fl.read "Infinity".toList), x.drop 8)
      else if "-Infinity".toList <+: x then some (.float (fl.read "-Infinity".toList), x.drop 9)
      else signed fl x := fun _ => rfl
  rw [eq] at h ⊢
  split_ifs at h with h1 h2 h3 h4 h5 h6
  · rw [if_pos (pre h1)]
    cases h
    rw [show (4 : ℕ) = "null".toList.length from rfl, prefix_drop_append q h1]
  · rw [if_neg (fun hh => by have := first hh (pre h2) rfl rfl; revert this; decide), if_pos (pre h2)]
    cases h
    rw [show (4 : ℕ) = "true".toList.length from rfl, prefix_drop_append q h2]
  · rw [if_neg (fun hh => by have := first hh (pre h3) rfl rfl; revert this; decide),
      if_neg (fun hh => by have := first hh (pre h3) rfl rfl; revert this; decide), if_pos (pre h3)]
    cases h
    rw [show (5 : ℕ) = "false".toList.length from rfl, prefix_drop_append q h3]
  · rw [if_neg (fun hh => by have := first hh (pre h4) rfl rfl; revert this; decide),
      if_neg (fun hh => by have := first hh (pre h4) rfl rfl; revert this; decide),
      if_neg (fun hh => by have := first hh (pre h4) rfl rfl; revert this; decide), if_pos (pre h4)]
    cases h
    rw [show (3 : ℕ) = "NaN".toList.length from rfl, prefix_drop_append q h4]
  · rw [if_neg (fun hh => by have := first hh (pre h5) rfl rfl; revert this; decide),
      if_neg (fun hh => by have := first hh (pre h5) rfl rfl; revert this; decide),
      if_neg (fun hh => by have := first hh (pre h5) rfl rfl; revert this; decide),
      if_neg (fun hh => by have := first hh (pre h5) rfl rfl; revert this; decide), if_pos (pre h5)]
    cases h
    rw [show (8 : ℕ) = "Infinity".toList.length from rfl, prefix_drop_append q h5]
  · rw [if_neg (fun hh => by have := first hh (pre h6) rfl rfl; revert this; decide),
      if_neg (fun hh => by have := first hh (pre h6) rfl rfl; revert this; decide),
      if_neg (fun hh => by have := first hh (pre h6) rfl rfl; revert this; decide),
      if_neg (fun hh => by have := first hh (pre h6) rfl rfl; revert this; decide),
      if_neg (fun hh => by have := first hh (pre h6) rfl rfl; revert this; decide), if_pos (pre h6)]
    cases h
    rw [show (9 : ℕ) = "-Infinity".toList.length from rfl, prefix_drop_append q h6]
  · obtain ⟨n1, n2, n3, n4, n5, n6⟩ := signed_no_word q h
    rw [if_neg n1, if_neg n2, if_neg n3, if_neg n4, if_neg n5, if_neg n6]
    exact signed_append q h hr

theorem stop_of_skip {r : Text} {c : Char} (h : (skip r).head? = some c) (hc : c = ',' ∨ c = ']' ∨ c = '}') : Stop r := by
  cases r with
  | nil => cases h
  | cons d r =>
    refine ⟨d, r, rfl, ?_⟩
    by_cases hw : white d = true
    · unfold white at hw
      simp only [Bool.or_eq_true, decide_eq_true_eq] at hw
      rcases hw with ((rfl | rfl) | rfl) | rfl <;> decide
    · rw [skip_cons (by simpa using hw)] at h
      cases h
      rcases hc with rfl | rfl | rfl <;> decide

/-- A value with something behind it, the items of a list up to its bracket, and the items of a dictionary up to its brace
are read in the same way when more follows. -/
theorem scan_append (fl : Floats F) (n : ℕ) :
    (∀ {s r : Text} {v : Val F} (q : Text), scan fl n s = some (v, r) → (Stop r ∨ s.head? = some '{' ∨ s.head? = some '[') →
      scan fl n (s ++ q) = some (v, r ++ q)) ∧
    (∀ {s r : Text} {v : List (Val F)} (q : Text), scanItems fl n s = some (v, r) → scanItems fl n (s ++ q) = some (v, r ++ q)) ∧
    (∀ {s r : Text} {v : List (Text × Val F)} (q : Text), scanMembers fl n s = some (v, r) →
      scanMembers fl n (s ++ q) = some (v, r ++ q)) := by
  induction n with
  | zero =>
    refine ⟨?_, ?_, ?_⟩
    · intro s r v q h; rw [scan] at h; cases h
    · intro s r v q h; rw [scanItems] at h; cases h
    · intro s r v q h; rw [scanMembers] at h; cases h
  | succ n ih =>
    obtain ⟨ih1, ih2, ih3⟩ := ih
    have items0 : ∀ m, scanItems fl m [] = none := by
      intro m
      cases m with
      | zero => rw [scanItems]
      | succ m => rw [scanItems]; cases m <;> rw [scan] <;> rfl
    have members0 : ∀ m, scanMembers fl m [] = none := by
      intro m
      cases m with
      | zero => rw [scanMembers]
      | succ m => rw [scanMembers]; rfl
    have scan0 : ∀ m, scan fl m [] = none := by
      intro m
      cases m <;> rw [scan]
    refine ⟨?_, ?_, ?_⟩
    · intro s r v q h hr
      cases s with
      | nil => rw [scan] at h; cases h
      | cons c s =>
        rw [List.cons_append]
        rw [scan] at h ⊢
        by_cases c1 : c = '"'
        · rw [if_pos c1] at h ⊢
          obtain ⟨a, ha, e⟩ := Option.map_eq_some_iff.1 h
          rw [scanString_append q (show scanString n s = some (a.1, a.2) from ha)]
          cases e; rfl
        rw [if_neg c1] at h ⊢
        by_cases c2 : c = '{'
        · rw [if_pos c2] at h ⊢
          by_cases c3 : (skip s).head? = some '}'
          · rw [if_pos c3] at h
            rw [skip_append_of q (head_ne c3), if_pos (head_append_of q c3), tail_append_of q c3]
            cases h; rfl
          · rw [if_neg c3] at h
            obtain ⟨a, ha, e⟩ := Option.map_eq_some_iff.1 h
            have hne : skip s ≠ [] := by
              intro h0; rw [h0, members0] at ha; cases ha
            obtain ⟨d, s', hd⟩ := List.exists_cons_of_ne_nil hne
            rw [skip_append_of q hne, if_neg (by rw [hd] at c3 ⊢; exact c3), ih3 q (show scanMembers fl n (skip s) = some (a.1, a.2) from ha)]
            cases e; rfl
        rw [if_neg c2] at h ⊢
        by_cases c4 : c = '['
        · rw [if_pos c4] at h ⊢
          by_cases c3 : (skip s).head? = some ']'
          · rw [if_pos c3] at h
            rw [skip_append_of q (head_ne c3), if_pos (head_append_of q c3), tail_append_of q c3]
            cases h; rfl
          · rw [if_neg c3] at h
            obtain ⟨a, ha, e⟩ := Option.map_eq_some_iff.1 h
            have hne : skip s ≠ [] := by
              intro h0; rw [h0, items0] at ha; cases ha
            obtain ⟨d, s', hd⟩ := List.exists_cons_of_ne_nil hne
            rw [skip_append_of q hne, if_neg (by rw [hd] at c3 ⊢; exact c3), ih2 q (show scanItems fl n (skip s) = some (a.1, a.2) from ha)]
            cases e; rfl
        rw [if_neg c4] at h ⊢
        have hs : Stop r := by
          rcases hr with hr | hr | hr
          · exact hr
          · cases hr; exact absurd rfl c2
          · cases hr; exact absurd rfl c4
        exact scanPlain_append (s := c :: s) q h hs
    · intro s r v q h
      rw [scanItems] at h ⊢
      simp only [Option.bind_eq_bind, Option.bind_eq_some_iff, Prod.exists] at h ⊢
      obtain ⟨a, r1, ha, h⟩ := h
      by_cases c1 : (skip r1).head? = some ']'
      · rw [if_pos c1] at h
        refine ⟨a, r1 ++ q, ih1 q ha (Or.inl (stop_of_skip c1 (by simp))), ?_⟩
        rw [skip_append_of q (head_ne c1), if_pos (head_append_of q c1), tail_append_of q c1]
        cases h; rfl
      rw [if_neg c1] at h
      by_cases c2 : (skip r1).head? = some ','
      · rw [if_pos c2] at h
        refine ⟨a, r1 ++ q, ih1 q ha (Or.inl (stop_of_skip c2 (by simp))), ?_⟩
        rw [skip_append_of q (head_ne c2), if_neg (by rw [head_append_of q c2]; decide), if_pos (head_append_of q c2), tail_append_of q c2]
        simp only [Option.bind_eq_some_iff, Prod.exists] at h ⊢
        obtain ⟨b, r2, hb, h⟩ := h
        have hne : skip (skip r1).tail ≠ [] := by
          intro h0; rw [h0, items0] at hb; cases hb
        rw [skip_append_of q hne]
        refine ⟨b, r2 ++ q, ih2 q hb, ?_⟩
        cases h; rfl
      · rw [if_neg c2] at h; cases h
    · intro s r v q h
      rw [scanMembers] at h ⊢
      by_cases c0 : s.head? = some '"'
      · rw [if_pos c0] at h
        rw [if_pos (head_append_of q c0), tail_append_of q c0]
        simp only [Option.bind_eq_bind, Option.bind_eq_some_iff, Prod.exists] at h ⊢
        obtain ⟨k, r0, hk, h⟩ := h
        refine ⟨k, r0 ++ q, scanString_append q hk, ?_⟩
        by_cases c3 : (skip r0).head? = some ':'
        · rw [if_pos c3] at h
          rw [skip_append_of q (head_ne c3), if_pos (head_append_of q c3), tail_append_of q c3]
          simp only [Option.bind_eq_some_iff, Prod.exists] at h ⊢
          obtain ⟨a, r1, ha, h⟩ := h
          have hne : skip (skip r0).tail ≠ [] := by
            intro h0; rw [h0, scan0] at ha; cases ha
          rw [skip_append_of q hne]
          by_cases c1 : (skip r1).head? = some '}'
          · rw [if_pos c1] at h
            refine ⟨a, r1 ++ q, ih1 q ha (Or.inl (stop_of_skip c1 (by simp))), ?_⟩
            rw [skip_append_of q (head_ne c1), if_pos (head_append_of q c1), tail_append_of q c1]
            cases h; rfl
          rw [if_neg c1] at h
          by_cases c2 : (skip r1).head? = some ','
          · rw [if_pos c2] at h
            refine ⟨a, r1 ++ q, ih1 q ha (Or.inl (stop_of_skip c2 (by simp))), ?_⟩
            rw [skip_append_of q (head_ne c2), if_neg (by rw [head_append_of q c2]; decide), if_pos (head_append_of q c2), tail_append_of q c2]
            simp only [Option.bind_eq_some_iff, Prod.exists] at h ⊢
            obtain ⟨b, r2, hb, h⟩ := h
            have hne : skip (skip r1).tail ≠ [] := by
              intro h0; rw [h0, members0] at hb; cases hb
            rw [skip_append_of q hne]
            refine ⟨b, r2 ++ q, ih3 q hb, ?_⟩
            cases h; rfl
          · rw [if_neg c2] at h; cases h
        · rw [if_neg c3] at h; cases h
      · rw [if_neg c0] at h; cases h

end Verif.Props
