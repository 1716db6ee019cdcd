import Verif.Spec.Json
import Mathlib.Tactic.IntervalCases
import Mathlib.Data.List.Induction

/-!
# Lemmas about writing and reading JSON
-/

namespace Verif.Json
open Verif.Spec

variable {F : Type}

/-! ### Texts -/

theorem hexVal_hexDigit {n : ℕ} (h : n < 16) : hexVal (hexDigit n) = some n := by
  interval_cases n <;> decide

theorem readHex4_hex4 {n : ℕ} (h : n < 65536) (s : Text) : readHex4 (hex4 n ++ s) = some (n, s) := by
  unfold hex4
  simp only [List.cons_append, List.nil_append, readHex4]
  rw [hexVal_hexDigit (by omega), hexVal_hexDigit (by omega), hexVal_hexDigit (by omega), hexVal_hexDigit (by omega)]
  simp only [Option.bind_eq_bind, Option.bind_some, Option.pure_def, Option.some.injEq, Prod.mk.injEq, and_true]
  omega

theorem chr_toNat (c : Char) : chr c.toNat = some c := by
  unfold chr
  have h : c.toNat.isValidChar := c.valid
  rw [dif_pos h]
  congr 1

theorem toNat_cases (c : Char) : c.toNat < 55296 ∨ (57343 < c.toNat ∧ c.toNat < 1114112) := by
  have h := c.valid
  unfold UInt32.isValidChar Nat.isValidChar at h
  exact h

theorem readUnicode_one {c : Char} {s r : Text} {a : ℕ} (h : readHex4 s = some (a, r)) (ha : ¬ (55296 ≤ a ∧ a ≤ 56319))
    (hc : chr a = some c) : readUnicode s = some (c, r) := by
  unfold readUnicode
  simp only [h, Option.bind_eq_bind, Option.bind_some, if_neg ha, hc]
  rfl

theorem readUnicode_two {c : Char} {s r r' : Text} {a b k : ℕ} (h : readHex4 s = some (a, '\\' :: 'u' :: r))
    (h' : readHex4 r = some (b, r')) (ha : 55296 ≤ a ∧ a ≤ 56319) (hb : 56320 ≤ b ∧ b ≤ 57343)
    (hk : 65536 + (a - 55296) * 1024 + (b - 56320) = k)
    (hc : chr k = some c) : readUnicode s = some (c, r') := by
  unfold readUnicode
  simp only [h, h', Option.bind_eq_bind, Option.bind_some, if_pos ha, if_pos hb, hk, hc]
  rfl

theorem readEscape_u (s : Text) : readEscape ('u' :: s) = readUnicode s := rfl

theorem scanString_esc {n : ℕ} {c : Char} {s r : Text} (h : readEscape s = some (c, r)) :
    scanString (n + 1) ('\\' :: s) = (scanString n r).map fun x => (c :: x.1, x.2) := by
  rw [scanString, if_neg (by decide), if_pos rfl, h]
  cases hx : scanString n r <;> simp [hx]

theorem scanString_escape (n : ℕ) (c : Char) (s : Text) :
    scanString (n + 1) (escapeChar c ++ s) = (scanString n s).map fun x => (c :: x.1, x.2) := by
  have hbind : ∀ d : Char, (do
      let (t, r) ← scanString n s
      return (d :: t, r)) = (scanString n s).map fun x => (d :: x.1, x.2) := by
    intro d
    cases scanString n s <;> rfl
  unfold escapeChar
  by_cases h1 : c = '"'
  · subst h1; rw [if_pos rfl]; simpa [scanString, readEscape] using hbind '"'
  rw [if_neg h1]
  by_cases h2 : c = '\\'
  · subst h2; rw [if_pos rfl]; simpa [scanString, readEscape] using hbind '\\'
  rw [if_neg h2]
  by_cases h3 : c = '\n'
  · subst h3; rw [if_pos rfl]; simpa [scanString, readEscape] using hbind '\n'
  rw [if_neg h3]
  by_cases h4 : c = '\r'
  · subst h4; rw [if_pos rfl]; simpa [scanString, readEscape] using hbind '\r'
  rw [if_neg h4]
  by_cases h5 : c = '\t'
  · subst h5; rw [if_pos rfl]; simpa [scanString, readEscape] using hbind '\t'
  rw [if_neg h5]
  by_cases h6 : c = '\x0c'
  · subst h6; rw [if_pos rfl]; simpa [scanString, readEscape] using hbind '\x0c'
  rw [if_neg h6]
  by_cases h7 : c = '\x08'
  · subst h7; rw [if_pos rfl]; simpa [scanString, readEscape] using hbind '\x08'
  rw [if_neg h7]
  by_cases h8 : 32 ≤ c.toNat ∧ c.toNat ≤ 126
  · rw [if_pos h8, List.singleton_append, scanString, if_neg h1, if_neg h2, if_neg (by omega)]
    exact hbind c
  rw [if_neg h8]
  by_cases h9 : c.toNat < 65536
  · rw [if_pos h9, List.cons_append, List.cons_append]
    refine scanString_esc ?_
    rw [readEscape_u]
    have := toNat_cases c
    exact readUnicode_one (readHex4_hex4 h9 s) (by omega) (chr_toNat c)
  · have hv := toNat_cases c
    rw [if_neg h9]
    obtain ⟨a, ha⟩ : ∃ a, a = 55296 + (c.toNat - 65536) / 1024 := ⟨_, rfl⟩
    obtain ⟨b, hb⟩ : ∃ b, b = 56320 + (c.toNat - 65536) % 1024 := ⟨_, rfl⟩
    rw [← ha, ← hb]
    simp only [List.cons_append, List.append_assoc]
    refine scanString_esc ?_
    rw [readEscape_u]
    exact readUnicode_two (readHex4_hex4 (by omega) _) (readHex4_hex4 (by omega) _) (by omega) (by omega)
      (by omega) (chr_toNat c)

theorem scanString_text {n : ℕ} {s : Text} (h : s.length < n) (rest : Text) :
    scanString n (s.flatMap escapeChar ++ '"' :: rest) = some (s, rest) := by
  induction s generalizing n with
  | nil =>
    obtain ⟨n, rfl⟩ : ∃ m, n = m + 1 := ⟨n - 1, by simp at h; omega⟩
    simp [scanString]
  | cons c s ih =>
    obtain ⟨n, rfl⟩ : ∃ m, n = m + 1 := ⟨n - 1, by simp at h; omega⟩
    rw [List.flatMap_cons, List.append_assoc, scanString_escape, ih (by simpa using h)]
    rfl

theorem escape_length (c : Char) : 1 ≤ (escapeChar c).length := by
  unfold escapeChar
  split_ifs <;> simp

theorem quoted_length (s : Text) : s.length + 2 ≤ (quoted s).length := by
  have : s.length ≤ (s.flatMap escapeChar).length := by
    induction s with
    | nil => simp
    | cons c s ih =>
      rw [List.flatMap_cons, List.length_append, List.length_cons]
      have := escape_length c
      omega
  unfold quoted
  simp only [List.length_append, List.length_cons, List.length_nil]
  omega

/-! ### Numbers -/

/-- What can follow a value. -/
def Delim (rest : Text) : Prop := ∀ c, rest.head? = some c → c = ',' ∨ c = ']' ∨ c = '}'

theorem takeWhile_digits {d rest : Text} (hd : ∀ c ∈ d, c.isDigit = true)
    (hr : ∀ c, rest.head? = some c → c.isDigit = false) :
    (d ++ rest).takeWhile Char.isDigit = d ∧ (d ++ rest).dropWhile Char.isDigit = rest := by
  induction d with
  | nil =>
    cases rest with
    | nil => simp
    | cons c s =>
      have := hr c rfl
      simp [this]
  | cons c d ih =>
    have := hd c (by simp)
    have ih := ih fun c hc => hd c (by simp [hc])
    simp [this, ih]

theorem toDigits_head {n : ℕ} (h : n ≠ 0) : (Nat.toDigits 10 n).head? ≠ some '0' := by
  induction n using Nat.strong_induction_on with
  | _ n ih =>
    by_cases hn : n < 10
    · rw [Nat.toDigits_of_lt_base hn]
      interval_cases n <;> first | exact absurd rfl h | decide
    · rw [Nat.toDigits_of_base_le (by norm_num) (by omega)]
      have := ih (n / 10) (by omega) (by omega)
      rw [List.head?_append]
      cases hx : (Nat.toDigits 10 (n / 10)).head? with
      | none => exact absurd (List.head?_eq_none_iff.1 hx) Nat.toDigits_ne_nil
      | some c => rw [hx] at this; simpa using this

theorem digitsValue_toDigits (n : ℕ) : digitsValue (Nat.toDigits 10 n) = n := by
  induction n using Nat.strong_induction_on with
  | _ n ih =>
    by_cases hn : n < 10
    · rw [Nat.toDigits_of_lt_base hn]
      interval_cases n <;> decide
    · rw [Nat.toDigits_of_base_le (by norm_num) (by omega)]
      have h1 := ih (n / 10) (by omega)
      unfold digitsValue at h1 ⊢
      rw [List.foldl_append, h1]
      have : ∀ k < 10, (Nat.digitChar k).toNat - 48 = k := by decide
      simp only [List.foldl_cons, List.foldl_nil]
      rw [this _ (Nat.mod_lt _ (by norm_num))]
      omega

theorem integerPart_digits {i rest : Text} (hi : Digits i) (h0 : i = ['0'] ∨ i.head? ≠ some '0')
    (hr : ∀ c, rest.head? = some c → c.isDigit = false) : integerPart (i ++ rest) = some (i, rest) := by
  rcases h0 with rfl | h0
  · rfl
  · obtain ⟨hne, hd⟩ := hi
    cases i with
    | nil => exact absurd rfl hne
    | cons c i =>
      have hc : c ≠ '0' := by simpa using h0
      obtain ⟨t1, t2⟩ := takeWhile_digits (d := i) (rest := rest) (fun c hc => hd c (by simp [hc])) hr
      rw [List.cons_append, integerPart, if_neg hc, if_pos (hd c (by simp)), t1, t2]

theorem fraction_none {s : Text} (h : s.head? ≠ some '.') : fraction s = ([], s) := by
  unfold fraction
  split
  · simp at h
  · rfl

theorem exponent_none {s : Text} (h : s.head? ≠ some 'e' ∧ s.head? ≠ some 'E') : exponent s = ([], s) := by
  cases s with
  | nil => rfl
  | cons c s =>
    have : ¬ (c = 'e' ∨ c = 'E') := by simpa using h
    rw [exponent, if_neg this]

theorem fraction_some {d rest : Text} (hd : Digits d) (hr : ∀ c, rest.head? = some c → c.isDigit = false) :
    fraction ('.' :: d ++ rest) = ('.' :: d, rest) := by
  obtain ⟨t1, t2⟩ := takeWhile_digits hd.2 hr
  rw [List.cons_append, fraction, t1, t2, if_neg hd.1]

theorem expSign_digits {s d rest : Text} (hs : s = [] ∨ s = ['-'] ∨ s = ['+']) (hd : Digits d) :
    expSign (s ++ d ++ rest) = (s, d ++ rest) := by
  rcases hs with rfl | rfl | rfl
  · obtain ⟨hne, hd⟩ := hd
    cases d with
    | nil => exact absurd rfl hne
    | cons c d =>
      have hc := hd c (by simp)
      rw [List.nil_append, List.cons_append]
      unfold expSign
      split
      · rename_i h; simp only [List.cons.injEq] at h; rw [h.1] at hc; exact absurd hc (by decide)
      · rename_i h; simp only [List.cons.injEq] at h; rw [h.1] at hc; exact absurd hc (by decide)
      · rfl
  · rfl
  · rfl

theorem exponent_some {s d rest : Text} (hs : s = [] ∨ s = ['-'] ∨ s = ['+']) (hd : Digits d)
    (hr : ∀ c, rest.head? = some c → c.isDigit = false) :
    exponent ('e' :: s ++ d ++ rest) = ('e' :: s ++ d, rest) := by
  obtain ⟨t1, t2⟩ := takeWhile_digits hd.2 hr
  have he : 'e' :: s ++ d ++ rest = 'e' :: (s ++ d ++ rest) := by simp
  rw [he, exponent, if_pos (Or.inl rfl), expSign_digits hs hd, t1, t2, if_neg hd.1]

theorem digit_ne {c : Char} (h : c.isDigit = true) : c ≠ '.' ∧ c ≠ 'e' ∧ c ≠ 'E' ∧ c ≠ '-' ∧ c ≠ 'n' ∧ c ≠ 't' ∧
    c ≠ 'f' ∧ c ≠ 'N' ∧ c ≠ 'I' ∧ c ≠ '"' ∧ c ≠ '{' ∧ c ≠ '[' ∧ c ≠ ']' ∧ white c = false := by
  refine ⟨?_, ?_, ?_, ?_, ?_, ?_, ?_, ?_, ?_, ?_, ?_, ?_, ?_, ?_⟩
  · rintro rfl; revert h; decide
  · rintro rfl; revert h; decide
  · rintro rfl; revert h; decide
  · rintro rfl; revert h; decide
  · rintro rfl; revert h; decide
  · rintro rfl; revert h; decide
  · rintro rfl; revert h; decide
  · rintro rfl; revert h; decide
  · rintro rfl; revert h; decide
  · rintro rfl; revert h; decide
  · rintro rfl; revert h; decide
  · rintro rfl; revert h; decide
  · rintro rfl; revert h; decide
  · by_contra hw
    have hw : white c = true := by simpa using hw
    unfold white at hw
    simp only [Bool.or_eq_true, decide_eq_true_eq] at hw
    rcases hw with ((rfl | rfl) | rfl) | rfl <;> (revert h; decide)

theorem delim_digit {rest : Text} (h : Delim rest) : (∀ c, rest.head? = some c → c.isDigit = false) ∧
    rest.head? ≠ some '.' ∧ rest.head? ≠ some 'e' ∧ rest.head? ≠ some 'E' := by
  refine ⟨fun c hc => ?_, fun hc => ?_, fun hc => ?_, fun hc => ?_⟩
  · rcases h c hc with rfl | rfl | rfl <;> rfl
  all_goals rcases h _ hc with h' | h' | h' <;> (revert h'; decide)

/-- Scanning a number given by its parts. -/
theorem scanDigits_parts (fl : Floats F) (neg : Bool) {i f e rest : Text} (hi : Digits i)
    (h0 : i = ['0'] ∨ i.head? ≠ some '0') (hf : f = [] ∨ ∃ d, f = '.' :: d ∧ Digits d)
    (he : e = [] ∨ ∃ s d, e = 'e' :: s ++ d ∧ (s = [] ∨ s = ['-'] ∨ s = ['+']) ∧ Digits d) (hr : Delim rest) :
    scanDigits fl neg (i ++ f ++ e ++ rest) =
      some (if f = [] ∧ e = [] then .int (if neg then -(digitsValue i : ℤ) else digitsValue i)
        else .float (fl.read ((if neg then ['-'] else []) ++ i ++ f ++ e)), rest) := by
  obtain ⟨r1, r2, r3, r4⟩ := delim_digit hr
  have hE : exponent (e ++ rest) = (e, rest) := by
    rcases he with rfl | ⟨s, d, rfl, hs, hd⟩
    · exact exponent_none ⟨r3, r4⟩
    · exact exponent_some hs hd r1
  have hEd : ∀ c, (e ++ rest).head? = some c → c.isDigit = false := by
    rcases he with rfl | ⟨s, d, rfl, hs, hd⟩
    · exact r1
    · intro c hc
      simp only [List.cons_append, List.head?_cons, Option.some.injEq] at hc
      subst hc; rfl
  have hEp : (e ++ rest).head? ≠ some '.' := by
    rcases he with rfl | ⟨s, d, rfl, hs, hd⟩
    · exact r2
    · simp
  have hF : fraction (f ++ (e ++ rest)) = (f, e ++ rest) := by
    rcases hf with rfl | ⟨d, rfl, hd⟩
    · exact fraction_none hEp
    · exact fraction_some hd hEd
  have hFd : ∀ c, (f ++ (e ++ rest)).head? = some c → c.isDigit = false := by
    rcases hf with rfl | ⟨d, rfl, hd⟩
    · exact hEd
    · intro c hc
      simp only [List.cons_append, List.head?_cons, Option.some.injEq] at hc
      subst hc; rfl
  have e1 : i ++ f ++ e ++ rest = i ++ (f ++ (e ++ rest)) := by simp
  unfold scanDigits
  rw [e1, integerPart_digits hi h0 hFd]
  simp only [Option.bind_eq_bind, Option.bind_some, hF, hE]
  split <;> rfl

theorem not_prefix_of_head {p s : Text} {c d : Char} (hp : p.head? = some c) (hs : s.head? = some d) (h : c ≠ d) : ¬ p <+: s := by
  rintro ⟨r, rfl⟩
  rw [List.head?_append, hp] at hs
  simp only [Option.some_or, Option.some.injEq] at hs
  exact h hs

theorem scanPlain_number (fl : Floats F) {sign i f e rest : Text} (hs : sign = [] ∨ sign = ['-']) (hi : Digits i)
    (h0 : i = ['0'] ∨ i.head? ≠ some '0') (hf : f = [] ∨ ∃ d, f = '.' :: d ∧ Digits d)
    (he : e = [] ∨ ∃ s d, e = 'e' :: s ++ d ∧ (s = [] ∨ s = ['-'] ∨ s = ['+']) ∧ Digits d) (hr : Delim rest) :
    scanPlain fl (sign ++ i ++ f ++ e ++ rest) =
      some (if f = [] ∧ e = [] then .int (if sign ≠ [] then -(digitsValue i : ℤ) else digitsValue i)
        else .float (fl.read (sign ++ i ++ f ++ e)), rest) := by
  obtain ⟨c, i', rfl⟩ : ∃ c i', i = c :: i' := by
    cases i with
    | nil => exact absurd rfl hi.1
    | cons c i' => exact ⟨c, i', rfl⟩
  obtain ⟨d1, d2, d3, d4, d5, d6, d7, d8, d9, -⟩ := digit_ne (hi.2 c (by simp))
  rcases hs with rfl | rfl
  · have hh : ([] ++ (c :: i') ++ f ++ e ++ rest).head? = some c := by simp
    unfold scanPlain
    rw [if_neg (not_prefix_of_head (c := 'n') (by decide) hh d5.symm),
      if_neg (not_prefix_of_head (c := 't') (by decide) hh d6.symm),
      if_neg (not_prefix_of_head (c := 'f') (by decide) hh d7.symm),
      if_neg (not_prefix_of_head (c := 'N') (by decide) hh d8.symm),
      if_neg (not_prefix_of_head (c := 'I') (by decide) hh d9.symm),
      if_neg (not_prefix_of_head (c := '-') (by decide) hh d4.symm)]
    have := scanDigits_parts fl false hi h0 hf he hr
    simp only [List.nil_append, Bool.false_eq_true, if_false, ne_eq, not_true_eq_false] at this ⊢
    split
    · rename_i r h
      simp only [List.cons_append, List.cons.injEq] at h
      exact absurd h.1 d4
    · exact this
  · have hh : (['-'] ++ (c :: i') ++ f ++ e ++ rest).head? = some '-' := by simp
    unfold scanPlain
    rw [if_neg (not_prefix_of_head (c := 'n') (by decide) hh (by decide)),
      if_neg (not_prefix_of_head (c := 't') (by decide) hh (by decide)),
      if_neg (not_prefix_of_head (c := 'f') (by decide) hh (by decide)),
      if_neg (not_prefix_of_head (c := 'N') (by decide) hh (by decide)),
      if_neg (not_prefix_of_head (c := 'I') (by decide) hh (by decide)), if_neg]
    · have := scanDigits_parts fl true hi h0 hf he hr
      simp only [if_true] at this
      simpa using this
    · intro h
      have hl : "-Infinity".toList = '-' :: "Infinity".toList := by decide
      rw [hl] at h
      have h' : "Infinity".toList <+: (c :: i') ++ f ++ e ++ rest := by
        simpa using h
      exact not_prefix_of_head (c := 'I') (d := c) (by decide) (by simp) d9.symm h'

theorem toDigits_digits (n : ℕ) : Digits (Nat.toDigits 10 n) ∧
    (Nat.toDigits 10 n = ['0'] ∨ (Nat.toDigits 10 n).head? ≠ some '0') := by
  refine ⟨⟨Nat.toDigits_ne_nil, fun c hc => Nat.isDigit_of_mem_toDigits (by norm_num) (by norm_num) hc⟩, ?_⟩
  by_cases h : n = 0
  · subst h; left; decide
  · exact Or.inr (toDigits_head h)

theorem scanPlain_int (fl : Floats F) (i : ℤ) {rest : Text} (hr : Delim rest) :
    scanPlain fl (intText i ++ rest) = some (.int i, rest) := by
  obtain ⟨h1, h2⟩ := toDigits_digits i.natAbs
  unfold intText
  by_cases hn : i < 0
  · have := scanPlain_number fl (sign := ['-']) (f := []) (e := []) (Or.inr rfl) h1 h2 (Or.inl rfl) (Or.inl rfl) hr
    rw [if_pos hn]
    simp only [List.append_nil, and_self, if_true, ne_eq, reduceCtorEq, not_false_eq_true, digitsValue_toDigits] at this
    rw [this]
    congr 3; omega
  · have := scanPlain_number fl (sign := []) (f := []) (e := []) (Or.inl rfl) h1 h2 (Or.inl rfl) (Or.inl rfl) hr
    rw [if_neg hn]
    simp only [List.append_nil, and_self, if_true, ne_eq, not_true_eq_false, if_false, digitsValue_toDigits] at this
    rw [this]
    congr 3; omega

theorem scanPlain_float {fl : Floats F} (hfl : FloatsOk fl) (f : F) {rest : Text} (hr : Delim rest) :
    scanPlain fl (fl.text f ++ rest) = some (.float f, rest) := by
  obtain ⟨h1, h2⟩ := hfl f
  rcases h2 with h2 | ⟨sign, i, fr, e, ht, hs, hi, h0, hf, he, hne⟩
  · simp only [List.mem_cons, List.not_mem_nil, or_false] at h2
    have np : ∀ {p s : Text} {c d : Char}, p.head? = some c → s.head? = some d → c ≠ d → ¬ p <+: s :=
      fun hp hs h => not_prefix_of_head hp hs h
    rcases h2 with h2 | h2 | h2 <;> rw [h2] at h1 ⊢
    · have hh : ("NaN".toList ++ rest).head? = some 'N' := rfl
      unfold scanPlain
      rw [if_neg (np (c := 'n') (by decide) hh (by decide)), if_neg (np (c := 't') (by decide) hh (by decide)),
        if_neg (np (c := 'f') (by decide) hh (by decide)), if_pos (List.prefix_append _ _), h1]
      rfl
    · have hh : ("Infinity".toList ++ rest).head? = some 'I' := rfl
      unfold scanPlain
      rw [if_neg (np (c := 'n') (by decide) hh (by decide)), if_neg (np (c := 't') (by decide) hh (by decide)),
        if_neg (np (c := 'f') (by decide) hh (by decide)), if_neg (np (c := 'N') (by decide) hh (by decide)),
        if_pos (List.prefix_append _ _), h1]
      rfl
    · have hh : ("-Infinity".toList ++ rest).head? = some '-' := rfl
      unfold scanPlain
      rw [if_neg (np (c := 'n') (by decide) hh (by decide)), if_neg (np (c := 't') (by decide) hh (by decide)),
        if_neg (np (c := 'f') (by decide) hh (by decide)), if_neg (np (c := 'N') (by decide) hh (by decide)),
        if_neg (np (c := 'I') (by decide) hh (by decide)), if_pos (List.prefix_append _ _), h1]
      rfl
  · have := scanPlain_number fl hs hi h0 hf he hr
    rw [← ht, h1, if_neg (by rintro ⟨rfl, rfl⟩; simp at hne)] at this
    exact this

/-! ### Keys -/

theorem intText_eq (i : ℤ) : intText i = (toString i).toList := by
  cases i with
  | ofNat n =>
    show (if (n : ℤ) < 0 then ['-'] else []) ++ Nat.toDigits 10 n = (Nat.repr n).toList
    rw [if_neg (by omega)]
    simp [Nat.repr]
  | negSucc n =>
    show (if Int.negSucc n < 0 then ['-'] else []) ++ Nat.toDigits 10 (n + 1) = ("-" ++ Nat.repr (n + 1)).toList
    rw [if_pos (Int.negSucc_lt_zero n)]
    simp [Nat.repr]

theorem keyText_eq {fl : Floats F} {k : Key F} {t : Text} (h : keyText fl k = some t) : keyName fl k = t := by
  cases k with
  | str s => simpa [keyText, keyName] using h
  | int i => rw [keyText, Option.some.injEq] at h; rw [keyName, ← h, intText_eq]
  | float f => simpa [keyText, keyName] using h
  | bool b => cases b <;> (rw [keyText, Option.some.injEq] at h; rw [keyName, ← h]; rfl)
  | none => simpa [keyText, keyName] using h
  | other => cases h

theorem mem_firsts {ks : List Text} {k : Text} : k ∈ firsts ks ↔ k ∈ ks := by
  induction ks with
  | nil => rfl
  | cons a ks ih =>
    rw [firsts]
    simp only [List.mem_cons, List.mem_filter, ih, ne_eq, decide_not, Bool.not_eq_eq_eq_not, Bool.not_true,
      decide_eq_false_iff_not]
    by_cases h : k = a <;> simp [h]

theorem nodup_firsts (ks : List Text) : (firsts ks).Nodup := by
  induction ks with
  | nil => exact List.nodup_nil
  | cons a ks ih =>
    rw [firsts, List.nodup_cons]
    exact ⟨by simp, ih.filter _⟩

theorem firsts_snoc (ks : List Text) (k : Text) :
    firsts (ks ++ [k]) = if k ∈ ks then firsts ks else firsts ks ++ [k] := by
  induction ks with
  | nil => rfl
  | cons a ks ih =>
    rw [List.cons_append, firsts, ih, firsts]
    by_cases h : k = a
    · subst h
      by_cases h' : k ∈ ks
      · simp [h']
      · simp [h', List.filter_append]
    · by_cases h' : k ∈ ks
      · simp [h']
      · simp [h', h, List.filter_append]

theorem firsts_nodup {ks : List Text} (h : ks.Nodup) : firsts ks = ks := by
  induction ks with
  | nil => rfl
  | cons a ks ih =>
    rw [List.nodup_cons] at h
    rw [firsts, ih h.2, List.filter_eq_self.2]
    intro b hb
    simp only [ne_eq, decide_not, Bool.not_eq_eq_eq_not, Bool.not_true, decide_eq_false_iff_not]
    rintro rfl
    exact h.1 hb

theorem insertKey_filterMap (k : Text) (v : Val F) {L : List Text} (hL : L.Nodup) {f : Text → Option (Text × Val F)}
    (hf : ∀ a ∈ L, ∃ w, f a = some (a, w)) :
    insertKey k v (L.filterMap f) =
      if k ∈ L then L.filterMap (fun a => if k = a then some (k, v) else f a) else L.filterMap f ++ [(k, v)] := by
  induction L with
  | nil => rfl
  | cons a L ih =>
    obtain ⟨w, hw⟩ := hf a (by simp)
    rw [List.nodup_cons] at hL
    have ih := ih hL.2 fun b hb => hf b (by simp [hb])
    rw [List.filterMap_cons_some hw, insertKey]
    by_cases h : a = k
    · subst h
      rw [if_pos rfl, if_pos (by simp), List.filterMap_cons_some (f := fun b => if a = b then some (a, v) else f b) (if_pos rfl)]
      congr 1
      refine List.filterMap_congr fun b hb => ?_
      rw [if_neg]
      rintro rfl
      exact hL.1 hb
    · rw [if_neg h, ih]
      have hk : ¬ k = a := fun e => h e.symm
      by_cases h' : k ∈ L
      · rw [if_pos h', if_pos (by simp [h']), List.filterMap_cons_some (b := (a, w)) (by rw [if_neg hk, hw])]
      · rw [if_neg h', if_neg (by simp [h', hk])]
        rfl

theorem find_reverse {ps : List (Text × Val F)} {k : Text} (h : k ∈ ps.map Prod.fst) :
    ∃ w, ps.reverse.find? (fun p => p.1 = k) = some (k, w) := by
  cases hx : ps.reverse.find? (fun p => p.1 = k) with
  | none =>
    rw [List.find?_eq_none] at hx
    obtain ⟨p, hp, rfl⟩ := List.mem_map.1 h
    have := hx p (by simpa using hp)
    simp at this
  | some p =>
    have := List.find?_some hx
    simp only [decide_eq_true_eq] at this
    exact ⟨p.2, by rw [← this]⟩

theorem fold_merged (ps : List (Text × Val F)) : ps.foldl (fun d p => insertKey p.1 p.2 d) [] = merged ps := by
  induction ps using List.reverseRecOn with
  | nil => rfl
  | append_singleton ps p ih =>
    rw [List.foldl_append, ih]
    simp only [List.foldl_cons, List.foldl_nil]
    unfold merged
    rw [insertKey_filterMap p.1 p.2 (nodup_firsts _) fun a ha => find_reverse (mem_firsts.1 ha)]
    simp only [List.map_append, List.map_cons, List.map_nil, List.reverse_append, List.reverse_cons, List.reverse_nil,
      List.nil_append, List.singleton_append]
    rw [firsts_snoc]
    by_cases h : p.1 ∈ ps.map Prod.fst
    · rw [if_pos (mem_firsts.2 h), if_pos h]
      refine List.filterMap_congr fun a ha => ?_
      by_cases e : p.1 = a
      · rw [if_pos e, List.find?_cons_of_pos (by simpa using e)]
      · rw [if_neg e, List.find?_cons_of_neg (by simpa using e)]
    · rw [if_neg (fun h' => h (mem_firsts.1 h')), if_neg h, List.filterMap_append]
      congr 1
      · refine List.filterMap_congr fun a ha => ?_
        have e : ¬ p.1 = a := fun e => h (e ▸ mem_firsts.1 ha)
        rw [List.find?_cons_of_neg (by simpa using e)]
      · simp

theorem fromPairs_eq (ps : List (Text × Val F)) :
    fromPairs ps = .dict ((merged ps).map fun p => (.str p.1, p.2)) := by
  unfold fromPairs
  rw [fold_merged]

theorem merged_keys (ps : List (Text × Val F)) : (merged ps).map Prod.fst = firsts (ps.map Prod.fst) := by
  unfold merged
  have : ∀ L : List Text, (∀ k ∈ L, k ∈ ps.map Prod.fst) →
      (L.filterMap fun k => ps.reverse.find? fun p => p.1 = k).map Prod.fst = L := by
    intro L
    induction L with
    | nil => intro _; rfl
    | cons a L ih =>
      intro h
      obtain ⟨w, hw⟩ := find_reverse (h a (by simp))
      rw [List.filterMap_cons_some (f := fun k => ps.reverse.find? fun p => p.1 = k) hw, List.map_cons, ih fun k hk => h k (by simp [hk])]
  exact this _ fun k hk => mem_firsts.1 hk

theorem merged_mem {ps : List (Text × Val F)} {p : Text × Val F} (h : p ∈ merged ps) : p ∈ ps := by
  unfold merged at h
  obtain ⟨k, -, hk⟩ := List.mem_filterMap.1 h
  simpa using List.mem_of_find?_eq_some hk

theorem merged_nodup {ps : List (Text × Val F)} (h : (ps.map Prod.fst).Nodup) : merged ps = ps := by
  induction ps using List.reverseRecOn with
  | nil => rfl
  | append_singleton ps p ih =>
    have h' := h
    rw [List.map_append, List.nodup_append] at h'
    rw [← fold_merged, List.foldl_append, fold_merged, ih h'.1]
    simp only [List.foldl_cons, List.foldl_nil]
    have hn : p.1 ∉ ps.map Prod.fst := fun hm => h'.2.2 _ hm p.1 (by simp) rfl
    clear ih h h'
    induction ps with
    | nil => rfl
    | cons q ps ih =>
      simp only [List.map_cons, List.mem_cons, not_or] at hn
      rw [insertKey, if_neg (fun e => hn.1 e.symm), ih hn.2]
      rfl

/-! ### Values -/

theorem skip_cons {c : Char} {s : Text} (h : white c = false) : skip (c :: s) = c :: s := by
  unfold skip
  rw [List.dropWhile_cons_of_neg (by simp [h])]

theorem number_first {sign i r : Text} (hs : sign = [] ∨ sign = ['-']) (hi : Digits i) :
    ∃ c s, sign ++ i ++ r = c :: s ∧ white c = false ∧ c ≠ ']' ∧ c ≠ '"' ∧ c ≠ '{' ∧ c ≠ '[' := by
  obtain ⟨c, i', rfl⟩ : ∃ c i', i = c :: i' := by
    cases i with
    | nil => exact absurd rfl hi.1
    | cons c i' => exact ⟨c, i', rfl⟩
  rcases hs with rfl | rfl
  · obtain ⟨-, -, -, -, -, -, -, -, -, h1, h2, h3, h4, h5⟩ := digit_ne (hi.2 c (by simp))
    exact ⟨c, i' ++ r, by simp, h5, h4, h1, h2, h3⟩
  · exact ⟨'-', c :: i' ++ r, by simp, rfl, by decide, by decide, by decide, by decide⟩

theorem int_first (i : ℤ) :
    ∃ c s, intText i = c :: s ∧ white c = false ∧ c ≠ ']' ∧ c ≠ '"' ∧ c ≠ '{' ∧ c ≠ '[' := by
  have := number_first (sign := if i < 0 then ['-'] else []) (r := []) (by split <;> simp) (toDigits_digits i.natAbs).1
  simpa [intText] using this

theorem float_first {fl : Floats F} (hfl : FloatsOk fl) (f : F) :
    ∃ c s, fl.text f = c :: s ∧ white c = false ∧ c ≠ ']' ∧ c ≠ '"' ∧ c ≠ '{' ∧ c ≠ '[' := by
  rcases (hfl f).2 with h | ⟨sign, i, fr, e, ht, hs, hi, -⟩
  · simp only [List.mem_cons, List.not_mem_nil, or_false] at h
    rcases h with h | h | h <;> rw [h]
    · exact ⟨'N', "aN".toList, rfl, by decide⟩
    · exact ⟨'I', "nfinity".toList, rfl, by decide⟩
    · exact ⟨'-', "Infinity".toList, rfl, by decide⟩
  · rw [ht, List.append_assoc]
    exact number_first hs hi

theorem dumps_first {fl : Floats F} (hfl : FloatsOk fl) {v : Val F} {t : Text} (h : dumps fl v = some t) :
    ∃ c s, t = c :: s ∧ white c = false ∧ c ≠ ']' := by
  cases v with
  | none => rw [dumps] at h; cases h; exact ⟨'n', "ull".toList, rfl, by decide⟩
  | bool b => cases b <;> (rw [dumps] at h; cases h)
              · exact ⟨'f', "alse".toList, rfl, by decide⟩
              · exact ⟨'t', "rue".toList, rfl, by decide⟩
  | int i =>
    rw [dumps] at h; cases h
    obtain ⟨c, s, h1, h2, h3, -⟩ := int_first i
    exact ⟨c, s, h1, h2, h3⟩
  | float f =>
    rw [dumps] at h; cases h
    obtain ⟨c, s, h1, h2, h3, -⟩ := float_first hfl f
    exact ⟨c, s, h1, h2, h3⟩
  | str s => rw [dumps] at h; cases h; exact ⟨'"', _, rfl, by decide⟩
  | list xs =>
    rw [dumps] at h
    obtain ⟨ts, -, rfl⟩ := Option.map_eq_some_iff.1 h
    exact ⟨'[', _, rfl, by decide⟩
  | tuple xs =>
    rw [dumps] at h
    obtain ⟨ts, -, rfl⟩ := Option.map_eq_some_iff.1 h
    exact ⟨'[', _, rfl, by decide⟩
  | dict ps =>
    rw [dumps] at h
    obtain ⟨ts, -, rfl⟩ := Option.map_eq_some_iff.1 h
    exact ⟨'{', _, rfl, by decide⟩
  | other => rw [dumps] at h; cases h

theorem items_cons {fl : Floats F} {x : Val F} {xs : List (Val F)} {ts : List Text}
    (h : dumpsItems fl (x :: xs) = some ts) :
    ∃ t us, dumps fl x = some t ∧ dumpsItems fl xs = some us ∧ ts = t :: us := by
  rw [dumpsItems] at h
  simp only [Option.bind_eq_bind, Option.bind_eq_some_iff, Option.pure_def, Option.some.injEq] at h
  obtain ⟨t, h1, us, h2, rfl⟩ := h
  exact ⟨t, us, h1, h2, rfl⟩

theorem members_cons {fl : Floats F} {k : Key F} {x : Val F} {ps : List (Key F × Val F)} {ts : List Text}
    (h : dumpsMembers fl ((k, x) :: ps) = some ts) :
    ∃ kt t us, keyText fl k = some kt ∧ dumps fl x = some t ∧ dumpsMembers fl ps = some us ∧
      ts = (quoted kt ++ ':' :: ' ' :: t) :: us := by
  rw [dumpsMembers] at h
  simp only [Option.bind_eq_bind, Option.bind_eq_some_iff, Option.pure_def, Option.some.injEq] at h
  obtain ⟨kt, h0, t, h1, us, h2, rfl⟩ := h
  exact ⟨kt, t, us, h0, h1, h2, rfl⟩

theorem commas_first {fl : Floats F} (hfl : FloatsOk fl) {x : Val F} {xs : List (Val F)} {ts : List Text}
    (h : dumpsItems fl (x :: xs) = some ts) :
    ∃ c s, commas ts = c :: s ∧ white c = false ∧ c ≠ ']' := by
  obtain ⟨t, us, h1, -, rfl⟩ := items_cons h
  obtain ⟨c, s, rfl, hw, hb⟩ := dumps_first hfl h1
  cases us with
  | nil => exact ⟨c, s, rfl, hw, hb⟩
  | cons u us => exact ⟨c, _, rfl, hw, hb⟩

theorem commas_firstMember {fl : Floats F} {p : Key F × Val F} {ps : List (Key F × Val F)} {ts : List Text}
    (h : dumpsMembers fl (p :: ps) = some ts) : ∃ s, commas ts = '"' :: s := by
  obtain ⟨k, x⟩ := p
  obtain ⟨kt, t, us, -, -, -, rfl⟩ := members_cons h
  cases us with
  | nil => exact ⟨_, rfl⟩
  | cons u us => exact ⟨_, rfl⟩

theorem scan_plain (fl : Floats F) {n : ℕ} {t rest : Text} {c : Char} {s : Text} (ht : t = c :: s) (hn : t.length < n)
    (h : c ≠ '"' ∧ c ≠ '{' ∧ c ≠ '[') : scan fl n (t ++ rest) = scanPlain fl (t ++ rest) := by
  obtain ⟨n, rfl⟩ : ∃ m, n = m + 1 := ⟨n - 1, by omega⟩
  subst ht
  rw [List.cons_append, scan, if_neg h.1, if_neg h.2.1, if_neg h.2.2]

theorem scanPlain_word (fl : Floats F) (rest : Text) :
    scanPlain fl ("null".toList ++ rest) = some (.none, rest) ∧
    scanPlain fl ("true".toList ++ rest) = some (.bool true, rest) ∧
    scanPlain fl ("false".toList ++ rest) = some (.bool false, rest) := by
  refine ⟨?_, ?_, ?_⟩
  · unfold scanPlain
    rw [if_pos (List.prefix_append _ _)]; rfl
  · have hh : ("true".toList ++ rest).head? = some 't' := rfl
    unfold scanPlain
    rw [if_neg (not_prefix_of_head (c := 'n') (by decide) hh (by decide)), if_pos (List.prefix_append _ _)]; rfl
  · have hh : ("false".toList ++ rest).head? = some 'f' := rfl
    unfold scanPlain
    rw [if_neg (not_prefix_of_head (c := 'n') (by decide) hh (by decide)),
      if_neg (not_prefix_of_head (c := 't') (by decide) hh (by decide)), if_pos (List.prefix_append _ _)]; rfl

mutual
theorem scan_dumps {fl : Floats F} (hfl : FloatsOk fl) (v : Val F) {t : Text} {n : ℕ} {rest : Text}
    (h : dumps fl v = some t) (hn : t.length < n) (hr : Delim rest) :
    scan fl n (t ++ rest) = some (returned fl v, rest) := by
  match v, h with
  | .none, h =>
    rw [dumps] at h; cases h
    rw [scan_plain fl (t := "null".toList) (c := 'n') (s := "ull".toList) rfl hn (by decide), (scanPlain_word fl rest).1, returned]
    all_goals simp
  | .bool true, h =>
    rw [dumps] at h; cases h
    rw [scan_plain fl (t := "true".toList) (c := 't') (s := "rue".toList) rfl hn (by decide), (scanPlain_word fl rest).2.1, returned]
    all_goals simp
  | .bool false, h =>
    rw [dumps] at h; cases h
    rw [scan_plain fl (t := "false".toList) (c := 'f') (s := "alse".toList) rfl hn (by decide), (scanPlain_word fl rest).2.2, returned]
    all_goals simp
  | .int i, h =>
    rw [dumps] at h; cases h
    obtain ⟨c, s, h1, -, -, h4⟩ := int_first i
    rw [scan_plain fl h1 hn h4, scanPlain_int fl i hr, returned]
    all_goals simp
  | .float f, h =>
    rw [dumps] at h; cases h
    obtain ⟨c, s, h1, -, -, h4⟩ := float_first hfl f
    rw [scan_plain fl h1 hn h4, scanPlain_float hfl f hr, returned]
    all_goals simp
  | .str s, h =>
    rw [dumps] at h; cases h
    obtain ⟨n, rfl⟩ : ∃ m, n = m + 1 := ⟨n - 1, by omega⟩
    have := quoted_length s
    unfold quoted
    simp only [List.cons_append, List.append_assoc, List.nil_append]
    rw [scan, if_pos rfl, scanString_text (by omega), returned]
    all_goals simp
  | .list xs, h =>
    rw [dumps] at h
    obtain ⟨ts, h1, rfl⟩ := Option.map_eq_some_iff.1 h
    rw [returned]
    exact scan_list hfl xs h1 hn
  | .tuple xs, h =>
    rw [dumps] at h
    obtain ⟨ts, h1, rfl⟩ := Option.map_eq_some_iff.1 h
    rw [returned]
    exact scan_list hfl xs h1 hn
  | .dict [], h =>
    rw [dumps] at h
    obtain ⟨ts, h1, rfl⟩ := Option.map_eq_some_iff.1 h
    obtain ⟨n, rfl⟩ : ∃ m, n = m + 1 := ⟨n - 1, by omega⟩
    rw [List.cons_append, List.cons_append, scan, if_neg (by decide), if_pos rfl, returned]
    rw [dumpsMembers] at h1; cases h1
    rw [if_pos (by rfl), returnedMembers]
    rfl
  | .dict ((k, x) :: ps), h =>
    rw [dumps] at h
    obtain ⟨ts, h1, rfl⟩ := Option.map_eq_some_iff.1 h
    obtain ⟨n, rfl⟩ : ∃ m, n = m + 1 := ⟨n - 1, by omega⟩
    rw [List.cons_append, List.cons_append, scan, if_neg (by decide), if_pos rfl, returned]
    obtain ⟨s, hc⟩ := commas_firstMember h1
    rw [hc, List.append_assoc, List.cons_append, skip_cons (by decide), if_neg (by simp)]
    rw [← List.cons_append, ← hc]
    rw [List.singleton_append, scanMembers_dumps hfl k x ps h1 (by simp at hn; omega), ← fromPairs_eq]
    rfl
  | .other, h => rw [dumps] at h; cases h
termination_by (sizeOf v, 1)
theorem scan_list {fl : Floats F} (hfl : FloatsOk fl) (xs : List (Val F)) {ts : List Text} {n : ℕ} {rest : Text}
    (h1 : dumpsItems fl xs = some ts) (hn : ('[' :: commas ts ++ [']']).length < n) :
    scan fl n ('[' :: commas ts ++ [']'] ++ rest) = some (.list (returnedItems fl xs), rest) := by
  obtain ⟨n, rfl⟩ : ∃ m, n = m + 1 := ⟨n - 1, by omega⟩
  rw [List.cons_append, List.cons_append, scan, if_neg (by decide), if_neg (by decide), if_pos rfl]
  match xs, h1 with
  | [], h1 =>
    rw [dumpsItems] at h1; cases h1
    rw [if_pos (by rfl), returnedItems]
    rfl
  | x :: xs, h1 =>
    obtain ⟨c, s, hc, hw, hb⟩ := commas_first hfl h1
    rw [hc, List.append_assoc, List.cons_append, skip_cons hw, if_neg (by simpa using hb)]
    rw [← List.cons_append, ← hc]
    rw [List.singleton_append, scanItems_dumps hfl x xs h1 (by simp at hn; omega)]
    rfl
termination_by (sizeOf xs, 1)
theorem scanItems_dumps {fl : Floats F} (hfl : FloatsOk fl) (x : Val F) (xs : List (Val F)) {ts : List Text} {n : ℕ}
    {rest : Text} (h : dumpsItems fl (x :: xs) = some ts) (hn : (commas ts).length + 1 < n) :
    scanItems fl n (commas ts ++ ']' :: rest) = some (returnedItems fl (x :: xs), rest) := by
  obtain ⟨n, rfl⟩ : ∃ m, n = m + 1 := ⟨n - 1, by omega⟩
  obtain ⟨t, us, h1, h2, rfl⟩ := items_cons h
  rw [scanItems, returnedItems]
  rcases hxs : xs with _ | ⟨y, ys⟩ <;> rw [hxs] at h2
  · rw [dumpsItems] at h2; cases h2
    simp only [commas] at hn ⊢
    rw [scan_dumps hfl x h1 (by omega) (by intro c hc; simp at hc; simp [← hc])]
    simp only [Option.bind_eq_bind, Option.bind_some]
    rw [skip_cons (by decide), if_pos (by rfl)]
    simp [returnedItems]
  · have hsz : sizeOf xs = 1 + sizeOf y + sizeOf ys := by rw [hxs]; simp
    obtain ⟨u, us', -, -, rfl⟩ := items_cons h2
    obtain ⟨c, s, hc, hw, hb⟩ := commas_first hfl h2
    simp only [commas, List.length_append, List.length_cons, List.append_assoc, List.cons_append] at hn ⊢
    rw [scan_dumps hfl x h1 (by omega) (by intro c hc; simp at hc; simp [← hc])]
    simp only [Option.bind_eq_bind, Option.bind_some]
    rw [skip_cons (by decide), if_neg (by simp), if_pos (by rfl)]
    have e : skip (List.tail (',' :: ' ' :: (commas (u :: us') ++ ']' :: rest))) = commas (u :: us') ++ ']' :: rest := by
      rw [List.tail_cons, hc]
      show skip (c :: (s ++ ']' :: rest)) = _
      rw [skip_cons hw]; rfl
    rw [e, scanItems_dumps hfl y ys h2 (by omega)]
    rfl
termination_by (sizeOf (x :: xs), 0)
theorem scanMembers_dumps {fl : Floats F} (hfl : FloatsOk fl) (k : Key F) (x : Val F) (ps : List (Key F × Val F))
    {ts : List Text} {n : ℕ} {rest : Text} (h : dumpsMembers fl ((k, x) :: ps) = some ts)
    (hn : (commas ts).length + 1 < n) :
    scanMembers fl n (commas ts ++ '}' :: rest) = some (returnedMembers fl ((k, x) :: ps), rest) := by
  obtain ⟨n, rfl⟩ : ∃ m, n = m + 1 := ⟨n - 1, by omega⟩
  obtain ⟨kt, t, us, h0, h1, h2, rfl⟩ := members_cons h
  obtain ⟨c0, s0, ht0, hw0, -⟩ := dumps_first hfl h1
  have hq := quoted_length kt
  rw [scanMembers, returnedMembers, keyText_eq h0]
  have key : ∀ r : Text, (quoted kt ++ ':' :: ' ' :: t ++ r).head? = some '"' ∧
      scanString n (quoted kt ++ ':' :: ' ' :: t ++ r).tail = (scanString n (kt.flatMap escapeChar ++ '"' :: (':' :: ' ' :: (t ++ r)))) := by
    intro r
    refine ⟨rfl, ?_⟩
    simp [quoted]
  have sk : ∀ r : Text, skip (List.tail (':' :: ' ' :: (t ++ r))) = t ++ r := by
    intro r
    rw [List.tail_cons, ht0]
    show skip (c0 :: (s0 ++ r)) = _
    rw [skip_cons hw0]; rfl
  rcases hps : ps with _ | ⟨⟨k', x'⟩, qs⟩ <;> rw [hps] at h2
  · rw [dumpsMembers] at h2; cases h2
    simp only [commas, List.length_append, List.length_cons] at hn
    simp only [commas]
    rw [if_pos (key _).1, (key _).2, scanString_text (by omega)]
    simp only [Option.bind_eq_bind, Option.bind_some]
    rw [skip_cons (c := ':') (by decide), if_pos (by rfl), sk,
      scan_dumps hfl x h1 (by omega) (by intro c hc; simp at hc; simp [← hc])]
    simp only [Option.bind_some]
    rw [skip_cons (by decide), if_pos (by rfl)]
    simp [returnedMembers]
  · have hsz : sizeOf ps = 1 + (1 + sizeOf k' + sizeOf x') + sizeOf qs := by rw [hps]; simp
    obtain ⟨s, hc⟩ := commas_firstMember h2
    obtain ⟨u, us', rfl⟩ : ∃ u us', us = u :: us' := by
      cases us with
      | nil => simp [commas] at hc
      | cons u us' => exact ⟨u, us', rfl⟩
    simp only [commas, List.length_append, List.length_cons] at hn
    have e0 : commas ((quoted kt ++ ':' :: ' ' :: t) :: u :: us') ++ '}' :: rest =
        quoted kt ++ ':' :: ' ' :: t ++ (',' :: ' ' :: (commas (u :: us') ++ '}' :: rest)) := by
      simp [commas]
    rw [e0, if_pos (key _).1, (key _).2, scanString_text (by omega)]
    simp only [Option.bind_eq_bind, Option.bind_some]
    rw [skip_cons (c := ':') (by decide), if_pos (by rfl), sk,
      scan_dumps hfl x h1 (by omega) (by intro c hc; simp at hc; simp [← hc])]
    simp only [Option.bind_some]
    rw [skip_cons (by decide), if_neg (by simp), if_pos (by rfl)]
    have e : skip (List.tail (',' :: ' ' :: (commas (u :: us') ++ '}' :: rest))) = commas (u :: us') ++ '}' :: rest := by
      rw [List.tail_cons, hc]
      show skip ('"' :: (s ++ '}' :: rest)) = _
      rw [skip_cons (by decide)]; rfl
    rw [e, scanMembers_dumps hfl k' x' qs h2 (by omega)]
    rfl
termination_by (sizeOf ((k, x) :: ps), 0)
end

/-- What is written is read. -/
theorem loads_dumps {fl : Floats F} (hfl : FloatsOk fl) {v : Val F} {t : Text} (h : dumps fl v = some t) :
    loads fl t = some (returned fl v) := by
  obtain ⟨c, s, hc, hw, -⟩ := dumps_first hfl h
  have h1 := scan_dumps hfl v (n := t.length + 1) (rest := []) h (by omega) (by intro c hc; simp at hc)
  unfold loads
  have e : skip t = t ++ [] := by rw [hc, skip_cons hw]; simp
  rw [e, h1]
  rfl

end Verif.Json
