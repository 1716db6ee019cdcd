import Verif.Model.Version
import Verif.Spec.Version
import Verif.Props.ScpPut

/-!
# Version numbers (C155-C157)
-/

namespace Verif.Props
open Verif.Version Verif.Spec
open Verif.Fs (Text)

/-! ### Texts -/

theorem dec_digits (n : ℕ) : dec n = digits n := (digits_nat n).symm

theorem number_dec (n : ℕ) : number (dec n) = n := valueOf_toDigits n

theorem dec_digit {n : ℕ} {c : Char} (h : c ∈ dec n) : c.isDigit = true :=
  Nat.isDigit_of_mem_toDigits (by norm_num) (by norm_num) h

theorem dec_ne_nil (n : ℕ) : dec n ≠ [] := Nat.toDigits_ne_nil

theorem dec_inj {m n : ℕ} (h : dec m = dec n) : m = n := by
  rw [← number_dec m, h, number_dec]

theorem cutLast_append {c : Char} (a : Text) {b : Text} (h : c ∉ b) : cutLast c (a ++ c :: b) = some (a, b) := by
  unfold cutLast
  have hb : ∀ x ∈ b.reverse, decide (x ≠ c) = true := by
    intro x hx
    simp only [List.mem_reverse] at hx
    simp only [ne_eq, decide_not, Bool.not_eq_true', decide_eq_false_iff_not]
    rintro rfl
    exact h hx
  have e : (a ++ c :: b).reverse = b.reverse ++ c :: a.reverse := by simp
  rw [e, List.dropWhile_append_of_pos hb, List.takeWhile_append_of_pos hb]
  simp

theorem cutLast_some {c : Char} {s a b : Text} (h : cutLast c s = some (a, b)) : s = a ++ c :: b ∧ c ∉ b := by
  unfold cutLast at h
  cases hd : s.reverse.dropWhile (fun x => decide (x ≠ c)) with
  | nil => rw [hd] at h; simp at h
  | cons x r =>
    rw [hd] at h
    simp only [Option.some.injEq, Prod.mk.injEq] at h
    have hx : x = c := by
      have := List.head_dropWhile_not (fun x => decide (x ≠ c)) (l := s.reverse) (by rw [hd]; simp)
      simp only [hd, List.head_cons] at this
      simpa using this
    have e := List.takeWhile_append_dropWhile (p := fun x => decide (x ≠ c)) (l := s.reverse)
    rw [hd, hx] at e
    have e2 := congrArg List.reverse e
    simp only [List.reverse_append, List.reverse_cons, List.append_assoc, List.reverse_reverse] at e2
    rw [h.1, h.2] at e2
    refine ⟨by rw [← e2]; simp, ?_⟩
    rw [← h.2]
    intro hm
    rw [List.mem_reverse] at hm
    have := List.mem_takeWhile_imp hm
    simp at this

/-- The pattern of the code matches exactly the texts `TAG-NUM-gHEX`, and gives back the three parts whatever hyphens there
are in the tag. -/
theorem describeMatch_parts {tag num hex : Text} (ht : tag ≠ []) (hn : '\n' ∉ tag) (h1 : num ≠ []) (h2 : ∀ c ∈ num, c.isDigit = true)
    (h3 : hex ≠ []) (h4 : ∀ c ∈ hex, isHex c = true) :
    describeMatch (tag ++ ['-'] ++ num ++ "-g".toList ++ hex) = some (tag, num, hex) := by
  have hx : ∀ c : Char, isHex c = true → c ≠ '-' ∧ c ≠ '\n' := by
    intro c hc
    refine ⟨?_, ?_⟩ <;> (rintro rfl; revert hc; decide)
  have hl : (tag ++ ['-'] ++ num ++ "-g".toList ++ hex).getLast? ≠ some '\n' := by
    rw [List.getLast?_append]
    obtain ⟨l, x, rfl⟩ := List.eq_nil_or_concat hex |>.resolve_left h3
    simp only [List.concat_eq_append, List.getLast?_append, List.getLast?_singleton, Option.some_or, ne_eq, Option.some.injEq]
    exact (hx x (h4 x (by simp))).2
  unfold describeMatch
  rw [if_neg hl]
  have e : tag ++ ['-'] ++ num ++ "-g".toList ++ hex = (tag ++ '-' :: num) ++ '-' :: ('g' :: hex) := by simp
  rw [e, cutLast_append (tag ++ '-' :: num)]
  · simp only
    rw [cutLast_append]
    · simp only
      rw [if_pos]
      exact ⟨ht, hn, h1, by simpa using h2, h3, by simpa using h4⟩
    · intro hm
      have := h2 _ hm
      revert this; decide
  · simp only [List.mem_cons, not_or]
    exact ⟨by decide, fun hm => (hx _ (h4 _ hm)).1 rfl⟩

theorem describeMatch_some {s tag num hex : Text} (h : describeMatch s = some (tag, num, hex)) :
    (s = tag ++ ['-'] ++ num ++ "-g".toList ++ hex ∨ s = tag ++ ['-'] ++ num ++ "-g".toList ++ hex ++ ['\n']) ∧
      tag ≠ [] ∧ num ≠ [] ∧ (∀ c ∈ num, c.isDigit = true) ∧ hex ≠ [] ∧ (∀ c ∈ hex, isHex c = true) := by
  unfold describeMatch at h
  generalize hs : (if s.getLast? = some '\n' then s.dropLast else s) = s' at h
  cases hc : cutLast '-' s' with
  | none => rw [hc] at h; simp at h
  | some ab =>
    obtain ⟨a, b⟩ := ab
    rw [hc] at h
    obtain ⟨e1, -⟩ := cutLast_some hc
    cases b with
    | nil => simp at h
    | cons g b =>
      by_cases hg : g = 'g'
      · subst hg
        simp only at h
        cases hc2 : cutLast '-' a with
        | none => rw [hc2] at h; simp at h
        | some tn =>
          obtain ⟨t, n⟩ := tn
          rw [hc2] at h
          obtain ⟨e2, -⟩ := cutLast_some hc2
          simp only at h
          split at h
          · rename_i hcond
            simp only [Option.some.injEq, Prod.mk.injEq] at h
            obtain ⟨rfl, rfl, rfl⟩ := h
            obtain ⟨c1, -, c3, c4, c5, c6⟩ := hcond
            refine ⟨?_, c1, c3, by simpa using c4, c5, by simpa using c6⟩
            by_cases hl : s.getLast? = some '\n'
            · right
              rw [if_pos hl] at hs
              rw [← List.dropLast_append_getLast? _ hl, hs, e1, e2]
              simp
            · left
              rw [if_neg hl] at hs
              rw [hs, e1, e2]; simp
          · simp at h
      · simp [hg] at h

theorem strip_id {s : Text} (h1 : ∀ c, s.head? = some c → Factory.isSpace c = false)
    (h2 : ∀ c, s.getLast? = some c → Factory.isSpace c = false) : Factory.strip s = s := by
  unfold Factory.strip Factory.lstrip
  have e1 : s.dropWhile Factory.isSpace = s := by
    cases s with
    | nil => rfl
    | cons a t => simp [h1 a rfl]
  rw [e1]
  have e2 : s.reverse.dropWhile Factory.isSpace = s.reverse := by
    rcases List.eq_nil_or_concat s with rfl | ⟨l, x, rfl⟩
    · rfl
    · simp only [List.concat_eq_append, List.reverse_append, List.reverse_cons, List.reverse_nil, List.nil_append, List.singleton_append]
      simp [h2 x (by simp)]
  rw [e2, List.reverse_reverse]

theorem strip_line {s : Text} (h0 : s ≠ []) (h1 : ∀ c, s.head? = some c → Factory.isSpace c = false)
    (h2 : ∀ c, s.getLast? = some c → Factory.isSpace c = false) : Factory.strip (s ++ ['\n']) = s := by
  have h3 : Factory.strip (s ++ ['\n']) = Factory.strip s := by
    unfold Factory.strip Factory.lstrip
    congr 1
    have e1 : s.dropWhile Factory.isSpace = s := by
      cases s with
      | nil => rfl
      | cons a t => simp [h1 a rfl]
    have e2 : (s ++ ['\n']).dropWhile Factory.isSpace = s ++ ['\n'] := by
      cases s with
      | nil => exact absurd rfl h0
      | cons a t => simp [h1 a rfl]
    rw [e1, e2]
    simp only [List.reverse_append, List.reverse_cons, List.reverse_nil, List.nil_append, List.singleton_append]
    rw [List.dropWhile_cons_of_pos (by decide)]
  rw [h3, strip_id h1 h2]

/-! ### The pieces -/

theorem hex_isHex {h : Text} (hh : HexName h) : ∀ c ∈ h, isHex c = true := by
  intro c hc
  have := hh.2 c hc
  revert this
  simp only [String.toList]
  intro h
  fin_cases h <;> decide

theorem isHex_mem {c : Char} (h : isHex c = true) : c ∈ "0123456789abcdef".toList := by
  have hn : (48 ≤ c.toNat ∧ c.toNat ≤ 57) ∨ (97 ≤ c.toNat ∧ c.toNat ≤ 102) := by
    simp only [isHex, Char.isDigit, Bool.or_eq_true, Bool.and_eq_true, decide_eq_true_eq] at h
    exact h
  have hc : c = Char.ofNat c.toNat := (Char.ofNat_toNat c).symm
  generalize c.toNat = n at hn hc
  subst hc
  have : n ∈ (List.range 10).map (· + 48) ++ (List.range 6).map (· + 97) := by
    simp only [List.mem_append, List.mem_map, List.mem_range]
    rcases hn with h | h
    · exact Or.inl ⟨n - 48, by omega, by omega⟩
    · exact Or.inr ⟨n - 97, by omega, by omega⟩
  have all : ∀ n ∈ (List.range 10).map (· + 48) ++ (List.range 6).map (· + 97), Char.ofNat n ∈ "0123456789abcdef".toList := by decide
  exact all n this

theorem hex_space {c : Char} (h : isHex c = true) : Factory.isSpace c = false := by
  have : c.toNat < 103 ∧ 48 ≤ c.toNat := by
    simp only [isHex, Char.isDigit, Bool.or_eq_true, Bool.and_eq_true, decide_eq_true_eq, Char.le_def, UInt32.le_iff_toNat_le] at h
    have e : c.toNat = c.val.toNat := rfl
    rw [e]
    have e1 : ('a' : Char).val.toNat = 97 := rfl
    have e2 : ('f' : Char).val.toNat = 102 := rfl
    rcases h with ⟨h1, h2⟩ | ⟨h1, h2⟩
    · have h1 : (48 : ℕ) ≤ c.val.toNat := h1
      have h2 : c.val.toNat ≤ 57 := h2
      omega
    · omega
  simp only [Factory.isSpace, Bool.or_eq_false_iff, Bool.and_eq_false_iff, decide_eq_false_iff_not]
  have : c ≠ ' ' := by rintro rfl; revert h; decide
  refine ⟨⟨⟨⟨this, ?_⟩, ?_⟩, ?_⟩, ?_⟩ <;> omega

theorem digit_isHex {c : Char} (h : c.isDigit = true) : isHex c = true := by simp [isHex, h]

theorem tag_space {c : Char} (h : 32 < c.toNat ∧ c.toNat ≠ 127 ∧ c.toNat ≠ 133 ∧ c.toNat ≠ 160) : Factory.isSpace c = false := by
  simp only [Factory.isSpace, Bool.or_eq_false_iff, Bool.and_eq_false_iff, decide_eq_false_iff_not]
  have : c ≠ ' ' := by
    rintro rfl
    revert h; decide
  refine ⟨⟨⟨⟨this, ?_⟩, ?_⟩, ?_⟩, ?_⟩ <;> omega

theorem run_git {sh : Shell} {args : List Text} {out : Text} (h : sh "git".toList args = .ran out 0) :
    runCommand sh args ["git".toList] = (some (Factory.strip out), some 0) := by
  simp only [runCommand, h]
  rfl

/-- The line without `-dirty`. -/
def Checkout.body (c : Checkout) : Text :=
  match c.tag with
  | some t => t ++ ['-'] ++ digits c.distance ++ "-g".toList ++ c.hex
  | none => c.hex

theorem body_last {c : Checkout} (hc : c.Sound) : ∃ l x, Checkout.body c = l ++ [x] ∧ isHex x = true := by
  obtain ⟨l, x, hx⟩ := List.eq_nil_or_concat c.hex |>.resolve_left hc.hex.1
  rw [List.concat_eq_append] at hx
  have : isHex x = true := hex_isHex hc.hex x (by rw [hx]; simp)
  unfold Checkout.body
  cases c.tag with
  | none => exact ⟨l, x, hx, this⟩
  | some t => exact ⟨t ++ ['-'] ++ digits c.distance ++ "-g".toList ++ l, x, by simp [hx], this⟩

theorem body_head {c : Checkout} (hc : c.Sound) : ∀ x, (Checkout.body c).head? = some x → Factory.isSpace x = false := by
  intro x hx
  unfold Checkout.body at hx
  cases ht : c.tag with
  | none =>
    rw [ht] at hx
    exact hex_space (hex_isHex hc.hex x (List.mem_of_mem_head? hx))
  | some t =>
    rw [ht] at hx
    obtain ⟨h0, h1⟩ := hc.tag t ht
    cases t with
    | nil => exact absurd rfl h0
    | cons a t =>
      simp only [List.cons_append, List.head?_cons, Option.some.injEq] at hx
      subst hx
      exact tag_space (h1 a (by simp))

theorem describeLong_eq (c : Checkout) : c.describeLong = Checkout.body c ++ (if c.dirty then "-dirty".toList else []) := rfl

theorem body_not_dirty {c : Checkout} (hc : c.Sound) : ¬ "-dirty".toList <:+ Checkout.body c := by
  obtain ⟨l, x, e, hx⟩ := body_last hc
  rw [e]
  rintro ⟨t, ht⟩
  have := congrArg List.getLast? ht
  simp at this
  rw [← this] at hx
  revert hx; decide

theorem dirty_line {c : Checkout} (hc : c.Sound) :
    decide ("-dirty".toList <:+ c.describeLong) = c.dirty ∧ withoutDirty c.describeLong = Checkout.body c := by
  rw [describeLong_eq]
  unfold withoutDirty
  cases c.dirty with
  | true =>
    have h : "-dirty".toList <:+ Checkout.body c ++ "-dirty".toList := List.suffix_append _ _
    simp only [if_true]
    refine ⟨by simp, ?_⟩
    rw [if_pos h]
    simp
  | false =>
    simp only [Bool.false_eq_true, if_false, List.append_nil]
    have h := body_not_dirty hc
    exact ⟨by simpa using h, by rw [if_neg h]⟩

theorem strip_describe {c : Checkout} (hc : c.Sound) :
    Factory.strip (c.describeLong ++ ['\n']) = c.describeLong ∧ Factory.strip c.describeLong = c.describeLong := by
  obtain ⟨l, x, e, hx⟩ := body_last hc
  have h0 : c.describeLong ≠ [] := by rw [describeLong_eq, e]; simp
  have h1 : ∀ y, c.describeLong.head? = some y → Factory.isSpace y = false := by
    intro y hy
    refine body_head hc y ?_
    rw [describeLong_eq, List.head?_append] at hy
    rw [e] at hy ⊢
    cases l <;> simpa using hy
  have h2 : ∀ y, c.describeLong.getLast? = some y → Factory.isSpace y = false := by
    intro y hy
    rw [describeLong_eq, e] at hy
    rw [List.getLast?_append] at hy
    cases hcd : c.dirty with
    | true =>
      simp only [hcd, if_true] at hy
      have : y = 'y' := by simpa using hy.symm
      subst this; decide
    | false =>
      rw [hcd] at hy
      have : x = y := by simpa using hy
      subst this; exact hex_space hx
  exact ⟨strip_line h0 h1 h2, strip_id h1 h2⟩

theorem strip_hex {h : Text} (hh : HexName h) : Factory.strip (h ++ ['\n']) = h ∧ Factory.strip h = h := by
  have h1 : ∀ y, h.head? = some y → Factory.isSpace y = false := fun y hy => hex_space (hex_isHex hh y (List.mem_of_mem_head? hy))
  have h2 : ∀ y, h.getLast? = some y → Factory.isSpace y = false := fun y hy => hex_space (hex_isHex hh y (List.mem_of_getLast? hy))
  exact ⟨strip_line hh.1 h1 h2, strip_id h1 h2⟩

theorem strip_dec (n : ℕ) : Factory.strip (dec n ++ ['\n']) = dec n ∧ Factory.strip (dec n) = dec n := by
  have h1 : ∀ y, (dec n).head? = some y → Factory.isSpace y = false :=
    fun y hy => hex_space (digit_isHex (dec_digit (List.mem_of_mem_head? hy)))
  have h2 : ∀ y, (dec n).getLast? = some y → Factory.isSpace y = false :=
    fun y hy => hex_space (digit_isHex (dec_digit (List.mem_of_getLast? hy)))
  exact ⟨strip_line (dec_ne_nil n) h1 h2, strip_id h1 h2⟩

theorem replaceFirst_append {o : Char} {a : Text} (n b : Text) (h : o ∉ a) : replaceFirst o n (a ++ o :: b) = a ++ (n ++ b) := by
  induction a with
  | nil => simp [replaceFirst]
  | cons x a ih =>
    simp only [List.mem_cons, not_or] at h
    simp only [List.cons_append, replaceFirst, if_neg (Ne.symm h.1), ih h.2]

/-- A date as git prints it, as the code edits it. -/
theorem date_parts {day time zone : Text} (h0 : day ≠ []) (h1 : ∀ x ∈ day, x ∈ "0123456789-".toList)
    (h2 : ∀ x ∈ time, x ∈ "0123456789:".toList) (h3 : zone ≠ []) (h4 : ∀ x ∈ zone, x ∈ "0123456789+-".toList) :
    Factory.strip (day ++ [' '] ++ time ++ [' '] ++ zone ++ ['\n']) = day ++ [' '] ++ time ++ [' '] ++ zone ∧
    Factory.strip (day ++ [' '] ++ time ++ [' '] ++ zone) = day ++ [' '] ++ time ++ [' '] ++ zone ∧
    isoDate (day ++ [' '] ++ time ++ [' '] ++ zone) = day ++ ['T'] ++ time ++ zone := by
  have nd : ∀ x : Char, x ∈ "0123456789-".toList → Factory.isSpace x = false := by decide
  have nz : ∀ x : Char, x ∈ "0123456789+-".toList → Factory.isSpace x = false := by decide
  have nt : ∀ x : Char, x ∈ "0123456789:".toList → Factory.isSpace x = false := by decide
  have g1 : ∀ y, (day ++ [' '] ++ time ++ [' '] ++ zone).head? = some y → Factory.isSpace y = false := by
    intro y hy
    cases hd : day with
    | nil => exact absurd hd h0
    | cons a t =>
      rw [hd] at hy
      simp only [List.cons_append, List.head?_cons, Option.some.injEq] at hy
      subst hy
      exact nd _ (h1 _ (by rw [hd]; simp))
  have g2 : ∀ y, (day ++ [' '] ++ time ++ [' '] ++ zone).getLast? = some y → Factory.isSpace y = false := by
    intro y hy
    obtain ⟨l, x, hx⟩ := List.eq_nil_or_concat zone |>.resolve_left h3
    rw [List.getLast?_append, hx] at hy
    have : x = y := by simpa using hy
    subst this
    exact nz _ (h4 _ (by rw [hx]; simp))
  have e1 := strip_line (by simp) g1 g2
  have e2 := strip_id g1 g2
  refine ⟨e1, e2, ?_⟩
  unfold isoDate
  rw [e2]
  have b1 : ' ' ∉ day := fun h => by have := nd _ (h1 _ h); revert this; decide
  have b2 : ' ' ∉ time := fun h => by have := nt _ (h2 _ h); revert this; decide
  have b3 : ' ' ∉ day ++ 'T' :: time := by simp [b1, b2]
  have e3 : day ++ [' '] ++ time ++ [' '] ++ zone = day ++ ' ' :: (time ++ ' ' :: zone) := by simp
  rw [e3, replaceFirst_append _ _ b1]
  have e4 : day ++ (['T'] ++ (time ++ ' ' :: zone)) = (day ++ 'T' :: time) ++ ' ' :: zone := by simp
  rw [e4, replaceFirst_append _ _ b3]
  simp

theorem date_line {c : Checkout} (hc : c.Sound) :
    isoDate (Factory.strip (Factory.strip (c.day ++ [' '] ++ c.time ++ [' '] ++ c.zone ++ ['\n']))) =
      c.day ++ ['T'] ++ c.time ++ c.zone := by
  obtain ⟨e1, e2, e3⟩ := date_parts hc.day.1 hc.day.2 hc.time.2 hc.zone.1 hc.zone.2
  rw [e1, e2, e3]

/-- **C155, the pieces.** In every checkout, whatever the name of the nearest tag, the code finds the tag without the prefix,
the distance, the abbreviated and the full name of the commit, whether there are changes, and the date. Without a tag the short
name is made of the first seven digits. -/
theorem C155_pieces (sh : Shell) (pre : Text) (c : Checkout) (hc : c.Sound) (ha : Answers sh pre c)
    (hp : ∀ t, c.tag = some t → pre <+: t) :
    gitPieces sh ["git".toList] pre = .ok
      { long := c.full, short := if c.tag.isSome then c.hex else c.full.take 7, error := none, dirty := c.dirty,
        tag := c.tag.map (·.drop pre.length), distance := c.distance, date := some (c.day ++ ['T'] ++ c.time ++ c.zone) } := by
  obtain ⟨d, hd⟩ := ha.gitDir
  have g1 : (runCommand sh argsGitDir ["git".toList]).2 = some 0 := by rw [argsGitDir, run_git hd]
  have g2 : (runCommand sh (argsDescribe pre) ["git".toList]).1 = some c.describeLong := by
    rw [argsDescribe, run_git ha.describe, (strip_describe hc).1]
  have g3 : (runCommand sh argsHead ["git".toList]).1 = some c.full := by
    rw [argsHead, run_git ha.head, (strip_hex hc.full).1]
  have g4 : commitDate sh ["git".toList] = .ok (c.day ++ ['T'] ++ c.time ++ c.zone) := by
    unfold commitDate
    rw [argsShow, run_git ha.date]
    simp only [date_line hc]
  obtain ⟨d1, d2⟩ := dirty_line hc
  unfold gitPieces
  rw [if_neg (by rw [g1]; simp), g2]
  simp only [g3, (strip_describe hc).2, (strip_hex hc.full).2, d1, d2, g4]
  cases ht : c.tag with
  | some t =>
    have hb : Checkout.body c = t ++ ['-'] ++ dec c.distance ++ "-g".toList ++ c.hex := by
      simp only [Checkout.body, ht, dec_digits]
    obtain ⟨t0, t1⟩ := hc.tag t ht
    have hm : describeMatch (Checkout.body c) = some (t, dec c.distance, c.hex) := by
      rw [hb]
      refine describeMatch_parts t0 ?_ (dec_ne_nil _) (fun _ => dec_digit) hc.hex.1 (hex_isHex hc.hex)
      intro h
      have := t1 _ h
      revert this; decide
    rw [if_pos (by rw [hb]; simp), hm]
    simp only [if_pos (hp t ht), number_dec]
    simp [Bind.bind, Except.bind]
  | none =>
    have hb : Checkout.body c = c.hex := by simp only [Checkout.body, ht]
    have hn : '-' ∉ c.hex := fun h => by have := hex_isHex hc.hex _ h; revert this; decide
    rw [if_neg (by rw [hb]; exact hn), argsCount, run_git (ha.count ht), ← dec_digits]
    simp only [(strip_dec _).1, pyInt]
    rw [if_pos ⟨dec_ne_nil _, by simpa using fun x hx => dec_digit hx⟩, number_dec]
    simp [Bind.bind, Except.bind]

theorem someTag_some {p : Pieces} {t : Text} (h : p.tag = some t) (h0 : t ≠ []) : someTag p = some t := by
  unfold someTag
  rw [h]
  cases t with
  | nil => exact absurd rfl h0
  | cons a t => rfl

theorem someTag_none {p : Pieces} (h : p.tag = none) : someTag p = none := by
  unfold someTag
  rw [h]

/-- **C155, round trip.** With the empty prefix of this package, the styles `git-describe-long` and `git-describe` give back
what `git describe` prints with and without `--long`; without a tag this needs an abbreviation to seven digits. -/
theorem C155_describe (sh : Shell) (c : Checkout) (hc : c.Sound) (ha : Answers sh [] c)
    (h7 : c.tag = none → c.hex = c.full.take 7) :
    ∃ p, gitPieces sh ["git".toList] [] = .ok p ∧ renderDescribeLong p = c.describeLong ∧ renderDescribe p = c.describe := by
  refine ⟨_, C155_pieces sh [] c hc ha (fun t _ => List.nil_prefix), ?_, ?_⟩
  · cases ht : c.tag with
    | some t =>
      have h0 := (hc.tag t ht).1
      unfold renderDescribeLong
      rw [someTag_some (t := t) (by simp) h0]
      simp [describeLong_eq, Checkout.body, ht, dec_digits]
    | none =>
      unfold renderDescribeLong
      rw [someTag_none (by simp)]
      simp [describeLong_eq, Checkout.body, ht, h7 ht]
  · cases ht : c.tag with
    | some t =>
      have h0 := (hc.tag t ht).1
      unfold renderDescribe
      rw [someTag_some (t := t) (by simp) h0]
      simp [Checkout.describe, ht, dec_digits]
    | none =>
      unfold renderDescribe
      rw [someTag_none (by simp)]
      simp [Checkout.describe, ht, h7 ht]

/-- **C155, errors.** When the pieces carry no error, what `git describe` printed is the line of a tag that begins with the
prefix, and the pieces are its parts, or it is a name without a hyphen; everything else is an error. -/
theorem C155_error (sh : Shell) (gits : List Text) (pre : Text) (p : Pieces) (h : gitPieces sh gits pre = .ok p) (he : p.error = none) :
    ∃ out body, (runCommand sh (argsDescribe pre) gits).1 = some out ∧
      Factory.strip out = body ++ (if p.dirty then "-dirty".toList else []) ∧ (p.dirty = false → ¬ "-dirty".toList <:+ body) ∧
      (('-' ∉ body ∧ p.tag = none) ∨
        ∃ t num, p.tag = some t ∧ pre ++ t ≠ [] ∧ num ≠ [] ∧ (∀ x ∈ num, x.isDigit = true) ∧ p.distance = number num ∧ HexName p.short ∧
          (body = pre ++ t ++ ['-'] ++ num ++ "-g".toList ++ p.short ∨
            body = pre ++ t ++ ['-'] ++ num ++ "-g".toList ++ p.short ++ ['\n'])) := by
  unfold gitPieces at h
  split at h
  · simp at h
  cases hd : (runCommand sh (argsDescribe pre) gits).1 with
  | none => rw [hd] at h; simp at h
  | some out =>
    rw [hd] at h
    simp only at h
    cases hf : (runCommand sh argsHead gits).1 with
    | none => rw [hf] at h; simp at h
    | some f =>
      rw [hf] at h
      simp only at h
      have hbody : Factory.strip out = withoutDirty (Factory.strip out) ++
          (if decide ("-dirty".toList <:+ Factory.strip out) then "-dirty".toList else []) ∧
          (decide ("-dirty".toList <:+ Factory.strip out) = false → ¬ "-dirty".toList <:+ withoutDirty (Factory.strip out)) := by
        unfold withoutDirty
        by_cases hs : "-dirty".toList <:+ Factory.strip out
        · obtain ⟨b, hb⟩ := hs
          rw [← hb]
          have h' : "-dirty".toList <:+ b ++ "-dirty".toList := List.suffix_append _ _
          rw [if_pos h']
          simp
        · rw [if_neg hs]
          simp only [hs, decide_false, Bool.false_eq_true, if_false, List.append_nil, not_false_eq_true, imp_self, and_self]
      refine ⟨out, withoutDirty (Factory.strip out), rfl, ?_⟩
      by_cases hh : '-' ∈ withoutDirty (Factory.strip out)
      · rw [if_pos hh] at h
        cases hm : describeMatch (withoutDirty (Factory.strip out)) with
        | none =>
          rw [hm] at h
          simp only [Except.ok.injEq] at h
          rw [← h] at he
          simp at he
        | some tnh =>
          obtain ⟨t, num, hex⟩ := tnh
          rw [hm] at h
          simp only at h
          obtain ⟨m1, m2, m3, m4, m5, m6⟩ := describeMatch_some hm
          by_cases hp : pre <+: t
          · rw [if_pos hp] at h
            cases hdt : commitDate sh gits with
            | error e => rw [hdt] at h; simp [Bind.bind, Except.bind] at h
            | ok d =>
              rw [hdt] at h
              simp only [Bind.bind, Except.bind, Except.ok.injEq] at h
              obtain ⟨t', rfl⟩ := hp
              subst h
              refine ⟨hbody.1, hbody.2, Or.inr ⟨t', num, by simp, m2, m3, m4, rfl, ⟨m5, fun x hx => ?_⟩, m1⟩⟩
              exact isHex_mem (m6 x hx)
          · rw [if_neg hp] at h
            simp only [Except.ok.injEq] at h
            rw [← h] at he
            simp at he
      · rw [if_neg hh] at h
        cases hn : pyInt (runCommand sh argsCount gits).1 with
        | error e => rw [hn] at h; simp [Bind.bind, Except.bind] at h
        | ok n =>
          cases hdt : commitDate sh gits with
          | error e => rw [hn, hdt] at h; simp [Bind.bind, Except.bind] at h
          | ok d =>
            rw [hn, hdt] at h
            simp only [Bind.bind, Except.bind, Except.ok.injEq] at h
            subst h
            exact ⟨hbody.1, hbody.2, Or.inl ⟨hh, rfl⟩⟩

/-- **C155, names of the program.** A program that does not exist is skipped: the next name is tried. -/
theorem C155_names (sh : Shell) (git : Text) (gits : List Text) (pre : Text) (h : ∀ args, sh git args = .missing) :
    gitPieces sh (git :: gits) pre = gitPieces sh gits pre := by
  have hr : ∀ args, runCommand sh args (git :: gits) = runCommand sh args gits := by
    intro args
    rw [runCommand, h]
  unfold gitPieces commitDate
  simp only [hr]

/-- **C155, what an error does.** The version is then `unknown`, in every style. -/
theorem C155_unknown (p : Pieces) (e : Text) (h : p.error = some e) (style : Text) :
    render p style = .ok ⟨"unknown".toList, some p.long, none, some e, none⟩ := by
  unfold render
  rw [h]

end Verif.Props
