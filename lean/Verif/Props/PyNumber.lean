import Verif.Spec.PyNumber
import Verif.Model.PyNumber
import Verif.Props.JsonFloat
import Verif.Props.RuptureWrite
import Verif.Props.TimeUse
import Verif.Props.DoubleColors

/-!
# Numbers in texts: C198
-/

namespace Verif.Props
open Verif.Num Verif.Spec Verif.Dbl
open Verif.Json (Text PyFloat digitsValue nearestFloat floatText pyFloats)

theorem blank_iff (c : Char) : blank c = true ↔ c.toNat ∈ [32, 9, 10, 11, 12, 13, 133, 160] := by
  have h : c = ' ' ↔ c.toNat = 32 := by
    constructor
    · rintro rfl; rfl
    · intro h
      rw [← Char.ofNat_toNat c, h]
  unfold blank
  simp only [Bool.or_eq_true, decide_eq_true_eq, Bool.and_eq_true, h, List.mem_cons, List.not_mem_nil, or_false]
  omega

theorem drop_blanks {w s : Text} (hw : Blanks w) : (w ++ s).dropWhile blank = s.dropWhile blank :=
  List.dropWhile_append_of_pos fun c hc => (blank_iff c).2 (hw c hc)

theorem trim_mid {w m w' : Text} (hw : Blanks w) (hw' : Blanks w') (hm : ∀ c ∈ m, blank c = false) : trim (w ++ m ++ w') = m := by
  have hd : ∀ (x y : Text), (∀ c ∈ x, blank c = false) → x ≠ [] → (x ++ y).dropWhile blank = x ++ y := by
    intro x y hx h0
    obtain ⟨c, x, rfl⟩ := List.exists_cons_of_ne_nil h0
    rw [List.cons_append, List.dropWhile_cons_of_neg (by rw [hx c (by simp)]; simp)]
  have hr : Blanks w'.reverse := fun c hc => hw' c (List.mem_reverse.1 hc)
  unfold trim
  rw [List.append_assoc, drop_blanks hw]
  by_cases h0 : m = []
  · subst h0
    have : (w'.dropWhile blank) = [] := by
      have := drop_blanks (s := []) hw'
      simpa using this
    simp [this]
  · rw [hd m w' hm h0, List.reverse_append, drop_blanks hr]
    have := hd m.reverse [] (fun c hc => hm c (List.mem_reverse.1 hc)) (by simpa using h0)
    rw [List.append_nil] at this
    rw [this, List.reverse_reverse]

theorem trim_parts (s : Text) : ∃ w w', s = w ++ trim s ++ w' ∧ Blanks w ∧ Blanks w' := by
  have hb : ∀ x : Text, Blanks (x.takeWhile blank) := fun x c hc => (blank_iff c).1 (List.mem_takeWhile_imp hc)
  refine ⟨s.takeWhile blank, ((s.dropWhile blank).reverse.takeWhile blank).reverse, ?_, hb s, fun c hc => hb _ c (List.mem_reverse.1 hc)⟩
  unfold trim
  rw [List.append_assoc, ← List.reverse_append, List.takeWhile_append_dropWhile, List.reverse_reverse, List.takeWhile_append_dropWhile]

theorem last_getD (x p : Char) (a : Text) : (x :: a).getLast?.getD p = a.getLast?.getD x := by
  rcases a with _ | ⟨y, a⟩
  · rfl
  · rw [List.getLast?_cons_cons]
    cases h : (y :: a).getLast? with
    | none => simp at h
    | some z => rfl

theorem unders_spec (m : Text) : ∀ (prev : Char) (t : Text), unders prev m = some t ↔ m.filter (· ≠ '_') = t ∧
    (∀ a b, m = a ++ '_' :: b → (a.getLast?.getD prev).isDigit = true ∧ ∃ c, b.head? = some c ∧ c.isDigit = true) ∧
    (prev = '_' → ∃ c, m.head? = some c ∧ c.isDigit = true) := by
  induction m with
  | nil =>
    intro prev t
    unfold unders
    by_cases h : prev = '_'
    · rw [if_pos h]
      constructor
      · intro h; cases h
      · rintro ⟨-, -, h3⟩
        obtain ⟨c, h4, -⟩ := h3 h
        simp at h4
    · rw [if_neg h]
      constructor
      · intro e
        cases e
        exact ⟨rfl, fun a b hab => absurd hab (by simp), fun e => absurd e h⟩
      · rintro ⟨rfl, -⟩
        rfl
  | cons c s ih =>
    intro prev t
    unfold unders
    by_cases hc : c = '_'
    · subst hc
      rw [if_pos rfl]
      by_cases hp : prev.isDigit = true
      · rw [if_pos hp, ih]
        have hne : prev ≠ '_' := by rintro rfl; exact absurd hp (by decide)
        constructor
        · rintro ⟨h1, h2, h3⟩
          refine ⟨by simpa using h1, ?_, fun h => absurd h hne⟩
          intro a b hab
          rcases a with _ | ⟨x, a⟩
          · simp only [List.nil_append, List.cons.injEq, true_and] at hab
            subst hab
            exact ⟨by simpa using hp, h3 rfl⟩
          · simp only [List.cons_append, List.cons.injEq] at hab
            obtain ⟨rfl, rfl⟩ := hab
            obtain ⟨k1, k2⟩ := h2 a b rfl
            exact ⟨by rw [last_getD] at *; exact k1, k2⟩
        · rintro ⟨h1, h2, -⟩
          refine ⟨by simpa using h1, fun a b hab => ?_, fun _ => (h2 [] s rfl).2⟩
          obtain ⟨k1, k2⟩ := h2 ('_' :: a) b (by rw [hab]; rfl)
          exact ⟨by rw [last_getD] at *; exact k1, k2⟩
      · rw [if_neg hp]
        constructor
        · intro h; cases h
        · rintro ⟨-, h2, -⟩
          exact absurd (h2 [] s rfl).1 (by simpa using hp)
    · rw [if_neg hc]
      by_cases hp : prev = '_' ∧ ¬ c.isDigit = true
      · rw [if_pos hp]
        constructor
        · intro h; cases h
        · rintro ⟨-, -, h3⟩
          obtain ⟨x, h4, h5⟩ := h3 hp.1
          simp only [List.head?_cons, Option.some.injEq] at h4
          exact absurd (h4 ▸ h5) hp.2
      · rw [if_neg hp, Option.map_eq_some_iff]
        have hcd : prev = '_' → c.isDigit = true := fun h => by
          by_contra hn
          exact hp ⟨h, hn⟩
        constructor
        · rintro ⟨t, ht, rfl⟩
          obtain ⟨h1, h2, -⟩ := (ih c t).1 ht
          refine ⟨by rw [List.filter_cons_of_pos (by simpa using hc), h1], ?_, fun h => ⟨c, rfl, hcd h⟩⟩
          intro a b hab
          rcases a with _ | ⟨x, a⟩
          · simp only [List.nil_append, List.cons.injEq] at hab
            exact absurd hab.1 hc
          · simp only [List.cons_append, List.cons.injEq] at hab
            obtain ⟨rfl, rfl⟩ := hab
            obtain ⟨k1, k2⟩ := h2 a b rfl
            exact ⟨by rw [last_getD] at *; exact k1, k2⟩
        · rintro ⟨h1, h2, -⟩
          rw [List.filter_cons_of_pos (by simpa using hc)] at h1
          refine ⟨s.filter (· ≠ '_'), (ih c _).2 ⟨rfl, fun a b hab => ?_, fun h => absurd h hc⟩, h1⟩
          obtain ⟨k1, k2⟩ := h2 (c :: a) b (by rw [hab]; rfl)
          exact ⟨by rw [last_getD] at *; exact k1, k2⟩

theorem unders_iff (m t : Text) : unders ' ' m = some t ↔ Underscored m t := by
  rw [unders_spec]
  unfold Underscored
  constructor
  · rintro ⟨h1, h2, -⟩
    refine ⟨h1, fun a b hab => ?_⟩
    obtain ⟨k1, k2⟩ := h2 a b hab
    refine ⟨?_, k2⟩
    cases hl : a.getLast? with
    | none => rw [hl] at k1; exact absurd k1 (by decide)
    | some c => rw [hl] at k1; exact ⟨c, rfl, k1⟩
  · rintro ⟨h1, h2⟩
    refine ⟨h1, fun a b hab => ?_, fun h => absurd h (by decide)⟩
    obtain ⟨⟨c, k1, k3⟩, k2⟩ := h2 a b hab
    exact ⟨by rw [k1]; exact k3, k2⟩

theorem signOf_signed (t : Text) : Signed t (signOf t).1 (signOf t).2 := by
  unfold signOf
  split
  · exact .inr (.inr ⟨rfl, rfl⟩)
  · exact .inr (.inl ⟨rfl, rfl⟩)
  · exact .inl ⟨rfl, rfl⟩

theorem signOf_of {t u : Text} {neg : Bool} (h : Signed t neg u) (hu : ∀ c, u.head? = some c → c ≠ '+' ∧ c ≠ '-') : signOf t = (neg, u) := by
  rcases h with ⟨rfl, rfl⟩ | ⟨rfl, rfl⟩ | ⟨rfl, rfl⟩
  · unfold signOf
    split
    · exact absurd rfl (hu '-' rfl).2
    · exact absurd rfl (hu '+' rfl).1
    · rfl
  · rfl
  · rfl

theorem digit_sign {c : Char} (h : c.isDigit = true) : c ≠ '+' ∧ c ≠ '-' := by
  constructor <;> rintro rfl <;> exact absurd h (by decide)

theorem digits_sign {d : Text} (hd : Digits d) : ∀ c, d.head? = some c → c ≠ '+' ∧ c ≠ '-' :=
  fun c hc => digit_sign (hd.2 c (List.mem_of_mem_head? hc))

theorem power_iff (x : Text) (n : ℤ) : power x = some n ↔ ExponentText x n := by
  unfold ExponentText
  rcases x with _ | ⟨e, s⟩
  · simp only [power, Option.some.injEq]
    constructor
    · rintro rfl; exact .inl ⟨trivial, rfl⟩
    · rintro (⟨-, rfl⟩ | ⟨e, g, neg, d, h, -⟩)
      · rfl
      · cases h
  · simp only [power]
    constructor
    · intro h
      split_ifs at h with hc hs <;> simp only [Option.some.injEq] at h <;> subst h
      all_goals exact .inr ⟨e, s, (signOf s).1, (signOf s).2, rfl, hc.1, signOf_signed s, ⟨hc.2.1, List.all_eq_true.1 hc.2.2⟩, by simp [hs, Json.digitsValue, decimalValue]⟩
    · rintro (⟨h, -⟩ | ⟨e', g, neg, d, h, he, hs, hd, rfl⟩)
      · cases h
      · obtain ⟨rfl, rfl⟩ := List.cons.inj h
        rw [signOf_of hs (digits_sign hd)]
        simp only
        rw [if_pos ⟨he, hd.1, List.all_eq_true.2 hd.2⟩]
        rfl

theorem exponent_head {x : Text} {n : ℤ} (h : ExponentText x n) : ∀ c, x.head? = some c → c = 'e' ∨ c = 'E' := by
  intro c hc
  rcases h with ⟨rfl, -⟩ | ⟨e, g, neg, d, rfl, he, -⟩
  · simp at hc
  · simp only [List.head?_cons, Option.some.injEq] at hc
    exact hc ▸ he

theorem decimal_iff (u : Text) (q : ℚ) : decimal u = some q ↔ Numeral u q := by
  constructor
  · intro h
    unfold decimal at h
    simp only at h
    split_ifs at h with h0
    rw [Option.map_eq_some_iff] at h
    obtain ⟨n, hn, rfl⟩ := h
    have hi : ∀ c ∈ u.takeWhile Char.isDigit, c.isDigit = true := fun c hc => List.mem_takeWhile_imp hc
    have hu := List.takeWhile_append_dropWhile (p := Char.isDigit) (l := u)
    generalize u.takeWhile Char.isDigit = i at *
    generalize u.dropWhile Char.isDigit = r at *
    have hx := (power_iff _ _).1 hn
    unfold places at *
    split at hx
    · rename_i s
      simp only at *
      refine ⟨i, '.' :: s.takeWhile Char.isDigit, s.takeWhile Char.isDigit, s.dropWhile Char.isDigit, n, ?_, ?_, h0, .inr rfl, hx, rfl⟩
      · rw [← hu]; simp
      · intro c hc
        rcases List.mem_append.1 hc with hc | hc
        · exact hi c hc
        · exact List.mem_takeWhile_imp hc
    · rename_i hr
      split at h0
      · rename_i s; exact absurd rfl (hr s)
      · simp only at *
        exact ⟨i, [], [], r, n, by rw [← hu]; simp, by simpa using hi, h0, .inl ⟨rfl, rfl⟩, hx, rfl⟩
  · rintro ⟨i, p, d, x, n, rfl, hd, h0, hp, hx, rfl⟩
    have hi : ∀ c ∈ i, c.isDigit = true := fun c hc => hd c (by simp [hc])
    have hdd : ∀ c ∈ d, c.isDigit = true := fun c hc => hd c (by simp [hc])
    have hX := exponent_head hx
    have hXd : ∀ c, x.head? = some c → c.isDigit = false := fun c hc => by
      rcases hX c hc with rfl | rfl <;> rfl
    have key : ∀ (a y : Text), (∀ c ∈ a, c.isDigit = true) → (∀ c, y.head? = some c → c.isDigit = false) →
        (a ++ y).takeWhile Char.isDigit = a ∧ (a ++ y).dropWhile Char.isDigit = y := by
      intro a y ha hy
      rw [List.takeWhile_append_of_pos ha, List.dropWhile_append_of_pos ha]
      rcases y with _ | ⟨c, y⟩
      · simp
      · have := hy c rfl
        simp [this]
    obtain ⟨k1, k2⟩ := key i (p ++ x) hi (by
      intro c hc
      rcases hp with ⟨rfl, rfl⟩ | rfl
      · exact hXd c hc
      · simp only [List.cons_append, List.head?_cons, Option.some.injEq] at hc
        subst hc; rfl)
    have hpl : places (p ++ x) = (d, x) := by
      rcases hp with ⟨rfl, rfl⟩ | rfl
      · rw [List.nil_append]
        unfold places
        split
        · rename_i s
          rcases hX '.' rfl with h | h <;> exact absurd h (by decide)
        · rfl
      · obtain ⟨k3, k4⟩ := key d x hdd hXd
        simp only [List.cons_append, places, k3, k4]
    unfold decimal
    rw [List.append_assoc, k1, k2, hpl]
    simp only
    rw [if_neg h0, (power_iff x n).2 hx]
    rfl

theorem nearest_float {q : ℚ} (hq : 0 ≤ q) (neg : Bool) : NearestFloat neg q (nearestFloat neg q) := by
  have h0 : 0 ≤ rnd q := rnd_at_least ⟨0, 0, by norm_num, by norm_num, by norm_num⟩ hq
  unfold nearestFloat
  by_cases hlt : rnd q < 2 ^ 1024
  · rw [dif_pos ⟨h0, rnd_idem q, hlt⟩]
    exact .inl ⟨_, _, rfl, rnd_nearest q⟩
  · rw [dif_neg fun h => hlt h.2.2]
    exact .inr ⟨rfl, _, rnd_nearest q, not_lt.1 hlt⟩

theorem numeral_nonneg {u : Text} {q : ℚ} (h : Numeral u q) : 0 ≤ q := by
  obtain ⟨i, p, d, x, n, -, -, -, -, -, rfl⟩ := h
  exact mul_nonneg (by positivity) (ten_pos _).le

theorem digit_solid {c : Char} (h : c.isDigit = true) : blank c = false := by
  have h1 : 48 ≤ c.toNat ∧ c.toNat ≤ 57 := by
    have := (Char.isDigit_iff_toNat (c := c)).1 h
    rw [show '0'.toNat = 48 from rfl, show '9'.toNat = 57 from rfl] at this
    exact this
  cases hb : blank c with
  | false => rfl
  | true =>
    have := (blank_iff c).1 hb
    simp only [List.mem_cons, List.not_mem_nil, or_false] at this
    omega

theorem signed_solid {t u : Text} {neg : Bool} (h : Signed t neg u) (hu : ∀ c ∈ u, blank c = false) : ∀ c ∈ t, blank c = false := by
  rcases h with ⟨rfl, rfl⟩ | ⟨rfl, rfl⟩ | ⟨rfl, rfl⟩
  · exact hu
  · intro c hc
    rcases List.mem_cons.1 hc with rfl | hc
    · decide
    · exact hu c hc
  · intro c hc
    rcases List.mem_cons.1 hc with rfl | hc
    · decide
    · exact hu c hc

theorem under_solid {m t : Text} (h : Underscored m t) (ht : ∀ c ∈ t, blank c = false) : ∀ c ∈ m, blank c = false := by
  intro c hc
  by_cases h0 : c = '_'
  · subst h0; decide
  · refine ht c ?_
    rw [← h.1]
    exact List.mem_filter.2 ⟨hc, by simpa using h0⟩

theorem numeral_chars {u : Text} {q : ℚ} (h : Numeral u q) : ∀ c ∈ u, c.isDigit = true ∨ c ∈ ['.', 'e', 'E', '+', '-'] := by
  obtain ⟨i, p, d, x, n, rfl, hd, h0, hp, hx, -⟩ := h
  intro c hc
  rcases List.mem_append.1 hc with hc | hc
  · rcases List.mem_append.1 hc with hc | hc
    · exact .inl (hd c (by simp [hc]))
    · rcases hp with ⟨rfl, -⟩ | rfl
      · simp at hc
      · rcases List.mem_cons.1 hc with rfl | hc
        · exact .inr (by decide)
        · exact .inl (hd c (by simp [hc]))
  · rcases hx with ⟨rfl, -⟩ | ⟨e, g, neg, k, rfl, he, hs, hk, -⟩
    · simp at hc
    · rcases List.mem_cons.1 hc with rfl | hc
      · rcases he with rfl | rfl <;> exact .inr (by decide)
      · rcases hs with ⟨rfl, -⟩ | ⟨rfl, -⟩ | ⟨rfl, -⟩
        · exact .inl (hk.2 c hc)
        all_goals
          rcases List.mem_cons.1 hc with rfl | hc
          · exact .inr (by decide)
          · exact .inl (hk.2 c hc)

theorem numeral_solid {u : Text} {q : ℚ} (h : Numeral u q) : ∀ c ∈ u, blank c = false := by
  intro c hc
  rcases numeral_chars h c hc with hc | hc
  · exact digit_solid hc
  · simp only [List.mem_cons, List.not_mem_nil, or_false] at hc
    rcases hc with rfl | rfl | rfl | rfl | rfl <;> decide

theorem numeral_head {u : Text} {q : ℚ} (h : Numeral u q) : ∃ c r, u = c :: r ∧ (c.isDigit = true ∨ c = '.') := by
  obtain ⟨i, p, d, x, n, rfl, hd, h0, hp, hx, -⟩ := h
  rcases i with _ | ⟨c, i⟩
  · rcases hp with ⟨rfl, rfl⟩ | rfl
    · exact absurd rfl h0
    · exact ⟨'.', d ++ x, rfl, .inr rfl⟩
  · exact ⟨c, i ++ p ++ x, by simp, .inl (hd c (by simp))⟩

theorem lower_digit {c : Char} (h : c.isDigit = true ∨ c = '.') : c.toLower = c := by
  rcases h with h | rfl
  · have h1 := (Char.isDigit_iff_toNat (c := c)).1 h
    unfold Char.toLower
    rw [dif_neg]
    intro h2
    have h3 : 65 ≤ c.toNat := h2.1
    have h4 : '9'.toNat = 57 := rfl
    omega
  · rfl

theorem numeral_word {u : Text} {q : ℚ} (h : Numeral u q) {c : Char} {w : Text} (hw : u.map Char.toLower = c :: w) : c.isDigit = true ∨ c = '.' := by
  obtain ⟨x, r, rfl, hx⟩ := numeral_head h
  rw [List.map_cons, lower_digit hx] at hw
  rw [← (List.cons.inj hw).1]
  exact hx

theorem word_lower {u w : Text} (hw : u.map Char.toLower = w) (hl : ∀ c ∈ w, c ∈ "infatyINFATY".toList) :
    (∀ c ∈ u, blank c = false) ∧ ∀ c, u.head? = some c → c ≠ '+' ∧ c ≠ '-' := by
  have hm : ∀ c ∈ u, c.toLower ∈ "infatyINFATY".toList := fun c hc => hl _ (hw ▸ List.mem_map_of_mem hc)
  refine ⟨fun c hc => ?_, fun c hc => ?_⟩
  · cases hb : blank c with
    | false => rfl
    | true =>
      have h1 := (blank_iff c).1 hb
      have h2 := hm c hc
      rw [← Char.ofNat_toNat c] at h2
      generalize c.toNat = n at h1 h2
      simp only [List.mem_cons, List.not_mem_nil, or_false] at h1
      rcases h1 with rfl | rfl | rfl | rfl | rfl | rfl | rfl | rfl <;> exact absurd h2 (by decide)
  · have h2 := hm c (List.mem_of_mem_head? hc)
    constructor <;> rintro rfl <;> exact absurd h2 (by decide)

/-- **C198**. The texts that `float` takes are the numerals with blanks, signs and underscores, and the words for infinity and NaN; it gives the double nearest to the
number that the numeral writes, and raises ValueError for every other text. -/
theorem C198_float (s : Text) : (∀ f, pyFloat s = some f → StandsForFloat s f) ∧ ((∃ f, StandsForFloat s f) → ∃ f, pyFloat s = some f) := by
  refine ⟨fun f h => ?_, ?_⟩
  · obtain ⟨w, w', hs, hw, hw'⟩ := trim_parts s
    unfold pyFloat at h
    rw [Option.bind_eq_some_iff] at h
    obtain ⟨t, ht, h⟩ := h
    refine ⟨w, trim s, w', t, (signOf t).1, (signOf t).2, hs, hw, hw', (unders_iff _ _).1 ht, signOf_signed t, ?_⟩
    simp only at h
    split_ifs at h with h1 h2
    · cases h
      exact .inr (.inl ⟨by simpa using h1, rfl⟩)
    · cases h
      exact .inr (.inr ⟨h2, rfl⟩)
    · rw [Option.map_eq_some_iff] at h
      obtain ⟨q, hq, rfl⟩ := h
      have hn := (decimal_iff _ _).1 hq
      exact .inl ⟨q, hn, nearest_float (numeral_nonneg hn) _⟩
  · rintro ⟨f, w, m, w', t, neg, u, rfl, hw, hw', hm, ht, h⟩
    have hsolid : (∀ c ∈ u, blank c = false) ∧ ∀ c, u.head? = some c → c ≠ '+' ∧ c ≠ '-' := by
      rcases h with ⟨q, hn, -⟩ | ⟨h, -⟩ | ⟨h, -⟩
      · refine ⟨numeral_solid hn, fun c hc => ?_⟩
        obtain ⟨x, r, rfl, hx⟩ := numeral_head hn
        simp only [List.head?_cons, Option.some.injEq] at hc
        subst hc
        rcases hx with hx | rfl
        · exact digit_sign hx
        · exact ⟨by decide, by decide⟩
      · simp only [List.mem_cons, List.not_mem_nil, or_false] at h
        rcases h with h | h
        · exact word_lower h (by decide)
        · exact word_lower h (by decide)
      · exact word_lower h (by decide)
    unfold pyFloat
    rw [trim_mid hw hw' (under_solid hm (signed_solid ht hsolid.1)), (unders_iff _ _).2 hm, Option.bind_some, signOf_of ht hsolid.2]
    simp only
    split_ifs with h1 h2
    · exact ⟨_, rfl⟩
    · exact ⟨_, rfl⟩
    · rcases h with ⟨q, hn, -⟩ | ⟨h, -⟩ | ⟨h, -⟩
      · rw [(decimal_iff u q).2 hn]
        exact ⟨_, rfl⟩
      · exact absurd (by simpa using h) h1
      · exact absurd h h2

/-- **C198**. `int` takes the texts of whole numbers, and gives those numbers. -/
theorem C198_int (s : Text) (n : ℤ) : pyInt s = some n ↔ StandsForInt s n := by
  constructor
  · intro h
    obtain ⟨w, w', hs, hw, hw'⟩ := trim_parts s
    unfold pyInt at h
    rw [Option.bind_eq_some_iff] at h
    obtain ⟨t, ht, h⟩ := h
    refine ⟨w, trim s, w', t, (signOf t).1, (signOf t).2, hs, hw, hw', (unders_iff _ _).1 ht, signOf_signed t, ?_⟩
    simp only at h
    split_ifs at h with h1 h2 <;> simp only [Option.some.injEq] at h <;> subst h
    all_goals exact ⟨⟨h1.1, List.all_eq_true.1 h1.2⟩, by simp [h2, Json.digitsValue, decimalValue]⟩
  · rintro ⟨w, m, w', t, neg, u, rfl, hw, hw', hm, ht, hu, rfl⟩
    unfold pyInt
    rw [trim_mid hw hw' (under_solid hm (signed_solid ht fun c hc => digit_solid (hu.2 c hc))), (unders_iff _ _).2 hm, Option.bind_some,
      signOf_of ht (digits_sign hu)]
    simp only
    rw [if_pos ⟨hu.1, List.all_eq_true.2 hu.2⟩]
    rfl

/-- C198, for the values of an origin that are texts: they are taken exactly when they stand for floats, and as those. -/
theorem C198_origin (s : String) :
    (∀ x, Origin.toFloat originFloat (.str s) = .ok x → ∃ f, StandsForFloat s.toList f ∧ SameFloat f x) ∧
    (Origin.toFloat originFloat (.str s) = .error .value ↔ ¬ ∃ f, StandsForFloat s.toList f) := by
  obtain ⟨h1, h2⟩ := C198_float s.toList
  unfold Origin.toFloat originFloat
  cases h : pyFloat s.toList with
  | none =>
    simp only [h, Option.map_none]
    refine ⟨fun x hx => (nomatch hx), iff_of_true trivial ?_⟩
    intro hf
    obtain ⟨f, hf⟩ := h2 hf
    rw [h] at hf
    cases hf
  | some f =>
    have hf := h1 f h
    simp only [h, Option.map_some]
    refine ⟨fun x hx => ⟨f, hf, ?_⟩, ?_⟩
    · simp only [Except.ok.injEq] at hx
      subst hx
      rcases f with _ | neg | ⟨neg, y, ok⟩
      · exact .nan
      · cases neg
        · exact .inf
        · exact .ninf
      · cases neg
        · exact .plus y ok
        · exact .minus y ok
    · simp only [reduceCtorEq, false_iff, not_not]
      exact ⟨f, hf⟩

/-! ### What the library writes -/

theorem plain_under {t : Text} (h : '_' ∉ t) : Underscored t t := by
  refine ⟨List.filter_eq_self.2 fun c hc => ?_, fun a b hab => absurd (hab ▸ by simp) h⟩
  have : c ≠ '_' := fun e => h (e ▸ hc)
  simpa using this

theorem no_under {t u : Text} {neg : Bool} (ht : Signed t neg u) (hu : '_' ∉ u) : '_' ∉ t := by
  rcases ht with ⟨rfl, -⟩ | ⟨rfl, -⟩ | ⟨rfl, -⟩
  · exact hu
  all_goals
    intro hc
    rcases List.mem_cons.1 hc with h | h
    · exact absurd h (by decide)
    · exact hu h

theorem read_numeral {t u : Text} {neg : Bool} {q : ℚ} (ht : Signed t neg u) (hn : Numeral u q) : pyFloat t = some (nearestFloat neg q) := by
  have hu : '_' ∉ u := fun hc => by
    rcases numeral_chars hn _ hc with h | h <;> exact absurd h (by decide)
  have htr := trim_mid (w := []) (w' := []) (m := t) (by simp [Blanks]) (by simp [Blanks]) (signed_solid ht (numeral_solid hn))
  rw [List.nil_append, List.append_nil] at htr
  unfold pyFloat
  rw [htr, (unders_iff t t).2 (plain_under (no_under ht hu)), Option.bind_some, signOf_of ht (by
    intro c hc
    obtain ⟨x, r, rfl, hx⟩ := numeral_head hn
    simp only [List.head?_cons, Option.some.injEq] at hc
    subst hc
    rcases hx with hx | rfl
    · exact digit_sign hx
    · exact ⟨by decide, by decide⟩)]
  simp only
  have hne : ∀ c w, (c.isDigit = false ∧ c ≠ '.') → u.map Char.toLower ≠ c :: w := fun c w hc e => by
    rcases numeral_word hn e with h | h
    · rw [hc.1] at h; cases h
    · exact hc.2 h
  rw [if_neg (by
    rintro (h | h)
    · exact hne 'i' ['n', 'f'] (by decide) h
    · exact hne 'i' "nfinity".toList (by decide) h), if_neg (show u.map Char.toLower ≠ "nan".toList from hne 'n' ['a', 'n'] (by decide)), (decimal_iff u q).2 hn]
  rfl

theorem decimalText_numeral {t : Text} {q : ℚ} (h : DecimalText t q) : Numeral t q := by
  obtain ⟨i, d, x, n, rfl, hi, -, hd, hx, -, rfl⟩ := h
  refine ⟨i, if d = [] then [] else '.' :: d, d, x, n, rfl, ?_, ?_, ?_, ?_, rfl⟩
  · intro c hc
    rcases List.mem_append.1 hc with hc | hc
    · exact hi.2 c hc
    · exact hd c hc
  · intro h
    exact hi.1 (List.append_eq_nil_iff.1 h).1
  · by_cases h0 : d = []
    · exact .inl ⟨if_pos h0, h0⟩
    · exact .inr (if_neg h0)
  · rcases hx with ⟨rfl, rfl⟩ | ⟨g, hg, ⟨rfl, rfl⟩ | ⟨rfl, rfl⟩ | ⟨rfl, rfl⟩⟩
    · exact .inl ⟨rfl, rfl⟩
    · exact .inr ⟨'e', g, false, g, rfl, .inl rfl, .inl ⟨rfl, rfl⟩, hg, rfl⟩
    · exact .inr ⟨'e', '+' :: g, false, g, rfl, .inl rfl, .inr (.inl ⟨rfl, rfl⟩), hg, rfl⟩
    · exact .inr ⟨'e', '-' :: g, true, g, rfl, .inl rfl, .inr (.inr ⟨rfl, rfl⟩), hg, rfl⟩

/-- C198: the text of every float is read as that float, and the text of every whole number as that number. -/
theorem C198_back : (∀ f : PyFloat, pyFloat (floatText f) = some f) ∧ ∀ n : ℤ, pyInt (Py.intStr n) = some n := by
  refine ⟨fun f => ?_, fun n => ?_⟩
  · rcases f with _ | neg | ⟨neg, x, ok⟩
    · decide +kernel
    · cases neg <;> decide +kernel
    · have hx : IsDouble x := ok.2.1 ▸ rnd_isDouble x
      have key : ∃ d, DecimalText (reprFloat x) d ∧ rnd d = x := by
        rcases lt_or_eq_of_le ok.1 with h0 | h0
        · exact repr_text hx h0
        · refine ⟨0, ⟨['0'], ['0'], [], 0, ?_, ⟨by simp, by decide⟩, .inl rfl, by decide, .inl ⟨rfl, rfl⟩, .inl (by simp), by simp [decimalValue]⟩, ?_⟩
          · rw [reprFloat, if_pos h0.symm]; rfl
          · rw [← h0]; exact rnd_double ⟨0, 0, by norm_num, by norm_num, by norm_num⟩
      obtain ⟨d, h1, h2⟩ := key
      have hs : Signed (floatText (.fin neg x ok)) neg (reprFloat x) := by
        cases neg
        · exact .inl ⟨rfl, rfl⟩
        · exact .inr (.inr ⟨rfl, rfl⟩)
      rw [read_numeral hs (decimalText_numeral h1)]
      unfold nearestFloat
      simp only [h2]
      rw [dif_pos ok]
  · have hd : Digits (Py.natStr n.natAbs) := ⟨Verif.Text.natStr_ne_nil _, fun c hc => by
      have := Verif.Text.natStr_digits _ c hc
      simpa [Py.isDigit, Char.isDigit_iff_toNat, show '0'.toNat = 48 from rfl, show '9'.toNat = 57 from rfl] using this⟩
    have hv := Verif.Text.decimalValue_natStr n.natAbs
    have hu : '_' ∉ Py.natStr n.natAbs := fun hc => absurd (hd.2 _ hc) (by decide)
    rw [C198_int]
    by_cases h : n < 0
    · have hs : Signed (Py.intStr n) true (Py.natStr n.natAbs) := .inr (.inr ⟨by rw [Py.intStr, if_pos h], rfl⟩)
      refine ⟨[], Py.intStr n, [], Py.intStr n, true, _, by simp, by simp [Blanks], by simp [Blanks], plain_under (no_under hs hu), hs, hd, ?_⟩
      rw [hv, if_pos rfl]
      omega
    · have hs : Signed (Py.intStr n) false (Py.natStr n.natAbs) := .inl ⟨by rw [Py.intStr, if_neg h], rfl⟩
      refine ⟨[], Py.intStr n, [], Py.intStr n, false, _, by simp, by simp [Blanks], by simp [Blanks], plain_under (no_under hs hu), hs, hd, ?_⟩
      rw [hv]
      simp only [Bool.false_eq_true, if_false]
      omega

theorem fixed_numeral (k : ℕ) (hk : 1 ≤ k) (x : ℚ) :
    ∃ u q, Signed (Time.fixedText k x) (decide (x < 0)) u ∧ Numeral u q ∧ |q - (|x|)| ≤ 1 / (2 * 10 ^ k) := by
  have hp : (0 : ℚ) < 10 ^ k := by positivity
  set n := (Py.round (|x| * 10 ^ k)).natAbs with hndef
  have hr := Py.round_abs_sub_le (|x| * 10 ^ k)
  have hn0 : (0 : ℤ) ≤ Py.round (|x| * 10 ^ k) := by
    by_contra hneg
    have h1 : (Py.round (|x| * 10 ^ k) : ℚ) ≤ -1 := by exact_mod_cast (by omega : Py.round (|x| * 10 ^ k) ≤ -1)
    have h2 : 0 ≤ |x| * 10 ^ k := by positivity
    rw [abs_le] at hr
    linarith [hr.2]
  have hnq : (n : ℚ) = Py.round (|x| * 10 ^ k) := by
    have : (n : ℤ) = Py.round (|x| * 10 ^ k) := by omega
    exact_mod_cast congrArg (Int.cast (R := ℚ)) this
  have hlen : (padded k (n % 10 ^ k)).length = k := padded_length hk (Nat.mod_lt _ (by positivity))
  have hval : decimalValue (Nat.toDigits 10 (n / 10 ^ k) ++ padded k (n % 10 ^ k)) = n := by
    rw [decimalValue_append, decimalValue_toDigits, padded_value, hlen, Nat.div_add_mod']
  refine ⟨Nat.toDigits 10 (n / 10 ^ k) ++ '.' :: padded k (n % 10 ^ k), n / 10 ^ k, ?_, ⟨Nat.toDigits 10 (n / 10 ^ k), _, padded k (n % 10 ^ k), [], 0,
    (List.append_nil _).symm, ?_, ?_, .inr rfl, .inl ⟨rfl, rfl⟩, ?_⟩, ?_⟩
  · unfold Time.fixedText
    rw [← hndef]
    by_cases hx : x < 0
    · exact .inr (.inr ⟨by simp [hx], by simpa using hx⟩)
    · exact .inl ⟨by simp [hx], by simpa using hx⟩
  · intro c hc
    rcases List.mem_append.1 hc with hc | hc
    · exact Nat.isDigit_of_mem_toDigits (by norm_num) (by norm_num) hc
    · exact padded_ok.2 c hc
  · intro h
    exact Nat.toDigits_ne_nil (List.append_eq_nil_iff.1 h).1
  · rw [hval, hlen, zero_sub, zpow_neg, zpow_natCast, div_eq_mul_inv]
  · rw [hnq]
    have : (Py.round (|x| * 10 ^ k) : ℚ) / 10 ^ k - |x| = (Py.round (|x| * 10 ^ k) - |x| * 10 ^ k) / 10 ^ k := by field_simp
    rw [this, abs_div, abs_of_pos hp, abs_sub_comm, div_le_iff₀ hp]
    refine hr.trans (le_of_eq ?_)
    field_simp

/-- C198: a number written with `k` decimals is read, with the sign that was written, as a double at most half a unit of the last decimal and a rounding away. -/
theorem C198_fixed (k : ℕ) (hk : 1 ≤ k) (x : ℚ) (hx : |x| ≤ 2 ^ 200) :
    ∃ y ok, pyFloat (Time.fixedText k x) = some (.fin (decide (x < 0)) y ok) ∧ |y - (|x|)| ≤ 1 / (2 * 10 ^ k) + (|x| + 1) / 2 ^ 53 := by
  obtain ⟨u, q, h1, h2, h3⟩ := fixed_numeral k hk x
  rw [read_numeral h1 h2]
  have hq := numeral_nonneg h2
  have h10 : (1 : ℚ) / (2 * 10 ^ k) ≤ 1 := by
    rw [div_le_one (by positivity)]
    have : (1 : ℚ) ≤ 10 ^ k := one_le_pow₀ (by norm_num)
    linarith
  have hqx : |q| ≤ |x| + 1 := by
    rw [abs_of_nonneg hq]
    have := le_of_abs_le h3
    linarith
  have hr := rnd_one hqx (by have := abs_nonneg x; linarith)
  have h0 : 0 ≤ rnd q := rnd_nonneg hq
  have hlt : rnd q < 2 ^ 1024 := by
    have h4 := le_of_abs_le hr
    have h5 : (|x| + 1) / 2 ^ 53 ≤ |x| + 1 := div_le_self (by positivity) (by norm_num)
    rw [abs_of_nonneg hq] at hqx
    have h6 : (2 : ℚ) ^ 200 + 2 ^ 200 + 2 < 2 ^ 203 := by norm_num
    have h7 : (2 : ℚ) ^ 203 ≤ 2 ^ 1024 := pow_le_pow_right₀ (by norm_num) (by norm_num)
    generalize (2 : ℚ) ^ 1024 = B at h7 ⊢
    linarith
  refine ⟨rnd q, ⟨h0, rnd_idem q, hlt⟩, ?_, ?_⟩
  · unfold nearestFloat
    rw [dif_pos ⟨h0, rnd_idem q, hlt⟩]
  · calc |rnd q - (|x|)| ≤ |rnd q - q| + |q - (|x|)| := abs_sub_le _ _ _
      _ ≤ _ := by linarith

theorem number_fixed (k : ℕ) (hk : 1 ≤ k) (x : ℚ) (hx : |x| ≤ 2 ^ 200) :
    ∃ y, number (Time.fixedText k x) = some y ∧ |y - x| ≤ 1 / (2 * 10 ^ k) + (|x| + 1) / 2 ^ 53 := by
  obtain ⟨y, ok, h1, h2⟩ := C198_fixed k hk x hx
  unfold number
  rw [h1]
  refine ⟨_, rfl, ?_⟩
  by_cases h : x < 0
  · simp only [h, decide_true, if_true]
    rw [abs_of_neg h] at h2 ⊢
    rw [show -y - x = -(y - -x) by ring, abs_neg]
    exact h2
  · simp only [h, decide_false, Bool.false_eq_true, if_false]
    rw [abs_of_nonneg (not_lt.1 h)] at h2 ⊢
    exact h2

theorem asDouble_eq {q : ℚ} (h : |q| ≤ 2 ^ 200) : asDouble (q : ℝ) = q := by
  unfold asDouble
  have hx : ∃ p : ℚ, (p : ℝ) = q ∧ |p| ≤ 2 ^ 200 := ⟨q, rfl, h⟩
  rw [dif_pos hx]
  exact_mod_cast hx.choose_spec.1

theorem asDouble_le (x : ℝ) : |asDouble x| ≤ 2 ^ 200 := by
  unfold asDouble
  split_ifs with h
  · exact h.choose_spec.2
  · simp

theorem coordinates_read : ∃ r, FmtRead number coordinate r ∧ ∀ q : ℚ, |q| ≤ 8191 → |r q - q| ≤ 1 / 20000 + 1 / 2 ^ 40 := by
  have hr : ∀ x : ℝ, ∃ y, number (coordinate x) = some y ∧ |y - asDouble x| ≤ 1 / (2 * 10 ^ 4) + (|asDouble x| + 1) / 2 ^ 53 :=
    fun x => number_fixed 4 (by norm_num) _ (asDouble_le x)
  choose r h1 h2 using hr
  have hc : ∀ x : ℝ, coordinate x ≠ [] ∧ ∀ c ∈ coordinate x, c.isDigit = true ∨ c ∈ ['.', 'e', 'E', '+', '-'] := by
    intro x
    obtain ⟨u, q, k1, k2, -⟩ := fixed_numeral 4 (by norm_num) (asDouble x)
    obtain ⟨c, s, hu, -⟩ := numeral_head k2
    have hch := numeral_chars k2
    unfold coordinate
    rcases k1 with ⟨e, -⟩ | ⟨e, -⟩ | ⟨e, -⟩ <;> rw [e]
    · exact ⟨by rw [hu]; simp, hch⟩
    all_goals
      refine ⟨by simp, fun c hc => ?_⟩
      rcases List.mem_cons.1 hc with rfl | hc
      · exact .inr (by decide)
      · exact hch c hc
  have hne : ∀ (x : ℝ) (c : Char), (c.isDigit = false ∧ c ∉ ['.', 'e', 'E', '+', '-']) → c ∉ coordinate x := fun x c h hm => by
    rcases (hc x).2 c hm with k | k
    · rw [h.1] at k; cases k
    · exact h.2 k
  refine ⟨r, ⟨fun x => ⟨(hc x).1, fun c hm hw => ?_⟩, fun x h => ?_, fun x h => ?_, h1⟩, fun q hq => ?_⟩
  · refine hne x c ?_ hm
    have hw' : (Char.ofNat c.toNat).toNat ∈ [9, 10, 11, 12, 13, 28, 29, 30, 31, 32, 133, 160] := by rw [Char.ofNat_toNat]; exact hw
    rw [← Char.ofNat_toNat c]
    generalize hn : c.toNat = n at hw ⊢
    unfold White at hw
    rw [hn] at hw
    simp only [List.mem_cons, List.not_mem_nil, or_false] at hw
    rcases hw with rfl | rfl | rfl | rfl | rfl | rfl | rfl | rfl | rfl | rfl | rfl | rfl <;> decide
  · exact hne x '#' (by decide) (List.mem_of_mem_head? h)
  · exact hne x '>' (by decide) (List.mem_of_mem_head? h)
  · have hb : |q| ≤ 2 ^ 200 := hq.trans (by norm_num)
    have := h2 (q : ℝ)
    rw [asDouble_eq hb] at this
    refine this.trans ?_
    have : (|q| + 1) / 2 ^ 53 ≤ 1 / 2 ^ 40 := by
      rw [div_le_div_iff₀ (by norm_num) (by norm_num)]
      nlinarith
    linarith [(by norm_num : (1 : ℚ) / (2 * 10 ^ 4) = 1 / 20000)]

open Verif.Factory Verif.Rup Verif.QuadR in
/-- **C198** (partial), for rupture files. A rupture whose coordinates are floats of at most 8191 is written to a text file and read with `new_format=False` as closed polygons
with the same corners, to half a unit of the fourth decimal and a rounding. -/
theorem C198_rupture_partial (reference : List Char) (href : ∀ c, reference.getLast? = some c → ¬ White c) (qs : List (Quad Point))
    (hq : ∀ q ∈ qs, ∀ p ∈ [q.p0, q.p1, q.p2, q.p3], ∀ x ∈ [p.lon, p.lat, p.depth], ∃ z : ℚ, (z : ℝ) = x ∧ |z| ≤ 8191) :
    ∃ ps, readText number false (writeText coordinate reference qs) = .ok (reference.filter (· ≠ '#'), ps) ∧
      List.Forall₂ (fun (q : Quad Point) (p : List Vert) =>
        List.Forall₂ (fun (c : Point) (v : Vert) => |(v.lon : ℝ) - c.lon| ≤ 1 / 20000 + 1 / 2 ^ 40 ∧
          |(v.lat : ℝ) - c.lat| ≤ 1 / 20000 + 1 / 2 ^ 40 ∧ |(v.depth : ℝ) - c.depth| ≤ 1 / 20000 + 1 / 2 ^ 40)
          [q.p0, q.p1, q.p2, q.p3, q.p0] p) qs ps := by
  obtain ⟨r, hr, hn⟩ := coordinates_read
  refine ⟨_, write_read hr false reference href qs, ?_⟩
  have near : ∀ x : ℝ, (∃ z : ℚ, (z : ℝ) = x ∧ |z| ≤ 8191) → |(r x : ℝ) - x| ≤ 1 / 20000 + 1 / 2 ^ 40 := by
    rintro x ⟨z, rfl, hz⟩
    have := (Rat.cast_le (K := ℝ)).2 (hn z hz)
    rw [Rat.cast_abs] at this
    push_cast at this
    exact this
  rw [List.forall₂_map_right_iff]
  apply List.forall₂_same.2
  intro q hqm
  rw [List.forall₂_map_right_iff]
  apply List.forall₂_same.2
  intro p hp
  have hp' : p ∈ [q.p0, q.p1, q.p2, q.p3] := by
    simp only [List.mem_cons, List.not_mem_nil, or_false] at hp ⊢
    tauto
  simp only [Bool.false_eq_true, if_false]
  exact ⟨near _ (hq q hqm p hp' _ (by simp)), near _ (hq q hqm p hp' _ (by simp)), near _ (hq q hqm p hp' _ (by simp))⟩

open Verif.EventFile Verif.Time in
/-- **C198** (partial), for event files: C117 with the floats of Python. -/
theorem C198_event_partial (e : Event Moment) (hv : ValidTime e.time) (h : 1000 ≤ e.time.year) (hb : ∀ x ∈ [e.lat, e.lon, e.depth, e.mag], |x| ≤ 8191)
    (hk : e.eventType = none ∨ e.eventType = some "ACTUAL" ∨ e.eventType = some "SCENARIO") (hy : e.time.year ∉ [1100, 1500]) (old : Option Attrs) (path : Bool) :
    (writeEvent eventFormats e old).1 = false ∧ ∃ a r, (writeEvent eventFormats e old).2 = some a ∧
      readEvent (eventParsers fun s => number s.toList) path a = .ok r ∧
      r.id = e.id ∧ r.netid = e.netid ∧ r.network = e.network ∧ r.locstring = e.locstring ∧ r.mech = e.mech ∧
      r.reference = e.reference ∧ r.time = { e.time with micro := 0 } ∧
      |r.lat - e.lat| ≤ 1 / 20000 + 1 / 2 ^ 40 ∧ |r.lon - e.lon| ≤ 1 / 20000 + 1 / 2 ^ 40 ∧ |r.depth - e.depth| ≤ 1 / 20 + 1 / 2 ^ 40 ∧
      |r.mag - e.mag| ≤ 1 / 20 + 1 / 2 ^ 40 ∧ r.productcode = (e.productcode.or (if path then some e.id else none)) := by
  have hnum : ∀ k, 1 ≤ k → ∀ x : ℚ, |x| ≤ 8191 → ∃ y, number (String.ofList (fixedText k x)).toList = some y ∧ |y - x| ≤ 1 / (2 * 10 ^ k) + 1 / 2 ^ 40 := by
    intro k hk x hx
    obtain ⟨y, h1, h2⟩ := number_fixed k hk x (hx.trans (by norm_num))
    rw [String.toList_ofList]
    refine ⟨y, h1, h2.trans ?_⟩
    have : (|x| + 1) / 2 ^ 53 ≤ 1 / 2 ^ 40 := by
      rw [div_le_div_iff₀ (by norm_num) (by norm_num)]
      nlinarith
    linarith
  have hf := C194_events_partial plainFloat plainFloat_reads e.time hv h
  have hfull : ∀ s, eventFormats.strf e.time = some s → (eventParsers fun s => number s.toList).full s = none := fun s hs => by
    have := hf.full s hs
    unfold eventParsers at this ⊢
    exact this
  have halt : ∀ s, eventFormats.strf e.time = some s → (eventParsers fun s => number s.toList).alt s = some { e.time with micro := 0 } := fun s hs => by
    have := hf.alt s hs
    unfold eventParsers at this ⊢
    exact this
  have h4 : ∀ x ∈ [e.lat, e.lon], ∃ y, (eventParsers fun s => number s.toList).num (eventFormats.f4 x) = some y ∧ |y - x| ≤ 1 / 20000 + 1 / 2 ^ 40 := by
    intro x hx
    obtain ⟨y, k1, k2⟩ := hnum 4 (by norm_num) x (hb x (by simp at hx ⊢; tauto))
    refine ⟨y, ?_, k2.trans (by norm_num)⟩
    simp only [eventParsers, eventFormats]
    rw [k1]
  have h5 : ∀ x ∈ [e.depth, e.mag], ∃ y, (eventParsers fun s => number s.toList).num (eventFormats.f1 x) = some y ∧ |y - x| ≤ 1 / 20 + 1 / 2 ^ 40 := by
    intro x hx
    obtain ⟨y, k1, k2⟩ := hnum 1 (by norm_num) x (hb x (by simp at hx ⊢; tauto))
    refine ⟨y, ?_, k2.trans (by norm_num)⟩
    simp only [eventParsers, eventFormats]
    rw [k1]
  obtain ⟨n4, hn4⟩ : ∃ n : ℚ → ℚ → Prop, ∀ y x, n y x ↔ |y - x| ≤ 1 / 20000 + 1 / 2 ^ 40 := ⟨_, fun _ _ => Iff.rfl⟩
  obtain ⟨n1, hn1⟩ : ∃ n : ℚ → ℚ → Prop, ∀ y x, n y x ↔ |y - x| ≤ 1 / 20 + 1 / 2 ^ 40 := ⟨_, fun _ _ => Iff.rfl⟩
  simp only [← hn4, ← hn1] at h4 h5 ⊢
  have h3 := (event_back eventFormats (eventParsers fun s => number s.toList) (fun t => { t with micro := 0 }) e n4 n1 h4 h5 hfull halt old path).2.2
  have hw : (writeEvent eventFormats e old).1 = false := by
    rw [← Bool.not_eq_true]
    intro ht
    rcases (C117_python_partial plainFloat plainFloat_reads e hv h old path).1.1 ht with (⟨k, k1, k2, k3⟩ | k)
    · rw [k1] at hk
      rcases hk with hk | hk | hk
      · cases hk
      · exact k2 (Option.some.inj hk)
      · exact k3 (Option.some.inj hk)
    · exact hy k
  refine ⟨hw, ?_⟩
  obtain ⟨a, r, b1, b2, b3, b4, b5, b6, b7, b8, -, b9⟩ := h3 hw
  exact ⟨a, r, b1, b2, b3, b4, b5, b6, b7, b8, b9⟩

open Verif.EventFile in
/-- C198 is violated by texts that are not meant as numbers: in source.txt, digits with an underscore between them are read as one number, digits with an `e` between them as a
float, and the words `nan` and `inf` as floats. -/
theorem C198_code_violated (a b : Text) (ha : Digits a) (hb : Digits b) :
    readValue pyInt number (a ++ '_' :: b) = .int (decimalValue (a ++ b)) ∧ pyInt (a ++ 'e' :: b) = none ∧ (∃ f, pyFloat (a ++ 'e' :: b) = some f) ∧
    pyInt "Nan".toList = none ∧ pyFloat "Nan".toList = some .nan ∧ pyInt "inf".toList = none ∧ pyFloat "inf".toList = some (.inf false) := by
  have hnu : ∀ {x : Text}, Digits x → '_' ∉ x := fun hx hc => absurd (hx.2 _ hc) (by decide)
  refine ⟨?_, ?_, ?_, by decide +kernel, by decide +kernel, by decide +kernel, by decide +kernel⟩
  · have hab : Digits (a ++ b) := ⟨fun h => ha.1 (List.append_eq_nil_iff.1 h).1, fun c hc => (List.mem_append.1 hc).elim (ha.2 c) (hb.2 c)⟩
    have : pyInt (a ++ '_' :: b) = some (decimalValue (a ++ b) : ℤ) := by
      refine (C198_int _ _).2 ⟨[], a ++ '_' :: b, [], a ++ b, false, a ++ b, by simp, by simp [Blanks], by simp [Blanks], ⟨?_, ?_⟩, .inl ⟨rfl, rfl⟩, hab, rfl⟩
      · have h1 := (plain_under (hnu ha)).1
        have h2 := (plain_under (hnu hb)).1
        rw [List.filter_append, List.filter_cons_of_neg (by simp), h1, h2]
      · intro x y hxy
        have hx : x = a ∧ y = b := by
          rcases List.append_eq_append_iff.1 hxy with ⟨z, hz1, hz2⟩ | ⟨z, hz1, hz2⟩
          · rcases z with _ | ⟨c, z⟩
            · simp at hz1 hz2; exact ⟨hz1, hz2.symm⟩
            · simp only [List.cons_append, List.cons.injEq] at hz2
              exact absurd (hz2.2 ▸ by simp) (hnu hb)
          · rcases z with _ | ⟨c, z⟩
            · simp at hz1 hz2; exact ⟨hz1.symm, hz2⟩
            · simp only [List.cons_append, List.cons.injEq] at hz2
              exact absurd (hz1 ▸ hz2.1 ▸ by simp) (hnu ha)
        rw [hx.1, hx.2]
        refine ⟨?_, ?_⟩
        · obtain ⟨c, hc⟩ := Option.ne_none_iff_exists'.1 (mt List.getLast?_eq_none_iff.1 ha.1)
          exact ⟨c, hc, ha.2 c (List.mem_of_getLast? hc)⟩
        · obtain ⟨c, hc⟩ := Option.ne_none_iff_exists'.1 (mt List.head?_eq_none_iff.1 hb.1)
          exact ⟨c, hc, hb.2 c (List.mem_of_mem_head? hc)⟩
    unfold readValue
    rw [this]
  · cases hi : pyInt (a ++ 'e' :: b) with
    | none => rfl
    | some n =>
      exfalso
      obtain ⟨w, m, w', t, neg, u, hs, hw, hw', hm, ht, hu, -⟩ := (C198_int _ _).1 hi
      have he : 'e' ∈ w ++ m ++ w' := hs ▸ by simp
      rcases List.mem_append.1 he with he | he
      · rcases List.mem_append.1 he with he | he
        · exact absurd (hw _ he) (by decide)
        · have het : 'e' ∈ t := by
            rw [← hm.1]
            exact List.mem_filter.2 ⟨he, by decide⟩
          rcases ht with ⟨rfl, -⟩ | ⟨rfl, -⟩ | ⟨rfl, -⟩
          · exact absurd (hu.2 _ het) (by decide)
          all_goals
            rcases List.mem_cons.1 het with h | h
            · exact absurd h (by decide)
            · exact absurd (hu.2 _ h) (by decide)
      · exact absurd (hw' _ he) (by decide)
  · refine ⟨_, read_numeral (neg := false) (u := a ++ 'e' :: b) (.inl ⟨rfl, rfl⟩) ⟨a, [], [], 'e' :: b, decimalValue b, by simp, ?_, ?_, .inl ⟨rfl, rfl⟩,
      .inr ⟨'e', b, false, b, rfl, .inl rfl, .inl ⟨rfl, rfl⟩, hb, rfl⟩, rfl⟩⟩
    · simpa using ha.2
    · simpa using ha.1

/-- Texts that are read, and texts that are refused. -/
example : pyInt " -1_000\n".toList = some (-1000) ∧ pyInt "1__0".toList = none ∧ pyInt "_1".toList = none ∧ pyInt "1.0".toList = none ∧ pyInt "".toList = none ∧
    number "\t34.25 ".toList = some (137 / 4) ∧ number "-.5e1".toList = some (-5) ∧ number "+1.E-1".toList = some (3602879701896397 / 36028797018963968) ∧
    pyFloat "1e999".toList = some (.inf false) ∧ pyFloat "-INFinity".toList = some (.inf true) ∧ pyFloat "1 2".toList = none ∧ pyFloat ".".toList = none ∧
    pyFloat "e5".toList = none ∧ pyFloat "1e".toList = none ∧ pyFloat "1_.5".toList = none ∧ pyFloat "0x10".toList = none ∧
    Time.fixedText 4 (-118 - 1 / 3) = "-118.3333".toList ∧ Digits "2019".toList := by
  refine ⟨by decide +kernel, by decide +kernel, by decide +kernel, by decide +kernel, by decide +kernel, by decide +kernel, by decide +kernel, by decide +kernel,
    by decide +kernel, by decide +kernel, by decide +kernel, by decide +kernel, by decide +kernel, by decide +kernel, by decide +kernel, by decide +kernel, by decide +kernel,
    by simp [Digits]⟩

end Verif.Props
