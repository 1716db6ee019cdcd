import Verif.Lemmas.Text
import Mathlib.Data.List.TakeWhile

/-!
# C02, C03: commify
-/

namespace Verif.Props
open Verif Verif.Text Verif.Py

/-- The texts `commify` starts from are the usual decimal texts. -/
theorem C02_input_text (n : ℤ) : Spec.IsIntText n (intStr n) := intStr_isIntText n

/-- C02: for every integer and usable separator, the loop stops with the sign followed by the digits
grouped from the right, and that is the only text it can stop with. -/
theorem C02_commify (sep : List Char) (c : Char) (t : List Char) (hsep : sep = c :: t)
    (hc : ¬ ('0' ≤ c ∧ c ≤ '9')) (n : ℤ) :
    ∃ (sign digits g : List Char), intStr n = sign ++ digits ∧ (sign = [] ∨ sign = ['-']) ∧
      Spec.IsDecimalText n.natAbs digits ∧ Spec.Grouped sep digits g ∧
      ∀ r, CommifyReturns sep (intStr n) r ↔ r = sign ++ g := by
  have hgood : GoodSep sep := by
    refine ⟨c, t, hsep, ?_⟩
    have hc' : ¬ (48 ≤ c.toNat ∧ c.toNat ≤ 57) := hc
    simp only [isDigit, Bool.and_eq_false_iff, decide_eq_false_iff_not]
    omega
  obtain ⟨g, hg, hr⟩ := commifyRun_intStr sep hgood n
  refine ⟨if n < 0 then ['-'] else [], natStr n.natAbs, g, intStr_shape n, by split <;> simp,
    natStr_isDecimalText _, hg, fun r => ⟨fun h => ?_, fun h => ?_⟩⟩
  · exact commifyReturns_unique sep _ r _ h ⟨_, hr⟩
  · subst h; exact ⟨_, hr⟩

/-- Non-vacuity: a seven-digit negative number. -/
example : commifyInt (-1234567) = "-1,234,567".toList := by decide +kernel
example : commifyInt 999 = "999".toList := by decide +kernel

/-- The grouping is unique, so `Grouped` pins the text down. -/
theorem grouped_unique (sep digits g g' : List Char) (h : Spec.Grouped sep digits g)
    (h' : Spec.Grouped sep digits g') : g = g' := by
  have key : ∀ (groups groups' : List (List Char)) (first first' : List Char),
      1 ≤ first.length → first.length ≤ 3 → (∀ x ∈ groups, x.length = 3) →
      1 ≤ first'.length → first'.length ≤ 3 → (∀ x ∈ groups', x.length = 3) →
      first ++ groups.flatten = first' ++ groups'.flatten →
      first = first' ∧ groups = groups' := by
    have len3 : ∀ gs : List (List Char), (∀ x ∈ gs, x.length = 3) →
        gs.flatten.length = 3 * gs.length := by
      intro gs
      induction gs with
      | nil => simp
      | cons a b ih =>
        intro h
        simp only [List.flatten_cons, List.length_append, List.length_cons]
        rw [h a (by simp), ih (fun x hx => h x (by simp [hx]))]
        omega
    have flat : ∀ gs gs' : List (List Char), (∀ x ∈ gs, x.length = 3) → (∀ x ∈ gs', x.length = 3) →
        gs.flatten = gs'.flatten → gs = gs' := by
      intro gs
      induction gs with
      | nil =>
        intro gs' _ h' he
        have := congrArg List.length he
        rw [len3 gs' h'] at this
        simp at this
        exact this.symm
      | cons a b ih =>
        intro gs' h h' he
        cases gs' with
        | nil =>
          have := congrArg List.length he
          rw [len3 _ h] at this
          simp at this
        | cons a' b' =>
          simp only [List.flatten_cons] at he
          have hl : a.length = a'.length := by rw [h a (by simp), h' a' (by simp)]
          obtain ⟨h1, h2⟩ := List.append_inj he hl
          rw [h1, ih b' (fun x hx => h x (by simp [hx])) (fun x hx => h' x (by simp [hx])) h2]
    intro groups groups' first first' a1 a2 a3 b1 b2 b3 he
    have hl := congrArg List.length he
    simp only [List.length_append, len3 _ a3, len3 _ b3] at hl
    have hfl : first.length = first'.length := by omega
    obtain ⟨h1, h2⟩ := List.append_inj he hfl
    exact ⟨h1, flat _ _ a3 b3 h2⟩
  obtain ⟨f, gs, a1, a2, a3, a4, a5⟩ := h
  obtain ⟨f', gs', b1, b2, b3, b4, b5⟩ := h'
  obtain ⟨e1, e2⟩ := key gs gs' f f' a1 a2 a3 b1 b2 b3 (a4 ▸ b4)
  rw [a5, b5, e1, e2]

/-- C02: deleting the separator characters gives the original text back (for separators made of
characters that occur in no number). -/
theorem C02_delete_separators (sep : List Char) (hne : sep ≠ [])
    (hsep : ∀ c ∈ sep, ¬ ('0' ≤ c ∧ c ≤ '9') ∧ c ≠ '-') (n : ℤ) (r : List Char)
    (h : CommifyReturns sep (intStr n) r) :
    r.filter (fun x => !(sep.contains x)) = intStr n := by
  obtain ⟨c, t, hct⟩ := List.exists_cons_of_ne_nil hne
  obtain ⟨sign, digits, g, hi, hsign, hdig, hg, hall⟩ :=
    C02_commify sep c t hct (hsep c (by simp [hct])).1 n
  rw [(hall r).1 h, hi, List.filter_append]
  have hds : ∀ x : Char, '0' ≤ x ∧ x ≤ '9' → (!(sep.contains x)) = true := by
    intro x hx
    simp only [Bool.not_eq_true', List.contains_eq_mem, decide_eq_false_iff_not]
    exact fun hm => (hsep x hm).1 hx
  congr 1
  · rcases hsign with rfl | rfl
    · rfl
    · have : '-' ∉ sep := fun hm => (hsep '-' hm).2 rfl
      simp [this]
  · obtain ⟨first, groups, _, _, h3, h4, h5⟩ := hg
    have hsepnil : sep.filter (fun x => !(sep.contains x)) = [] := by
      rw [List.filter_eq_nil_iff]
      intro x hx
      simp [hx]
    have hd : ∀ x ∈ digits, (!(sep.contains x)) = true := fun x hx => hds x (hdig.1 x hx)
    rw [h5, h4, List.filter_append]
    congr 1
    · rw [List.filter_eq_self]
      exact fun x hx => hd x (by rw [h4]; simp [hx])
    · have hgd : ∀ y ∈ groups, ∀ x ∈ y, (!(sep.contains x)) = true := by
        intro y hy x hx
        exact hd x (by rw [h4]; exact List.mem_append_right _ (List.mem_flatten.2 ⟨y, hy, hx⟩))
      clear h3 h4 h5
      induction groups with
      | nil => rfl
      | cons a b ih =>
        simp only [List.map_cons, List.flatten_cons, List.filter_append, hsepnil, List.nil_append]
        rw [ih (fun y hy => hgd y (by simp [hy])), List.filter_eq_self.2 (hgd a (by simp))]

/-- C03: the loop stops on every text, for every separator that is non-empty and does not start
with a digit. -/
theorem C03_terminates (sep : List Char) (c : Char) (t : List Char) (hsep : sep = c :: t)
    (hc : ¬ ('0' ≤ c ∧ c ≤ '9')) (s : List Char) : ∃ r, CommifyReturns sep s r := by
  have hgood : GoodSep sep := by
    refine ⟨c, t, hsep, ?_⟩
    have hc' : ¬ (48 ≤ c.toNat ∧ c.toNat ≤ 57) := hc
    simp only [isDigit, Bool.and_eq_false_iff, decide_eq_false_iff_not]
    omega
  by_cases h : commifyStep sep s = none
  · exact ⟨s, 1, by simp [commifyRun, h]⟩
  · have hlen : 4 ≤ ((splitSign s).2.takeWhile isDigit).length := by
      by_contra hl
      apply h
      simp only [commifyStep, if_neg hl]
    obtain ⟨sign, body, hsp⟩ : ∃ a b, splitSign s = (a, b) := ⟨_, _, rfl⟩
    rw [hsp] at hlen
    have hshape : s = sign ++ body ∧ (sign = [] ∨ sign = ['-']) := by
      unfold splitSign at hsp
      split at hsp <;> (cases hsp; simp)
    have hbody : body.takeWhile isDigit ++ body.dropWhile isDigit = body :=
      List.takeWhile_append_dropWhile
    have hstop : Stop (body.dropWhile isDigit) := by
      intro d u hd
      have := List.head_dropWhile_not isDigit (l := body) (by rw [hd]; simp)
      simpa [hd] using this
    obtain ⟨g, _, hr⟩ := commifyRun_shape sep hgood sign hshape.2
      ((body.takeWhile isDigit).length + 1) (body.takeWhile isDigit) (body.dropWhile isDigit)
      (fun c hc => by simpa using (List.mem_takeWhile_imp hc))
      (by intro h0; rw [h0] at hlen; simp at hlen) hstop (by omega)
    rw [List.append_assoc, hbody, ← hshape.1] at hr
    exact ⟨_, _, hr⟩

/-- C03: with the empty separator the loop never stops on a number of four or more digits. -/
theorem C03_empty_separator_diverges (n : ℤ) (hn : 1000 ≤ n.natAbs) :
    ∀ r, ¬ CommifyReturns [] (intStr n) r := by
  have hlen : 4 ≤ (natStr n.natAbs).length := by
    rw [natStr_ge (by omega), natStr_ge (by omega), natStr_ge (by omega)]
    have := List.length_pos_iff.2 (natStr_ne_nil (n.natAbs / 10 / 10 / 10))
    simp only [List.length_append, List.length_cons, List.length_nil]
    omega
  have hstep : commifyStep [] (intStr n) = some (intStr n) := by
    have := commifyStep_shape [] (if n < 0 then ['-'] else []) (natStr n.natAbs) []
      (by split <;> simp) (natStr_digits _) (natStr_ne_nil _) (by intro c t h; cases h)
    simp only [List.append_nil, if_pos hlen] at this
    rw [List.append_assoc, List.take_append_drop, ← intStr_shape] at this
    exact this
  rintro r ⟨fuel, hf⟩
  induction fuel with
  | zero => simp [commifyRun] at hf
  | succ fuel ih =>
    unfold commifyRun at hf
    rw [hstep] at hf
    exact ih hf

example : 1000 ≤ (-4321 : ℤ).natAbs := by decide

end Verif.Props
