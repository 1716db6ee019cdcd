import Verif.Model.Text
import Verif.Spec.Grouping
import Mathlib.Tactic.Linarith

/-!
# Helper lemmas for the text model
-/

namespace Verif.Text
open Verif Verif.Py

theorem digitChar_spec : ∀ d < 10, isDigit (digitChar d) = true ∧ (digitChar d).toNat - 48 = d ∧
    '0' ≤ digitChar d ∧ digitChar d ≤ '9' ∧ (digitChar d = '0' ↔ d = 0) := by
  decide

theorem natStr_lt {n : ℕ} (h : n < 10) : natStr n = [digitChar n] := by
  rw [natStr]; simp [h]

theorem natStr_ge {n : ℕ} (h : ¬ n < 10) :
    natStr n = natStr (n / 10) ++ [digitChar (n % 10)] := by
  rw [natStr]; simp [h]

theorem natStr_isDecimalText (n : ℕ) : Spec.IsDecimalText n (natStr n) := by
  induction n using Nat.strong_induction_on with
  | _ n ih =>
    by_cases h : n < 10
    · rw [natStr_lt h]
      have := digitChar_spec n h
      refine ⟨by simpa using ⟨this.2.2.1, this.2.2.2.1⟩, by simp [Spec.decimalValue, this.2.1],
        by simp, by simp⟩
    · rw [natStr_ge h]
      obtain ⟨h1, h2, h3, h4⟩ := ih (n / 10) (by omega)
      have hd := digitChar_spec (n % 10) (by omega)
      refine ⟨?_, ?_, by simp, ?_⟩
      · intro c hc
        rcases List.mem_append.1 hc with hc | hc
        · exact h1 c hc
        · simp only [List.mem_singleton] at hc; subst hc; exact ⟨hd.2.2.1, hd.2.2.2.1⟩
      · unfold Spec.decimalValue at h2 ⊢
        rw [List.foldl_append, h2]
        simp only [List.foldl_cons, List.foldl_nil, hd.2.1]
        omega
      · intro hh
        exfalso
        have h5 : (natStr (n / 10)).head? = some '0' := by
          cases hx : natStr (n / 10) with
          | nil => exact absurd hx h3
          | cons a t => rw [hx] at hh; simpa using hh
        have h6 := h4 h5
        rw [h6] at h2
        simp [Spec.decimalValue] at h2
        omega

theorem natStr_digits (n : ℕ) : ∀ c ∈ natStr n, isDigit c = true := by
  intro c hc
  obtain ⟨ha, hb⟩ := (natStr_isDecimalText n).1 c hc
  have ha' : 48 ≤ c.toNat := ha
  have hb' : c.toNat ≤ 57 := hb
  simp [isDigit, ha', hb']

theorem natStr_ne_nil (n : ℕ) : natStr n ≠ [] := (natStr_isDecimalText n).2.2.1

theorem decimalValue_natStr (n : ℕ) : Spec.decimalValue (natStr n) = n :=
  (natStr_isDecimalText n).2.1

theorem natStr_injective : Function.Injective natStr := by
  intro a b h
  rw [← decimalValue_natStr a, ← decimalValue_natStr b, h]

theorem intStr_isIntText (n : ℤ) : Spec.IsIntText n (intStr n) := by
  unfold intStr
  by_cases h : n < 0
  · right
    refine ⟨h, natStr n.natAbs, by simp [h], ?_⟩
    rw [show (-n).toNat = n.natAbs by omega]
    exact natStr_isDecimalText _
  · left
    refine ⟨by omega, ?_⟩
    rw [if_neg h, show n.toNat = n.natAbs by omega]
    exact natStr_isDecimalText _

theorem isDigit_dash : isDigit '-' = false := by decide

/-- A separator the loop can use: non-empty and not starting with a digit. -/
def GoodSep (sep : List Char) : Prop := ∃ c t, sep = c :: t ∧ isDigit c = false

/-- The tail after the digit run starts with a non-digit (or is empty). -/
def Stop (tail : List Char) : Prop := ∀ c t, tail = c :: t → isDigit c = false

theorem takeWhile_append_stop {run tail : List Char} (h : ∀ c ∈ run, isDigit c = true)
    (ht : Stop tail) :
    (run ++ tail).takeWhile isDigit = run ∧ (run ++ tail).dropWhile isDigit = tail := by
  induction run with
  | nil =>
    cases tail with
    | nil => simp
    | cons c t => have := ht c t rfl; simp [this]
  | cons c t ih =>
    have hc := h c (by simp)
    have := ih (fun x hx => h x (by simp [hx]))
    simp [hc, this.1, this.2]

theorem splitSign_digits {run tail : List Char} (h : ∀ c ∈ run, isDigit c = true) (hr : run ≠ []) :
    splitSign (run ++ tail) = ([], run ++ tail) := by
  cases run with
  | nil => exact absurd rfl hr
  | cons c t =>
    have hc := h c (by simp)
    have : c ≠ '-' := by rintro rfl; simp [isDigit_dash] at hc
    simp only [List.cons_append]
    unfold splitSign
    split
    · rename_i heq
      simp only [List.cons.injEq] at heq
      exact absurd heq.1 this
    · rfl

theorem splitSign_dash (t : List Char) : splitSign ('-' :: t) = (['-'], t) := rfl

/-- The shape all texts met by the loop have. -/
theorem commifyStep_shape (sep sign run tail : List Char) (hs : sign = [] ∨ sign = ['-'])
    (h : ∀ c ∈ run, isDigit c = true) (hr : run ≠ []) (ht : Stop tail) :
    commifyStep sep (sign ++ run ++ tail) =
      if 4 ≤ run.length then
        some (sign ++ run.take (run.length - 3) ++ sep ++ run.drop (run.length - 3) ++ tail)
      else none := by
  have hsp : splitSign (sign ++ run ++ tail) = (sign, run ++ tail) := by
    rcases hs with rfl | rfl
    · simpa using splitSign_digits h hr
    · simp [splitSign_dash]
  unfold commifyStep
  rw [hsp]
  simp only [(takeWhile_append_stop h ht).1, (takeWhile_append_stop h ht).2]

theorem stop_sep {sep : List Char} (hs : GoodSep sep) (x : List Char) : Stop (sep ++ x) := by
  obtain ⟨c, t, rfl, hc⟩ := hs
  intro d u hd
  simp only [List.cons_append, List.cons.injEq] at hd
  rw [← hd.1]; exact hc

/-- The loop, run on a sign, a digit run and a tail, groups the run and stops. -/
theorem commifyRun_shape (sep : List Char) (hsep : GoodSep sep) (sign : List Char)
    (hs : sign = [] ∨ sign = ['-']) :
    ∀ (fuel : ℕ) (run tail : List Char), (∀ c ∈ run, isDigit c = true) → run ≠ [] → Stop tail →
      run.length < 3 * fuel + 1 →
      ∃ g, Spec.Grouped sep run g ∧ commifyRun sep fuel (sign ++ run ++ tail) = some (sign ++ g ++ tail) := by
  intro fuel
  induction fuel with
  | zero =>
    intro run tail h hr ht hl
    exfalso
    have := List.length_pos_iff.2 hr
    omega
  | succ fuel ih =>
    intro run tail h hr ht hl
    have hpos := List.length_pos_iff.2 hr
    unfold commifyRun
    rw [commifyStep_shape sep sign run tail hs h hr ht]
    by_cases h4 : 4 ≤ run.length
    · simp only [if_pos h4]
      have hd : ∀ c ∈ run.take (run.length - 3), isDigit c = true :=
        fun c hc => h c (List.mem_of_mem_take hc)
      have hne : run.take (run.length - 3) ≠ [] := by
        intro h0
        have := congrArg List.length h0
        simp at this
        omega
      obtain ⟨g, hg, hrun⟩ := ih (run.take (run.length - 3))
        (sep ++ run.drop (run.length - 3) ++ tail) hd hne
        (by rw [List.append_assoc]; exact stop_sep hsep _) (by simp; omega)
      refine ⟨g ++ sep ++ run.drop (run.length - 3), ?_, ?_⟩
      · obtain ⟨first, groups, h1, h2, h3, h5, h6⟩ := hg
        refine ⟨first, groups ++ [run.drop (run.length - 3)], h1, h2, ?_, ?_, ?_⟩
        · intro x hx
          rcases List.mem_append.1 hx with hx | hx
          · exact h3 x hx
          · simp only [List.mem_singleton] at hx; subst hx; simp; omega
        · simp only [List.flatten_append, List.flatten_cons, List.flatten_nil, List.append_nil]
          rw [← List.append_assoc, ← h5, List.take_append_drop]
        · rw [h6]; simp
      · simpa using hrun
    · simp only [if_neg h4]
      exact ⟨run, ⟨run, [], by omega, by omega, by simp, by simp, by simp⟩, rfl⟩

theorem commifyRun_mono (sep : List Char) : ∀ (fuel : ℕ) (s r : List Char),
    commifyRun sep fuel s = some r → ∀ k, commifyRun sep (fuel + k) s = some r := by
  intro fuel
  induction fuel with
  | zero => intro s r h; simp [commifyRun] at h
  | succ fuel ih =>
    intro s r h k
    rw [show fuel + 1 + k = (fuel + k) + 1 by omega]
    unfold commifyRun at h ⊢
    cases hst : commifyStep sep s with
    | none => simpa [hst] using h
    | some s' =>
      simp only [hst] at h ⊢
      exact ih s' r h k

theorem commifyReturns_unique (sep s r r' : List Char) (h : CommifyReturns sep s r)
    (h' : CommifyReturns sep s r') : r = r' := by
  obtain ⟨f, hf⟩ := h
  obtain ⟨f', hf'⟩ := h'
  have a := commifyRun_mono sep f s r hf f'
  have b := commifyRun_mono sep f' s r' hf' f
  rw [Nat.add_comm f' f, a] at b
  exact Option.some.inj b

/-- Text of an integer as sign and digit run. -/
theorem intStr_shape (n : ℤ) : intStr n = (if n < 0 then ['-'] else []) ++ natStr n.natAbs := by
  unfold intStr; split <;> simp

theorem commifyRun_intStr (sep : List Char) (hsep : GoodSep sep) (n : ℤ) :
    ∃ g, Spec.Grouped sep (natStr n.natAbs) g ∧
      commifyRun sep ((intStr n).length + 1) (intStr n) =
        some ((if n < 0 then ['-'] else []) ++ g) := by
  obtain ⟨g, hg, hr⟩ := commifyRun_shape sep hsep (if n < 0 then ['-'] else [])
    (by split <;> simp) ((intStr n).length + 1) (natStr n.natAbs) []
    (natStr_digits _) (natStr_ne_nil _) (by intro c t h; cases h)
    (by rw [intStr_shape]; simp; split <;> simp <;> omega)
  refine ⟨g, hg, ?_⟩
  simp only [List.append_nil] at hr
  rw [← intStr_shape] at hr
  exact hr

theorem goodSep_comma : GoodSep [','] := ⟨',', [], rfl, by decide⟩

theorem commifyInt_spec (n : ℤ) : ∃ g, Spec.Grouped [','] (natStr n.natAbs) g ∧
    commifyInt n = (if n < 0 then ['-'] else []) ++ g := by
  obtain ⟨g, hg, hr⟩ := commifyRun_intStr [','] goodSep_comma n
  exact ⟨g, hg, by unfold commifyInt; rw [hr]; rfl⟩

end Verif.Text
