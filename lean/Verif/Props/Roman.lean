import Verif.Model.Text
import Verif.Spec.Roman

/-!
# C01: Roman numerals
-/

namespace Verif.Props
open Verif Verif.Text

/-- Every number below 4000 (the whole finite domain, evaluated by the kernel). -/
theorem roman_table_split : ∀ a < 40, ∀ b < 100,
    (decToRomanAux 1000 (100 * a + b) [] decimalDens romanDens).toOption =
        some (Spec.Roman.canonical (100 * a + b)) ∧
      Spec.Roman.read (Spec.Roman.canonical (100 * a + b)) = ((100 * a + b : ℕ) : ℤ) := by
  decide +kernel

/-- `roman_table_split` with a single index. -/
theorem roman_table (n : ℕ) (h : n < 4000) :
    (decToRomanAux 1000 n [] decimalDens romanDens).toOption = some (Spec.Roman.canonical n) ∧
      Spec.Roman.read (Spec.Roman.canonical n) = n := by
  have := roman_table_split (n / 100) (by omega) (n % 100) (by omega)
  rwa [Nat.div_add_mod] at this

/-- C01: `dec_to_roman` raises ValueError exactly outside 1..3999. -/
theorem C01_error_iff (dec : ℤ) :
    decToRoman dec = .error .valueError ↔ dec ≤ 0 ∨ 4000 ≤ dec := by
  unfold decToRoman
  by_cases h : dec ≤ 0
  · simp [h]
  by_cases h2 : dec ≥ 4000
  · simp [h2]
  have h3 := (roman_table dec.toNat (by omega)).1
  rw [if_neg h, if_neg h2]
  constructor
  · intro h4; rw [h4] at h3; simp [Except.toOption] at h3
  · intro h4; omega

/-- C01: for every other integer the canonical numeral is returned, and reading it back with the
subtractive rule gives the input. -/
theorem C01_roman (dec : ℤ) (h0 : 0 < dec) (h1 : dec < 4000) :
    ∃ s, decToRoman dec = .ok s ∧ s = Spec.Roman.canonical dec.toNat ∧ Spec.Roman.read s = dec := by
  have h3 := roman_table dec.toNat (by omega)
  refine ⟨Spec.Roman.canonical dec.toNat, ?_, rfl, ?_⟩
  · unfold decToRoman
    rw [if_neg (by omega), if_neg (by omega)]
    revert h3
    cases decToRomanAux 1000 dec.toNat [] decimalDens romanDens <;> simp [Except.toOption]
    intro h _; exact h
  · rw [h3.2]; omega

/-- Distinct numbers have distinct numerals. -/
theorem C01_injective (a b : ℤ) (s : List Char) (ha : decToRoman a = .ok s)
    (hb : decToRoman b = .ok s) : a = b := by
  have key : ∀ x, decToRoman x = .ok s → Spec.Roman.read s = x := by
    intro x hx
    have hn : ¬ (x ≤ 0 ∨ 4000 ≤ x) := by
      rw [← C01_error_iff, hx]; simp
    obtain ⟨t, ht, _, hr⟩ := C01_roman x (by omega) (by omega)
    rw [hx] at ht
    cases ht
    exact hr
  rw [← key a ha, ← key b hb]

/-- Non-vacuity of `C01_roman` and `C01_injective`. -/
example : decToRoman 1994 = .ok ['M', 'C', 'M', 'X', 'C', 'I', 'V'] := by decide +kernel
example : decToRoman 4000 = .error .valueError := by decide +kernel

end Verif.Props
