import Mathlib.Data.Nat.Notation

/-!
# What UTF-8 is

The encoding of a character is the one of Lean's own library.
-/

namespace Verif.Spec

/-- The bytes of a text. -/
def utf8Bytes (t : List Char) : List ℕ := (t.flatMap String.utf8EncodeChar).map UInt8.toNat

/-- Bytes that are a text. -/
def ValidUtf8 (b : List ℕ) : Prop := ∃ t, utf8Bytes t = b

/-- A Python string of characters only. -/
def points (t : List Char) : List ℕ := t.map Char.toNat

/-- Bytes. -/
def IsBytes (b : List ℕ) : Prop := ∀ x ∈ b, x < 256

/-- A Python string: code points. -/
def IsStr (s : List ℕ) : Prop := ∀ c ∈ s, c < 0x110000

end Verif.Spec
