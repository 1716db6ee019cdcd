import Verif.Model.EventXml

/-!
# Texts in event files
-/

namespace Verif.Spec
open Verif.EventFile

/-- All the texts that an event gives to its file: what is not a number, and the time and the numbers as they are formatted. -/
def eventTexts {T : Type} (f : Formats T) (e : Event T) : List String :=
  [e.id, e.netid, e.network, e.locstring, f.f4 e.lat, f.f4 e.lon, f.f1 e.depth, f.f1 e.mag] ++ (f.strf e.time).toList ++ e.mech.toList ++
    e.reference.toList ++ e.productcode.toList

/-- A character that XML allows (the production `Char` of XML 1.0): not a control character other than tab, line feed and carriage return, and
not U+FFFE or U+FFFF. -/
def Allowed (c : Char) : Prop := c.toNat ∈ [9, 10, 13] ∨ 32 ≤ c.toNat ∧ c.toNat ≠ 65534 ∧ c.toNat ≠ 65535

/-- `ref` gives references, decimal or hexadecimal, that a reader of XML understands. -/
def Refs (ref : Char → List Char) : Prop :=
  ∀ c : Char, 128 ≤ c.toNat → Allowed c → EventXml.readRef (ref c) = some c ∧ ';' ∉ ref c ∧ '>' ∉ ref c ∧ '\r' ∉ ref c ∧
    ∀ d ∈ ref c, d.toNat < 128

end Verif.Spec
