import Verif.Model.Factory

/-!
# The text format of ruptures

What a line stands for and which polygons a list of lines describes. Only vertices are used here, no
function of the model.
-/

namespace Verif.Spec
open Verif.Factory

/-- A white-space character of Latin-1. -/
def White (c : Char) : Prop := c.toNat ∈ [9, 10, 11, 12, 13, 28, 29, 30, 31, 32, 133, 160]

/-- A word: not empty and without white space. -/
def Word (w : List Char) : Prop := w ≠ [] ∧ ∀ c ∈ w, ¬ White c

/-- White space only. -/
def Gap (w : List Char) : Prop := ∀ c ∈ w, White c

/-- What a line can stand for. -/
inductive Kind where
  | nothing
  | reference (text : List Char)
  | separator
  | vertex (a b c : ℚ)

/-- The meaning of a line: white space; `#` and the text of a reference; `>` and anything; three numbers
separated by white space; in the old format, three numbers separated by commas. `num` tells the number that
a text stands for. -/
inductive LineIs (num : List Char → Option ℚ) (old : Prop) : List Char → Kind → Prop where
  | nothing {w} : Gap w → LineIs num old w .nothing
  | reference {w body w'} : Gap w → Gap w' → (∀ c, body.getLast? = some c → ¬ White c) →
      LineIs num old (w ++ '#' :: body ++ w') (.reference (body.filter (· ≠ '#')))
  | separator {w rest} : Gap w → LineIs num old (w ++ '>' :: rest) .separator
  | vertex {w0 a w1 b w2 c w3 x y z} : Gap w0 → Word a → Gap w1 → w1 ≠ [] → Word b → Gap w2 → w2 ≠ [] →
      Word c → Gap w3 → a.head? ≠ some '#' → a.head? ≠ some '>' →
      num a = some x → num b = some y → num c = some z →
      LineIs num old (w0 ++ a ++ w1 ++ b ++ w2 ++ c ++ w3) (.vertex x y z)
  | commas {w0 a b c w3 x y z} : old → Gap w0 → Word a → Word b → Word c → Gap w3 →
      ',' ∉ a → ',' ∉ b → ',' ∉ c → a.head? ≠ some '#' → a.head? ≠ some '>' →
      num (w0 ++ a) = some x → num b = some y → num (c ++ w3) = some z →
      LineIs num old (w0 ++ a ++ ',' :: b ++ ',' :: c ++ w3) (.vertex x y z)

/-- The texts of the references, one after the other. -/
def references : List Kind → List Char
  | [] => []
  | .reference t :: ks => t ++ references ks
  | _ :: ks => references ks

/-- The vertices between the separators; `mkVert` makes a vertex of three numbers. -/
def groups (mkVert : ℚ → ℚ → ℚ → Vert) : List Kind → List (List Vert)
  | [] => [[]]
  | .separator :: ks => [] :: groups mkVert ks
  | .vertex a b c :: ks =>
    match groups mkVert ks with
    | [] => [[mkVert a b c]]
    | g :: gs => (mkVert a b c :: g) :: gs
  | _ :: ks => groups mkVert ks

/-- The polygons: the groups that have vertices. -/
def polygonsOf (mkVert : ℚ → ℚ → ℚ → Vert) (ks : List Kind) : List (List Vert) :=
  (groups mkVert ks).filter (fun g => !g.isEmpty)

end Verif.Spec
