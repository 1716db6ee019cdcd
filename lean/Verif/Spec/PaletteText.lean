import Verif.Spec.RuptureText
import Verif.Spec.GeoNames

/-!
# The text format of colour palettes

What a line stands for and which numbers stand in a column.
-/

namespace Verif.Spec

/-- What a line of a palette file can stand for. -/
inductive PaletteItem where
  | nothing
  | nanColor (c : List ℤ)
  | name (s : List Char)
  | resolution (r : ℚ)
  | words (ws : List (List Char))
deriving DecidableEq

/-- Words with white space before, between and after them. -/
inductive Spread : List (List Char) → List Char → Prop where
  | nil {w} : Gap w → Spread [] w
  | last {w a w'} : Gap w → Word a → Gap w' → Spread [a] (w ++ a ++ w')
  | cons {w a ws rest} : Gap w → Word a → ws ≠ [] → Spread ws rest → (∀ c, rest.head? = some c → White c) → Spread (a :: ws) (w ++ a ++ rest)

/-- The meaning of a line. A setting is `#$` and a keyword, perhaps more text, a colon and the value; text after a second colon does not
count. -/
inductive PaletteLine (int : List Char → Option ℤ) (num : List Char → Option ℚ) : List Char → PaletteItem → Prop where
  | nothing {w} : Gap w → PaletteLine int num w .nothing
  | comment {w body} : Gap w → (∀ k ∈ ["$nan_color", "$name", "$resolution"], ¬ k.toList <+: body) →
      PaletteLine int num (w ++ '#' :: body) .nothing
  | nanColor {w more v rest w'} {vs : List (List Char)} {cs : List ℤ} : Gap w → Gap w' → ':' ∉ more → ':' ∉ v → (rest = [] ∨ ∃ r, rest = ':' :: r) →
      (∀ c, (':' :: (v ++ rest)).getLast? = some c → ¬ White c) → vs ≠ [] → (∀ x ∈ vs, ',' ∉ x) → v = List.intercalate [','] vs →
      List.Forall₂ (fun x n => int x = some n) vs cs →
      PaletteLine int num (w ++ "#$nan_color".toList ++ more ++ ':' :: v ++ rest ++ w') (.nanColor cs)
  | name {w more v rest t} : Gap w → ':' ∉ more → ':' ∉ v → (rest = [] ∨ ∃ r, rest = ':' :: r) → TrimsTo v t →
      PaletteLine int num (w ++ "#$name".toList ++ more ++ ':' :: v ++ rest) (.name t)
  | resolution {w more v rest t r} : Gap w → ':' ∉ more → ':' ∉ v → (rest = [] ∨ ∃ r, rest = ':' :: r) → TrimsTo v t → num t = some r →
      PaletteLine int num (w ++ "#$resolution".toList ++ more ++ ':' :: v ++ rest) (.resolution r)
  | words {ws s tail} : ws ≠ [] → Spread ws s → (∀ w ∈ ws, '#' ∉ w) → (tail = [] ∨ ∃ r, tail = '#' :: r) →
      PaletteLine int num (s ++ tail) (.words ws)

/-- The last of the values that a file sets, or else the given one. -/
def lastSet {α : Type} (f : PaletteItem → Option α) (d : α) (items : List PaletteItem) : α := (items.filterMap f).getLast?.getD d

/-- The rows of words of a file, the header first. -/
def tableRows (items : List PaletteItem) : List (List (List Char)) :=
  items.filterMap fun | .words ws => some ws | _ => none

/-- `xs` are the numbers under the first heading `k`. -/
def IsColumn (num : List Char → Option ℚ) (header : List (List Char)) (rows : List (List (List Char))) (k : String) (xs : List ℚ) : Prop :=
  ∃ i : ℕ, header[i]? = some k.toList ∧ (∀ j < i, header[j]? ≠ some k.toList) ∧
    List.Forall₂ (fun (r : List (List Char)) x => ∃ w, r[i]? = some w ∧ num w = some x) rows xs

end Verif.Spec
