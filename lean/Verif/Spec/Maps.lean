import Verif.Model.Container

/-!
# Five independent write-once maps

What a caller may expect of a container, told without files and groups: for every kind there is a
map from names to values.
-/

namespace Verif.Spec
open Verif.Container

/-- For every kind, the values by name. -/
abbrev Maps (V : Type) := Kind → String → Option V

/-- No kind holds anything. -/
def Maps.empty {V : Type} : Maps V := fun _ _ => none

/-- A name that is not a path: no slash, not empty, not the dot. -/
def PlainName (n : String) : Prop := '/' ∉ n.toList ∧ n ≠ "" ∧ n ≠ "."

/-- All names in a call are plain. -/
def PlainOp {V : Type} : Op V → Prop
  | .set _ n _ => PlainName n
  | .get _ n => PlainName n
  | .drop _ n => PlainName n
  | .list _ => True

variable {V : Type}

/-- The maps after a call. `store k v` is what `v` reads back as once written (`none`: it cannot be
written). Only a set of a free name and a drop change anything, and only at that kind and name. -/
def next (store : Kind → V → Option V) (m : Maps V) : Op V → Maps V
  | .set k n v => fun k' n' =>
      if k' = k ∧ n' = n ∧ m k n = none then store k v else m k' n'
  | .drop k n => fun k' n' => if k' = k ∧ n' = n then none else m k' n'
  | _ => m

/-- What a call may show. -/
def Shows (store : Kind → V → Option V) (m : Maps V) : Op V → Out V → Prop
  | .set k n v, out =>
      (store k v = none → out = .error .typeError) ∧
      (store k v ≠ none → m k n = none → out = .done) ∧
      (store k v ≠ none → m k n ≠ none → out = .error .exists)
  | .get k n, out =>
      (∀ v, m k n = some v → out = .value v) ∧
      (m k n = none → out = .error .lookupError ∨ out = .error .keyError)
  | .drop k n, out =>
      (m k n ≠ none → out = .done) ∧
      (m k n = none → out = .error .lookupError ∨ out = .error .keyError)
  | .list k, out => ∃ ns, out = .names ns ∧ ns.Pairwise (· < ·) ∧ ∀ n, n ∈ ns ↔ m k n ≠ none

/-- Every outcome of a history is what the maps allow. -/
def Agrees (store : Kind → V → Option V) : Maps V → List (Op V) → List (Out V) → Prop
  | _, [], outs => outs = []
  | m, op :: ops, outs => ∃ o os, outs = o :: os ∧ Shows store m op o ∧
      Agrees store (next store m op) ops os

end Verif.Spec
