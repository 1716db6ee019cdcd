import Verif.Model.ComcatDoc

/-!
# Documents, for C192
-/

namespace Verif.Spec
open Verif.Docs

/-- What a document has under these keys, one below the other. -/
def under : Doc → List String → Option Doc
  | d, [] => some d
  | .dict ps, k :: ks =>
    match ps.lookup k.toList with
    | some d => under d ks
    | none => none
  | _, _ :: _ => none

mutual
/-- A reference shows a value in memory. -/
def Displays (h : Heap) : Ref → Doc → Prop
  | r, .atom a => r = .atom a
  | r, .list xs => ∃ n rs, r = .addr n ∧ h[n]? = some (.list rs) ∧ DisplaysItems h rs xs
  | r, .dict ps => ∃ n rs, r = .addr n ∧ h[n]? = some (.dict rs) ∧ DisplaysMembers h rs ps
/-- Item by item. -/
def DisplaysItems (h : Heap) : List Ref → List Doc → Prop
  | [], [] => True
  | r :: rs, d :: ds => Displays h r d ∧ DisplaysItems h rs ds
  | _, _ => False
/-- Item by item, with the same keys. -/
def DisplaysMembers (h : Heap) : List (Text × Ref) → List (Text × Doc) → Prop
  | [], [] => True
  | p :: rs, q :: ds => p.1 = q.1 ∧ Displays h p.2 q.2 ∧ DisplaysMembers h rs ds
  | _, _ => False
end

/-- A number, a text, a truth value or null. -/
def ScalarDoc (d : Doc) : Prop := ∃ a, d = .atom a

/-- An event document has no lists or dictionaries where a place, a number or an address belongs. -/
structure EventScalars (d : Doc) : Prop where
  place : ∀ v, under d ["properties", "place"] = some v → ScalarDoc v
  tsunami : ∀ v, under d ["properties", "tsunami"] = some v → ScalarDoc v
  url : ∀ v, under d ["properties", "url"] = some v → ScalarDoc v
  mag : ∀ v, under d ["properties", "mag"] = some v → ScalarDoc v
  coordinates : ∀ vs, under d ["geometry", "coordinates"] = some (.list vs) → ∀ v ∈ vs, ScalarDoc v
  grid : ∀ m ms v, under d ["properties", "products", "shakemap"] = some (.list (m :: ms)) →
    under m ["contents", "download/grid.xml", "url"] = some v → ScalarDoc v

/-- A regions document has no lists or dictionaries where the network and its type belong. -/
structure RegionScalars (d : Doc) : Prop where
  network : ∀ f fs v, under d ["authoritative", "features"] = some (.list (f :: fs)) → under f ["properties", "network"] = some v → ScalarDoc v
  type : ∀ f fs v, under d ["authoritative", "features"] = some (.list (f :: fs)) → under f ["properties", "type"] = some v → ScalarDoc v

/-- A call of a method gives these values. -/
def Gives {Q : Type} (object : Heap → Q → Heap × Except Err (List Ref)) (w : World) (q : Q) (ds : List Doc) : Prop :=
  ∃ rs, (object w.heap q).2 = .ok rs ∧ DisplaysItems (object w.heap q).1 rs ds

/-- A call of a method ends in this exception. -/
def GivesError {Q : Type} (object : Heap → Q → Heap × Except Err (List Ref)) (w : World) (q : Q) (e : Err) : Prop :=
  (object w.heap q).2 = .error e

end Verif.Spec
