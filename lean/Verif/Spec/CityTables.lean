import Verif.Model.CityTables

/-!
# City tables as values, for C193
-/

namespace Verif.Spec
open Verif.Csv Verif.CityHeap

/-- The second table has exactly the rows of the first one at the positions where `keep` holds, in their order, with their labels and with the values in all the
columns except those that are `lost`. -/
def KeepsRows {V : Type} (f g : Frame V) (keep : ℕ → Prop) (lost : Csv.Text → Prop) : Prop :=
  ∃ is : List ℕ, is.Pairwise (· < ·) ∧ (∀ i, i ∈ is ↔ i < f.index.length ∧ keep i) ∧
    List.Forall₂ (fun i l => f.index[i]? = some l) is g.index ∧
    (∀ n, lost n → n ∉ g.columns) ∧
    ∀ n, ¬ lost n → (n ∈ g.columns ↔ n ∈ f.columns) ∧
      ∀ vs, f.col n = some vs → ∃ ws, g.col n = some ws ∧ List.Forall₂ (fun i w => vs[i]? = some w) is ws

/-- The row at place `i` is one that the limit asks for: strictly above the lower bounds and not above the upper ones; within the radius of the point; of that population or more;
with the name in it. -/
def AskedFor {V : Type} (c : Cells V) (f : Frame V) : Limit → ℕ → Prop
  | .bounds xmin xmax ymin ymax, i => ∃ lats lons y x, f.col "lat".toList = some lats ∧ f.col "lon".toList = some lons ∧ lats[i]? = some y ∧ lons[i]? = some x ∧
      c.gt y ymin = true ∧ c.le y ymax = true ∧ c.gt x xmin = true ∧ c.le x xmax = true
  | .radius lat lon r, i => ∃ lats lons y x, f.col "lat".toList = some lats ∧ f.col "lon".toList = some lons ∧ lats[i]? = some y ∧ lons[i]? = some x ∧ c.le (c.dist lon lat x y) r = true
  | .population pop _, i => ∃ pops p, f.col "pop".toList = some pops ∧ pops[i]? = some p ∧ c.ge p pop = true
  | .name n, i => ∃ names v, f.col "name".toList = some names ∧ names[i]? = some v ∧ c.contains n v = true

/-- The limits that can be asked of a table: by population only where there is such a column, and with the smaller number second. -/
def CanAsk {V : Type} (f : Frame V) : Limit → Prop
  | .population pop minpop => "pop".toList ∈ f.columns ∧ minpop < pop
  | _ => True

/-- The columns that a limit loses. -/
def Lost : Limit → Csv.Text → Prop
  | .radius .., n => n = "dist".toList
  | _, _ => False

/-- A program whose tables are values: data frames and `Cities` objects by number. Arrays are copies, so that writing into them changes nothing else. -/
structure Values (V : Type) where
  dfs : List (Frame V)
  objs : List (Frame V)
  arrays : ℕ

/-- One step. -/
def valueStep {V : Type} (c : Cells V) (s : Values V) : Op V → Values V × Seen V
  | .frame f => ({ s with dfs := s.dfs ++ [f] }, .done)
  | .change k f => if k < s.dfs.length then ({ s with dfs := s.dfs.set k f }, .done) else (s, .unbound)
  | .cities k =>
    match s.dfs[k]? with
    | some f =>
      match construct f with
      | .ok g => ({ s with objs := s.objs ++ [g] }, .done)
      | .error e => (s, .fault e)
    | none => (s, .unbound)
  | .limit i q =>
    match s.objs[i]? with
    | some f =>
      match limited c q f with
      | .ok g => ({ s with objs := s.objs ++ [g] }, .done)
      | .error e => (s, .fault e)
    | none => (s, .unbound)
  | .dataFrame i =>
    match s.objs[i]? with
    | some f => ({ s with dfs := s.dfs ++ [f] }, .done)
    | none => (s, .unbound)
  | .project i =>
    match s.objs[i]? with
    | some f =>
      match projected c f with
      | .ok g => ({ s with objs := s.objs.set i g }, .done)
      | .error e => (s, .fault e)
    | none => (s, .unbound)
  | .arrays i => if i < s.objs.length then ({ s with arrays := s.arrays + 1 }, .done) else (s, .unbound)
  | .write k _ _ => if k < s.arrays then (s, .done) else (s, .unbound)
  | .lookFrame k =>
    match s.dfs[k]? with
    | some f => (s, .table f)
    | none => (s, .unbound)
  | .look i =>
    match s.objs[i]? with
    | some f => (s, .table f)
    | none => (s, .unbound)

/-- All steps. -/
def valueRun {V : Type} (c : Cells V) : Values V → List (Op V) → List (Seen V)
  | _, [] => []
  | s, op :: ops => (valueStep c s op).2 :: valueRun c (valueStep c s op).1 ops

/-- Nothing is written into the arrays of `getCities`. -/
def NoWrites {V : Type} (ops : List (Op V)) : Prop := ∀ k name values, Op.write k name values ∉ ops

end Verif.Spec
