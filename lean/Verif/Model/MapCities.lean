import Verif.Model.CityTables
import Mathlib.Data.List.Lex
import Mathlib.Data.Char

/-!
# City tables with fonts (impactutils/mapping/mapcity.py)

`MapCities` is a subclass of `Cities`: the methods of `Verif.CityHeap` make objects of the class they are called on. Every object has a sorted list of the fonts that matplotlib knows at that
moment, and hands out that list itself.
-/

namespace Verif.FontCities
open Verif.Csv Verif.CityHeap

variable {V : Type}

/-- An object: whether it is a `MapCities`, its table, and, for a `MapCities`, where its list of fonts is. -/
structure Object (V : Type) where
  table : Frame V
  fonts : Option ℕ

/-- The fonts that matplotlib knows, the objects of the program, the lists of fonts, and the variables of the program that hold such a list. -/
structure World (V : Type) where
  manager : List Text
  objs : List (Object V)
  lists : List (List Text)
  held : List ℕ

/-- What a program does. -/
inductive Op (V : Type) where
  /-- a font is added to matplotlib -/
  | addFont (name : Text)
  /-- `Cities(df)`, `MapCities(df)` -/
  | cities (f : Frame V)
  | mapCities (f : Frame V)
  /-- `obj.limitBy...(...)` -/
  | limit (i : ℕ) (q : Limit)
  /-- `obj.limitByMapCollision()` -/
  | collision (i : ℕ)
  /-- `fonts = obj.getFontList()` -/
  | fontList (i : ℕ)
  /-- changes a list, looks at a list -/
  | edit (k : ℕ) (l : List Text)
  | lookFonts (k : ℕ)
  /-- `len(obj)`, `obj.getDataFrame()` -/
  | look (i : ℕ)

/-- What it sees. -/
inductive Seen (V : Type) where
  | done
  | fault (e : Fault)
  | notImplemented
  | attribute
  | fonts (l : List Text)
  | table (f : Frame V)
  | unbound

/-- `list.sort()` of texts (impactutils/mapping/mapcity.py:50). -/
def sorted (l : List Text) : List Text := l.mergeSort fun a b => decide (a ≤ b)

/-- `type(self)(newdf)` (impactutils/mapping/city.py:43-69 and impactutils/mapping/mapcity.py:15-50) for a table that is accepted. -/
def World.new (w : World V) (isMap : Bool) (f : Frame V) : World V :=
  if isMap then { w with objs := w.objs ++ [⟨f, some w.lists.length⟩], lists := w.lists ++ [sorted w.manager] }
  else { w with objs := w.objs ++ [⟨f, none⟩] }

/-- The constructors (impactutils/mapping/city.py:67-69, impactutils/mapping/mapcity.py:45-50). -/
def World.construct (w : World V) (isMap : Bool) (f : Frame V) : World V × Seen V :=
  match CityHeap.construct f with
  | .ok g => (w.new isMap g, .done)
  | .error e => (w, .fault e)

/-- One step (impactutils/mapping/city.py:43-343, impactutils/mapping/mapcity.py:15-67). -/
def step (c : Cells V) (w : World V) : Op V → World V × Seen V
  | .addFont n => ({ w with manager := w.manager ++ [n] }, .done)
  | .cities f => w.construct false f
  | .mapCities f => w.construct true f
  | .limit i q =>
    match w.objs[i]? with
    | some o =>
      match limited c q o.table with
      | .ok g => (w.new o.fonts.isSome g, .done)
      | .error e => (w, .fault e)
    | none => (w, .unbound)
  | .collision i =>
    match w.objs[i]? with
    | some o => (w, if o.fonts.isSome then .notImplemented else .attribute)
    | none => (w, .unbound)
  | .fontList i =>
    match w.objs[i]? with
    | some o =>
      match o.fonts with
      | some a => ({ w with held := w.held ++ [a] }, .done)
      | none => (w, .attribute)
    | none => (w, .unbound)
  | .edit k l =>
    match w.held[k]? with
    | some a => ({ w with lists := w.lists.set a l }, .done)
    | none => (w, .unbound)
  | .lookFonts k =>
    match w.held[k]? with
    | some a => (w, .fonts (w.lists.getD a []))
    | none => (w, .unbound)
  | .look i =>
    match w.objs[i]? with
    | some o => (w, .table o.table)
    | none => (w, .unbound)

/-- All steps. -/
def run (c : Cells V) : World V → List (Op V) → List (Seen V)
  | _, [] => []
  | w, op :: ops => (step c w op).2 :: run c (step c w op).1 ops

/-- The state after some steps. -/
def after (c : Cells V) : World V → List (Op V) → World V
  | w, [] => w
  | w, op :: ops => after c (step c w op).1 ops

end Verif.FontCities
