import Verif.Model.MapWorld

/-!
# What should stand on the axes of a program, for C196
-/

namespace Verif.Spec
open Verif.Cities Verif.Collision Verif.MapWorld

/-- A label for each city, and before it a dot if dots are wanted. -/
def cityMarks (dots : Bool) (t : Table) : List Mark :=
  t.rows.flatMap fun c => if dots then [.dot c.lon c.lat, .label c.name c.lon c.lat] else [.label c.name c.lon c.lat]

/-- What an event puts on axes `a` by the caller's own hand. -/
def ownHand (a : ℕ) : Event → List Mark
  | .typed b mark => if b = a then [mark] else []
  | _ => []

/-- What an event puts on the axes `a` of map `k`: the caller's own marks and the cities that this map's `drawCities` returned. -/
def onMap (k a : ℕ) : Event → List Mark
  | .typed b mark => if b = a then [mark] else []
  | .drawn j dots t => if j = k then cityMarks dots t else []
  | _ => []

/-- What was drawn on axes. -/
def World.marks (w : World) (a : ℕ) : List Mark := (w.axes[a]?.map Prod.snd).getD []

/-- The figure of axes. -/
def World.figureOf (w : World) (a : ℕ) : Option ℕ := w.axes[a]?.map Prod.fst

/-- The axes exist and each has a figure of its own. -/
def OwnFigures (w : World) (l : List ℕ) : Prop := (∀ a ∈ l, (World.figureOf w a).isSome) ∧ (l.map (World.figureOf w)).Nodup

/-- The table has what a map needs. -/
def Drawable (t : Table) : Prop := "name" ∈ t.columns ∧ "lat" ∈ t.columns ∧ "lon" ∈ t.columns ∧ "pop" ∈ t.columns

end Verif.Spec
