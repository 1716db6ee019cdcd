import Verif.Model.MapCities

/-!
# City tables with fonts as values, for C202
-/

namespace Verif.Spec
open Verif.Csv Verif.CityHeap Verif.FontCities

/-- An object is its table and, for a `MapCities`, a list of fonts that nothing changes; the lists that a program holds are its own. -/
structure FontValues (V : Type) where
  manager : List Text
  objs : List (Frame V × Option (List Text))
  held : List (List Text)

/-- The steps of a program with such objects, with what it sees. A new object has the fonts known at that moment, in order; a smaller table is of the class of the larger one. -/
inductive FontStep {V : Type} (c : Cells V) : FontValues V → FontCities.Op V → FontValues V → FontCities.Seen V → Prop
  | addFont (s n) : FontStep c s (.addFont n) { s with manager := s.manager ++ [n] } .done
  | cities (s f g) (h : CityHeap.construct f = .ok g) : FontStep c s (.cities f) { s with objs := s.objs ++ [(g, none)] } .done
  | mapCities (s f g l) (h : CityHeap.construct f = .ok g) (hp : l.Perm s.manager) (hs : l.Pairwise (· ≤ ·)) : FontStep c s (.mapCities f) { s with objs := s.objs ++ [(g, some l)] } .done
  | citiesFault (s f e) (h : CityHeap.construct f = .error e) : FontStep c s (.cities f) s (.fault e)
  | mapFault (s f e) (h : CityHeap.construct f = .error e) : FontStep c s (.mapCities f) s (.fault e)
  | limit (s i q f g) (hi : s.objs[i]? = some (f, none)) (h : limited c q f = .ok g) : FontStep c s (.limit i q) { s with objs := s.objs ++ [(g, none)] } .done
  | limitMap (s i q f g m l) (hi : s.objs[i]? = some (f, some m)) (h : limited c q f = .ok g) (hp : l.Perm s.manager) (hs : l.Pairwise (· ≤ ·)) :
      FontStep c s (.limit i q) { s with objs := s.objs ++ [(g, some l)] } .done
  | limitFault (s i q f m e) (hi : s.objs[i]? = some (f, m)) (h : limited c q f = .error e) : FontStep c s (.limit i q) s (.fault e)
  | collision (s i f m) (hi : s.objs[i]? = some (f, some m)) : FontStep c s (.collision i) s .notImplemented
  | noCollision (s i f) (hi : s.objs[i]? = some (f, none)) : FontStep c s (.collision i) s .attribute
  | fontList (s i f m) (hi : s.objs[i]? = some (f, some m)) : FontStep c s (.fontList i) { s with held := s.held ++ [m] } .done
  | noFonts (s i f) (hi : s.objs[i]? = some (f, none)) : FontStep c s (.fontList i) s .attribute
  | edit (s k l m) (hk : s.held[k]? = some m) : FontStep c s (.edit k l) { s with held := s.held.set k l } .done
  | lookFonts (s k m) (hk : s.held[k]? = some m) : FontStep c s (.lookFonts k) s (.fonts m)
  | look (s i f m) (hi : s.objs[i]? = some (f, m)) : FontStep c s (.look i) s (.table f)
  | limitUnbound (s i q) (hi : s.objs[i]? = none) : FontStep c s (.limit i q) s .unbound
  | collisionUnbound (s i) (hi : s.objs[i]? = none) : FontStep c s (.collision i) s .unbound
  | fontUnbound (s i) (hi : s.objs[i]? = none) : FontStep c s (.fontList i) s .unbound
  | lookUnbound (s i) (hi : s.objs[i]? = none) : FontStep c s (.look i) s .unbound
  | editUnbound (s k l) (hk : s.held[k]? = none) : FontStep c s (.edit k l) s .unbound
  | fontsUnbound (s k) (hk : s.held[k]? = none) : FontStep c s (.lookFonts k) s .unbound

/-- All steps. -/
inductive FontRun {V : Type} (c : Cells V) : FontValues V → List (FontCities.Op V) → List (FontCities.Seen V) → Prop
  | nil (s) : FontRun c s [] []
  | cons {s op s' o ops os} (h : FontStep c s op s' o) (hr : FontRun c s' ops os) : FontRun c s (op :: ops) (o :: os)

/-- The program changes no list of fonts. -/
def NoEdits {V : Type} (ops : List (FontCities.Op V)) : Prop := ∀ k l, FontCities.Op.edit k l ∉ ops

end Verif.Spec
