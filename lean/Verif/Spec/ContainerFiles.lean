import Verif.Model.ContainerFiles

/-!
# What a program sees of container files

Everything here is computed from the calls of a program and the results that it got, without looking into files.
-/

namespace Verif.Spec
open Verif.Container

/-- Calls with their results. -/
abbrev Trace (V : Type) := List (WCall V × WOut V)

/-- The calls on the contents of file `p` and their results since it was last created; `none` if it never was. `before` are the files of the objects
made earlier, and `h` the calls found earlier. -/
def historyFrom {V : Type} (p : String) : List String → Option (List (Op V × Out V)) → Trace V → Option (List (Op V × Out V))
  | _, h, [] => h
  | before, h, (.create q, .made _) :: tr => historyFrom p (before ++ [q]) (if q = p then some [] else h) tr
  | before, h, (.load q, .made _) :: tr => historyFrom p (before ++ [q]) h tr
  | before, h, (.op i o, .out r) :: tr => historyFrom p before (if before[i]? = some p then h.map (· ++ [(o, r)]) else h) tr
  | before, h, _ :: tr => historyFrom p before h tr

/-- The calls on the contents of file `p` since it was last created, through any object, with their results. -/
def history {V : Type} (p : String) (tr : Trace V) : Option (List (Op V × Out V)) := historyFrom p [] none tr

end Verif.Spec
