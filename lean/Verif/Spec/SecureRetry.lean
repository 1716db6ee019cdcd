import Verif.Spec.Remote

/-!
# Secure transfers that are interrupted and repeated, for C212
-/

namespace Verif.Spec
open Verif.Fs Verif.Sender Verif.Secure

/-- `s` is a state of the remote machine that calls of `send`, starting from `rem`, can leave behind when in each of them
commands and uploads may fail, and the program may be cut off at any moment. The local files `loc` are the same in every
call; time stamps, listing orders and the ways in which the machine fails may differ. -/
inductive SecureTries (home : Text) (cwd : Path) (c : Config) (loc rem : FS) : FS → Prop where
  | start : SecureTries home cwd c loc rem rem
  | again {s s' : FS} (env : Env) (henv : env.Ok) (m : Machine) (hm : Unix home m) (h : SecureTries home cwd c loc rem s)
      (hv : Visits (Secure.send env m cwd loc c s) s') : SecureTries home cwd c loc rem s'

end Verif.Spec
