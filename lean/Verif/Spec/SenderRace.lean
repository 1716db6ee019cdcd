import Verif.Spec.Delivery
import Verif.Model.SenderRace

/-!
# Vocabulary for senders at work at the same time
-/

namespace Verif.Spec
open Verif.Fs Verif.Sender Verif.Race

/-- The remote directory of a call of `send`. -/
def remoteOf (t : Proc) : Path := resolve t.cwd t.cfg.remote

/-- The file whose presence marks a cancelled delivery. -/
def markerOf (t : Proc) : Path := remoteOf t ++ [t.cfg.cancelFile]

/-- Senders that are each in order (see `Ordinary`), and together as well: nothing that is to be sent lies in a remote
directory, no remote directory in a local one, and nobody sends a file that would be the cancel file of another. -/
structure Apart (fs : FS) (ts : List Proc) : Prop where
  ordinary : ∀ t ∈ ts, Ordinary t.cwd t.cfg fs
  folders : ∀ t ∈ ts, ∀ t' ∈ ts, ∀ d, t.cfg.localDir = some d →
    ¬ remoteOf t' <+: resolve t.cwd d ∧ ¬ resolve t.cwd d <+: remoteOf t'
  files : ∀ t ∈ ts, ∀ t' ∈ ts, ∀ f ∈ t.cfg.localFiles, ¬ remoteOf t' <+: resolve t.cwd f
  markers : ∀ t ∈ ts, ∀ t' ∈ ts, ∀ b, ¬ Sends t.cwd t.cfg fs (markerOf t') b

/-- The file that an operation writes or renames. -/
def written : Instr → Option Path
  | .prim (.create p) => some p
  | .prim (.append p _) => some p
  | .prim (.rename p _) => some p
  | _ => none

/-- The temporary files that a process is working on. -/
def inUse (t : Proc) : List Path := t.code.filterMap written

/-- Whenever a process begins to write a temporary file, no other process is working on a file of that name. -/
def OwnNames (env : Env) : World → List (ℕ × Text) → Prop
  | _, [] => True
  | w, x :: xs =>
    (∀ (t : Proc) file target rest, w.procs[x.1]? = some t → t.code = .copy file target :: rest → isFile w.fs (resolve t.cwd file) →
      ∀ (j : ℕ) (t' : Proc), j ≠ x.1 → w.procs[j]? = some t' → resolve t.cwd (tempName x.2 target) ∉ inUse t') ∧
    OwnNames env (step env w x) xs

/-- The clock of a schedule shows digits only (`%Y%m%d%H%M%S`). -/
def Clock (schedule : List (ℕ × Text)) : Prop := ∀ x ∈ schedule, ∀ c ∈ x.2, c.isDigit

/-- All calls to `send` have not begun. -/
def AtStart (ts : List Proc) : Prop := ∀ t ∈ ts, t = start t.cwd t.cfg

/-- Nobody sends different contents to one place. -/
def Agree (fs : FS) (ts : List Proc) : Prop :=
  ∀ t ∈ ts, ∀ t' ∈ ts, ∀ q b b', Sends t.cwd t.cfg fs q b → Sends t'.cwd t'.cfg fs q b' → b = b'

/-- No two senders send a file to the same place. -/
def DifferentPlaces (fs : FS) (ts : List Proc) : Prop :=
  ∀ (i j : ℕ) (t t' : Proc), i ≠ j → ts[i]? = some t → ts[j]? = some t' → ∀ q b b', Sends t.cwd t.cfg fs q b → ¬ Sends t'.cwd t'.cfg fs q b'

end Verif.Spec
