import Verif.Spec.FtpDelivery

/-!
# FTP transfers that are interrupted and repeated, for C211
-/

namespace Verif.Spec
open Verif.Fs Verif.Sender Verif.Ftp

/-- `s` is a state of the server that calls of `send`, starting from `fs`, can leave behind: in each of them any commands
may fail, connections may be lost in the middle of a command, and the program may be cut off at any moment. The local
files are those of `l` in every call; their listing order and the pieces of transfers may differ, and so may the
directory in which a connection starts. -/
inductive FtpTries (l : Local) (cfg : Config) (fs : FS) : FS → Prop where
  | start : FtpTries l cfg fs fs
  | again {s s' : FS} (fault : Faults) (l' : Local) (hl : l'.Ok) (hfs : l'.fs = l.fs) (hcwd : l'.cwd = l.cwd) (cwd : Path) (n : ℕ)
      (h : FtpTries l cfg fs s)
      (hv : s' ∈ (Ftp.send fault l' cfg ⟨s, [], cwd, n⟩).conn.trace ∨ s' = (Ftp.send fault l' cfg ⟨s, [], cwd, n⟩).conn.fs) : FtpTries l cfg fs s'

end Verif.Spec
