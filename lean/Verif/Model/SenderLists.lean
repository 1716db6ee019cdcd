import Verif.Model.Sender

/-!
# The lists of names of properties (impactutils/transfer/sender.py)

`getRequiredProperties` and `getOptionalProperties` return the list of the class, not a copy. Lists are kept on a heap by identity.
-/

namespace Verif.Sender

/-- The lists of the program; the first ten are those of the classes. -/
structure Lists where
  heap : ℕ → List String
  next : ℕ

/-- `_optional_properties` of each class (copysender.py:44, ftpsender.py:54, pdlsender.py:62-63, emailsender.py:114, securesender.py:48, all in
impactutils/transfer). -/
def optional : Class → List String
  | .copySender => []
  | .ftpSender => ["user", "password"]
  | .pdlSender => ["latitude", "longitude", "depth", "magnitude", "eventtime"]
  | .emailSender => ["zip_file", "max_bcc"]
  | .secureSender => []

/-- The number of a class. -/
def Class.num : Class → ℕ
  | .copySender => 0
  | .ftpSender => 1
  | .pdlSender => 2
  | .emailSender => 3
  | .secureSender => 4

/-- The identity of `_required_properties` of a class (impactutils/transfer/sender.py:139). -/
def requiredAt (c : Class) : ℕ := c.num

/-- The identity of `_optional_properties` of a class (impactutils/transfer/sender.py:147). -/
def optionalAt (c : Class) : ℕ := 5 + c.num

/-- The lists when the modules have been imported. -/
def imported : Lists where
  heap a := if a < 5 then (([.copySender, .ftpSender, .pdlSender, .emailSender, .secureSender] : List Class).map required).getD a []
    else (([.copySender, .ftpSender, .pdlSender, .emailSender, .secureSender] : List Class).map optional).getD (a - 5) []
  next := 10

/-- What a program does with senders and lists. -/
inductive ListAct where
  /-- the constructor of a class, with a dictionary that has these keys and neither files nor a directory -/
  | create (c : Class) (keys : List String)
  /-- `getRequiredProperties` of a sender of the class -/
  | getRequired (c : Class)
  /-- `getOptionalProperties` of a sender of the class -/
  | getOptional (c : Class)
  /-- `list(xs)` -/
  | copyList (a : ℕ)
  /-- `xs.append(name)` -/
  | append (a : ℕ) (name : String)
  /-- `xs.remove(name)` -/
  | remove (a : ℕ) (name : String)

/-- The answers. -/
inductive ListAns where
  | created
  | refused
  | list (a : ℕ)
  | done
  | valueError
deriving DecidableEq

/-- One step: the constructor reads the list of the class (impactutils/transfer/sender.py:49-53), the methods return it
(impactutils/transfer/sender.py:133-147); the others are operations of Python. -/
def listStep (w : Lists) : ListAct → Lists × ListAns
  | .create c keys => (w, if (w.heap (requiredAt c)).all (fun p => decide (p ∈ keys)) then .created else .refused)
  | .getRequired c => (w, .list (requiredAt c))
  | .getOptional c => (w, .list (optionalAt c))
  | .copyList a => (⟨Function.update w.heap w.next (w.heap a), w.next + 1⟩, .list w.next)
  | .append a n => ({ w with heap := Function.update w.heap a (w.heap a ++ [n]) }, .done)
  | .remove a n => if n ∈ w.heap a then ({ w with heap := Function.update w.heap a ((w.heap a).erase n) }, .done) else (w, .valueError)

/-- A history. -/
def listRun (w : Lists) : List ListAct → Lists
  | [] => w
  | x :: xs => listRun (listStep w x).1 xs

end Verif.Sender
