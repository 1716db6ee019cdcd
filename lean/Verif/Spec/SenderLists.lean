import Verif.Model.SenderLists

/-!
# Programs that leave the lists of the classes alone, for C206
-/

namespace Verif.Spec
open Verif.Sender

/-- The list that an action changes. -/
def changedBy : ListAct → Option ℕ
  | .append a _ => some a
  | .remove a _ => some a
  | _ => none

/-- The names that the documentation of the classes gives for the required properties. -/
def documented : Class → List String
  | .copySender => ["remote_directory"]
  | .ftpSender => ["remote_directory", "remote_host"]
  | .pdlSender => ["java", "jarfile", "privatekey", "configfile", "source", "type", "code", "eventsource", "eventsourcecode"]
  | .emailSender => ["smtp_servers", "sender", "subject", "recipients", "message"]
  | .secureSender => ["private_key", "remote_host", "remote_directory"]

/-- `a` is the list that a sender of class `c` hands out in the state `w`. -/
def HandedOut (w : Lists) (c : Class) (a : ℕ) : Prop := (listStep w (.getRequired c)).2 = .list a ∨ (listStep w (.getOptional c)).2 = .list a

end Verif.Spec
