import Verif.Model.Email

/-!
# What it means that mail arrives
-/

namespace Verif.Spec
open Verif.Email

/-- Number of copies an address received. -/
def copies (ds : List Delivery) (x : Address) : ℕ := (ds.map fun d => d.1.count x).sum

/-- A server that takes a message for all addresses and ends the session properly, or does not take it
at all. -/
def Clean (addresses : List Address) (s : Session) : Prop :=
  (s.returned = true ∧ s.delivered = addresses ∧ s.quit = true) ∨
  (s.returned = false ∧ s.delivered = [])

/-- All servers are like that, for every message. -/
def CleanNet (net : ℕ → List Address → List Session) : Prop :=
  ∀ k as, ∀ s ∈ net k as, Clean as s

end Verif.Spec
