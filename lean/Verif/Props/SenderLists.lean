import Verif.Spec.SenderLists

/-!
# C206: the lists of names of properties
-/

namespace Verif.Props
open Verif.Sender Verif.Spec

namespace SLists

theorem run_append (w : Lists) (xs ys : List ListAct) : listRun w (xs ++ ys) = listRun (listRun w xs) ys := by
  induction xs generalizing w with
  | nil => rfl
  | cons x xs ih => exact ih _

theorem num_lt (c : Class) : c.num < 5 := by cases c <;> decide

/-- A list that exists and that no action changes. -/
theorem kept : ∀ (acts : List ListAct) (w : Lists) (a : ℕ), a < w.next → (∀ x ∈ acts, changedBy x ≠ some a) →
    (listRun w acts).heap a = w.heap a ∧ w.next ≤ (listRun w acts).next := by
  intro acts
  induction acts with
  | nil => intro w a _ _; exact ⟨rfl, le_rfl⟩
  | cons x xs ih =>
    intro w a ha h
    have hx := h x (by simp)
    have key : (listStep w x).1.heap a = w.heap a ∧ w.next ≤ (listStep w x).1.next := by
      cases x with
      | create c keys => exact ⟨rfl, le_rfl⟩
      | getRequired c => exact ⟨rfl, le_rfl⟩
      | getOptional c => exact ⟨rfl, le_rfl⟩
      | copyList b => exact ⟨Function.update_of_ne (by omega) _ _, Nat.le_succ _⟩
      | append b n => exact ⟨Function.update_of_ne (fun e => hx (by rw [e]; rfl)) _ _, le_rfl⟩
      | remove b n =>
        dsimp only [listStep]
        split
        · exact ⟨Function.update_of_ne (fun e => hx (by rw [e]; rfl)) _ _, le_rfl⟩
        · exact ⟨rfl, le_rfl⟩
    obtain ⟨i1, i2⟩ := ih (listStep w x).1 a (by omega) (fun y hy => h y (by simp [hy]))
    exact ⟨i1.trans key.1, key.2.trans i2⟩

theorem imported_required (c : Class) : imported.heap (requiredAt c) = documented c := by cases c <;> decide
theorem imported_optional (c : Class) : imported.heap (optionalAt c) = optional c := by cases c <;> decide

end SLists
open SLists

/-- C206: as long as no program changes a list that a sender handed out (copies may be changed), a sender can be made exactly with all the documented properties, and the
lists that are handed out hold the documented names. -/
theorem C206_untouched_partial (acts : List ListAct) (h : ∀ x ∈ acts, ∀ c a, HandedOut imported c a → changedBy x ≠ some a) (c : Class) (keys : List String) :
    (listStep (listRun imported acts) (.create c keys)).2 = (if ∀ p ∈ documented c, p ∈ keys then .created else .refused) ∧
    (∃ a, (listStep (listRun imported acts) (.getRequired c)).2 = .list a ∧ (listRun imported acts).heap a = documented c) := by
  have hl : requiredAt c < imported.next := by have := num_lt c; show c.num < 10; omega
  have e : (listRun imported acts).heap (requiredAt c) = documented c := by
    rw [(kept acts imported (requiredAt c) hl (fun x hx => h x hx c _ (.inl rfl))).1, imported_required]
  refine ⟨?_, requiredAt c, rfl, e⟩
  simp only [listStep, e, List.all_eq_true, decide_eq_true_eq]

/-- C206: a copy of a list that was handed out is another list: after any history its first contents are those of the original, and changing it changes no list that
existed before. -/
theorem C206_copy (acts more : List ListAct) (a : ℕ) :
    ∃ b, (listStep (listRun imported acts) (.copyList a)).2 = .list b ∧
      (listStep (listRun imported acts) (.copyList a)).1.heap b = (listRun imported acts).heap a ∧
      ((∀ x ∈ more, ∀ d, changedBy x = some d → d = b) →
        ∀ d, d < (listRun imported acts).next → (listRun (listStep (listRun imported acts) (.copyList a)).1 more).heap d = (listRun imported acts).heap d) := by
  refine ⟨(listRun imported acts).next, rfl, Function.update_self _ _ _, fun h d hd => ?_⟩
  have := (kept more (listStep (listRun imported acts) (.copyList a)).1 d (by show d < _ + 1; omega) (fun x hx e => by
    have := h x hx d e
    omega)).1
  rw [this]
  exact Function.update_of_ne (by omega) _ _

/-- C206: whatever is done to the lists of one class, the senders of another are not affected. -/
theorem C206_class (acts : List ListAct) (c : Class) (h : ∀ x ∈ acts, ∀ a, changedBy x = some a → HandedOut imported c a) (d : Class) (hd : d ≠ c) (keys : List String) :
    (listStep (listRun imported acts) (.create d keys)).2 = (if ∀ p ∈ documented d, p ∈ keys then .created else .refused) := by
  have hl : requiredAt d < imported.next := by have := num_lt d; show d.num < 10; omega
  have e : (listRun imported acts).heap (requiredAt d) = documented d := by
    rw [(kept acts imported (requiredAt d) hl (fun x hx e => by
      have h1 : d.num ≠ c.num := by cases c <;> cases d <;> first | exact absurd rfl hd | decide
      have h2 := num_lt d
      rcases h x hx _ e with k | k
      · have : c.num = d.num := by simpa [listStep, requiredAt] using k
        omega
      · have : 5 + c.num = d.num := by simpa [listStep, requiredAt, optionalAt] using k
        omega)).1, imported_required]
  simp only [listStep, e, List.all_eq_true, decide_eq_true_eq]

/-- C206 fails for lists that are handed out: they are those of the class. A program that removes a name from the list it was given makes the constructor accept
senders without that property; one that adds a name makes it refuse senders that have all the documented ones. -/
theorem C206_shared_violated :
    (∃ a, HandedOut imported .copySender a ∧
      (listStep (listRun imported [.remove a "remote_directory"]) (.create .copySender [])).2 = .created) ∧
    (∀ c : Class, ∃ a, HandedOut imported c a ∧ ∀ name, name ∉ documented c →
      (listStep (listRun imported [.append a name]) (.create c (documented c))).2 = .refused) := by
  refine ⟨⟨0, .inl rfl, by decide⟩, fun c => ⟨requiredAt c, .inl rfl, fun name hn => ?_⟩⟩
  have e : (listRun imported [.append (requiredAt c) name]).heap (requiredAt c) = documented c ++ [name] := by
    show Function.update imported.heap (requiredAt c) (imported.heap (requiredAt c) ++ [name]) (requiredAt c) = _
    rw [Function.update_self, imported_required]
  simp only [listStep, e]
  rw [if_neg]
  simp [hn]

/-- A program that takes the list of a sender, copies it and changes the copy. -/
example : (∀ x ∈ [ListAct.getRequired .ftpSender, .copyList 1, .append 10 "port"], ∀ c a, HandedOut imported c a → changedBy x ≠ some a) ∧
    (listRun imported [.getRequired .ftpSender, .copyList 1, .append 10 "port"]).heap 10 = ["remote_directory", "remote_host", "port"] := by
  refine ⟨?_, by decide⟩
  intro x hx c a ha
  simp only [List.mem_cons, List.not_mem_nil, or_false] at hx
  rcases hx with rfl | rfl | rfl
  · simp [changedBy]
  · simp [changedBy]
  · simp only [changedBy, ne_eq, Option.some.injEq]
    rintro rfl
    have := num_lt c
    rcases ha with k | k
    · have : c.num = 10 := by simpa [listStep, requiredAt] using k
      omega
    · have : 5 + c.num = 10 := by simpa [listStep, optionalAt] using k
      omega

end Verif.Props
