import Verif.Spec.ContainerFiles
import Verif.Props.Container

/-!
# C177: containers and their files
-/

namespace Verif.Props
open Verif Verif.Hdf Verif.Container Verif.Spec

variable {V B : Type}

/-- The file after calls. -/
def finalTree (c : Codec V B) (t : Tree B) (ops : List (Op V)) : Tree B := ops.foldl (fun t o => (step c t o).1) t

theorem run_snoc (c : Codec V B) (ops : List (Op V)) (o : Op V) : ∀ t, run c t (ops ++ [o]) = run c t ops ++ [(step c (finalTree c t ops) o).2] := by
  induction ops with
  | nil => intro t; rfl
  | cons a ops ih =>
    intro t
    simp only [List.cons_append, run]
    rw [ih]
    rfl

/-- What is known of a file: it holds what the calls since its creation left, and their results are those of one container that was never closed. -/
def Holds (c : Codec V B) (file : Option (Tree B)) (h : Option (List (Op V × Out V))) : Prop :=
  match h with
  | none => file = none
  | some l => file = some (finalTree c .nil (l.map Prod.fst)) ∧ run c .nil (l.map Prod.fst) = l.map Prod.snd

theorem wrun_holds (c : Codec V B) (p : String) (xs : List (WCall V)) : ∀ (w : World B) (h : Option (List (Op V × Out V))),
    Holds c (w.files p) h → 
    Holds c ((wrun c w xs).2.files p) (historyFrom p (w.objs.map Prod.fst) h (xs.zip (wrun c w xs).1)) := by
  induction xs with
  | nil => intro w h hh; exact hh
  | cons x xs ih =>
    intro w h hh
    simp only [wrun, List.zip_cons_cons]
    cases x with
    | create q =>
      simp only [wstep, wcreate]
      split
      · exact ih w h hh
      · simp only [historyFrom]
        have := ih ⟨Function.update w.files q (some .nil), w.objs ++ [(q, true)]⟩ (if q = p then some [] else h) (by
          by_cases hq : q = p
          · subst hq
            simp [Holds, finalTree, run]
          · simp only [if_neg hq]
            rw [Function.update_of_ne (Ne.symm hq)]
            exact hh)
        simpa using this
    | load q =>
      simp only [wstep, wload]
      split
      · exact ih w h hh
      · simp only [historyFrom]
        simpa using ih ⟨w.files, w.objs ++ [(q, true)]⟩ h hh
    | close i =>
      simp only [wstep, wclose]
      split
      · exact ih w h hh
      · rename_i q b hi
        simp only [historyFrom]
        have := ih ⟨w.files, w.objs.set i (q, false)⟩ h hh
        have e : (w.objs.set i (q, false)).map Prod.fst = w.objs.map Prod.fst := by
          rw [List.map_set]
          apply List.ext_getElem?
          intro j
          rw [List.getElem?_set]
          split
          · rename_i hij
            subst hij
            simp [hi]
            by_contra hlt
            rw [List.getElem?_eq_none (by omega)] at hi
            exact absurd hi (by simp)
          · rfl
        rw [e] at this
        exact this
    | fileName i =>
      simp only [wstep, wname]
      split
      · exact ih w h hh
      · split <;> exact ih w h hh
    | op i o =>
      simp only [wstep, wop]
      split
      · exact ih w h hh
      · rename_i q b hi
        split
        · split
          · exact ih w h hh
          · rename_i t ht
            simp only [historyFrom]
            have hq : (w.objs.map Prod.fst)[i]? = some q := by simp [hi]
            rw [hq]
            by_cases hqp : q = p
            · subst hqp
              have hnew : Holds c ((Function.update w.files q (some (step c t o).1)) q) (h.map (· ++ [(o, (step c t o).2)])) := by
                cases h with
                | none =>
                  simp only [Holds] at hh
                  rw [hh] at ht
                  exact absurd ht (by simp)
                | some l =>
                  simp only [Holds] at hh
                  rw [hh.1] at ht
                  have ht' := Option.some.inj ht
                  simp only [Holds, Option.map_some, List.map_append, List.map_cons, List.map_nil, Function.update_self]
                  refine ⟨?_, ?_⟩
                  · rw [← ht']
                    simp [finalTree]
                  · rw [run_snoc, hh.2, ht']
              simpa using ih ⟨Function.update w.files q (some (step c t o).1), w.objs⟩ _ hnew
            · rw [if_neg (by simpa using hqp)]
              refine ih ⟨Function.update w.files q (some (step c t o).1), w.objs⟩ h ?_
              show Holds c (Function.update w.files q _ p) h
              rw [Function.update_of_ne (Ne.symm hqp)]
              exact hh
        · exact ih w h hh

/-- A program starts with no objects, and here with no files. -/
def noFiles : World B := ⟨fun _ => none, []⟩

/-- **C177**. Whatever a program does, with any number of files and objects: the calls on the contents of a file since its creation, through any objects and over any
number of closings and loadings, have the results of one container that stays open; no other file matters. -/
theorem C177_persistent (c : Codec V B) (xs : List (WCall V)) (p : String) (h : List (Op V × Out V))
    (hh : history p (xs.zip (wrun c noFiles xs).1) = some h) : run c .nil (h.map Prod.fst) = h.map Prod.snd := by
  have := wrun_holds c p xs noFiles none rfl
  unfold history at hh
  rw [show (noFiles : World B).objs.map Prod.fst = [] from rfl, hh] at this
  exact this.2

theorem wrun_append (c : Codec V B) (xs ys : List (WCall V)) : ∀ w : World B,
    wrun c w (xs ++ ys) = ((wrun c w xs).1 ++ (wrun c (wrun c w xs).2 ys).1, (wrun c (wrun c w xs).2 ys).2) := by
  induction xs with
  | nil => intro w; rfl
  | cons x xs ih =>
    intro w
    simp only [List.cons_append, wrun]
    rw [ih]

/-- **C177**. After any history, loading a file succeeds exactly if the file was created. -/
theorem C177_load (c : Codec V B) (xs : List (WCall V)) (p : String) :
    ((wstep c (wrun c noFiles xs).2 (.load p)).2 = .osError ↔ history p (xs.zip (wrun c noFiles xs).1) = none) ∧
    ((wstep c (wrun c noFiles xs).2 (.load p)).2 = .made (wrun c noFiles xs).2.objs.length ↔
      history p (xs.zip (wrun c noFiles xs).1) ≠ none) := by
  have := wrun_holds c p xs noFiles none rfl
  rw [show (noFiles : World B).objs.map Prod.fst = [] from rfl] at this
  change Holds c _ (history p _) at this
  generalize history p (xs.zip (wrun c noFiles xs).1) = h at *
  generalize (wrun c noFiles xs).2 = w at *
  simp only [wstep, wload]
  cases h with
  | none =>
    simp only [Holds] at this
    rw [this]
    simp
  | some l =>
    simp only [Holds] at this
    rw [this.1]
    simp

/-- **C177**. A container that is closed answers nothing and changes nothing, for ever: no call makes it open again. -/
theorem C177_closed (c : Codec V B) (w : World B) (i : ℕ) (path : String) (hi : w.objs[i]? = some (path, false)) (xs : List (WCall V)) (o : Op V) :
    wstep c (wrun c w xs).2 (.op i o) = ((wrun c w xs).2, .closed) ∧ (wstep c (wrun c w xs).2 (.fileName i)).2 = .closed := by
  have key : (wrun c w xs).2.objs[i]? = some (path, false) := by
    induction xs generalizing w with
    | nil => exact hi
    | cons x xs ih =>
      simp only [wrun]
      refine ih _ ?_
      have hlt : i < w.objs.length := by
        by_contra hn
        rw [List.getElem?_eq_none (by omega)] at hi
        exact absurd hi (by simp)
      have happ : ∀ z, (w.objs ++ [z])[i]? = some (path, false) := fun z => by rw [List.getElem?_append_left hlt]; exact hi
      cases x with
      | create q => simp only [wstep, wcreate]; split <;> [exact hi; exact happ _]
      | load q => simp only [wstep, wload]; split <;> [exact hi; exact happ _]
      | close j =>
        simp only [wstep, wclose]
        split
        · exact hi
        · rename_i q b hj
          show (w.objs.set j (q, false))[i]? = _
          rw [List.getElem?_set]
          split
          · rename_i hji
            subst hji
            rw [hi] at hj
            have := Option.some.inj hj
            simp only [Prod.mk.injEq] at this
            simp [hlt, this.1]
          · exact hi
      | fileName j => exact hi
      | op j o =>
        simp only [wstep, wop]
        split
        · exact hi
        · split
          · split <;> exact hi
          · exact hi
  generalize (wrun c w xs).2 = w' at *
  constructor
  · simp only [wstep, wop, key]
    simp
  · simp only [wstep, wname, key]
    simp

/-- **C177**. Creating a file that is not open empties it, whatever it held; a file that is open is refused and kept. -/
theorem C177_create (c : Codec V B) (w : World B) (p : String) :
    (wstep c w (.create p) = (w, .osError) ∧ ∃ i : ℕ, w.objs[i]? = some (p, true)) ∨
    ((∀ i : ℕ, w.objs[i]? ≠ some (p, true)) ∧ (wstep c w (.create p)).2 = .made w.objs.length ∧
      (wstep c w (.create p)).1.files p = some .nil ∧ ∀ q, q ≠ p → (wstep c w (.create p)).1.files q = w.files q) := by
  simp only [wstep, wcreate]
  split
  · rename_i h
    left
    refine ⟨rfl, ?_⟩
    simp only [World.isOpen, List.any_eq_true, Bool.and_eq_true, beq_iff_eq] at h
    obtain ⟨⟨q, b⟩, hm, rfl, hb⟩ := h
    obtain ⟨i, hi, he⟩ := List.getElem_of_mem hm
    refine ⟨i, ?_⟩
    rw [List.getElem?_eq_getElem hi, he]
    simp_all
  · rename_i h
    right
    refine ⟨fun i hi => h ?_, rfl, by simp, fun q hq => Function.update_of_ne hq _ _⟩
    simp only [World.isOpen, List.any_eq_true, Bool.and_eq_true, beq_iff_eq]
    exact ⟨(p, true), List.mem_of_getElem? hi, rfl, rfl⟩

/-- Two files, of which one is closed and loaded again. -/
example : (wrun plainCodec noFiles [.create "a", .create "b", .op 0 (.set .dict "x" 1), .op 1 (.set .dict "x" 2), .close 0, .op 0 (.get .dict "x"), .create "b",
    .load "a", .op 2 (.get .dict "x"), .op 2 (.set .dict "x" 3), .load "c", .close 2, .create "a", .op 3 (.get .dict "x"), .fileName 3]).1 =
    [.made 0, .made 1, .out .done, .out .done, .done, .closed, .osError, .made 2, .out (.value 1), .out (.error .exists), .osError, .done, .made 3,
      .out (.error .keyError), .name "a"] ∧
    (history "a" (([.create "a", .op 0 (.set .dict "x" 1), .close 0, .load "a", .op 1 (.get .dict "x")] : List (WCall ℕ)).zip
      (wrun plainCodec noFiles [.create "a", .op 0 (.set .dict "x" 1), .close 0, .load "a", .op 1 (.get .dict "x")]).1)).map (·.map Prod.snd) =
      some [.done, .value 1] := by decide +kernel

end Verif.Props
