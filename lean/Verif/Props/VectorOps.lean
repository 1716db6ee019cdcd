import Verif.Model.VectorOps
import Mathlib.Tactic.NormNum

/-!
# C174: vectors take part in operations with vectors only
-/

namespace Verif.Props
open Verif Verif.Vec

/-- **C174**: sum, difference, cross product, dot product, distance and comparison of two vectors are those of their coordinates; with any other operand
each raises TypeError. -/
theorem C174_operands (v : V3) :
    (∀ w : V3, opAdd v (.vec w) = .ok ⟨v.x + w.x, v.y + w.y, v.z + w.z⟩ ∧ opSub v (.vec w) = .ok ⟨v.x - w.x, v.y - w.y, v.z - w.z⟩ ∧
      opCross v (.vec w) = .ok ⟨v.y * w.z - v.z * w.y, v.z * w.x - v.x * w.z, v.x * w.y - v.y * w.x⟩ ∧
      opDot v (.vec w) = .ok (v.x * w.x + v.y * w.y + v.z * w.z) ∧
      (∃ d, opDistance v (.vec w) = .ok d ∧ 0 ≤ d ∧ d ^ 2 = (v.x - w.x) ^ 2 + (v.y - w.y) ^ 2 + (v.z - w.z) ^ 2) ∧
      ((opEq v (.vec w) = .ok true ∧ v = w) ∨ (opEq v (.vec w) = .ok false ∧ v ≠ w))) ∧
    ∀ a : Arg, (∀ w, a ≠ .vec w) → opAdd v a = .error .typeError ∧ opSub v a = .error .typeError ∧ opCross v a = .error .typeError ∧
      opDot v a = .error .typeError ∧ opDistance v a = .error .typeError ∧ opEq v a = .error .typeError := by
  constructor
  · intro w
    refine ⟨rfl, rfl, rfl, rfl, ⟨_, rfl, Real.sqrt_nonneg _, Real.sq_sqrt (by positivity)⟩, ?_⟩
    simp only [opEq]
    split_ifs with h
    · exact .inl ⟨rfl, V3.ext h.1.symm h.2.1.symm h.2.2.symm⟩
    · exact .inr ⟨rfl, fun e => h (by rw [e]; exact ⟨rfl, rfl, rfl⟩)⟩
  · intro a ha
    cases a with
    | vec w => exact absurd rfl (ha w)
    | num x => exact ⟨rfl, rfl, rfl, rfl, rfl, rfl⟩
    | text s => exact ⟨rfl, rfl, rfl, rfl, rfl, rfl⟩
    | other => exact ⟨rfl, rfl, rfl, rfl, rfl, rfl⟩

/-- **C174**: a comparison gives the same answer from both sides. -/
theorem C174_symmetric (v w : V3) : opEq v (.vec w) = opEq w (.vec v) := by
  rcases ((C174_operands v).1 w).2.2.2.2.2 with ⟨h, e⟩ | ⟨h, e⟩
  · rw [e]
  · rcases ((C174_operands w).1 v).2.2.2.2.2 with ⟨h', e'⟩ | ⟨h', e'⟩
    · exact absurd e'.symm e
    · rw [h, h']

/-- **C174** (partial). A vector times a number has its coordinates times the number; vectors, other objects and texts that are no numbers raise TypeError.
What is missing: texts that are numbers, see below. -/
theorem C174_scalar_partial (num : List Char → Option ℝ) (v : V3) :
    (∀ x, opMul num v (.num x) = .ok ⟨v.x * x, v.y * x, v.z * x⟩) ∧ (∀ w, opMul num v (.vec w) = .error .typeError) ∧
    opMul num v .other = .error .typeError ∧ ∀ s, num s = none → opMul num v (.text s) = .error .typeError := by
  refine ⟨fun x => rfl, fun w => rfl, rfl, fun s hs => ?_⟩
  simp only [opMul, toFloat, hs]

/-- **C174** is violated for texts: a text that is a number is not a number, and should raise TypeError. -/
theorem C174_scalar_violated (num : List Char → Option ℝ) (v : V3) (s : List Char) (x : ℝ) (hs : num s = some x) :
    opMul num v (.text s) = opMul num v (.num x) ∧ ∃ w, opMul num v (.text s) = .ok w := by
  have h : toFloat num (.text s) = .ok x := by simp only [toFloat, hs]
  unfold opMul
  rw [h]
  exact ⟨rfl, _, rfl⟩

/-- **C174**: a vector is what it is made of: `fromTuple` and `getTuple` undo each other, and the array has the same numbers. Anything but three
parts raises ValueError. -/
theorem C174_tuple (num : List Char → Option ℝ) :
    (∀ v : V3, fromTuple num [.num v.getTuple.1, .num v.getTuple.2.1, .num v.getTuple.2.2] = .ok v) ∧
    (∀ x y z, ∃ v, fromTuple num [.num x, .num y, .num z] = .ok v ∧ v.getTuple = (x, y, z) ∧ v.getArray = [x, y, z]) ∧
    (∀ l : List Arg, l.length ≠ 3 → fromTuple num l = .error .valueError) ∧
    ∀ x y z v, fromTuple num [x, y, z] = .ok v → ∀ a ∈ [x, y, z], (∃ r, a = .num r) ∨ ∃ s, a = .text s := by
  refine ⟨fun v => rfl, fun x y z => ⟨_, rfl, rfl, rfl⟩, ?_, ?_⟩
  · intro l hl
    match l with
    | [] => rfl
    | [_] => rfl
    | [_, _] => rfl
    | [_, _, _] => exact absurd rfl hl
    | _ :: _ :: _ :: _ :: _ => rfl
  · have hf : ∀ a r, toFloat num a = .ok r → (∃ r, a = .num r) ∨ ∃ s, a = .text s := by
      intro a r h
      cases a with
      | vec w => cases h
      | num x => exact .inl ⟨_, rfl⟩
      | text s => exact .inr ⟨_, rfl⟩
      | other => cases h
    intro x y z v h
    simp only [fromTuple, init] at h
    cases hx : toFloat num x with
    | error e => rw [hx] at h; cases h
    | ok x' =>
    cases hy : toFloat num y with
    | error e => rw [hx, hy] at h; cases h
    | ok y' =>
    cases hz : toFloat num z with
    | error e => rw [hx, hy, hz] at h; cases h
    | ok z' =>
    intro a ha
    simp only [List.mem_cons, List.not_mem_nil, or_false] at ha
    rcases ha with rfl | rfl | rfl
    · exact hf _ _ hx
    · exact hf _ _ hy
    · exact hf _ _ hz

/-- `Vector(1, 2, 3) * "2"` is `Vector(2, 4, 6)`. -/
example : opMul (fun s => if s = "2".toList then some 2 else none) ⟨1, 2, 3⟩ (.text "2".toList) = .ok ⟨2, 4, 6⟩ := by
  simp only [opMul, toFloat, if_true, V3.mul]
  norm_num

/-- `Vector(1, 2, 3) == Vector(1, 2, 4)` is False. -/
example : opEq ⟨1, 2, 3⟩ (.vec ⟨1, 2, 4⟩) = .ok false := by
  simp only [opEq]
  norm_num

end Verif.Props
