import Verif.Model.Vector

/-!
# Operators of `Vector` with any operand

An operand is a vector, a number, a text or another object. `num` tells which texts `float` accepts.
-/

namespace Verif.Vec

/-- What can be given to an operator. `other` stands for objects that `float` refuses with TypeError: None, lists, tuples, dictionaries, … -/
inductive Arg where
  | vec (v : V3)
  | num (x : ℝ)
  | text (s : List Char)
  | other

/-- The exceptions. -/
inductive OpErr where
  | typeError
  | valueError
deriving DecidableEq

/-- `float(a)`. -/
def toFloat (num : List Char → Option ℝ) : Arg → Except OpErr ℝ
  | .num x => .ok x
  | .text s => match num s with
    | some x => .ok x
    | none => .error .valueError
  | .vec _ => .error .typeError
  | .other => .error .typeError

/-- `Vector.__init__` (impactutils/vectorutils/vector.py:17-31). -/
def init (num : List Char → Option ℝ) (x y z : Arg) : Except OpErr V3 := do
  let x ← toFloat num x
  let y ← toFloat num y
  let z ← toFloat num z
  return ⟨x, y, z⟩

/-- `Vector.fromTuple` (impactutils/vectorutils/vector.py:50-61): unpacking needs exactly three parts. -/
def fromTuple (num : List Char → Option ℝ) : List Arg → Except OpErr V3
  | [x, y, z] => init num x y z
  | _ => .error .valueError

/-- `Vector.getTuple` (impactutils/vectorutils/vector.py:222-227). -/
def V3.getTuple (v : V3) : ℝ × ℝ × ℝ := (v.x, v.y, v.z)

/-- `Vector.getArray` (impactutils/vectorutils/vector.py:215-220). -/
def V3.getArray (v : V3) : List ℝ := [v.x, v.y, v.z]

/-- `Vector.__add__` (impactutils/vectorutils/vector.py:63-78). -/
noncomputable def opAdd (v : V3) : Arg → Except OpErr V3
  | .vec w => .ok (v.add w)
  | _ => .error .typeError

/-- `Vector.__sub__` (impactutils/vectorutils/vector.py:80-96). -/
noncomputable def opSub (v : V3) : Arg → Except OpErr V3
  | .vec w => .ok (v.sub w)
  | _ => .error .typeError

/-- `Vector.__mul__` and `Vector.__rmul__` (impactutils/vectorutils/vector.py:98-136): only ValueError is caught, and made a TypeError. -/
noncomputable def opMul (num : List Char → Option ℝ) (v : V3) (a : Arg) : Except OpErr V3 :=
  match toFloat num a with
  | .ok x => .ok (v.mul x)
  | .error .valueError => .error .typeError
  | .error e => .error e

open Classical in
/-- `Vector.__eq__` (impactutils/vectorutils/vector.py:138-156). -/
noncomputable def opEq (v : V3) : Arg → Except OpErr Bool
  | .vec w => if w.x = v.x ∧ w.y = v.y ∧ w.z = v.z then .ok true else .ok false
  | _ => .error .typeError

/-- `Vector.distance` (impactutils/vectorutils/vector.py:158-175). -/
noncomputable def opDistance (v : V3) : Arg → Except OpErr ℝ
  | .vec w => .ok (v.distance w)
  | _ => .error .typeError

/-- `Vector.cross` (impactutils/vectorutils/vector.py:177-194). -/
noncomputable def opCross (v : V3) : Arg → Except OpErr V3
  | .vec w => .ok (v.cross w)
  | _ => .error .typeError

/-- `Vector.dot` (impactutils/vectorutils/vector.py:196-213). -/
noncomputable def opDot (v : V3) : Arg → Except OpErr ℝ
  | .vec w => .ok (v.dot w)
  | _ => .error .typeError

end Verif.Vec
