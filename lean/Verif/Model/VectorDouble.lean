import Verif.Model.Double

/-!
# Vectors in binary arithmetic (impactutils/vectorutils/vector.py)

`Verif.Vec` has vectors of exact real numbers. Here the components are doubles and every operation is rounded. There is no largest number: overflow is not
modelled. The function `sq` stands for `x**2`, that is `pow` of the C library, which need not be the nearest double of the square.
-/

namespace Verif.Dbl

/-- A `Vector` of three floats (impactutils/vectorutils/vector.py:29-31). -/
structure D3 where
  x : ℚ
  y : ℚ
  z : ℚ
deriving DecidableEq

/-- `__add__` (impactutils/vectorutils/vector.py:79). -/
def D3.add (a b : D3) : D3 := ⟨rnd (a.x + b.x), rnd (a.y + b.y), rnd (a.z + b.z)⟩

/-- `__sub__` (impactutils/vectorutils/vector.py:97). -/
def D3.sub (a b : D3) : D3 := ⟨rnd (a.x - b.x), rnd (a.y - b.y), rnd (a.z - b.z)⟩

/-- `__mul__` and `__rmul__` (impactutils/vectorutils/vector.py:117, 137). -/
def D3.mul (a : D3) (k : ℚ) : D3 := ⟨rnd (a.x * k), rnd (a.y * k), rnd (a.z * k)⟩

/-- `cross` (impactutils/vectorutils/vector.py:194-195): numpy rounds each product and then the difference. -/
def D3.cross (a b : D3) : D3 :=
  ⟨rnd (rnd (a.y * b.z) - rnd (a.z * b.y)), rnd (rnd (a.z * b.x) - rnd (a.x * b.z)), rnd (rnd (a.x * b.y) - rnd (a.y * b.x))⟩

/-- The values that `dot` (impactutils/vectorutils/vector.py:213-214) may have: the library adds the three products in some order, and may add a product without
rounding it first. -/
def D3.dots (a b : D3) : List ℚ :=
  let p := a.x * b.x
  let q := a.y * b.y
  let s := a.z * b.z
  [(p, q, s), (p, s, q), (q, s, p)].flatMap fun t => [t.1, rnd t.1].flatMap fun u => [t.2.1, rnd t.2.1].flatMap fun v => [t.2.2, rnd t.2.2].map fun w =>
    rnd (rnd (u + v) + w)

/-- `np.sqrt`: the nearest double of the root. A root of a double is never half way between two doubles. -/
def sqrtRnd (q : ℚ) : ℚ :=
  if q ≤ 0 then 0
  else
    let u : ℚ := 2 ^ (Int.log 2 q / 2 - 52)
    let n : ℕ := Nat.sqrt ⌊q / u ^ 2⌋.toNat
    if q ≤ ((n : ℚ) + 1 / 2) ^ 2 * u ^ 2 then n * u else (n + 1) * u

/-- `mag` (impactutils/vectorutils/vector.py:246-247). -/
def D3.mag (sq : ℚ → ℚ) (a : D3) : ℚ := sqrtRnd (rnd (rnd (sq a.x + sq a.y) + sq a.z))

/-- `norm` (impactutils/vectorutils/vector.py:235-239); `none` if the length is zero: the components are then infinite or not numbers. -/
def D3.norm (sq : ℚ → ℚ) (a : D3) : Option D3 :=
  if a.mag sq = 0 then none else some ⟨rnd (a.x / a.mag sq), rnd (a.y / a.mag sq), rnd (a.z / a.mag sq)⟩

/-- `distance` (impactutils/vectorutils/vector.py:175-176). -/
def D3.distance (sq : ℚ → ℚ) (a b : D3) : ℚ := sqrtRnd (rnd (rnd (sq (rnd (a.x - b.x)) + sq (rnd (a.y - b.y))) + sq (rnd (a.z - b.z))))

end Verif.Dbl
