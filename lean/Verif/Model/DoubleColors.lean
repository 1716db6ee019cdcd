import Verif.Model.ColorMap
import Verif.Model.Double

/-!
# The colour a palette gives to a data value, in binary arithmetic (impactutils/colors/cpalette.py)

`Verif.Colors` has exact numbers. Here every operation on floats is rounded to the nearest double. numpy's and matplotlib's parts (`linspace`,
the table of a `LinearSegmentedColormap`, the look-up) follow their documented algorithms, operation by operation. The limits of the ranges are
doubles, or integers that doubles can hold. Overflow is not modelled, nor is a palette whose `vmin` is its `vmax`.
-/

namespace Verif.Dbl
open Verif.Colors

/-- `(z - vmin) / (vmax - vmin)` (impactutils/colors/cpalette.py:124, 126 and 370). -/
def position (vmin vmax z : ℚ) : ℚ := rnd (rnd (z - vmin) / rnd (vmax - vmin))

/-- The colours of a knot as doubles (impactutils/colors/cpalette.py:148-153). -/
def roundKnot (k : Knot) : Knot :=
  ⟨k.x, (rnd k.before.1, rnd k.before.2.1, rnd k.before.2.2), (rnd k.after.1, rnd k.after.2.1, rnd k.after.2.2)⟩

/-- Number of colours (impactutils/colors/cpalette.py:166-170). -/
def numColors (vmin vmax : ℚ) : Option ℚ → ℤ
  | none => 256
  | some r => max 256 ⌈rnd (rnd (vmax - vmin) / r)⌉

/-- `ColorPalette.__init__` (impactutils/colors/cpalette.py:92-173). -/
def palette (s : Segments) (resolution : Option ℚ) (isLog : Bool) : Except Err Palette :=
  if lengthsRejected s then .error .consistentLength
  else match s.z0.min?, s.z1.max?, s.z1.getLast? with
    | some vmin, some vmax, some zlast =>
      match buildKnots (s.z0.map (position vmin vmax) ++ [position vmin vmax zlast]) (dummyB :: s.rgb1) (s.rgb0 ++ [dummyE]) with
      | .error e => .error e
      | .ok knots => .ok ⟨isLog, vmin, vmax, knots.map roundKnot, numColors vmin vmax resolution⟩
    | _, _, _ => .error .valueError

/-- `ColorPalette.fromPreset` (impactutils/colors/cpalette.py:176-198). -/
def presetPalette (name : String) : Except Err Palette :=
  match presets.lookup name with
  | none => .error .unsupportedArgument
  | some (s, r) => palette s (some (rnd r)) false

/-- Where entry `i` of a table of `n` colours lies, from 0 to `n - 1` (the map of impactutils/colors/cpalette.py:172): `(N - 1) * linspace(0, 1, N)`. -/
def place (n i : ℕ) : ℚ := rnd (((n : ℚ) - 1) * rnd (i * rnd (1 / ((n : ℚ) - 1))))

/-- The colour of the knots at place `x` in one channel (the map of impactutils/colors/cpalette.py:172): between the first knot at or after `x`
and the knot before it. -/
def blend (ch : RGB → ℚ) (n : ℕ) : List Knot → ℚ → ℚ
  | a :: b :: ks, x =>
    if x ≤ rnd (b.x * ((n : ℚ) - 1)) then
      rnd (rnd (rnd (rnd (x - rnd (a.x * ((n : ℚ) - 1))) / rnd (rnd (b.x * ((n : ℚ) - 1)) - rnd (a.x * ((n : ℚ) - 1)))) *
        rnd (ch b.before - ch a.after)) + ch a.after)
    else blend ch n (b :: ks) x
  | _, _ => 0

/-- Entry `i` of the table of `n` colours (the map of impactutils/colors/cpalette.py:172), for `n` above 1. -/
def tableEntry (ch : RGB → ℚ) (knots : List Knot) (n i : ℕ) : ℚ :=
  clip (if i = 0 then (knots.head?.map fun k => ch k.after).getD 0
    else if i = n - 1 then (knots.getLast?.map fun k => ch k.before).getD 0
    else blend ch n knots (place n i))

/-- The entry that is read at position `t` (the call at impactutils/colors/cpalette.py:371). -/
def tableIndex (n : ℕ) (t : ℚ) : ℕ :=
  if rnd (t * n) < 0 then 0 else if (n : ℚ) ≤ rnd (t * n) then n - 1 else (Py.trunc (rnd (t * n))).toNat

/-- The colour in entry `i`, opaque. -/
def tableColor (p : Palette) (i : ℕ) : List ℚ :=
  [tableEntry (fun c => c.1) p.knots p.numcolors.toNat i, tableEntry (fun c => c.2.1) p.knots p.numcolors.toNat i,
    tableEntry (fun c => c.2.2) p.knots p.numcolors.toNat i, 1]

/-- The formats of a colour (impactutils/colors/cpalette.py:372-387) of a scalar. -/
def formatted (color : List ℚ) (format : String) : Except Err Color :=
  if format = "mlab" then .ok (.floats color)
  else if format = "255" then .ok (.ints (color.map (fun c => Py.trunc (rnd (c * 255)))))
  else if format = "array" then .ok (.ints (((List.replicate 255 color).flatten).map (fun c => Py.trunc c % 256)))
  else if format = "hex" then
    match color.map (fun c => Py.trunc (rnd (c * 255))) with
    | r :: g :: b :: _ => .ok (.text (('#' :: (format02x r.toNat ++ format02x g.toNat ++ format02x b.toNat)).map upper))
    | _ => .error .indexError
  else .error .attributeError

/-- `ColorPalette.getDataColor` of a number (impactutils/colors/cpalette.py:349-387), for a palette without a logarithmic scale. -/
def dataColor (p : Palette) (value : ℚ) (format : String) : Except Err Color :=
  if acceptable p.knots then formatted (tableColor p (tableIndex p.numcolors.toNat (position p.vmin p.vmax value))) format
  else .error .valueError

end Verif.Dbl
