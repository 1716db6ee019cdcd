import Verif.Model.PyBase
import Mathlib.Data.List.MinMax

/-!
# Model of impactutils/colors/cpalette.py

Numbers are exact rationals. The matplotlib colour map built from the knots is not modelled here
(`Spec/Palette.lean` states how such knots are interpolated); `getDataColor` takes the colour it
returns as an argument. `rgb0` and `rgb1` are lists of triples.
-/

namespace Verif.Colors

/-- Exceptions of the constructor and of `getDataColor`. -/
inductive Err where
  | consistentLength
  | valueError
  | indexError
  | unsupportedArgument
  | attributeError
deriving DecidableEq

/-- A colour triple. -/
abbrev RGB := ℚ × ℚ × ℚ

/-- Arguments of the constructor (impactutils/colors/cpalette.py:92). -/
structure Segments where
  z0 : List ℚ
  z1 : List ℚ
  rgb0 : List RGB
  rgb1 : List RGB

/-- A knot of the segmented colour map: position, colour approaching from the left, colour leaving
to the right (impactutils/colors/cpalette.py:147-156; the three channels together). -/
structure Knot where
  x : ℚ
  before : RGB
  after : RGB
deriving DecidableEq

/-- The state of a `ColorPalette` (impactutils/colors/cpalette.py:114-173), without `nan_color`. -/
structure Palette where
  isLog : Bool
  vmin : ℚ
  vmax : ℚ
  knots : List Knot
  numcolors : ℤ
deriving DecidableEq

/-- `rgb / 255.0` on the three channels (impactutils/colors/cpalette.py:148-153). -/
def scale255 (c : RGB) : RGB := (c.1 / 255, c.2.1 / 255, c.2.2 / 255)

/-- The dummy row marking the unused start of the first knot (impactutils/colors/cpalette.py:127). -/
def dummyB : RGB := (-999 / 1000 * 255, -999 / 1000 * 255, -999 / 1000 * 255)

/-- The dummy row marking the unused end of the last knot (impactutils/colors/cpalette.py:129). -/
def dummyE : RGB := (999 / 1000 * 255, 999 / 1000 * 255, 999 / 1000 * 255)

/-- The length check (impactutils/colors/cpalette.py:111). Python chains the comparisons:
`a != b != c != d` means `a != b and b != c and c != d`. -/
def lengthsRejected (s : Segments) : Bool :=
  s.z0.length != s.z1.length && s.z1.length != s.rgb0.length && s.rgb0.length != s.rgb1.length

/-- The loop over the knots (impactutils/colors/cpalette.py:147-156): walks the three lists in step
and raises IndexError when a colour list is too short. Surplus colours are ignored. -/
def buildKnots : List ℚ → List RGB → List RGB → Except Err (List Knot)
  | [], _, _ => .ok []
  | x :: xs, b :: bs, a :: as =>
    match buildKnots xs bs as with
    | .ok ks => .ok (⟨x, scale255 b, scale255 a⟩ :: ks)
    | .error e => .error e
  | _ :: _, _, _ => .error .indexError

/-- Number of colours (impactutils/colors/cpalette.py:163-166). -/
def numColors (vmin vmax : ℚ) : Option ℚ → ℤ
  | none => 256
  | some r => max 256 ⌈(vmax - vmin) / r⌉

/-- `ColorPalette.__init__` (impactutils/colors/cpalette.py:92-173). `min`/`max` of an empty array
raise ValueError. When `vmax = vmin` numpy yields NaN where this model yields 0. -/
def construct (s : Segments) (resolution : Option ℚ) (isLog : Bool) : Except Err Palette :=
  if lengthsRejected s then .error .consistentLength
  else match s.z0.min?, s.z1.max?, s.z1.getLast? with
    | some vmin, some vmax, some zlast =>
      let norm := fun z : ℚ => (z - vmin) / (vmax - vmin)
      match buildKnots (s.z0.map norm ++ [norm zlast]) (dummyB :: s.rgb1) (s.rgb0 ++ [dummyE]) with
      | .error e => .error e
      | .ok knots => .ok ⟨isLog, vmin, vmax, knots, numColors vmin vmax resolution⟩
    | _, _, _ => .error .valueError

/-- `MMI` (impactutils/colors/cpalette.py:10-33). -/
def presetMMI : Segments where
  z0 := [0, 1, 2, 3, 4, 5, 6, 7, 8, 9]
  z1 := [1, 2, 3, 4, 5, 6, 7, 8, 9, 10]
  rgb0 := [(255, 255, 255), (255, 255, 255), (191, 204, 255), (160, 230, 255), (128, 255, 255),
    (122, 255, 147), (255, 255, 0), (255, 200, 0), (255, 145, 0), (255, 0, 0)]
  rgb1 := [(255, 255, 255), (191, 204, 255), (160, 230, 255), (128, 255, 255), (122, 255, 147),
    (255, 255, 0), (255, 200, 0), (255, 145, 0), (255, 0, 0), (200, 0, 0)]

/-- `POP` (impactutils/colors/cpalette.py:35-54). -/
def presetPOP : Segments where
  z0 := [0, 4, 49, 99, 499, 999, 4999, 9999]
  z1 := [4, 49, 99, 499, 999, 4999, 9999, 50000]
  rgb0 := [(255, 255, 255), (191, 191, 191), (159, 159, 159), (127, 127, 127), (95, 95, 95),
    (63, 63, 63), (31, 31, 31), (0, 0, 0)]
  rgb1 := [(255, 255, 255), (191, 191, 191), (159, 159, 159), (127, 127, 127), (95, 95, 95),
    (63, 63, 63), (31, 31, 31), (0, 0, 0)]

/-- `TOPO` (impactutils/colors/cpalette.py:57-81). -/
def presetTOPO : Segments where
  z0 := [-100, 0, 50, 350, 1000, 1800, 2300, 2600, 4000, 9000, 9100]
  z1 := [0, 50, 350, 1000, 1800, 2300, 2600, 4000, 9000, 9200]
  rgb0 := [(195, 255, 193), (110, 135, 80), (120, 160, 90), (230, 220, 110), (210, 170, 80),
    (195, 140, 100), (100, 80, 70), (60, 60, 60), (255, 255, 255), (255, 255, 255), (255, 128, 0)]
  rgb1 := [(110, 135, 80), (120, 160, 90), (230, 220, 110), (210, 170, 80), (195, 140, 100),
    (100, 80, 70), (60, 60, 60), (255, 255, 255), (255, 255, 255), (255, 128, 0), (255, 0, 0)]

/-- `PALETTES` with each preset's resolution (impactutils/colors/cpalette.py:83-85). -/
def presets : List (String × Segments × ℚ) :=
  [("mmi", presetMMI, 1 / 10), ("pop", presetPOP, 1), ("shaketopo", presetTOPO, 1)]

/-- `ColorPalette.fromPreset` (impactutils/colors/cpalette.py:176-198). -/
def fromPreset (name : String) : Except Err Palette :=
  match presets.lookup name with
  | none => .error .unsupportedArgument
  | some (s, r) => construct s (some r) false

/-- `ColorPalette.fromColorMap` (impactutils/colors/cpalette.py:266-303). `cmap` gives the first
three components of the colour at a position; `np.round` rounds halves to even like `Py.round`. -/
def fromColorMap (z0 z1 : List ℚ) (cmap : ℚ → RGB) (resolution : Option ℚ) (isLog : Bool) :
    Except Err Palette :=
  if z0.length ≠ z1.length then .error .consistentLength
  else match z0.min?, z1.max? with
    | some zmin, some zmax =>
      let color := fun z : ℚ =>
        let c := cmap ((z - zmin) / (zmax - zmin))
        (((Py.round (c.1 * 255) : ℤ) : ℚ), ((Py.round (c.2.1 * 255) : ℤ) : ℚ),
          ((Py.round (c.2.2 * 255) : ℤ) : ℚ))
      construct ⟨z0, z1, z0.map color, z1.map color⟩ resolution isLog
    | _, _ => .error .valueError

/-- The position at which the colour map is read for a data value
(impactutils/colors/cpalette.py:368-370). The logarithm is a parameter. -/
def normValue (log : ℚ → ℚ) (p : Palette) (value : ℚ) : ℚ :=
  ((if p.isLog then log value else value) - p.vmin) / (p.vmax - p.vmin)

/-- What `getDataColor` returns. -/
inductive Color where
  | floats (cs : List ℚ)
  | ints (cs : List ℤ)
  | text (s : List Char)
deriving DecidableEq

/-- Lower-case hexadecimal digit. -/
def hexDigit (d : ℕ) : Char := if d < 10 then Char.ofNat (48 + d) else Char.ofNat (87 + d)

/-- Hexadecimal digits, most significant first. -/
def hexDigits (n : ℕ) : List Char :=
  if n < 16 then [hexDigit n] else hexDigits (n / 16) ++ [hexDigit (n % 16)]
termination_by n

/-- `f'{n:02x}'` for a non-negative `n`. -/
def format02x (n : ℕ) : List Char :=
  let ds := hexDigits n
  List.replicate (2 - ds.length) '0' ++ ds

/-- `str.upper` on ASCII. -/
def upper (c : Char) : Char :=
  if 97 ≤ c.toNat ∧ c.toNat ≤ 122 then Char.ofNat (c.toNat - 32) else c

/-- `ColorPalette.getDataColor` from the colour map's answer on (impactutils/colors/cpalette.py:
371-387). `color` is the RGBA colour the map returned for the value. `isScalar` tells whether the
data value was a scalar, in which case matplotlib returns a tuple, so that `color * 255` at l.378
repeats the tuple 255 times instead of scaling it. -/
def getDataColor (isScalar : Bool) (color : List ℚ) (format : String) : Except Err Color :=
  if format = "mlab" then .ok (.floats color)
  else if format = "255" then .ok (.ints (color.map (fun c => Py.trunc (c * 255))))
  else if format = "array" then
    if isScalar then
      .ok (.ints (((List.replicate 255 color).flatten).map (fun c => Py.trunc c % 256)))
    else .ok (.ints (color.map (fun c => Py.trunc (c * 255) % 256)))
  else if format = "hex" then
    match color.map (fun c => Py.trunc (c * 255)) with
    | r :: g :: b :: _ =>
      .ok (.text (('#' :: (format02x r.toNat ++ format02x g.toNat ++ format02x b.toNat)).map upper))
    | _ => .error .indexError
  else .error .attributeError

end Verif.Colors
