import Verif.Model.PyBase

/-!
# Model of impactutils/mapping/scalebar.py

Numbers are exact rationals. Font metrics and vertical placement (l.200-229, 261, 265) are not
modelled; the axes-to-data transform is taken to be the affine map of the axes rectangle onto the
data limits (rectangular, linear axes).
-/

namespace Verif.ScaleBar

/-- `LENGTHS` (impactutils/mapping/scalebar.py:23-50): lengths and their division counts, in
dictionary order. -/
def lengths : List (ℕ × ℕ) :=
  [(4, 4), (10, 2), (12, 4), (15, 3), (20, 4), (30, 3), (40, 4), (75, 3), (100, 4), (120, 4),
   (150, 3), (200, 4), (240, 6), (300, 6), (400, 4), (600, 6), (750, 3), (1000, 4), (2000, 4),
   (4000, 4), (6000, 6), (10000, 4), (20000, 4), (40000, 4), (60000, 6), (75000, 3), (100000, 4),
   (200000, 4)]

/-- `UNITS` (impactutils/mapping/scalebar.py:53-73): metres per unit. -/
def unitTable : List (String × ℚ) :=
  [("km", 1000), ("m", 1), ("dm", 1 / 10), ("cm", 1 / 100), ("mm", 1 / 1000), ("kmi", 1852),
   ("in", 254 / 10000), ("ft", 3048 / 10000), ("yd", 9144 / 10000), ("mi", 1609344 / 1000),
   ("fath", 18288 / 10000), ("ch", 201168 / 10000), ("link", 201168 / 1000000),
   ("us-in", 100 / 3937), ("us-ft", 304800609601219 / 10 ^ 15),
   ("us-yd", 914401828803658 / 10 ^ 15), ("us-ch", 2011684023368047 / 10 ^ 14),
   ("us-mi", 1609347218694437 / 10 ^ 12), ("ind-yd", 91439523 / 10 ^ 8),
   ("ind-ft", 30479841 / 10 ^ 8), ("ind-ch", 2011669506 / 10 ^ 8)]

/-- Exceptions of `draw_scale`. -/
inductive Err where
  | requiredArgument
  | valueError
  | unboundLocal
deriving DecidableEq

/-- A filled division: left edge, right edge, colour (impactutils/mapping/scalebar.py:283-303). -/
structure Division where
  left : ℚ
  right : ℚ
  color : String
deriving DecidableEq

/-- What `draw_scale` draws, horizontally. `ticks` are the tick positions with their labels. -/
structure Drawing where
  barLength : ℚ
  divisions : ℕ
  left : ℚ
  right : ℚ
  divs : List Division
  ticks : List (ℚ × ℤ)

/-- The axes: whether it is a GeoAxes, its limits (l.166-167) and the metres per data unit that
l.170-184 derive from the projection. -/
structure Axes where
  isGeo : Bool
  xmin : ℚ
  xmax : ℚ
  dataunitsToMeters : ℚ

/-- Choice of the default length (impactutils/mapping/scalebar.py:226-236). `width` is the map width
in scale units. -/
def defaultLength (width : ℚ) : Option (ℕ × ℕ) :=
  let q := width * (1 / 4)
  match Py.argmin (lengths.map (fun p => |q - (p.1 : ℚ)|)) with
  | none => none
  | some i => lengths[i]?

/-- Left edge of the bar in axes units (impactutils/mapping/scalebar.py:242-259). -/
def barLeftAxes (pos : String) (padx barLengthAxes : ℚ) : ℚ :=
  if pos = "ul" ∨ pos = "ll" then padx else (1 - padx) - barLengthAxes

/-- The division loop (impactutils/mapping/scalebar.py:282-303), one pass. -/
def division (barLeft barLengthData : ℚ) (divisions i : ℕ) : Division :=
  let left := barLeft + (barLengthData / divisions) * i
  ⟨left, left + barLengthData / divisions, if i % 2 = 1 then "black" else "white"⟩

/-- The tick drawn in pass `i` of the loop, if any (impactutils/mapping/scalebar.py:287-301). -/
def tick (barLeft barLengthData barLength : ℚ) (divisions i : ℕ) : Option (ℚ × ℤ) :=
  if i % 2 = 1 then none
  else if divisions % 2 = 0 ∨ i = 0 then
    some (barLeft + (barLengthData / divisions) * i, Py.trunc (i * (barLength / divisions)))
  else none

/-- Drawing of the bar (impactutils/mapping/scalebar.py:242-315) once the length, the division count
and the map width are known. -/
def draw (ax : Axes) (pos : String) (padx unit barLength : ℚ) (divisions : ℕ)
    (mapWidthData : ℚ) : Drawing :=
  let barLengthData := barLength * unit * (1 / ax.dataunitsToMeters)
  let barLengthAxes := barLengthData / mapWidthData
  let barLeft := ax.xmin + barLeftAxes pos padx barLengthAxes * (ax.xmax - ax.xmin)
  { barLength := barLength
    divisions := divisions
    left := barLeft
    right := barLeft + barLengthData
    divs := (List.range divisions).map (division barLeft barLengthData divisions)
    ticks := (List.range divisions).filterMap (tick barLeft barLengthData barLength divisions) ++
      [(barLeft + barLengthData, Py.trunc barLength)] }

/-- The division count check (impactutils/mapping/scalebar.py:147-149). -/
def badDivisions : Option ℤ → Bool
  | none => false
  | some d => decide (d ∉ [2, 3, 4, 5, 6])

/-- `draw_scale` (impactutils/mapping/scalebar.py:76-317). The checks are in source order
(l.142-163). When `bar_length` is given, `map_width_data` (assigned only inside
`if bar_length is None`, l.228) is read unassigned at l.239. -/
def drawScale (ax : Axes) (pos : String) (padx : ℚ) (units : String) (barLength : Option ℚ)
    (divisions : Option ℤ) : Except Err Drawing :=
  if barLength.isSome ≠ divisions.isSome then .error .requiredArgument
  else if badDivisions divisions = true then
    .error .valueError
  else match unitTable.lookup units with
    | none => .error .valueError
    | some unit =>
      if pos ∉ ["ll", "lr", "ul", "ur"] then .error .valueError
      else if ax.isGeo = false then .error .valueError
      else match barLength with
        | some _ => .error .unboundLocal
        | none =>
          let mapWidthData := ax.xmax - ax.xmin
          let width := mapWidthData * ax.dataunitsToMeters * 1 / unit
          match defaultLength width with
          | none => .error .valueError
          | some (len, divs) => .ok (draw ax pos padx unit len divs mapWidthData)

end Verif.ScaleBar
