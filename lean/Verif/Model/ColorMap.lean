import Verif.Model.Palette

/-!
# The colour a palette gives to a data value, end to end (impactutils/colors/cpalette.py)

matplotlib's `LinearSegmentedColormap` is third-party code; `acceptable`, `between`, `entry` and `cell` follow its documented algorithm: a table
of `N` colours, entry `i` being the colour of the knots at position `i / (N - 1)`, read at `int(N * x)`, and the entries at the ends for
positions outside 0..1. The table is computed when it is first read, so that its errors are raised by `getDataColor`. Numbers are exact
rationals, with NaN and minus infinity for what `np.log` makes of numbers that are not positive. A palette whose `vmin` is its `vmax` is not
modelled.
-/

namespace Verif.Colors

/-- A data value. -/
inductive Datum where
  | nan
  | minusInf
  | num (q : ℚ)
deriving DecidableEq

/-- `np.log(value)` (impactutils/colors/cpalette.py:369); `log` is the logarithm of the positive numbers. -/
def logOf (log : ℚ → ℚ) : Datum → Datum
  | .num q => if q < 0 then .nan else if q = 0 then .minusInf else .num (log q)
  | _ => .nan

/-- What the colour map asks of its knots (the map of impactutils/colors/cpalette.py:172): from 0 to 1 and never decreasing. -/
def acceptable (knots : List Knot) : Bool :=
  decide (knots.head?.map (·.x) = some 0) && decide (knots.getLast?.map (·.x) = some 1) &&
    decide (knots.Pairwise fun a b => a.x ≤ b.x)

/-- The colour of the knots at position `x` in one channel (the map of impactutils/colors/cpalette.py:172): between the first knot at or after
`x` and the knot before it. -/
def between (ch : RGB → ℚ) : List Knot → ℚ → ℚ
  | a :: b :: ks, x =>
    if x ≤ b.x then (x - a.x) / (b.x - a.x) * (ch b.before - ch a.after) + ch a.after
    else between ch (b :: ks) x
  | _, _ => 0

/-- `np.clip(v, 0.0, 1.0)`. -/
def clip (v : ℚ) : ℚ := max 0 (min v 1)

/-- Entry `i` of the table of `n` colours (the map of impactutils/colors/cpalette.py:172), for `n` above 1. -/
def entry (ch : RGB → ℚ) (knots : List Knot) (n i : ℕ) : ℚ :=
  clip (if i = 0 then (knots.head?.map fun k => ch k.after).getD 0
    else if i = n - 1 then (knots.getLast?.map fun k => ch k.before).getD 0
    else between ch knots ((i : ℚ) / ((n : ℚ) - 1)))

/-- The entry that is read at position `t` (the call at impactutils/colors/cpalette.py:371). -/
def cell (n : ℕ) (t : ℚ) : ℕ :=
  if t * n < 0 then 0 else if (n : ℚ) ≤ t * n then n - 1 else (Py.trunc (t * n)).toNat

/-- The colour in entry `i`, opaque. -/
def rgba (p : Palette) (i : ℕ) : List ℚ :=
  [entry (fun c => c.1) p.knots p.numcolors.toNat i, entry (fun c => c.2.1) p.knots p.numcolors.toNat i,
    entry (fun c => c.2.2) p.knots p.numcolors.toNat i, 1]

/-- `np.array(nan_color) / 255.0` and `set_bad` of it (impactutils/colors/cpalette.py:119-121, 173): three or four numbers of 0..255. An integer
stands for four times itself. -/
def badColor (nanColor : ℚ ⊕ List ℚ) : Except Err (List ℚ) :=
  let c := (match nanColor with
    | .inl n => List.replicate 4 n
    | .inr c => c).map (· / 255)
  if ∀ v ∈ c, 0 ≤ v ∧ v ≤ 1 then
    if c.length = 4 then .ok c else if c.length = 3 then .ok (c ++ [1]) else .error .valueError
  else .error .valueError

/-- The colour of a data value (impactutils/colors/cpalette.py:368-371). `bad` is the colour of NaN. -/
def lookupColor (log : ℚ → ℚ) (p : Palette) (bad : List ℚ) (value : Datum) : Except Err (List ℚ) :=
  if acceptable p.knots then
    match if p.isLog then logOf log value else value with
    | .nan => .ok bad
    | .minusInf => .ok (rgba p (if p.vmax < p.vmin then p.numcolors.toNat - 1 else 0))
    | .num q => .ok (rgba p (cell p.numcolors.toNat ((q - p.vmin) / (p.vmax - p.vmin))))
  else .error .valueError

/-- `ColorPalette.getDataColor` of a scalar (impactutils/colors/cpalette.py:349-387). -/
def dataColor (log : ℚ → ℚ) (p : Palette) (bad : List ℚ) (value : Datum) (format : String) : Except Err Color := do
  getDataColor true (← lookupColor log p bad value) format

/-- The setter of `vmin` (impactutils/colors/cpalette.py:312-318). -/
def setVmin (p : Palette) (v : ℚ) : Palette := { p with vmin := v }

/-- The setter of `vmax` (impactutils/colors/cpalette.py:330-336). -/
def setVmax (p : Palette) (v : ℚ) : Palette := { p with vmax := v }

/-- `ColorPalette.getPresets` (impactutils/colors/cpalette.py:201-208). -/
def getPresets : List String := presets.map Prod.fst

end Verif.Colors
