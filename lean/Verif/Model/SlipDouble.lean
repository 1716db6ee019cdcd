import Verif.Model.VectorDouble
import Verif.Model.OqDouble

/-!
# Local slip vectors in binary arithmetic (impactutils/rupture/utils.py)

`Verif.Rup.slip`, `Verif.Rup.slipDS` and `Verif.Rup.slipSS` are the same functions with exact real numbers.
-/

namespace Verif.Dbl

/-- `get_local_unit_slip_vector` (impactutils/rupture/utils.py:194-202). -/
def localSlip (L : MathLib) (strike dip rake : ℚ) : D3 :=
  let s := npRadians strike
  let d := npRadians dip
  let r := npRadians rake
  ⟨rnd (rnd (rnd (L.sin r * L.cos d) * L.cos s) + rnd (L.cos r * L.sin s)),
   rnd (rnd (rnd (L.sin r * L.cos d) * L.sin s) + rnd (L.cos r * L.cos s)),
   rnd (L.sin r * L.sin d)⟩

/-- `get_local_unit_slip_vector_DS` (impactutils/rupture/utils.py:222-228). -/
def localSlipDS (L : MathLib) (strike dip rake : ℚ) : D3 :=
  let s := npRadians strike
  let d := npRadians dip
  let r := npRadians rake
  ⟨rnd (rnd (L.sin r * L.cos d) * L.cos s), rnd (rnd (L.sin r * L.cos d) * L.sin s), rnd (L.sin r * L.sin d)⟩

/-- `get_local_unit_slip_vector_SS` (impactutils/rupture/utils.py:247-253). -/
def localSlipSS (L : MathLib) (strike _dip rake : ℚ) : D3 :=
  let s := npRadians strike
  let r := npRadians rake
  ⟨rnd (L.cos r * L.sin s), rnd (L.cos r * L.cos s), 0⟩

end Verif.Dbl
