import Verif.Model.EdgeStrike
import Verif.Props.RuptureRanges

/-!
# Strikes of ruptures of edges in binary arithmetic

C227. Nothing is assumed about the shape or the place of the quadrilaterals for the range.
-/

namespace Verif.Props
open Verif.Spec
open Verif.Dbl
open Verif.Rup (Quad)

namespace Str

/-- There is no double between -180 and the next one below it. -/
theorem below_gap {w : ℚ} (h : IsDouble w) (hw : w < -180) : w ≤ -180 - 1 / 2 ^ 45 := by
  obtain ⟨m, e, hm, -, rfl⟩ := h
  have he : -45 ≤ e := by
    by_contra hc
    push Not at hc
    have p : (2 : ℚ) ^ e ≤ 2 ^ (-46 : ℤ) := zpow_le_zpow_right₀ (by norm_num) (by omega)
    have p0 : (0 : ℚ) < 2 ^ e := by positivity
    have hm' : |(m : ℚ)| ≤ 2 ^ 53 := by exact_mod_cast hm.le
    have := mul_le_mul hm' p p0.le (by positivity)
    have a := neg_abs_le (m : ℚ)
    have b := mul_le_mul_of_nonneg_right a p0.le
    norm_num at this
    linarith
  obtain ⟨k, hk⟩ := Int.eq_ofNat_of_zero_le (by omega : 0 ≤ e + 45)
  have e2 : (m : ℚ) * 2 ^ e = ((m * 2 ^ k : ℤ) : ℚ) / 2 ^ 45 := by
    rw [show e = (k : ℤ) - 45 by omega, zpow_sub₀ (by norm_num)]
    push_cast
    norm_num
    ring
  rw [e2] at hw ⊢
  rw [div_lt_iff₀ (by positivity)] at hw
  have : m * 2 ^ k < -180 * 2 ^ 45 := by exact_mod_cast hw
  have h2 : m * 2 ^ k ≤ -180 * 2 ^ 45 - 1 := by omega
  have h3 : ((m * 2 ^ k : ℤ) : ℚ) ≤ -180 * 2 ^ 45 - 1 := by exact_mod_cast h2
  rw [div_le_iff₀ (by positivity)]
  norm_num at h3 ⊢
  linarith

end Str

/-- C227: a strike that is a number is from -180 degrees to less than 180, for every library whose `atan2` is from half a turn back to half a turn, and is not a number without quadrilaterals. -/
theorem C227_range_partial (L : MathLib) (dot : D3 → D3 → ℚ) {atan2 : ℚ → ℚ → ℚ} (ha : ∀ y x, |atan2 y x| ≤ npyPi) :
    (∀ qs S, edgeStrike L dot atan2 qs = some S → -180 ≤ S ∧ S < 180) ∧ (L.sq 0 = 0 → edgeStrike L dot atan2 [] = none) := by
  refine ⟨fun qs S h => ?_, fun sq0 => ?_⟩
  · simp only [edgeStrike, Option.bind_eq_some_iff, Option.some.injEq] at h
    obtain ⟨s, -, north, -, n, -, N, -, v, -, p, -, h⟩ := h
    obtain ⟨a1, a2⟩ := abs_le.1 (ha (rnd (signOf (dot (p.cross N) v) * (p.cross N).mag L.sq)) (dot p N))
    generalize atan2 (rnd (signOf (dot (p.cross N) v) * (p.cross N).mag L.sq)) (dot p N) = a at h a1 a2
    have hp : (0 : ℚ) < npyPi := by decide +kernel
    have top : rnd (rnd (rnd (npyPi * 180) / npyPi) - 90) = 90 := by decide +kernel
    have bot : rnd (rnd (rnd (-npyPi * 180) / npyPi) - 90) = -270 := by decide +kernel
    have hi : rnd (rnd (rnd (a * 180) / npyPi) - 90) ≤ 90 :=
      (rnd_mono (sub_le_sub_right (rnd_mono (div_le_div_of_nonneg_right (rnd_mono (by linarith)) hp.le)) _)).trans top.le
    have lo : -270 ≤ rnd (rnd (rnd (a * 180) / npyPi) - 90) :=
      bot.ge.trans (rnd_mono (sub_le_sub_right (rnd_mono (div_le_div_of_nonneg_right (rnd_mono (by linarith)) hp.le)) _))
    have dbl := rnd_isDouble (rnd (rnd (a * 180) / npyPi) - 90)
    generalize rnd (rnd (rnd (a * 180) / npyPi) - 90) = w at h hi lo dbl
    split_ifs at h with c
    · subst h
      have g := Str.below_gap dbl c
      have t : rnd (180 - 1 / 2 ^ 45) = 180 - 1 / 2 ^ 45 := by decide +kernel
      have b : rnd 90 = 90 := by decide +kernel
      have h1 : rnd (w + 360) ≤ 180 - 1 / 2 ^ 45 := (rnd_mono (by linarith)).trans t.le
      have h2 : 90 ≤ rnd (w + 360) := b.ge.trans (rnd_mono (by linarith))
      norm_num at h1
      exact ⟨by linarith, by linarith⟩
    · subst h
      exact ⟨not_lt.1 c, by linarith⟩
  · simp [edgeStrike, D3.norm, D3.mag, sq0, rnd_zero, sqrtRnd]

/-- C227 violated for vertical ruptures: with every precise library the strike of a rupture along the equator, whose quadrilaterals are in the vertical plane of the equator, is not a number, although
such a rupture runs from west to east. -/
theorem C227_vertical_violated {u : ℝ} {L : MathLib} (hL : RightTo u L) {dot : D3 → D3 → ℚ} (hdot : InnerProduct dot) (atan2 : ℚ → ℚ → ℚ) {qs : List (Quad GeoPoint)}
    (hl : ∀ q ∈ qs, q.p0.lat = 0 ∧ q.p1.lat = 0 ∧ q.p2.lat = 0 ∧ q.p3.lat = 0) : edgeStrike L dot atan2 qs = none := by
  by_contra hc
  obtain ⟨S, h⟩ := Option.ne_none_iff_exists'.1 hc
  simp only [edgeStrike, Option.bind_eq_some_iff, Option.some.injEq] at h
  obtain ⟨s, es, north, -, n, en, N, -, v, ev, p, ep, -⟩ := h
  obtain ⟨x, y⟩ := Edip.loop_flat hL qs (⟨0, 0, 0⟩, ⟨0, 0, 0⟩) s hl ⟨⟨rfl, rfl⟩, rfl⟩ es
  have z : dot v n = 0 := Edip.dot_flat hdot (Edip.flat_norm y ev) (Edip.axial_norm x en)
  have z2 : dot v ⟨0, 0, 0⟩ = 0 := Edip.dot_flat hdot (Edip.flat_norm y ev) ⟨rfl, rfl⟩
  have m : n.mul (signOf (dot v n)) = ⟨0, 0, 0⟩ := by simp [z, signOf, D3.mul, rnd_zero]
  rw [m, z2] at ep
  simp [D3.mul, D3.sub, D3.norm, D3.mag, rnd_zero, hL.sq_zero, sqrtRnd] at ep

/-- The vertical rupture along the equator of C224. -/
example (atan2 : ℚ → ℚ → ℚ) : edgeStrike Geo.someLib Wid.leftDot atan2 [Edip.wall] = none :=
  C227_vertical_violated Geo.someLib_right Wid.leftDot_inner atan2 (by simp [Edip.wall])

/-- A function of two numbers from half a turn back to half a turn. -/
def Str.someAtan2 (y x : ℚ) : ℚ := rnd (npyPi * (y / (|x| + |y|)))

theorem Str.atan2_range (y x : ℚ) : |Str.someAtan2 y x| ≤ npyPi := by
  have t : |y / (|x| + |y|)| ≤ 1 := by
    rw [abs_div, abs_of_nonneg (by positivity : 0 ≤ |x| + |y|)]
    exact div_le_one_of_le₀ (by linarith [abs_nonneg x]) (by positivity)
  obtain ⟨h1, h2⟩ := abs_le.1 t
  have hp : (0 : ℚ) < npyPi := by decide +kernel
  have e1 : rnd npyPi = npyPi := by decide +kernel
  have e2 : rnd (-npyPi) = -npyPi := by decide +kernel
  unfold Str.someAtan2
  rw [abs_le]
  exact ⟨e2.ge.trans (rnd_mono (by nlinarith)), (rnd_mono (by nlinarith)).trans e1.le⟩

/-- A rupture whose strike is a number. -/
example : ∃ S, edgeStrike Rng.series Rng.sumDot Str.someAtan2 [Rng.ramp, Rng.ramp] = some S ∧ -180 ≤ S ∧ S < 180 := by
  have h : (edgeStrike Rng.series Rng.sumDot Str.someAtan2 [Rng.ramp, Rng.ramp]).isSome = true := by decide +kernel
  obtain ⟨S, hS⟩ := Option.isSome_iff_exists.1 h
  exact ⟨S, hS, (C227_range_partial Rng.series Rng.sumDot Str.atan2_range).1 _ S hS⟩

end Verif.Props
