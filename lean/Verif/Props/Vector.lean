import Mathlib.Tactic.Ring
import Mathlib.Tactic.FieldSimp
import Mathlib.Tactic.NormNum
import Mathlib.Tactic.Positivity
import Mathlib.Tactic.LinearCombination
import Verif.Model.Vector

/-!
# Vectors and ECEF coordinates: C58, C59, C95
-/

namespace Verif.Props
open Verif.Vec Real

/-! ### C58 -/

/-- The zero vector. -/
noncomputable def zeroVec : V3 := ⟨0, 0, 0⟩

theorem sq_pos_of_ne {a : V3} (h : a ≠ zeroVec) : 0 < a.x ^ 2 + a.y ^ 2 + a.z ^ 2 := by
  rcases (by positivity : 0 ≤ a.x ^ 2 + a.y ^ 2 + a.z ^ 2).lt_or_eq with h' | h'
  · exact h'
  · exfalso
    apply h
    have hx : a.x = 0 := by nlinarith [sq_nonneg a.x, sq_nonneg a.y, sq_nonneg a.z]
    have hy : a.y = 0 := by nlinarith [sq_nonneg a.x, sq_nonneg a.y, sq_nonneg a.z]
    have hz : a.z = 0 := by nlinarith [sq_nonneg a.x, sq_nonneg a.y, sq_nonneg a.z]
    ext <;> simp [hx, hy, hz, zeroVec]

/-- **C58.** The laws of a vector space, of the dot product and of the cross product; lengths;
normalising. -/
theorem C58_vector_algebra (a b c : V3) (k l : ℝ) :
    -- vector space
    a.add b = b.add a ∧ (a.add b).add c = a.add (b.add c) ∧ a.add zeroVec = a ∧
    (a.sub b).add b = a ∧ a.sub a = zeroVec ∧
    (a.add b).mul k = (a.mul k).add (b.mul k) ∧ a.mul (k + l) = (a.mul k).add (a.mul l) ∧
    (a.mul k).mul l = a.mul (k * l) ∧ a.mul 1 = a ∧
    -- dot product
    a.dot b = b.dot a ∧ (a.add b).dot c = a.dot c + b.dot c ∧ (a.mul k).dot b = k * a.dot b ∧
    a.dot a = a.mag ^ 2 ∧ (a.mag = 0 ↔ a = zeroVec) ∧
    -- cross product
    a.cross b = (b.cross a).mul (-1) ∧ (a.add b).cross c = (a.cross c).add (b.cross c) ∧
    (a.mul k).cross b = (a.cross b).mul k ∧
    (a.cross b).dot a = 0 ∧ (a.cross b).dot b = 0 ∧
    (a.cross b).mag ^ 2 = a.mag ^ 2 * b.mag ^ 2 - a.dot b ^ 2 ∧
    -- distance
    a.distance b = (a.sub b).mag ∧ a.distance b = b.distance a ∧ (a.distance b = 0 ↔ a = b) ∧
    -- normalising
    (a ≠ zeroVec → a.norm.mag = 1 ∧ a.norm.mul a.mag = a) := by
  have hmag : ∀ v : V3, v.mag ^ 2 = v.x ^ 2 + v.y ^ 2 + v.z ^ 2 := fun v =>
    Real.sq_sqrt (by positivity)
  have hzero : ∀ v : V3, v.mag = 0 ↔ v = zeroVec := by
    intro v
    constructor
    · intro h
      by_contra hne
      have := sq_pos_of_ne hne
      have h2 := hmag v
      rw [h] at h2
      linarith
    · rintro rfl
      simp [V3.mag, zeroVec]
  have hdist : a.distance b = (a.sub b).mag := rfl
  refine ⟨?_, ?_, ?_, ?_, ?_, ?_, ?_, ?_, ?_, ?_, ?_, ?_, ?_, hzero a, ?_, ?_, ?_, ?_, ?_, ?_, hdist, ?_,
    ?_, ?_⟩
  · ext <;> simp only [V3.add] <;> ring
  · ext <;> simp only [V3.add] <;> ring
  · ext <;> simp [V3.add, zeroVec]
  · ext <;> simp [V3.add, V3.sub]
  · ext <;> simp [V3.sub, zeroVec]
  · ext <;> simp only [V3.add, V3.mul] <;> ring
  · ext <;> simp only [V3.add, V3.mul] <;> ring
  · ext <;> simp only [V3.mul] <;> ring
  · ext <;> simp [V3.mul]
  · simp only [V3.dot]; ring
  · simp only [V3.dot, V3.add]; ring
  · simp only [V3.dot, V3.mul]; ring
  · rw [hmag]; simp only [V3.dot]; ring
  · ext <;> simp only [V3.cross, V3.mul] <;> ring
  · ext <;> simp only [V3.cross, V3.add] <;> ring
  · ext <;> simp only [V3.cross, V3.mul] <;> ring
  · simp only [V3.cross, V3.dot]; ring
  · simp only [V3.cross, V3.dot]; ring
  · rw [hmag, hmag, hmag]; simp only [V3.cross, V3.dot]; ring
  · simp only [V3.distance]
    congr 1
    ring
  · rw [hdist, hzero]
    constructor
    · intro h
      have hx := congrArg V3.x h
      have hy := congrArg V3.y h
      have hz := congrArg V3.z h
      simp only [V3.sub, zeroVec] at hx hy hz
      ext <;> linarith
    · rintro rfl
      ext <;> simp [V3.sub, zeroVec]
  · intro h
    have hpos := sq_pos_of_ne h
    have hs : 0 < √(a.x ^ 2 + a.y ^ 2 + a.z ^ 2) := Real.sqrt_pos.2 hpos
    have hsq := Real.sq_sqrt hpos.le
    constructor
    · have : a.norm.mag ^ 2 = 1 := by
        rw [hmag]
        simp only [V3.norm, div_pow, hsq]
        field_simp
      have h0 : 0 ≤ a.norm.mag := Real.sqrt_nonneg _
      nlinarith
    · ext <;> simp only [V3.norm, V3.mul, V3.mag] <;> field_simp

/-! ### C59 and C95 -/

theorem arctan2_polar {r θ : ℝ} (hr : 0 < r) (hθ : θ ∈ Set.Ioc (-π) π) :
    arctan2 (r * sin θ) (r * cos θ) = θ := by
  have h := Complex.arg_mul_cos_add_sin_mul_I hr hθ
  unfold arctan2
  refine Eq.trans ?_ h
  congr 1
  apply Complex.ext <;> simp [Complex.cos_ofReal_re, Complex.sin_ofReal_re, Complex.cos_ofReal_im]

theorem lonDeg_eq (v : V3) : lonDeg v = arctan2 v.y v.x * radToDeg := by
  have h1 : arctan2 v.y v.x ∈ Set.Ioc (-π) π := Complex.arg_mem_Ioc _
  have hpi := Real.pi_pos
  unfold lonDeg npMod
  simp only
  generalize arctan2 v.y v.x = u at h1 ⊢
  obtain ⟨h1, h2⟩ := h1
  unfold radToDeg
  by_cases hu : 0 ≤ u
  · have hf : ⌊u / (2 * π)⌋ = 0 := by
      rw [Int.floor_eq_zero_iff]
      constructor
      · positivity
      · rw [div_lt_one (by positivity)]; linarith
    rw [hf]
    have : u * (180 / π) ≤ 180 := by
      rw [mul_div_assoc', div_le_iff₀ hpi]; nlinarith
    simp only [Int.cast_zero, mul_zero, sub_zero]
    rw [if_neg (by linarith)]
  · push Not at hu
    have hf : ⌊u / (2 * π)⌋ = -1 := by
      rw [Int.floor_eq_iff]
      constructor
      · rw [le_div_iff₀ (by positivity)]; push_cast; linarith
      · rw [div_lt_iff₀ (by positivity)]; push_cast; linarith
    rw [hf]
    have e : (u - 2 * π * ((-1 : ℤ) : ℝ)) * (180 / π) = u * (180 / π) + 360 := by
      push_cast; field_simp; ring
    rw [e]
    have : -180 < u * (180 / π) := by
      rw [mul_div_assoc', lt_div_iff₀ hpi]; nlinarith
    rw [if_pos (by linarith)]
    ring

theorem wgsE_pos : 0 < wgsE := by unfold wgsE; norm_num
theorem wgsE_lt : wgsE < 1 / 10 := by unfold wgsE; norm_num
theorem wgsA_pos : 0 < wgsA := by unfold wgsA; norm_num

theorem root_pos {s : ℝ} (hs : s ^ 2 ≤ 1) : 0 < 1 - wgsE * wgsE * s * s := by
  have h1 := wgsE_pos
  have h2 := wgsE_lt
  nlinarith [mul_pos h1 h1]

/-- The length of the normal is at least the equatorial radius. -/
theorem primeVertical_ge (s : ℝ) (hs : s ^ 2 ≤ 1) : wgsA ≤ primeVertical s := by
  unfold primeVertical
  have h := root_pos hs
  rw [le_div_iff₀ (Real.sqrt_pos.2 h)]
  have : √(1 - wgsE * wgsE * s * s) ≤ 1 := by
    rw [Real.sqrt_le_one]
    nlinarith [mul_pos wgsE_pos wgsE_pos, sq_nonneg s]
  nlinarith [wgsA_pos]

theorem latlon_cos_pos {lat : ℝ} (h1 : -90 < lat) (h2 : lat < 90) : 0 < cos (lat * degToRad) := by
  apply Real.cos_pos_of_mem_Ioo
  have := Real.pi_pos
  unfold degToRad
  constructor <;> nlinarith

theorem radToDeg_degToRad (x : ℝ) : x * degToRad * radToDeg = x := by
  unfold degToRad radToDeg
  have := Real.pi_ne_zero
  field_simp

theorem lon_mem {lon : ℝ} (h1 : -180 < lon) (h2 : lon ≤ 180) : lon * degToRad ∈ Set.Ioc (-π) π := by
  have := Real.pi_pos
  unfold degToRad
  constructor <;> nlinarith

/-- **C59.** The longitude returned by `ecef2latlon` is in (-180, 180]; for every point away from the
poles and less than 6378.137 km deep, it is the longitude given to `latlon2ecef`; hence points with the
same ECEF coordinates have the same longitude. -/
theorem C59_longitude :
    (∀ v, -180 < (ecef2latlon v).2.1 ∧ (ecef2latlon v).2.1 ≤ 180) ∧
    (∀ lat lon dep : ℝ, -90 < lat → lat < 90 → -180 < lon → lon ≤ 180 → dep < 6378.137 →
      (ecef2latlon (latlon2ecef lat lon dep)).2.1 = lon) ∧
    (∀ lat lon dep lat' lon' dep' : ℝ, -90 < lat → lat < 90 → -180 < lon → lon ≤ 180 → dep < 6378.137 →
      -90 < lat' → lat' < 90 → -180 < lon' → lon' ≤ 180 → dep' < 6378.137 →
      latlon2ecef lat lon dep = latlon2ecef lat' lon' dep' → lon = lon') := by
  have key : ∀ lat lon dep : ℝ, -90 < lat → lat < 90 → -180 < lon → lon ≤ 180 → dep < 6378.137 →
      (ecef2latlon (latlon2ecef lat lon dep)).2.1 = lon := by
    intro lat lon dep h1 h2 h3 h4 h5
    have hc := latlon_cos_pos h1 h2
    have hN : 0 < primeVertical (sin (lat * degToRad)) + -dep * 1000 := by
      have := primeVertical_ge (sin (lat * degToRad)) (Real.sin_sq_le_one _)
      unfold wgsA at this
      linarith
    show lonDeg (latlon2ecef lat lon dep) = lon
    rw [lonDeg_eq]
    show arctan2 ((primeVertical (sin (lat * degToRad)) + -dep * 1000) * cos (lat * degToRad) *
      sin (lon * degToRad)) ((primeVertical (sin (lat * degToRad)) + -dep * 1000) * cos (lat * degToRad) *
      cos (lon * degToRad)) * radToDeg = lon
    rw [arctan2_polar (mul_pos hN hc) (lon_mem h3 h4), radToDeg_degToRad]
  refine ⟨?_, key, ?_⟩
  · intro v
    show -180 < lonDeg v ∧ lonDeg v ≤ 180
    rw [lonDeg_eq]
    have h1 : arctan2 v.y v.x ∈ Set.Ioc (-π) π := Complex.arg_mem_Ioc _
    have hpi := Real.pi_pos
    unfold radToDeg
    constructor
    · rw [mul_div_assoc', lt_div_iff₀ hpi]; nlinarith [h1.1]
    · rw [mul_div_assoc', div_le_iff₀ hpi]; nlinarith [h1.2]
  · intro lat lon dep lat' lon' dep' a1 a2 a3 a4 a5 b1 b2 b3 b4 b5 h
    rw [← key lat lon dep a1 a2 a3 a4 a5, h, key lat' lon' dep' b1 b2 b3 b4 b5]

/-- **C95.** A point on the ellipsoid goes to ECEF coordinates and back unchanged, unless it is within a
metre of the polar axis. -/
theorem C95_surface_roundtrip {lat lon : ℝ} (h1 : -90 < lat) (h2 : lat < 90) (h3 : -180 < lon)
    (h4 : lon ≤ 180)
    (hpole : 1 ≤ |(latlon2ecef lat lon 0).x| ∨ 1 ≤ |(latlon2ecef lat lon 0).y|) :
    ecef2latlon (latlon2ecef lat lon 0) = (lat, lon, 0) := by
  have hA := wgsA_pos
  have hE := wgsE_pos
  have hE2 := wgsE_lt
  have hc := latlon_cos_pos h1 h2
  have hlon := C59_longitude.2.1 lat lon 0 h1 h2 h3 h4 (by norm_num)
  have hb2 : wgsB ^ 2 = wgsA ^ 2 * (1 - wgsE ^ 2) := Real.sq_sqrt (mul_nonneg (by positivity) (by nlinarith))
  have hbpos : 0 < wgsB := Real.sqrt_pos.2 (mul_pos (by positivity) (by nlinarith))
  have hep2 : wgsEp ^ 2 = (wgsA ^ 2 - wgsB ^ 2) / wgsB ^ 2 :=
    Real.sq_sqrt (div_nonneg (by rw [hb2]; nlinarith [sq_nonneg (wgsA * wgsE)]) (by positivity))
  have hφ : lat * degToRad ∈ Set.Ioc (-π) π := by
    have := Real.pi_pos
    unfold degToRad
    constructor <;> nlinarith
  set φ := lat * degToRad with hφdef
  have hs2 : sin φ ^ 2 = 1 - cos φ ^ 2 := by linarith [Real.sin_sq_add_cos_sq φ]
  -- the root and the point
  set w := √(1 - wgsE * wgsE * sin φ * sin φ) with hw
  have hroot := root_pos (Real.sin_sq_le_one φ)
  have hwpos : 0 < w := Real.sqrt_pos.2 hroot
  have hw2 : w ^ 2 = 1 - wgsE ^ 2 * sin φ ^ 2 := by
    rw [hw, Real.sq_sqrt hroot.le]; ring
  have hNdef : primeVertical (sin φ) = wgsA / w := rfl
  have hx : (latlon2ecef lat lon 0).x = wgsA / w * cos φ * cos (lon * degToRad) := by
    simp only [latlon2ecef, ← hφdef, hNdef]; ring
  have hy : (latlon2ecef lat lon 0).y = wgsA / w * cos φ * sin (lon * degToRad) := by
    simp only [latlon2ecef, ← hφdef, hNdef]; ring
  have hz : (latlon2ecef lat lon 0).z = wgsA / w * (1 - wgsE ^ 2) * sin φ := by
    simp only [latlon2ecef, ← hφdef, hNdef]; ring
  generalize latlon2ecef lat lon 0 = v at hx hy hz hlon hpole ⊢
  have hp : √(v.x ^ 2 + v.y ^ 2) = wgsA / w * cos φ := by
    rw [hx, hy, Real.sqrt_eq_iff_eq_sq (by positivity) (by positivity)]
    linear_combination (wgsA / w * cos φ) ^ 2 * Real.sin_sq_add_cos_sq (lon * degToRad)
  -- the reduced latitude
  have hth : reduced v = arctan2 (wgsB * sin φ) (wgsA * cos φ) := by
    unfold reduced
    rw [hp, hz]
    have e1 : wgsA * (wgsA / w * (1 - wgsE ^ 2) * sin φ) = (wgsB / w) * (wgsB * sin φ) := by
      field_simp
      linear_combination (-sin φ) * hb2
    have e2 : wgsB * (wgsA / w * cos φ) = (wgsB / w) * (wgsA * cos φ) := by ring
    rw [e1, e2]
    unfold arctan2
    have := Complex.arg_real_mul (⟨wgsA * cos φ, wgsB * sin φ⟩ : ℂ) (div_pos hbpos hwpos)
    refine Eq.trans ?_ this
    congr 1
    apply Complex.ext <;> simp
  have hR : (wgsA * cos φ) ^ 2 + (wgsB * sin φ) ^ 2 = (wgsA * w) ^ 2 := by
    rw [mul_pow, mul_pow, mul_pow, hb2, hw2]
    linear_combination (wgsA ^ 2) * Real.sin_sq_add_cos_sq φ
  have hnorm : ‖(⟨wgsA * cos φ, wgsB * sin φ⟩ : ℂ)‖ = wgsA * w := by
    rw [Complex.norm_def, Complex.normSq_mk]
    rw [show wgsA * cos φ * (wgsA * cos φ) + wgsB * sin φ * (wgsB * sin φ) = (wgsA * w) ^ 2 by
      rw [← hR]; ring]
    exact Real.sqrt_sq (by positivity)
  have hne : (⟨wgsA * cos φ, wgsB * sin φ⟩ : ℂ) ≠ 0 := by
    intro h
    rw [h] at hnorm
    simp at hnorm
    rcases hnorm with h | h <;> linarith
  have hcos : cos (reduced v) = cos φ / w := by
    rw [hth]
    unfold arctan2
    rw [Complex.cos_arg hne, hnorm]
    field_simp
  have hsin : sin (reduced v) = wgsB * sin φ / (wgsA * w) := by
    rw [hth]
    unfold arctan2
    rw [Complex.sin_arg, hnorm]
  -- the latitude
  have hlat : latRad v = φ := by
    unfold latRad
    rw [hp, hz, hcos, hsin, hep2]
    have k : 0 < wgsA * (1 - wgsE ^ 2) / w ^ 3 := by
      have : 0 < 1 - wgsE ^ 2 := by nlinarith
      positivity
    have e1 : wgsA / w * (1 - wgsE ^ 2) * sin φ +
        (wgsA ^ 2 - wgsB ^ 2) / wgsB ^ 2 * wgsB * (wgsB * sin φ / (wgsA * w)) ^ 3 =
        wgsA * (1 - wgsE ^ 2) / w ^ 3 * sin φ := by
      have e3 : (wgsA ^ 2 - wgsB ^ 2) / wgsB ^ 2 * wgsB * (wgsB * sin φ / (wgsA * w)) ^ 3 =
          (wgsA ^ 2 - wgsB ^ 2) * wgsB ^ 2 * sin φ ^ 3 / (wgsA * w) ^ 3 := by
        field_simp
      rw [e3, hb2]
      field_simp
      rw [hw2]
      ring
    have e2 : wgsA / w * cos φ - wgsE ^ 2 * wgsA * (cos φ / w) ^ 3 =
        wgsA * (1 - wgsE ^ 2) / w ^ 3 * cos φ := by
      field_simp
      rw [hw2, hs2]
      ring
    rw [e1, e2]
    exact arctan2_polar k hφ
  -- the altitude
  have halt : altitude v = 0 := by
    unfold altitude
    have : ¬ (|v.x| < 1 ∧ |v.y| < 1) := by
      rintro ⟨a, b⟩
      rcases hpole with h | h <;> linarith
    rw [if_neg this, hlat, hp, ← hw2, Real.sqrt_sq hwpos.le]
    field_simp
    ring
  unfold ecef2latlon at hlon ⊢
  simp only at hlon
  rw [hlon, hlat, halt, hφdef, radToDeg_degToRad]
  simp

/-- Such a point: on the equator. -/
example : 1 ≤ |(latlon2ecef 0 0 0).x| ∨ 1 ≤ |(latlon2ecef 0 0 0).y| := by
  left
  simp [latlon2ecef, primeVertical, wgsA]

/-- The distance from the axis of a point on the equator. -/
theorem latlon2ecef_equator (lon dep : ℝ) :
    latlon2ecef 0 lon dep =
      ⟨(wgsA - dep * 1000) * cos (lon * degToRad), (wgsA - dep * 1000) * sin (lon * degToRad), 0⟩ := by
  simp [latlon2ecef, primeVertical]
  constructor <;> left <;> ring

/-- **C95.** Below and above the equator points go to ECEF coordinates and back unchanged, down to a depth of
6000 km. -/
theorem C95_equator_roundtrip {lon dep : ℝ} (h3 : -180 < lon) (h4 : lon ≤ 180) (hdep : dep ≤ 6000) :
    ecef2latlon (latlon2ecef 0 lon dep) = (0, lon, dep) := by
  have hE := wgsE_pos
  have hE2 := wgsE_lt
  have hlon := C59_longitude.2.1 0 lon dep (by norm_num) (by norm_num) h3 h4 (by linarith)
  have hr : 378137 ≤ wgsA - dep * 1000 := by unfold wgsA; linarith
  have hb2 : 0 < wgsB := Real.sqrt_pos.2 (mul_pos (by have := wgsA_pos; positivity) (by nlinarith))
  rw [latlon2ecef_equator] at hlon ⊢
  set r := wgsA - dep * 1000 with hrdef
  set lam := lon * degToRad
  have hp : √((r * cos lam) ^ 2 + (r * sin lam) ^ 2) = r := by
    rw [Real.sqrt_eq_iff_eq_sq (by positivity) (by linarith)]
    linear_combination r ^ 2 * Real.sin_sq_add_cos_sq lam
  have hth : reduced ⟨r * cos lam, r * sin lam, 0⟩ = 0 := by
    unfold reduced arctan2
    simp only [hp, mul_zero]
    rw [show (⟨wgsB * r, 0⟩ : ℂ) = ((wgsB * r : ℝ) : ℂ) from Complex.ext (by simp) (by simp)]
    exact Complex.arg_ofReal_of_nonneg (by positivity)
  have hlat : latRad ⟨r * cos lam, r * sin lam, 0⟩ = 0 := by
    unfold latRad
    rw [hth]
    simp only [hp, Real.sin_zero, Real.cos_zero]
    unfold arctan2
    have e : (0 : ℝ) + wgsEp ^ 2 * wgsB * 0 ^ 3 = 0 := by ring
    rw [e]
    apply Complex.arg_ofReal_of_nonneg
    have h1 : wgsE ^ 2 * wgsA ≤ 1 / 100 * wgsA := by
      apply mul_le_mul_of_nonneg_right _ wgsA_pos.le
      nlinarith
    have h2 : (1 : ℝ) / 100 * wgsA ≤ 63782 := by unfold wgsA; norm_num
    linarith
  have halt : altitude ⟨r * cos lam, r * sin lam, 0⟩ = r - wgsA := by
    unfold altitude
    have : ¬ (|r * cos lam| < 1 ∧ |r * sin lam| < 1) := by
      rintro ⟨a, b⟩
      have ha : (r * cos lam) ^ 2 < 1 := by rw [← sq_abs]; nlinarith [abs_nonneg (r * cos lam)]
      have hb : (r * sin lam) ^ 2 < 1 := by rw [← sq_abs]; nlinarith [abs_nonneg (r * sin lam)]
      have : r ^ 2 < 2 := by
        have e : r ^ 2 = (r * cos lam) ^ 2 + (r * sin lam) ^ 2 := by
          linear_combination -r ^ 2 * Real.sin_sq_add_cos_sq lam
        linarith
      nlinarith
    rw [if_neg this, hlat]
    simp [hp]
  unfold ecef2latlon at hlon ⊢
  simp only at hlon
  rw [hlat, hlon, halt]
  simp only [Prod.mk.injEq, zero_mul, true_and]
  rw [hrdef]; ring

/-- **C95.** At the poles latitude and depth come back unchanged, down to a depth of 6000 km. -/
theorem C95_pole_roundtrip {lon dep : ℝ} (hdep : dep ≤ 6000) :
    (ecef2latlon (latlon2ecef 90 lon dep)).1 = 90 ∧ (ecef2latlon (latlon2ecef 90 lon dep)).2.2 = dep ∧
    (ecef2latlon (latlon2ecef (-90) lon dep)).1 = -90 ∧
    (ecef2latlon (latlon2ecef (-90) lon dep)).2.2 = dep := by
  have hE := wgsE_pos
  have hE2 := wgsE_lt
  have hA := wgsA_pos
  have hpi := Real.pi_pos
  have hroot : 0 < 1 - wgsE ^ 2 := by nlinarith
  have hB : wgsB = wgsA * √(1 - wgsE ^ 2) := by
    unfold wgsB; rw [Real.sqrt_mul (by positivity), Real.sqrt_sq hA.le]
  have hs : (0.99 : ℝ) ≤ √(1 - wgsE ^ 2) := by
    apply Real.le_sqrt_of_sq_le
    nlinarith
  have hBge : 6314355 ≤ wgsB := by
    rw [hB]; unfold wgsA; nlinarith
  have h90 : (90 : ℝ) * degToRad = π / 2 := by unfold degToRad; ring
  have hm90 : (-90 : ℝ) * degToRad = -(π / 2) := by unfold degToRad; ring
  have hN : wgsA / √(1 - wgsE * wgsE) * (1 - wgsE * wgsE) = wgsB := by
    rw [hB, show wgsE * wgsE = wgsE ^ 2 by ring]
    have h0 : 0 < √(1 - wgsE ^ 2) := by linarith
    have h1 : √(1 - wgsE ^ 2) ^ 2 = 1 - wgsE ^ 2 := Real.sq_sqrt hroot.le
    field_simp
    exact h1.symm
  have e1 : latlon2ecef 90 lon dep = ⟨0, 0, wgsB - dep * 1000⟩ := by
    simp only [latlon2ecef, h90, Real.sin_pi_div_two, Real.cos_pi_div_two, primeVertical, mul_one, mul_zero,
      zero_mul, hN, V3.mk.injEq, true_and]
    ring
  have e2 : latlon2ecef (-90) lon dep = ⟨0, 0, -(wgsB - dep * 1000)⟩ := by
    simp only [latlon2ecef, hm90, Real.sin_neg, Real.cos_neg, Real.sin_pi_div_two, Real.cos_pi_div_two,
      primeVertical, mul_zero, zero_mul, V3.mk.injEq, true_and]
    rw [show wgsE * wgsE * -1 * -1 = wgsE * wgsE by ring, hN]
    ring
  set z := wgsB - dep * 1000 with hz
  have hzpos : 0 < z := by linarith
  have hval : ∀ s : ℝ, (s = 1 ∨ s = -1) →
      latRad ⟨0, 0, s * z⟩ = s * (π / 2) ∧ altitude ⟨0, 0, s * z⟩ = z - wgsB := by
    intro s hs
    have harg : ∀ y : ℝ, 0 < y → arctan2 (s * y) 0 = s * (π / 2) := by
      intro y hy
      rcases hs with rfl | rfl
      · rw [show (1 : ℝ) * y = y * sin (π / 2) by rw [Real.sin_pi_div_two]; ring,
          show (0 : ℝ) = y * cos (π / 2) by rw [Real.cos_pi_div_two]; ring,
          arctan2_polar hy ⟨by linarith, by linarith⟩]; ring
      · rw [show (-1 : ℝ) * y = y * sin (-(π / 2)) by rw [Real.sin_neg, Real.sin_pi_div_two]; ring,
          show (0 : ℝ) = y * cos (-(π / 2)) by rw [Real.cos_neg, Real.cos_pi_div_two]; ring,
          arctan2_polar hy ⟨by linarith, by linarith⟩]; ring
    have hsq : √((0 : ℝ) ^ 2 + 0 ^ 2) = 0 := by simp
    have hth : reduced ⟨0, 0, s * z⟩ = s * (π / 2) := by
      unfold reduced
      simp only [hsq, mul_zero]
      rw [show wgsA * (s * z) = s * (wgsA * z) by ring]
      exact harg _ (by positivity)
    have hc : cos (s * (π / 2)) = 0 := by
      rcases hs with rfl | rfl <;> simp
    have hsn : sin (s * (π / 2)) = s := by
      rcases hs with rfl | rfl <;> simp
    constructor
    · unfold latRad
      rw [hth, hc, hsn]
      simp only [hsq]
      rw [show (0 : ℝ) - wgsE ^ 2 * wgsA * 0 ^ 3 = 0 by ring]
      have hs3 : s ^ 3 = s := by rcases hs with rfl | rfl <;> norm_num
      rw [hs3, show s * z + wgsEp ^ 2 * wgsB * s = s * (z + wgsEp ^ 2 * wgsB) by ring]
      exact harg _ (by positivity)
    · unfold altitude
      rw [if_pos (by simp)]
      simp only
      have : |s * z| = z := by
        rcases hs with rfl | rfl
        · rw [one_mul, abs_of_pos hzpos]
        · rw [neg_one_mul, abs_neg, abs_of_pos hzpos]
      rw [this]
  have r90 : π / 2 * radToDeg = 90 := by unfold radToDeg; field_simp; norm_num
  have v1 := hval 1 (Or.inl rfl)
  have v2 := hval (-1) (Or.inr rfl)
  rw [one_mul, one_mul] at v1
  rw [neg_one_mul, neg_one_mul] at v2
  rw [e1, e2]
  simp only [ecef2latlon]
  rw [v1.1, v1.2, v2.1, v2.2]
  refine ⟨r90, ?_, by rw [neg_mul, r90], ?_⟩ <;> rw [hz] <;> ring

example : ecef2latlon (latlon2ecef 0 100 20) = (0, 100, 20) :=
  C95_equator_roundtrip (by norm_num) (by norm_num) (by norm_num)

end Verif.Props
