import Verif.Props.OqDouble
import Verif.Spec.EcefDouble
import Verif.Model.EcefDouble

/-!
# C203: earth-centred coordinates in binary arithmetic
-/

namespace Verif.Props
open Verif.Dbl Verif.Spec

namespace Ecef
open Geo

theorem scaled_product {u : ℝ} (hu : Precise u) {a b : ℚ} {A B e f K : ℝ} (hK : 1 ≤ K) (ha : |(a : ℝ) - A| ≤ e) (hb : |(b : ℝ) - B| ≤ f) (hA : |A| ≤ K) (hB : |B| ≤ 1)
    (he : e ≤ 50 * K * u) (hf : f ≤ 50 * u) : |((rnd (a * b) : ℚ) : ℝ) - A * B| ≤ e + K * f + 11 / 10 * K * u := by
  obtain ⟨u0, u1, τ0, τ2, τ1, τu⟩ := tiny hu
  have h := rnd_real hu (a * b)
  clear τ1 τ2
  generalize (2 : ℝ) ^ (-1075 : ℤ) = τ at *
  rw [Rat.cast_mul] at h
  have e0 : 0 ≤ e := le_trans (abs_nonneg _) ha
  have f0 : 0 ≤ f := le_trans (abs_nonneg _) hb
  have hKu : 0 < K * u := by positivity
  have h1 : |(a : ℝ) * b - A * B| ≤ e * f + e + K * f := by
    rw [show (a : ℝ) * b - A * B = (a - A) * (b - B) + (a - A) * B + A * (b - B) by ring]
    have k1 : |((a : ℝ) - A) * (b - B)| ≤ e * f := by rw [abs_mul]; exact mul_le_mul ha hb (abs_nonneg _) e0
    have k2 : |((a : ℝ) - A) * B| ≤ e * 1 := by rw [abs_mul]; exact mul_le_mul ha hB (abs_nonneg _) e0
    have k3 : |A * ((b : ℝ) - B)| ≤ K * f := by rw [abs_mul]; exact mul_le_mul hA hb (abs_nonneg _) (by linarith)
    have := abs_add_le (((a : ℝ) - A) * (b - B) + (a - A) * B) (A * (b - B))
    have := abs_add_le (((a : ℝ) - A) * (b - B)) ((a - A) * B)
    linarith
  have h2 : |(a : ℝ) * b| ≤ K + (e * f + e + K * f) := by
    have k : |A * B| ≤ K * 1 := by rw [abs_mul]; exact mul_le_mul hA hB (abs_nonneg _) (by linarith)
    have := abs_sub_abs_le_abs_sub ((a : ℝ) * b) (A * B)
    linarith
  have h3 : e * f ≤ K * u / 1000 := by
    have : e * f ≤ 50 * K * u * (50 * u) := mul_le_mul he hf f0 (by positivity)
    nlinarith
  have h4 : K * f ≤ K * (50 * u) := mul_le_mul_of_nonneg_left hf (by linarith)
  have h5 : u * |(a : ℝ) * b| ≤ u * (K + (K * u / 1000 + 50 * K * u + K * (50 * u))) := mul_le_mul_of_nonneg_left (by linarith) u0.le
  have h6 : u * (K * u / 1000 + 50 * K * u + K * (50 * u)) ≤ K * u / 1000 := by nlinarith
  have h7 : τ ≤ K * u / 1000 := by nlinarith
  have := abs_sub_le ((rnd (a * b) : ℚ) : ℝ) ((a : ℝ) * b) (A * B)
  linarith

theorem scaled_sum {u : ℝ} (hu : Precise u) {a b : ℚ} {A B e f K : ℝ} (hK : 1 ≤ K) (ha : |(a : ℝ) - A| ≤ e) (hb : |(b : ℝ) - B| ≤ f) (hAB : |A + B| ≤ K)
    (he : e ≤ 50 * K * u) (hf : f ≤ 50 * K * u) : |((rnd (a + b) : ℚ) : ℝ) - (A + B)| ≤ e + f + 11 / 10 * K * u := by
  obtain ⟨u0, u1, τ0, τ2, τ1, τu⟩ := tiny hu
  have h := rnd_real hu (a + b)
  clear τ1 τ2
  generalize (2 : ℝ) ^ (-1075 : ℤ) = τ at *
  rw [Rat.cast_add] at h
  have hKu : 0 < K * u := by positivity
  have h1 : |(a : ℝ) + b - (A + B)| ≤ e + f := by
    rw [show (a : ℝ) + b - (A + B) = (a - A) + (b - B) by ring]
    exact le_trans (abs_add_le _ _) (add_le_add ha hb)
  have h2 : |(a : ℝ) + b| ≤ K + (e + f) := by
    have := abs_sub_abs_le_abs_sub ((a : ℝ) + b) (A + B)
    linarith
  have h5 : u * |(a : ℝ) + b| ≤ u * (K + (50 * K * u + 50 * K * u)) := mul_le_mul_of_nonneg_left (by linarith) u0.le
  have h6 : u * (50 * K * u + 50 * K * u) ≤ K * u / 1000 := by nlinarith
  have h7 : τ ≤ K * u / 1000 := by nlinarith
  have := abs_sub_le ((rnd (a + b) : ℚ) : ℝ) ((a : ℝ) + b) (A + B)
  linarith

/-- The square of the eccentricity. -/
noncomputable def e2 : ℝ := 0.081819190842622 ^ 2

theorem square_eq : eccentricitySquared = 482380915665237 / 72057594037927936 := by decide +kernel

theorem rest_eq : rnd (1 - eccentricitySquared) = 8946901640282837 / 9007199254740992 := by decide +kernel

theorem square_near {u : ℝ} (hu : Precise u) : |(eccentricitySquared : ℝ) - e2| ≤ u / 10 := by
  refine le_trans ?_ (div_le_div_of_nonneg_right hu.1 (by norm_num))
  rw [square_eq, e2, abs_le]
  push_cast
  constructor <;> norm_num

theorem rest_near {u : ℝ} (hu : Precise u) : |((rnd (1 - eccentricitySquared) : ℚ) : ℝ) - (1 - e2)| ≤ u := by
  refine le_trans ?_ hu.1
  rw [rest_eq, e2, abs_le]
  push_cast
  constructor <;> norm_num

theorem e2_bounds : 0 < e2 ∧ e2 ≤ 7 / 1000 := by unfold e2; norm_num

/-- The radius in real numbers. -/
noncomputable def radius (S : ℝ) : ℝ := equatorial / √(1 - e2 * S ^ 2)

theorem under_root {S : ℝ} (hS : |S| ≤ 1) : 993 / 1000 ≤ 1 - e2 * S ^ 2 ∧ 1 - e2 * S ^ 2 ≤ 1 := by
  obtain ⟨h0, h1⟩ := e2_bounds
  have hs : S ^ 2 ≤ 1 := by rw [← sq_abs]; nlinarith [abs_nonneg S]
  constructor <;> nlinarith [sq_nonneg S]

theorem root_bounds {S : ℝ} (hS : |S| ≤ 1) : 996 / 1000 ≤ √(1 - e2 * S ^ 2) ∧ √(1 - e2 * S ^ 2) ≤ 1 := by
  obtain ⟨h0, h1⟩ := under_root hS
  exact ⟨Real.le_sqrt_of_sq_le (by linarith), Real.sqrt_le_one.2 h1⟩

theorem radius_bounds {S : ℝ} (hS : |S| ≤ 1) : 0 < radius S ∧ radius S ≤ 6410000 := by
  obtain ⟨h0, h1⟩ := root_bounds hS
  unfold radius equatorial
  refine ⟨by positivity, ?_⟩
  rw [div_le_iff₀ (by linarith)]
  linarith

theorem radius_near {u : ℝ} (hu : Precise u) {s : ℚ} {S : ℝ} (hS : |S| ≤ 1) (h : |(s : ℝ) - S| ≤ 4 * u) : |(verticalRadius s : ℝ) - radius S| ≤ 70000000 * u := by
  obtain ⟨u0, u1, τ0, τ2, τ1, τu⟩ := tiny hu
  obtain ⟨e0, e1⟩ := e2_bounds
  have hE : |e2| ≤ 1 := by rw [abs_of_pos e0]; linarith
  have hES : |e2 * S| ≤ 1 := by rw [abs_mul]; nlinarith [abs_nonneg S, abs_nonneg e2]
  have h1 := scaled_product hu le_rfl (square_near hu) h hE hS (by linarith) (by linarith)
  have h2 := scaled_product hu le_rfl h1 h hES hS (by linarith) (by linarith)
  set t := rnd (rnd (eccentricitySquared * s) * s) with ht
  have hr : e2 * S * S = e2 * S ^ 2 := by ring
  rw [hr] at h2
  obtain ⟨r0, r1⟩ := under_root hS
  obtain ⟨w0, w1⟩ := root_bounds hS
  have h3 : |((rnd (1 + -t) : ℚ) : ℝ) - (1 + -(e2 * S ^ 2))| ≤ 0 + 11 * u + 11 / 10 * 1 * u := by
    refine scaled_sum hu (a := 1) (b := -t) le_rfl (by simp) ?_ ?_ (by linarith) (by linarith)
    · rw [Rat.cast_neg, neg_sub_neg, abs_sub_comm]
      linarith
    · rw [abs_le]; constructor <;> linarith
  rw [← sub_eq_add_neg, ← sub_eq_add_neg] at h3
  unfold verticalRadius radius
  rw [← ht]
  set r := rnd (1 - t) with hrr
  set R := 1 - e2 * S ^ 2 with hR
  have hr0 : (99 / 100 : ℝ) ≤ r := by have := (abs_le.1 h3).1; linarith
  have hrq : (0 : ℚ) ≤ r := by
    have : (0 : ℝ) ≤ r := by linarith
    exact_mod_cast this
  have h4 := sqrtRnd_real hu hrq
  have hsr : 99 / 100 ≤ √(r : ℝ) := Real.le_sqrt_of_sq_le (by linarith)
  have hsr1 : √(r : ℝ) ≤ 101 / 100 := root_le (by norm_num) (by have := (abs_le.1 h3).2; linarith)
  have h5 : |√(r : ℝ) - √R| ≤ 7 * u := by
    have hq1 := Real.sq_sqrt (show (0 : ℝ) ≤ r by linarith)
    have hq2 := Real.sq_sqrt (show (0 : ℝ) ≤ R by linarith)
    have hm : (√(r : ℝ) - √R) * (√(r : ℝ) + √R) = r - R := by rw [← hq1, ← hq2]; ring_nf; rw [Real.sqrt_sq (Real.sqrt_nonneg _), Real.sqrt_sq (Real.sqrt_nonneg _)]
    have hm' : |√(r : ℝ) - √R| * (√(r : ℝ) + √R) ≤ 13 * u := by
      have : |√(r : ℝ) - √R| * |√(r : ℝ) + √R| = |(r : ℝ) - R| := by rw [← abs_mul, hm]
      rw [abs_of_pos (show 0 < √(r : ℝ) + √R by linarith)] at this
      rw [this]
      linarith
    nlinarith [abs_nonneg (√(r : ℝ) - √R)]
  set w := sqrtRnd r with hw
  have h6 : |(w : ℝ) - √R| ≤ 9 * u := by
    have := abs_sub_le (w : ℝ) (√(r : ℝ)) (√R)
    nlinarith
  have hw0 : (99 / 100 : ℝ) ≤ w := by have := (abs_le.1 h6).1; linarith
  have h7 := rnd_real hu (6378137 / w)
  clear τ1 τ2
  generalize (2 : ℝ) ^ (-1075 : ℤ) = τ at *
  rw [Rat.cast_div, Rat.cast_ofNat] at h7
  have h8 : |(6378137 : ℝ) / w - 6378137 / √R| ≤ 6378137 * (93 / 10 * u) := by
    have hwp : (0 : ℝ) < w := by linarith
    have hRp : 0 < √R := by linarith
    rw [div_sub_div _ _ hwp.ne' hRp.ne', abs_div, abs_of_pos (mul_pos hwp hRp), div_le_iff₀ (mul_pos hwp hRp)]
    rw [show (6378137 : ℝ) * √R - w * 6378137 = -(6378137 * (w - √R)) by ring, abs_neg, abs_mul, abs_of_pos (by norm_num : (0 : ℝ) < 6378137)]
    have : (97 / 100 : ℝ) ≤ w * √R := by nlinarith
    nlinarith
  have h9 : |(6378137 : ℝ) / w| ≤ 6500000 := by
    rw [abs_of_pos (by positivity), div_le_iff₀ (by linarith)]
    linarith
  have h10 : u * |(6378137 : ℝ) / w| ≤ u * 6500000 := mul_le_mul_of_nonneg_left h9 u0.le
  unfold equatorial
  have := abs_sub_le ((rnd (6378137 / w) : ℚ) : ℝ) ((6378137 : ℝ) / w) (6378137 / √R)
  linarith

theorem quadric {A e : ℝ} (k c S C T : ℝ) (hA : A ≠ 0) (h1 : C ^ 2 + T ^ 2 = 1) (h2 : c ^ 2 + S ^ 2 = 1) :
    ((A ^ 2 * (k * (c * C))) ^ 2 + (A ^ 2 * (k * (c * T))) ^ 2) / A ^ 2 + (A ^ 2 * (1 - e) * (k * S)) ^ 2 / (A ^ 2 * (1 - e)) = (k * A) ^ 2 * (1 - e * S ^ 2) := by
  have : ((A ^ 2 * (k * (c * C))) ^ 2 + (A ^ 2 * (k * (c * T))) ^ 2) / A ^ 2 + (A ^ 2 * (1 - e) * (k * S)) ^ 2 / (A ^ 2 * (1 - e)) =
      (k * A) ^ 2 * (c ^ 2 * (C ^ 2 + T ^ 2) + (1 - e) * S ^ 2) := by
    field_simp
  rw [this, h1, show c ^ 2 = 1 - S ^ 2 by linarith]
  ring

theorem geodetic_eq {lat lon dep x y z : ℝ} (h : Geodetic lat lon dep x y z) :
    x = (radius (Real.sin (Oq.radians lat)) + -dep * 1000) * Real.cos (Oq.radians lat) * Real.cos (Oq.radians lon) ∧
    y = (radius (Real.sin (Oq.radians lat)) + -dep * 1000) * Real.cos (Oq.radians lat) * Real.sin (Oq.radians lon) ∧
    z = (radius (Real.sin (Oq.radians lat)) * (1 - e2) + -dep * 1000) * Real.sin (Oq.radians lat) := by
  obtain ⟨X, Y, Z, k, h1, hk, hX, hY, hZ, rfl, rfl, rfl⟩ := h
  simp only [vertical] at *
  unfold Oq.radians
  set S := Real.sin (lat * (Real.pi / 180)) with hS
  set c := Real.cos (lat * (Real.pi / 180)) with hc
  set C := Real.cos (lon * (Real.pi / 180))
  set T := Real.sin (lon * (Real.pi / 180))
  have hCT : C ^ 2 + T ^ 2 = 1 := Real.cos_sq_add_sin_sq _
  have hcS : c ^ 2 + S ^ 2 = 1 := Real.cos_sq_add_sin_sq _
  have hA : 0 < equatorial := by unfold equatorial; norm_num
  have hB : polarSquared = equatorial ^ 2 * (1 - e2) := rfl
  obtain ⟨e0, e1⟩ := e2_bounds
  have hB0 : 0 < polarSquared := by rw [hB]; exact mul_pos (by positivity) (by linarith)
  have hX' : X = equatorial ^ 2 * (k * (c * C)) := by rw [← hX]; field_simp
  have hY' : Y = equatorial ^ 2 * (k * (c * T)) := by rw [← hY]; field_simp
  have hZ' : Z = polarSquared * (k * S) := by rw [← hZ]; field_simp
  have hS1 : |S| ≤ 1 := Real.abs_sin_le_one _
  obtain ⟨r0, r1⟩ := under_root hS1
  obtain ⟨w0, w1⟩ := root_bounds hS1
  have key : (k * equatorial) ^ 2 * (1 - e2 * S ^ 2) = 1 := by
    rw [hX', hY', hZ', hB, quadric k c S C T hA.ne' hCT hcS] at h1
    exact h1
  have hroot : √(1 - e2 * S ^ 2) = 1 / (k * equatorial) := by
    have hp : 0 < k * equatorial := by positivity
    rw [show 1 - e2 * S ^ 2 = (1 / (k * equatorial)) ^ 2 by field_simp; linarith]
    exact Real.sqrt_sq (by positivity)
  have hr : radius S = equatorial ^ 2 * k := by
    unfold radius
    rw [hroot]
    field_simp
  rw [hr]
  refine ⟨?_, ?_, ?_⟩
  · rw [hX']; ring
  · rw [hY']; ring
  · rw [hZ', hB]; ring

theorem geodetic_exists (lat lon dep : ℝ) : ∃ x y z, Geodetic lat lon dep x y z := by
  set S := Real.sin (lat * (Real.pi / 180)) with hS
  set c := Real.cos (lat * (Real.pi / 180)) with hc
  have hCT : Real.cos (lon * (Real.pi / 180)) ^ 2 + Real.sin (lon * (Real.pi / 180)) ^ 2 = 1 := Real.cos_sq_add_sin_sq _
  have hcS : c ^ 2 + S ^ 2 = 1 := Real.cos_sq_add_sin_sq _
  have hA : 0 < equatorial := by unfold equatorial; norm_num
  have hB : polarSquared = equatorial ^ 2 * (1 - e2) := rfl
  obtain ⟨e0, e1⟩ := e2_bounds
  have he : 0 < 1 - e2 := by linarith
  have hB0 : 0 < polarSquared := by rw [hB]; exact mul_pos (by positivity) he
  obtain ⟨r0, r1⟩ := under_root (show |S| ≤ 1 from Real.abs_sin_le_one _)
  obtain ⟨w0, w1⟩ := root_bounds (show |S| ≤ 1 from Real.abs_sin_le_one _)
  have hw2 := Real.sq_sqrt (show (0 : ℝ) ≤ 1 - e2 * S ^ 2 by linarith)
  set w := √(1 - e2 * S ^ 2) with hw
  set k := 1 / (equatorial * w) with hk
  have hk0 : 0 < k := by rw [hk]; exact div_pos one_pos (mul_pos hA (by linarith))
  have hkw : k * equatorial * w = 1 := by
    rw [hk]
    have : w ≠ 0 := by linarith
    field_simp
  refine ⟨_, _, _, equatorial ^ 2 * (k * (vertical lat lon).1), equatorial ^ 2 * (k * (vertical lat lon).2.1), polarSquared * (k * (vertical lat lon).2.2), k, ?_, hk0, ?_, ?_, ?_, rfl, rfl, rfl⟩
  · simp only [vertical, ← hS, ← hc]
    rw [hB]
    have h1 : (k * equatorial) ^ 2 * (1 - e2 * S ^ 2) = 1 := by
      rw [← hw2, ← mul_pow, hkw, one_pow]
    rw [quadric k c S _ _ hA.ne' hCT hcS, h1]
  · field_simp
  · field_simp
  · field_simp

theorem core_near {u : ℝ} (hu : Precise u) {s c a t d : ℚ} {S C A T D : ℝ} (hS : |S| ≤ 1) (hC : |C| ≤ 1) (hT : |T| ≤ 1) (hD : |D| ≤ 1) (hA : |A| ≤ 1000000)
    (es : |(s : ℝ) - S| ≤ 4 * u) (ec : |(c : ℝ) - C| ≤ 4 * u) (et : |(t : ℝ) - T| ≤ 7 * u) (ed : |(d : ℝ) - D| ≤ 7 * u) (ea : |(a : ℝ) - A| ≤ 1001000 * u) :
    |((rnd (rnd (rnd (verticalRadius s + a) * c) * d) : ℚ) : ℝ) - (radius S + A) * C * D| ≤ 200000000 * u ∧
    |((rnd (rnd (rnd (verticalRadius s + a) * c) * t) : ℚ) : ℝ) - (radius S + A) * C * T| ≤ 200000000 * u ∧
    |((rnd (rnd (rnd (verticalRadius s * rnd (1 - eccentricitySquared)) + a) * s) : ℚ) : ℝ) - (radius S * (1 - e2) + A) * S| ≤ 200000000 * u := by
  have u0 := (tiny hu).1
  obtain ⟨e0, e1⟩ := e2_bounds
  have nn := radius_near hu hS es
  obtain ⟨n0, n1⟩ := radius_bounds hS
  obtain ⟨ha1, ha2⟩ := abs_le.1 hA
  have hM : |radius S + A| ≤ 7500000 := by rw [abs_le]; constructor <;> linarith
  have hm := scaled_sum hu (K := 7500000) (by norm_num) nn ea hM (by linarith) (by linarith)
  have hmc := scaled_product hu (K := 7500000) (by norm_num) hm ec hM hC (by linarith) (by linarith)
  have hMc : |(radius S + A) * C| ≤ 7500000 := by
    rw [abs_mul]
    exact le_trans (mul_le_of_le_one_right (abs_nonneg _) hC) hM
  have px := scaled_product hu (K := 7500000) (by norm_num) hmc ed hMc hD (by linarith) (by linarith)
  have py := scaled_product hu (K := 7500000) (by norm_num) hmc et hMc hT (by linarith) (by linarith)
  have he : |1 - e2| ≤ 1 := by rw [abs_le]; constructor <;> linarith
  have hn : |radius S| ≤ 7500000 := by rw [abs_of_pos n0]; linarith
  have hp := scaled_product hu (K := 7500000) (by norm_num) nn (rest_near hu) hn he (by linarith) (by linarith)
  have hP : |radius S * (1 - e2) + A| ≤ 7500000 := by
    have k1 : radius S * (1 - e2) ≤ radius S := by nlinarith
    have k2 : 0 ≤ radius S * (1 - e2) := mul_nonneg n0.le (by linarith)
    rw [abs_le]; constructor <;> linarith
  have hq := scaled_sum hu (K := 7500000) (by norm_num) hp ea hP (by linarith) (by linarith)
  have pz := scaled_product hu (K := 7500000) (by norm_num) hq es hP hS (by linarith) (by linarith)
  exact ⟨le_trans px (by linarith), le_trans py (by linarith), le_trans pz (by linarith)⟩

end Ecef

open Geo Ecef in
/-- C203: computed with doubles, the earth-centred coordinates of a point differ from those of the point over (or below) the WGS84 ellipsoid by at most 200000000 `u` metres, a fifth of a
millimetre for every library that is right to 2^-40. -/
theorem C203_near {u : ℝ} (hu : Precise u) {L : MathLib} (hL : RightTo u L) {lat lon dep : ℚ} (h1 : |lat| ≤ 90) (h2 : |lon| ≤ 180) (h3 : |dep| ≤ 1000) {x y z : ℝ}
    (hg : Geodetic lat lon dep x y z) :
    |((Dbl.latlon2ecef L lat lon dep).x : ℝ) - x| ≤ 200000000 * u ∧ |((Dbl.latlon2ecef L lat lon dep).y : ℝ) - y| ≤ 200000000 * u ∧
      |((Dbl.latlon2ecef L lat lon dep).z : ℝ) - z| ≤ 200000000 * u := by
  obtain ⟨u0, u1, -, -, -, τu⟩ := tiny hu
  obtain ⟨hx, hy, hz⟩ := geodetic_eq hg
  have hpi := Real.pi_gt_d2
  have hpi' := Real.pi_lt_d2
  have r1 : |(lat : ℝ)| ≤ 90 := by exact_mod_cast h1
  have r2 : |(lon : ℝ)| ≤ 180 := by exact_mod_cast h2
  have r3 : |(dep : ℝ)| ≤ 1000 := by exact_mod_cast h3
  have af := angle_near hu r1 (by norm_num)
  have al := angle_near hu r2 (by norm_num)
  have bf : |npRadians lat| ≤ 10 := by
    have : |(npRadians lat : ℝ)| ≤ 10 := by linarith [right_angle h1]
    exact_mod_cast this
  have bl : |npRadians lon| ≤ 10 := by
    have h := longitude_bound h2
    have h' := abs_sub_abs_le_abs_sub (npRadians lon : ℝ) (Oq.radians lon)
    have : |(npRadians lon : ℝ)| ≤ 10 := by linarith
    exact_mod_cast this
  have cs := sine_near u0 hL bf af
  have cc := cosine_near u0 hL bf af
  have ls := sine_near u0 hL bl al
  have lc := cosine_near u0 hL bl al
  have ha0 : |-(dep : ℝ) * 1000| ≤ 1000000 := by
    rw [abs_mul, abs_neg, abs_of_pos (by norm_num : (0 : ℝ) < 1000)]; linarith
  have ha : |((rnd (-dep * 1000) : ℚ) : ℝ) - -(dep : ℝ) * 1000| ≤ 1001000 * u := by
    have h := rnd_real hu (-dep * 1000)
    rw [Rat.cast_mul, Rat.cast_neg, Rat.cast_ofNat] at h
    generalize (2 : ℝ) ^ (-1075 : ℤ) = τ at *
    have := mul_le_mul_of_nonneg_left ha0 u0.le
    linarith
  rw [hx, hy, hz]
  exact core_near hu (Real.abs_sin_le_one _) (Real.abs_cos_le_one _) (Real.abs_sin_le_one _) (Real.abs_cos_le_one _) ha0 (by linarith) (by linarith) (by linarith) (by linarith) ha

/-- C203: every latitude, longitude and depth has one point. -/
theorem C203_point (lat lon dep : ℝ) : ∃ x y z, Geodetic lat lon dep x y z ∧ ∀ x' y' z', Geodetic lat lon dep x' y' z' → x' = x ∧ y' = y ∧ z' = z := by
  obtain ⟨x, y, z, h⟩ := Ecef.geodetic_exists lat lon dep
  refine ⟨x, y, z, h, fun x' y' z' h' => ?_⟩
  obtain ⟨a, b, c⟩ := Ecef.geodetic_eq h
  obtain ⟨a', b', c'⟩ := Ecef.geodetic_eq h'
  exact ⟨a'.trans a.symm, b'.trans b.symm, c'.trans c.symm⟩

/-- C203: points on opposite sides of the equator, or of the meridian of Greenwich, have exactly opposite coordinates there and the same ones otherwise. -/
theorem C203_mirror {L : MathLib} (odd : ∀ x, L.sin (-x) = -L.sin x) (even : ∀ x, L.cos (-x) = L.cos x) (lat lon dep : ℚ) :
    Dbl.latlon2ecef L (-lat) lon dep = ⟨(Dbl.latlon2ecef L lat lon dep).x, (Dbl.latlon2ecef L lat lon dep).y, -(Dbl.latlon2ecef L lat lon dep).z⟩ ∧
    Dbl.latlon2ecef L lat (-lon) dep = ⟨(Dbl.latlon2ecef L lat lon dep).x, -(Dbl.latlon2ecef L lat lon dep).y, (Dbl.latlon2ecef L lat lon dep).z⟩ := by
  have hr : ∀ x, npRadians (-x) = -npRadians x := by
    intro x
    unfold npRadians
    rw [neg_mul, rnd_neg]
  have hv : ∀ s, verticalRadius (-s) = verticalRadius s := by
    intro s
    unfold verticalRadius
    simp only [mul_neg, rnd_neg, neg_mul, neg_neg]
  constructor
  · simp only [Dbl.latlon2ecef, hr, odd, even, hv, mul_neg, rnd_neg]
  · simp only [Dbl.latlon2ecef, hr, odd, even, mul_neg, rnd_neg]

/-- C203: points of the equator have height exactly 0, and points of the meridian of Greenwich lie exactly in its plane. -/
theorem C203_zero {u : ℝ} {L : MathLib} (hL : RightTo u L) (x dep : ℚ) : (Dbl.latlon2ecef L 0 x dep).z = 0 ∧ (Dbl.latlon2ecef L x 0 dep).y = 0 := by
  have s0 : L.sin 0 = 0 := by
    have := hL.sin 0 (by norm_num)
    simpa using this
  have r0 : npRadians 0 = 0 := by simp [npRadians, rnd_zero]
  constructor
  · simp [Dbl.latlon2ecef, r0, s0, rnd_zero]
  · simp [Dbl.latlon2ecef, r0, s0, rnd_zero]

/-- A library and a point 10 km below Golden, Colorado. -/
example : ∃ x y z, Geodetic (39755 / 1000 : ℚ) (-10522 / 100 : ℚ) (10 : ℚ) x y z ∧
    |((Dbl.latlon2ecef Geo.someLib (39755 / 1000) (-10522 / 100) 10).x : ℝ) - x| ≤ 200000000 * 2 ^ (-49 : ℤ) := by
  obtain ⟨x, y, z, h⟩ := Ecef.geodetic_exists ((39755 / 1000 : ℚ) : ℝ) ((-10522 / 100 : ℚ) : ℝ) ((10 : ℚ) : ℝ)
  exact ⟨x, y, z, h, (C203_near Geo.precise49 Geo.someLib_right (by norm_num [abs_le]) (by norm_num [abs_le]) (by norm_num) h).1⟩

example (x : ℚ) : Geo.someLib.sin (-x) = -Geo.someLib.sin x ∧ Geo.someLib.cos (-x) = Geo.someLib.cos x := ⟨Geo.someLib_odd x, by simp [Geo.someLib]⟩

end Verif.Props
