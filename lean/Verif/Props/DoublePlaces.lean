import Verif.Model.DoublePlaces
import Verif.Props.Double
import Verif.Props.Elapsed
import Verif.Props.Compass
import Verif.Props.Zones

/-!
# C185: times, zones and directions in binary arithmetic
-/

namespace Verif.Props
open Verif Verif.Dbl Verif.Spec

theorem le_rnd {d q : ℚ} (hd : IsDouble d) (h : d ≤ q) : d ≤ rnd q := by
  by_contra hc
  push Not at hc
  have := (rnd_nearest q).2 d hd
  rw [abs_of_neg (by linarith), abs_of_nonpos (by linarith)] at this
  linarith

theorem rnd_le {d q : ℚ} (hd : IsDouble d) (h : q ≤ d) : rnd q ≤ d := by
  by_contra hc
  push Not at hc
  have := (rnd_nearest q).2 d hd
  rw [abs_of_pos (by linarith), abs_of_nonneg (by linarith)] at this
  linarith

theorem neg_double {d : ℚ} (h : IsDouble d) : IsDouble (-d) := by
  obtain ⟨m, e, h1, h2, h3⟩ := h
  exact ⟨-m, e, by rwa [abs_neg], h2, by rw [h3]; push_cast; ring⟩

theorem abs_rnd_le {d q : ℚ} (hd : IsDouble d) (h : |q| ≤ d) : |rnd q| ≤ d := by
  rw [abs_le] at h ⊢
  exact ⟨le_rnd (neg_double hd) h.1, rnd_le hd h.2⟩

theorem le_abs_rnd {d q : ℚ} (hd : IsDouble d) (h : d ≤ |q|) : d ≤ |rnd q| := by
  rw [le_abs] at h ⊢
  rcases h with h | h
  · exact .inl (le_rnd hd h)
  · exact .inr (by have := rnd_le (neg_double hd) (q := q) (by linarith); linarith)

theorem zero_double : IsDouble 0 := ⟨0, 0, by norm_num, by norm_num, by norm_num⟩

/-- The error of an operation with a result of at most `2 ** (n + 1)`. -/
theorem rnd_small {q : ℚ} (n : ℕ) (h : |q| < 2 ^ (n + 1)) : |rnd q - q| ≤ 2 ^ n / 2 ^ 53 := by
  refine (rnd_error q).trans ?_
  have h1 : expo q ≤ n := expo_le (by omega) (by omega) (by exact_mod_cast h)
  have h2 : ulp q ≤ 2 ^ ((n : ℤ) - 52) := by
    unfold ulp
    exact zpow_le_zpow_right₀ (by norm_num) (by omega)
  have h3 : (2 : ℚ) ^ ((n : ℤ) - 52) = 2 ^ n / 2 ^ 52 := by
    rw [zpow_sub₀ (by norm_num), zpow_natCast]
    norm_cast
  rw [h3] at h2
  have : (2 : ℚ) ^ n / 2 ^ 53 = 2 ^ n / 2 ^ 52 / 2 := by norm_num; ring
  linarith

/-! ### Elapsed times -/

theorem dbl_floatRem_eq {n u : ℤ} (h0 : 0 ≤ n) (h1 : n < 2 ^ 40) (hu : 1 ≤ u) (hu2 : u ≤ 60) : Dbl.floatRem n u = Time.floatRem n u := by
  have hn : rnd (n : ℚ) = n := rnd_double (int_double (by rw [abs_of_nonneg h0]; omega))
  have hq0 : 0 ≤ n / u := Int.ediv_nonneg h0 (by omega)
  have hq1 : n / u ≤ n := Int.ediv_le_self _ h0
  have hm : rnd ((n / u : ℤ) : ℚ) = (n / u : ℤ) := rnd_double (int_double (by rw [abs_of_nonneg hq0]; omega))
  have hmul : u * (n / u) + n % u = n := Int.mul_ediv_add_emod n u
  have hr0 : 0 ≤ n % u := Int.emod_nonneg _ (by omega)
  have hr1 : n % u < u := Int.emod_lt_of_pos _ (by omega)
  have huq : (1 : ℚ) ≤ u := by exact_mod_cast hu
  have huq2 : (u : ℚ) ≤ 60 := by exact_mod_cast hu2
  have hn0 : (0 : ℚ) ≤ n := by exact_mod_cast h0
  have hn1 : (n : ℚ) < 2 ^ 40 := by exact_mod_cast h1
  have hmulq : (u : ℚ) * (n / u : ℤ) + (n % u : ℤ) = n := by exact_mod_cast hmul
  have hr0q : (0 : ℚ) ≤ (n % u : ℤ) := by exact_mod_cast hr0
  have hr1q : ((n % u : ℤ) : ℚ) < u := by exact_mod_cast hr1
  have key : (n : ℚ) / u - (n / u : ℤ) = (n % u : ℤ) / u := by
    rw [div_sub' (by linarith), ← hmulq]
    congr 1
    ring
  unfold Dbl.floatRem Time.floatRem
  rw [hn, hm, key, div_mul_cancel₀ _ (by linarith), Py.round_intCast]
  set r : ℚ := ((n % u : ℤ) : ℚ) with hr
  have hx : |(n : ℚ) / u| < 2 ^ (39 + 1) := by
    rw [abs_of_nonneg (by positivity), div_lt_iff₀ (by linarith)]
    exact hn1.trans_le (le_mul_of_one_le_right (by norm_num) huq)
  have e1 := rnd_small 39 hx
  set x := rnd ((n : ℚ) / u) with hxd
  have hru0 : 0 ≤ r / u := div_nonneg hr0q (by linarith)
  have hru1 : r / u < 1 := by rw [div_lt_one (by linarith)]; exact hr1q
  have e1' : |x - (n / u : ℤ) - r / u| ≤ 2 ^ 39 / 2 ^ 53 := by
    have : x - (n / u : ℤ) - r / u = x - n / u := by rw [← key]; ring
    rw [this]; exact e1
  have hy : |x - (n / u : ℤ)| < 2 ^ (0 + 1) := by
    rw [abs_le] at e1'
    rw [abs_lt]
    norm_num at *
    constructor <;> linarith
  have e2 := rnd_small 0 hy
  set y := rnd (x - (n / u : ℤ)) with hyd
  have e3 : |y - r / u| ≤ 2 ^ 39 / 2 ^ 53 + 2 ^ 0 / 2 ^ 53 := by
    have := abs_add_le (y - (x - (n / u : ℤ))) (x - (n / u : ℤ) - r / u)
    rw [show y - (x - (n / u : ℤ)) + (x - (n / u : ℤ) - r / u) = y - r / u by ring] at this
    linarith
  have e4 : |y * u - r| ≤ (2 ^ 39 / 2 ^ 53 + 2 ^ 0 / 2 ^ 53) * 60 := by
    have : y * u - r = (y - r / u) * u := by field_simp
    rw [this, abs_mul, abs_of_pos (a := (u : ℚ)) (by linarith)]
    exact mul_le_mul e3 huq2 (by linarith) (by norm_num)
  have hz : |y * u| < 2 ^ (6 + 1) := by
    rw [abs_le] at e4
    rw [abs_lt]
    norm_num at *
    constructor <;> linarith
  have e5 := rnd_small 6 hz
  apply dbl_round_of_lt
  have := abs_add_le (rnd (y * u) - y * u) (y * u - r)
  rw [show rnd (y * u) - y * u + (y * u - r) = rnd (y * u) - r by ring] at this
  norm_num at *
  linarith

/-- **C185**: the parts of an elapsed time are those of the exact calculation for all times less than `2 ** 40` seconds (35,000 years) apart, so C09 and C10 hold
in binary arithmetic for all times that Python has. -/
theorem C185_elapsed (t1 t2 : ℤ) (h : t2 - t1 < 2 ^ 40 * 1000000) : Dbl.getTimeElapsed t1 t2 = Time.getTimeElapsed t1 t2 := by
  unfold Dbl.getTimeElapsed Time.getTimeElapsed
  by_cases h0 : t2 < t1
  · rw [if_pos h0, if_pos h0]
  · rw [if_neg h0, if_neg h0]
    have e : (t2 - t1) / 1000000 < 2 ^ 40 := by omega
    have e0 : 0 ≤ (t2 - t1) / 1000000 := by omega
    generalize (t2 - t1) / 1000000 = n at *
    simp only
    rw [dbl_floatRem_eq e0 e (by norm_num) (by norm_num), dbl_floatRem_eq (n := n / 60) (by omega) (by omega) (by norm_num) (by norm_num),
      dbl_floatRem_eq (n := n / 60 / 60) (by omega) (by omega) (by norm_num) (by norm_num),
      dbl_floatRem_eq (n := n / 60 / 60 / 24) (by omega) (by omega) (by norm_num) (by norm_num)]

example : Dbl.getTimeElapsed 0 (694861 * 1000000) = some ⟨1, 1, 1, 1, 1⟩ := by
  rw [C185_elapsed _ _ (by norm_num)]
  decide +kernel

/-! ### Nautical time and zones -/

/-- **C185**: the hours of nautical time are the nearest whole number of 15 degrees, ties going to the even one, for every double. -/
theorem C185_nautical (lon : ℚ) (hd : IsDouble lon) (hb : |lon| < 2 ^ 52) : NearestMultiple lon 15 (nautical lon * 15) := by
  have h := dbl_round_eq (s := 15) hd hb (by norm_num)
  push_cast at h
  unfold nautical
  rw [h]
  exact nearest_of_round lon 15 (by norm_num)

/-- A double at a distance from `-180` that is not zero is not close to it. -/
theorem from_180 {clon : ℚ} (hd : IsDouble clon) (hne : clon + 180 ≠ 0) : 2 ^ (-45 : ℤ) ≤ |clon + 180| := by
  by_cases h : |clon + 180| ≥ 1
  · refine le_trans ?_ h
    norm_num
  · push Not at h
    have hr := abs_lt.1 h
    have hexp : (7 : ℤ) ≤ expo clon := by
      unfold expo
      refine le_max_of_le_left ?_
      have h2 : (2 : ℚ) ^ (7 : ℤ) ≤ |clon| := by
        rw [abs_of_neg (by linarith)]
        norm_num
        linarith
      exact (Int.zpow_le_iff_le_log (b := 2) (by norm_num) (by rw [abs_pos]; linarith)).1 (by exact_mod_cast h2)
    obtain ⟨n, hn⟩ := double_multiple hd
    unfold ulp at hn
    obtain ⟨m, hm⟩ := multiple_of_le (u := -45) (e := expo clon - 52) (by omega) n
    rw [hm] at hn
    have := apart (x := clon) (y := -180) (two_zpow_pos (-45)) ⟨m, hn⟩ ⟨-180 * 2 ^ 45, by norm_num⟩ (fun e => hne (by rw [e]; norm_num))
    rwa [sub_neg_eq_add] at this

/-- The zone is that of the rounded sum. -/
theorem utm_rounded {clon : ℚ} (hd : IsDouble clon) (hb : |clon| ≤ 540) : Dbl.utmZone clon = Time.utmZone (rnd (clon + 180) - 180) := by
  have hb' := abs_le.1 hb
  have hsmall : |clon + 180| < 2 ^ (9 + 1) := by
    rw [abs_lt]; norm_num; constructor <;> linarith
  have herr := rnd_small 9 hsmall
  have h53 : |rnd (clon + 180)| < 2 ^ 53 := by
    rw [abs_le] at herr
    rw [abs_lt] at hsmall ⊢
    norm_num at *
    constructor <;> linarith
  have hv : rnd (clon + 180) = 0 ∨ 2 ^ (-969 : ℤ) ≤ |rnd (clon + 180)| := by
    by_cases h0 : clon + 180 = 0
    · left; rw [h0, rnd_double zero_double]
    · right
      have h1 := from_180 hd h0
      refine le_trans ?_ (le_abs_rnd (d := 2 ^ (-45 : ℤ)) ⟨1, -45, by norm_num, by norm_num, by norm_num⟩ h1)
      exact zpow_le_zpow_right₀ (by norm_num) (by norm_num)
  have h := (dbl_floor_eq (s := 6) (rnd_isDouble (clon + 180)) h53 (by norm_num) (by norm_num) hv).1
  push_cast at h
  unfold Dbl.utmZone Time.utmZone
  rw [h, sub_add_cancel]

/-- **C185** (partial): the UTM zone is one of the 60 and contains the longitude, or one less than `2 ** -44` degrees from it; it is the exact one whenever the sum with 180
is a double, for example for all multiples of `2 ** -43`. What is missing: longitudes very close to the boundary of a zone, see `C185_zone_violated`. -/
theorem C185_zone_partial (clon : ℚ) (hd : IsDouble clon) (hb : |clon| ≤ 540) :
    (1 ≤ Dbl.utmZone clon ∧ Dbl.utmZone clon ≤ 60) ∧
    (∃ x, |x - clon| ≤ 1 / 2 ^ 44 ∧ Dbl.utmZone clon = Time.utmZone x) ∧
    (IsDouble (clon + 180) → Dbl.utmZone clon = Time.utmZone clon) ∧
    ((∃ n : ℤ, clon = n / 2 ^ 43) → IsDouble (clon + 180)) := by
  have hb' := abs_le.1 hb
  refine ⟨?_, ⟨rnd (clon + 180) - 180, ?_, utm_rounded hd hb⟩, fun h => ?_, fun ⟨n, hn⟩ => ?_⟩
  · unfold Dbl.utmZone
    omega
  · have herr := rnd_small (q := clon + 180) 9 (by rw [abs_lt]; norm_num; constructor <;> linarith)
    rw [show rnd (clon + 180) - 180 - clon = rnd (clon + 180) - (clon + 180) by ring]
    norm_num at *
    exact herr
  · rw [utm_rounded hd hb, rnd_double h, add_sub_cancel_right]
  · refine ⟨n + 180 * 2 ^ 43, -43, ?_, by norm_num, ?_⟩
    · have h1 : |(n : ℚ) + 180 * 2 ^ 43| ≤ 720 * 2 ^ 43 := by
        rw [hn] at hb'
        rw [abs_le]
        have a := hb'.1
        have b := hb'.2
        rw [le_div_iff₀ (by norm_num)] at a
        rw [div_le_iff₀ (by norm_num)] at b
        constructor <;> linarith
      have h2 : |(n + 180 * 2 ^ 43 : ℤ)| ≤ 720 * 2 ^ 43 := by exact_mod_cast h1
      omega
    · rw [hn]
      push_cast
      norm_num
      ring

/-- **C185** violated: the longitude `-2 ** -60`, just west of Greenwich, is in zone 30, but gets zone 31. -/
theorem C185_zone_violated : IsDouble (-1 / 2 ^ 60) ∧ Dbl.utmZone (-1 / 2 ^ 60) = 31 ∧ Time.utmZone (-1 / 2 ^ 60) = 30 :=
  ⟨⟨-1, -60, by norm_num, by norm_num, by norm_num⟩, by decide +kernel, by decide +kernel⟩

/-! ### Directions -/

/-- A double less a multiple of 22.5 that is not above it is a double. -/
theorem sub_angle {az : ℚ} (hd : IsDouble az) (h360 : az ≤ 360) {k : ℤ} (hk0 : 0 ≤ k) (hk : (k : ℚ) * (45 / 2) ≤ az) : IsDouble (az - k * (45 / 2)) := by
  obtain ⟨n, hn⟩ := double_multiple hd
  have haz0 : 0 ≤ az := le_trans (by positivity) hk
  have hexp : expo az ≤ 8 := expo_le (by norm_num) (by norm_num) (by rw [abs_of_nonneg haz0]; norm_num; linarith)
  obtain ⟨m, hm⟩ := multiple_of_le (u := expo az - 52) (e := -1) (by omega) (k * 45)
  have hk' : (k : ℚ) * (45 / 2) = m * 2 ^ (expo az - 52) := by
    rw [← hm]; push_cast; rw [zpow_neg_one]; ring
  unfold ulp at hn
  refine ⟨n - m, expo az - 52, ?_, ?_, ?_⟩
  · have hp := two_zpow_pos (expo az - 52)
    have h1 : ((n - m : ℤ) : ℚ) * 2 ^ (expo az - 52) = az - k * (45 / 2) := by
      rw [hk']; push_cast; rw [sub_mul, ← hn]
    have h2 : az - k * (45 / 2) < 2 ^ (expo az + 1) := by
      have := lt_pow_expo az
      rw [abs_of_nonneg haz0] at this
      have : (0 : ℚ) ≤ k * (45 / 2) := by positivity
      linarith
    have h3 : (2 : ℚ) ^ (expo az + 1) = 2 ^ 53 * 2 ^ (expo az - 52) := by
      rw [← zpow_natCast, ← zpow_add₀ (by norm_num)]; congr 1; push_cast; ring
    have h4 : (0 : ℚ) ≤ ((n - m : ℤ) : ℚ) := by
      by_contra hc
      push Not at hc
      nlinarith
    have h5 : ((n - m : ℤ) : ℚ) < 2 ^ 53 := by
      rw [← h1, h3] at h2
      exact lt_of_mul_lt_mul_right h2 hp.le
    rw [abs_of_nonneg (by exact_mod_cast h4)]
    exact_mod_cast h5
  · have : -1022 ≤ expo az := le_max_right _ _
    omega
  · rw [hk']; push_cast; rw [sub_mul, ← hn]

theorem half_angle_double {k : ℤ} (h0 : 0 ≤ k) (h : k ≤ 16) : IsDouble ((k : ℚ) * (45 / 4)) :=
  ⟨k * 45, -2, by rw [abs_of_nonneg (by omega)]; omega, by norm_num, by push_cast; norm_num; ring⟩

/-- Rounding keeps the order of the distances from two directions. -/
theorem directions_apart {az : ℚ} (hd : IsDouble az) (h0 : 0 ≤ az) (h360 : az ≤ 360) {j k : ℤ} (hj0 : 0 ≤ j) (hj : j ≤ 16) (hk0 : 0 ≤ k) (hk : k ≤ 16)
    (h : |az - j * (45 / 2)| < |az - k * (45 / 2)|) : |rnd (az - j * (45 / 2))| < |rnd (az - k * (45 / 2))| := by
  have hj0q : (0 : ℚ) ≤ j := by exact_mod_cast hj0
  have hk0q : (0 : ℚ) ≤ k := by exact_mod_cast hk0
  have hjq : (j : ℚ) ≤ 16 := by exact_mod_cast hj
  have hkq : (k : ℚ) ≤ 16 := by exact_mod_cast hk
  have err : ∀ i : ℚ, 0 ≤ i → i ≤ 16 → |rnd (az - i * (45 / 2)) - (az - i * (45 / 2))| ≤ 1 := by
    intro i hi0 hi
    have := rnd_small (q := az - i * (45 / 2)) 8 (by rw [abs_lt]; norm_num; constructor <;> linarith)
    norm_num at *
    linarith
  have ej := abs_le.1 (err j hj0q hjq)
  have ek := abs_le.1 (err k hk0q hkq)
  rcases lt_trichotomy j k with hlt | heq | hlt
  · -- the nearer direction is the smaller one
    have hlt' : (j : ℚ) + 1 ≤ k := by exact_mod_cast hlt
    by_cases hle : (j : ℚ) * (45 / 2) ≤ az
    · rw [abs_of_nonneg (by linarith)] at h
      have hk' : az < k * (45 / 2) := by
        by_contra hc
        rw [abs_of_nonneg (by linarith)] at h
        linarith
      rw [abs_of_neg (by linarith)] at h
      have hhalf := half_angle_double (k := k - j) (by omega) (by omega)
      have h1 : |rnd (az - j * (45 / 2))| < ((k - j : ℤ) : ℚ) * (45 / 4) := by
        rw [rnd_double (sub_angle hd h360 hj0 hle), abs_of_nonneg (by linarith)]
        push_cast
        linarith
      have h2 : ((k - j : ℤ) : ℚ) * (45 / 4) ≤ |rnd (az - k * (45 / 2))| := by
        apply le_abs_rnd hhalf
        rw [abs_of_neg (by linarith)]
        push_cast
        linarith
      linarith
    · push Not at hle
      rw [abs_lt]
      have hneg : rnd (az - k * (45 / 2)) < 0 := by linarith
      rw [abs_of_neg hneg]
      constructor <;> linarith
  · rw [heq] at h; exact absurd h (lt_irrefl _)
  · have hlt' : (k : ℚ) + 1 ≤ j := by exact_mod_cast hlt
    by_cases hle : az ≤ (j : ℚ) * (45 / 2)
    · have hk' : k * (45 / 2) < az := by
        by_contra hc
        rw [abs_of_nonpos (by linarith), abs_of_nonpos (by linarith)] at h
        linarith
      rw [abs_of_nonpos (by linarith), abs_of_pos (by linarith)] at h
      have hhalf := half_angle_double (k := j - k) (by omega) (by omega)
      have h1 : ((j - k : ℤ) : ℚ) * (45 / 4) < |rnd (az - k * (45 / 2))| := by
        rw [rnd_double (sub_angle hd h360 hk0 hk'.le), abs_of_pos (by linarith)]
        push_cast
        linarith
      have h2 : |rnd (az - j * (45 / 2))| ≤ ((j - k : ℤ) : ℚ) * (45 / 4) := by
        apply abs_rnd_le hhalf
        rw [abs_of_nonpos (by linarith)]
        push_cast
        linarith
      linarith
    · push Not at hle
      rw [abs_lt]
      have hpos : 0 < rnd (az - k * (45 / 2)) := by linarith
      rw [abs_of_pos hpos]
      constructor <;> linarith

theorem table_sizes {resolution format : String} {n : ℕ} {points : List String} (h : Compass.table resolution format = some (n, points)) : n = 4 ∨ n = 8 ∨ n = 16 := by
  unfold Compass.table at h
  split_ifs at h <;> cases h <;> simp

/-- The direction found is that of the exact calculation. -/
theorem compass_exact {az : ℚ} (hd : IsDouble az) (h0 : 0 ≤ az) (h360 : az ≤ 360) {n : ℕ} (hn : n = 4 ∨ n = 8 ∨ n = 16) :
    Py.argmin ((Compass.angles n).map (fun a => |rnd (az - a)|)) = Py.argmin ((Compass.angles n).map (fun a => |az - a|)) := by
  obtain ⟨step, hstep, hs16⟩ : ∃ step : ℤ, (360 / n : ℚ) = step * (45 / 2) ∧ 0 ≤ step ∧ step * n = 16 := by
    rcases hn with rfl | rfl | rfl
    · exact ⟨4, by norm_num, by norm_num⟩
    · exact ⟨2, by norm_num, by norm_num⟩
    · exact ⟨1, by norm_num, by norm_num⟩
  let ks : List ℤ := (List.range (n + 1)).map fun i : ℕ => (i : ℤ) * step
  have hang : Compass.angles n = ks.map fun k : ℤ => (k : ℚ) * (45 / 2) := by
    unfold Compass.angles
    simp only [ks, List.map_map]
    apply List.map_congr_left
    intro i _
    simp only [Function.comp]
    rw [hstep]
    push_cast
    ring
  have hks : ∀ k ∈ ks, 0 ≤ k ∧ k ≤ 16 := by
    intro k hk
    obtain ⟨i, hi, rfl⟩ := List.mem_map.1 hk
    have hi' : (i : ℤ) ≤ n := by have := List.mem_range.1 hi; omega
    refine ⟨by have := hs16.1; positivity, ?_⟩
    rw [← hs16.2, mul_comm]
    exact mul_le_mul_of_nonneg_left hi' hs16.1
  rw [hang]
  -- both searches are searches over the numbers of the directions
  have general : ∀ l : List ℤ, (∀ k ∈ l, 0 ≤ k ∧ k ≤ 16) →
      Py.argmin (l.map fun k : ℤ => |rnd (az - k * (45 / 2))|) = Py.argmin (l.map fun k : ℤ => |az - k * (45 / 2)|) := by
    intro l hl
    cases l with
    | nil => rfl
    | cons a l =>
      simp only [List.map_cons, Py.argmin]
      congr 1
      have aux : ∀ (l : List ℤ) (i bi : ℕ) (b : ℤ), (∀ k ∈ l, 0 ≤ k ∧ k ≤ 16) → (0 ≤ b ∧ b ≤ 16) →
          Py.argminAux (l.map fun k : ℤ => |rnd (az - k * (45 / 2))|) i bi |rnd (az - b * (45 / 2))| =
          Py.argminAux (l.map fun k : ℤ => |az - k * (45 / 2)|) i bi |az - b * (45 / 2)| := by
        intro l
        induction l with
        | nil => intro i bi b _ _; rfl
        | cons x l ih =>
          intro i bi b hl hb
          have hx := hl x (by simp)
          have hl' : ∀ k ∈ l, 0 ≤ k ∧ k ≤ 16 := fun k hk => hl k (List.mem_cons_of_mem _ hk)
          have hstrict := directions_apart hd h0 h360 hx.1 hx.2 hb.1 hb.2
          have hstrict' := directions_apart hd h0 h360 hb.1 hb.2 hx.1 hx.2
          simp only [List.map_cons, Py.argminAux]
          by_cases h : |az - x * (45 / 2)| < |az - b * (45 / 2)|
          · rw [if_pos h, if_pos (hstrict h), ih _ _ _ hl' hx]
          · rw [if_neg h, if_neg, ih _ _ _ hl' hb]
            intro hc
            rcases lt_or_eq_of_le (not_lt.1 h) with h1 | h1
            · exact lt_asymm hc (hstrict' h1)
            · -- equal distances: the same direction or opposite sides
              rcases abs_eq_abs.1 h1 with h2 | h2
              · rw [h2] at hc; exact lt_irrefl _ hc
              · have hbx : (az - b * (45 / 2)) = -(az - x * (45 / 2)) := h2
                by_cases hle : (x : ℚ) * (45 / 2) ≤ az
                · have hx' := sub_angle hd h360 hx.1 hle
                  rw [hbx, rnd_double hx', rnd_double (neg_double hx'), abs_neg] at hc
                  exact lt_irrefl _ hc
                · push Not at hle
                  have hb' := sub_angle hd h360 hb.1 (k := b) (by linarith)
                  have hxb : (az - x * (45 / 2)) = -(az - b * (45 / 2)) := by rw [hbx, neg_neg]
                  rw [hxb, rnd_double hb', rnd_double (neg_double hb'), abs_neg] at hc
                  exact lt_irrefl _ hc
      exact aux l 1 0 a (fun k hk => hl k (List.mem_cons_of_mem _ hk)) (hl a (by simp))
  have := general ks hks
  rw [List.map_map (l := ks), List.map_map (l := ks)]
  exact this

/-- **C185** (partial): for every double from 0 to 360 the compass point is that of the exact calculation, so C19 holds in binary arithmetic. For negative azimuths it is that of an
azimuth which differs from the given one, turned by 360 degrees, by at most `2 ** -44`; what is missing is the exact one, see `C185_compass_violated`. -/
theorem C185_compass_partial (az : ℚ) (hd : IsDouble az) (resolution format : String) :
    (0 ≤ az → az ≤ 360 → Dbl.compassDirAzimuth az resolution format = Compass.compassDirAzimuth az resolution format) ∧
    (-360 ≤ az → az < 0 → ∃ x, 0 ≤ x ∧ x ≤ 360 ∧ |x - (az + 360)| ≤ 1 / 2 ^ 44 ∧
      Dbl.compassDirAzimuth az resolution format = Compass.compassDirAzimuth x resolution format) := by
  have main : ∀ x, IsDouble x → 0 ≤ x → x ≤ 360 →
      (match Compass.table resolution format with
        | none => none
        | some (n, points) =>
          match Py.argmin ((Compass.angles n).map (fun a => |rnd (x - a)|)) with
          | none => none
          | some i => points[i]?) = Compass.compassDirAzimuth x resolution format := by
    intro x hx h0 h1
    unfold Compass.compassDirAzimuth
    simp only [if_neg (not_lt.2 h0)]
    cases ht : Compass.table resolution format with
    | none => rfl
    | some t =>
      obtain ⟨n, points⟩ := t
      simp only
      rw [compass_exact hx h0 h1 (table_sizes ht)]
      rfl
  constructor
  · intro h0 h1
    rw [← main az hd h0 h1]
    unfold Dbl.compassDirAzimuth
    simp only [if_neg (not_lt.2 h0)]
    rfl
  · intro h0 h1
    have h360 : IsDouble 360 := by exact_mod_cast int_double (n := 360) (by norm_num)
    refine ⟨rnd (az + 360), le_rnd zero_double (by linarith), rnd_le h360 (by linarith), ?_, ?_⟩
    · have := rnd_small (q := az + 360) 8 (by rw [abs_lt]; norm_num; constructor <;> linarith)
      norm_num at *
      linarith
    · rw [← main _ (rnd_isDouble _) (le_rnd zero_double (by linarith)) (rnd_le h360 (by linarith))]
      unfold Dbl.compassDirAzimuth
      simp only [if_pos h1]
      rfl

/-- **C185** violated: an azimuth a little north of the middle between north-west and north is given as north-west. -/
theorem C185_compass_violated : IsDouble (-45 / 2 + 1 / 2 ^ 48) ∧ Dbl.compassDirAzimuth (-45 / 2 + 1 / 2 ^ 48) "intercardinal" "short" = some "NW" ∧
    Compass.compassDirAzimuth (-45 / 2 + 1 / 2 ^ 48) "intercardinal" "short" = some "N" :=
  ⟨⟨-45 * 2 ^ 47 + 1, -48, by norm_num, by norm_num, by norm_num⟩, by decide +kernel, by decide +kernel⟩

/-! ### Cells of the raster -/

theorem rnd_any (q : ℚ) : |rnd q - q| ≤ |q| / 2 ^ 53 + 1 / 2 ^ 60 := by
  by_cases h : 2 ^ (-1022 : ℤ) ≤ |q|
  · have := rnd_rel h
    have : (0 : ℚ) ≤ 1 / 2 ^ 60 := by norm_num
    linarith
  · push Not at h
    by_cases hq : q = 0
    · rw [hq, rnd_double zero_double]
      norm_num
    · have h1 : expo q = -1022 := by
        unfold expo
        refine max_eq_right ?_
        have := (Int.lt_zpow_iff_log_lt (b := 2) (by norm_num) (abs_pos.mpr hq)).mp (by exact_mod_cast h)
        omega
      refine (rnd_error q).trans ?_
      unfold ulp
      rw [h1]
      have h2 : (2 : ℚ) ^ (-1022 - 52 : ℤ) ≤ 2 ^ (-60 : ℤ) := zpow_le_zpow_right₀ (by norm_num) (by norm_num)
      have h3 : (2 : ℚ) ^ (-60 : ℤ) = 1 / 2 ^ 60 := by norm_num
      have h4 : 0 ≤ |q| / 2 ^ 53 := by positivity
      have h5 := two_zpow_pos (-1022 - 52)
      rw [h3] at h2
      generalize (2 : ℚ) ^ (-1022 - 52 : ℤ) = t at *
      linarith

/-- A quotient of a rounded difference. -/
theorem dbl_cell_near {d res : ℚ} (h0 : 0 ≤ d) (h1 : d ≤ 720) (hr0 : 0 < res) (hr1 : res ≤ 720) :
    0 ≤ rnd (rnd d / res) ∧ |rnd (rnd d / res) * res - d| ≤ 1 / 2 ^ 42 := by
  have ha : 0 ≤ rnd d := le_rnd zero_double h0
  refine ⟨le_rnd zero_double (by positivity), ?_⟩
  have e1 := rnd_any d
  have e2 := rnd_any (rnd d / res)
  rw [abs_of_nonneg h0] at e1
  rw [abs_of_nonneg (a := rnd d / res) (by positivity)] at e2
  have e3 : |rnd (rnd d / res) * res - rnd d| ≤ rnd d / 2 ^ 53 + res / 2 ^ 60 := by
    have : rnd (rnd d / res) * res - rnd d = (rnd (rnd d / res) - rnd d / res) * res := by field_simp
    rw [this, abs_mul, abs_of_pos hr0]
    calc _ ≤ (rnd d / res / 2 ^ 53 + 1 / 2 ^ 60) * res := mul_le_mul_of_nonneg_right e2 hr0.le
      _ = _ := by field_simp
  have e4 := abs_add_le (rnd (rnd d / res) * res - rnd d) (rnd d - d)
  rw [sub_add_sub_cancel] at e4
  have e5 := (abs_le.1 e1).2
  norm_num at *
  linarith

/-- **C185** (partial): in binary arithmetic too the cell read is inside the raster. It is the cell of a place at most `2 ** -42` degrees from the one asked for; what is
missing is the cell of the place itself, see `C185_cell_violated`. -/
theorem C185_cell_partial (r : Time.Raster) (hr : Ordinary r) (hw : r.maxLon - r.minLon ≤ 720) (hh : r.maxLat - r.minLat ≤ 720) (hx : r.resx ≤ 720) (hy : r.resy ≤ 720)
    (lat lon : ℚ) (method : String) (f : ℚ → ℤ) (hf : Time.rounding method = some f) :
    ∃ row col, Dbl.rasterCell r lat lon method = some (row, col) ∧ 0 ≤ row ∧ row < r.rows ∧ 0 ≤ col ∧ col < r.cols ∧
      ∃ x y, |x * r.resx - (Time.clamp lon r.minLon r.maxLon - r.minLon)| ≤ 1 / 2 ^ 42 ∧
        |y * r.resy - (r.maxLat - Time.clamp lat r.minLat r.maxLat)| ≤ 1 / 2 ^ 42 ∧ col = min (f x) (r.cols - 1) ∧ row = min (f y) (r.rows - 1) := by
  have h1 := clamp_mem lon r.minLon r.maxLon hr.lon
  have h2 := clamp_mem lat r.minLat r.maxLat hr.lat
  have hn : ¬ (r.maxLon < r.minLon ∧ Time.clamp lon r.minLon r.maxLon < r.minLon) := fun h => absurd h.1 (not_lt.2 hr.lon)
  obtain ⟨x0, x1⟩ := dbl_cell_near (d := Time.clamp lon r.minLon r.maxLon - r.minLon) (res := r.resx) (by linarith) (by linarith) hr.resx hx
  obtain ⟨y0, y1⟩ := dbl_cell_near (d := r.maxLat - Time.clamp lat r.minLat r.maxLat) (res := r.resy) (by linarith) (by linarith) hr.resy hy
  have fx := rounding_nonneg hf _ x0
  have fy := rounding_nonneg hf _ y0
  obtain ⟨cx0, cx1⟩ := index_clamp _ _ fx hr.cols
  obtain ⟨cy0, cy1⟩ := index_clamp _ _ fy hr.rows
  unfold Dbl.rasterCell
  rw [hf]
  simp only [if_neg hn]
  refine ⟨_, _, rfl, cy0, cy1, cx0, cx1, _, _, x1, y1, ?_, ?_⟩
  · split_ifs <;> omega
  · split_ifs <;> omega

/-- The raster of the project with its resolution as a double. -/
def doubleRaster : Time.Raster := { Time.defaultRaster with resx := rnd (1 / 50), resy := rnd (1 / 50) }

/-- **C185** violated: the double nearest to `-159.28` is west of the boundary of two cells of the project's raster, in the column 1035, but column 1036 is read. -/
theorem C185_cell_violated : IsDouble (-5604166786309161 / 2 ^ 45) ∧ Dbl.rasterCell doubleRaster 0 (-5604166786309161 / 2 ^ 45) "floor" = some (4150, 1036) ∧
    Time.rasterCell Time.defaultRaster 0 (-5604166786309161 / 2 ^ 45) "floor" = some (4150, 1035) :=
  ⟨⟨-5604166786309161, -45, by norm_num, by norm_num, by norm_num⟩, by decide +kernel, by decide +kernel⟩

/-- The raster of the project meets the hypotheses. -/
example : Ordinary doubleRaster ∧ doubleRaster.maxLon - doubleRaster.minLon ≤ 720 ∧ doubleRaster.maxLat - doubleRaster.minLat ≤ 720 ∧ doubleRaster.resx ≤ 720 ∧
    doubleRaster.resy ≤ 720 :=
  ⟨⟨by decide +kernel, by decide +kernel, by decide +kernel, by decide +kernel, by decide +kernel, by decide +kernel⟩,
    by decide +kernel, by decide +kernel, by decide +kernel, by decide +kernel⟩

/-- Seattle: zone, nautical time and direction. -/
example : Dbl.utmZone (-489 / 4) = 10 ∧ nautical (-489 / 4) = -8 ∧ Dbl.compassDirAzimuth 200 "meteorological" "long" = some "South-southwest" := by decide +kernel

end Verif.Props
