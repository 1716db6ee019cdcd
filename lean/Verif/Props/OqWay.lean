import Verif.Model.OqWay
import Verif.Props.OqCourse
import Verif.Props.OqPoints
import Mathlib.Analysis.Real.Pi.Bounds

/-!
# C184: equally spaced points
-/

namespace Verif.Props
open Real Verif.Oq Verif.Spec

/-- Going to a point along the azimuth to it, for the distance to it, leads there. -/
theorem arrive_there (lon1 lat1 lon2 lat2 : ℝ) :
    arrive lon1 lat1 (azimuth lon1 lat1 lon2 lat2) (geodeticDistance lon1 lat1 lon2 lat2) = onSphere lon2 lat2 := by
  obtain ⟨d0, d1⟩ := C78_metric.2.1 lon1 lat1 lon2 lat2
  have hgc := C78_great_circle lon1 lat1 lon2 lat2
  generalize hD : geodeticDistance lon1 lat1 lon2 lat2 = D at *
  set δ := D / 6371 with hδ
  have hδ0 : 0 ≤ δ := by positivity
  have hδ1 : δ ≤ π := by rw [hδ, div_le_iff₀ (by norm_num)]; exact d1
  have hang : InnerProductGeometry.angle (onSphere lon1 lat1) (onSphere lon2 lat2) = δ := by
    rw [greatCircle] at hgc; rw [hδ, hgc]; ring
  have hin : inner ℝ (onSphere lon1 lat1) (onSphere lon2 lat2) = cos δ := by
    have := InnerProductGeometry.cos_angle (onSphere lon1 lat1) (onSphere lon2 lat2)
    rw [hang, onSphere_norm, onSphere_norm] at this
    rw [this]; simp
  have hex := frame_expand lon1 lat1 lon2 lat2
  rw [hin] at hex
  obtain ⟨f1, f2, f3, f4, f5, f6⟩ := frame_inner lon1 lat1
  obtain ⟨-, -, haz⟩ := C78_azimuth lon1 lat1 lon2 lat2
  obtain ⟨z1, z2⟩ := haz _ rfl
  set E := eastOf lon1 lon2 lat2
  set N := northOf lon1 lat1 lon2 lat2
  have hnorm : cos δ ^ 2 + (E ^ 2 + N ^ 2) = 1 := by
    have h := (frame_inner lon2 lat2).2.2.2.2.2
    rw [hex] at h
    simp only [inner_add_left, inner_add_right, real_inner_smul_left, real_inner_smul_right, f1, f2, f3, f4, f5, f6,
      real_inner_comm (onSphere lon1 lat1) (eastAt lon1), real_inner_comm (onSphere lon1 lat1) (northAt lon1 lat1),
      real_inner_comm (eastAt lon1) (northAt lon1 lat1)] at h
    linear_combination h
  have hs : √(E ^ 2 + N ^ 2) = sin δ := by
    have : E ^ 2 + N ^ 2 = sin δ ^ 2 := by linarith [sin_sq_add_cos_sq δ]
    rw [this, sqrt_sq (sin_nonneg_of_nonneg_of_le_pi hδ0 hδ1)]
  rw [hs] at z1 z2
  have hN : sin δ * cos (rad (azimuth lon1 lat1 lon2 lat2)) = N := by
    by_cases h0 : sin δ = 0
    · have : E ^ 2 + N ^ 2 = 0 := by
        rw [h0] at hs
        exact (sqrt_eq_zero (by positivity)).1 hs
      have hN0 : N = 0 := by nlinarith [sq_nonneg E, sq_nonneg N]
      rw [h0, hN0, zero_mul]
    · exact z2 h0
  rw [hex]
  unfold arrive
  rw [← hδ, smul_add, smul_smul, smul_smul, z1, hN]

/-- The distance between two points on the same way. -/
theorem geodetic_on_way {lon lat az d d' lon1 lat1 lon2 lat2 : ℝ} (h1 : onSphere lon1 lat1 = arrive lon lat az d)
    (h2 : onSphere lon2 lat2 = arrive lon lat az d') (hm : |d' - d| ≤ π * 6371) : geodeticDistance lon1 lat1 lon2 lat2 = |d' - d| := by
  obtain ⟨f1, f2, f3, f4, f5, f6⟩ := frame_inner lon lat
  have hin : inner ℝ (onSphere lon1 lat1) (onSphere lon2 lat2) = cos (|d' - d| / 6371) := by
    rw [h1, h2]
    unfold arrive
    simp only [inner_add_left, inner_add_right, real_inner_smul_left, real_inner_smul_right, f1, f2, f3, f4, f5, f6,
      real_inner_comm (onSphere lon lat) (eastAt lon), real_inner_comm (onSphere lon lat) (northAt lon lat),
      real_inner_comm (eastAt lon) (northAt lon lat)]
    have h3 := sin_sq_add_cos_sq (rad az)
    have h4 : cos (|d' - d| / 6371) = cos (d' / 6371) * cos (d / 6371) + sin (d' / 6371) * sin (d / 6371) := by
      rw [← cos_sub, ← cos_abs (d' / 6371 - d / 6371), ← sub_div, abs_div, abs_of_pos (by norm_num : (0 : ℝ) < 6371)]
    rw [h4]
    linear_combination (sin (d' / 6371) * sin (d / 6371)) * h3
  rw [C78_great_circle, greatCircle, InnerProductGeometry.angle, onSphere_norm, onSphere_norm, hin, mul_one, div_one, arccos_cos (by positivity)]
  · ring
  · rw [div_le_iff₀ (by norm_num)]; exact hm

theorem mapM_get {α β ε : Type} (f : α → Except ε β) (xs : List α) : ∀ ys, xs.mapM f = .ok ys →
    ys.length = xs.length ∧ ∀ (i : ℕ) (y : β), ys[i]? = some y → ∃ x, xs[i]? = some x ∧ f x = .ok y := by
  induction xs with
  | nil => intro ys h; cases h; exact ⟨rfl, fun i y h => by simp at h⟩
  | cons x xs ih =>
    intro ys h
    rw [List.mapM_cons] at h
    cases hx : f x with
    | error e => rw [hx] at h; cases h
    | ok y0 =>
      cases hxs : xs.mapM f with
      | error e => rw [hx, hxs] at h; cases h
      | ok ys' =>
        rw [hx, hxs] at h
        cases h
        obtain ⟨h1, h2⟩ := ih ys' hxs
        refine ⟨by simp [h1], fun i y hy => ?_⟩
        cases i with
        | zero => cases hy; exact ⟨x, rfl, hx⟩
        | succ i => exact h2 i y hy

theorem mapM_exists {α β ε : Type} (f : α → Except ε β) (xs : List α) (h : ∀ x ∈ xs, ∃ y, f x = .ok y) : ∃ ys, xs.mapM f = .ok ys := by
  induction xs with
  | nil => exact ⟨[], rfl⟩
  | cons x xs ih =>
    obtain ⟨y, hy⟩ := h x (by simp)
    obtain ⟨ys, hys⟩ := ih fun a ha => h a (List.mem_cons_of_mem _ ha)
    exact ⟨y :: ys, by rw [List.mapM_cons, hy, hys]; rfl⟩

/-- A function that rounds to a nearest integer. -/
def RoundsToNearest (rnd : ℝ → ℤ) : Prop := ∀ x, |(rnd x : ℝ) - x| ≤ 1 / 2

theorem rounded_near {rnd : ℝ → ℤ} (hr : RoundsToNearest rnd) (p q : Pt) : |roundedDistance rnd p q - p.dist q| ≤ 1 / 2 / 10 ^ 7 := by
  have h := hr (p.dist q * 10 ^ 7)
  unfold roundedDistance
  have e : (rnd (p.dist q * 10 ^ 7) : ℝ) / 10 ^ 7 - p.dist q = ((rnd (p.dist q * 10 ^ 7) : ℝ) - p.dist q * 10 ^ 7) / 10 ^ 7 := by ring
  rw [e, abs_div, abs_of_pos (by norm_num : (0 : ℝ) < 10 ^ 7)]
  exact div_le_div_of_nonneg_right h (by norm_num)

/-- The points of the list: the way gone and the depth. -/
theorem intervals_get {rnd : ℝ → ℤ} {at_ : ℝ → ℝ → ℝ → ℝ → ℝ × ℝ} (hat : FindsPoint at_) {p q : Pt} (h1 : -90 < p.lat) (h2 : p.lat < 90)
    (length : ℝ) (i : ℕ) (t : ℝ × ℝ × ℝ) (ht : (intervalsBetween rnd at_ p q length)[i]? = some t) :
    i ≤ numIntervals rnd p q length ∧
    onSphere t.1 t.2.1 = arrive p.lon p.lat (azimuth p.lon p.lat q.lon q.lat)
      (i * (geodeticDistance p.lon p.lat q.lon q.lat * (length / roundedDistance rnd p q))) ∧
    t.2.2 = p.depth + i * ((q.depth - p.depth) * (length / roundedDistance rnd p q)) ∧ (i = 0 → t = (p.lon, p.lat, p.depth)) ∧
    (0 < i → -180 ≤ t.1 ∧ t.1 ≤ 180 ∧ -90 ≤ t.2.1 ∧ t.2.1 ≤ 90) := by
  unfold intervalsBetween at ht
  simp only at ht
  cases i with
  | zero =>
    cases ht
    refine ⟨Nat.zero_le _, ?_, by simp, fun _ => rfl, fun h => absurd h (lt_irrefl _)⟩
    unfold arrive
    simp
  | succ i =>
    rw [List.getElem?_cons_succ, List.getElem?_map, Option.map_eq_some_iff] at ht
    obtain ⟨j, hj, rfl⟩ := ht
    obtain ⟨hj1, hj2⟩ := List.getElem?_eq_some_iff.1 hj
    rw [List.getElem_range] at hj2
    subst hj2
    rw [List.length_range] at hj1
    have hn : (numIntervals rnd p q length : ℝ) ≠ 0 := by exact_mod_cast (by omega : numIntervals rnd p q length ≠ 0)
    have e : ∀ x : ℝ, x * (length * (numIntervals rnd p q length : ℝ) / roundedDistance rnd p q) / (numIntervals rnd p q length : ℝ) =
        x * (length / roundedDistance rnd p q) := by
      intro x
      rw [mul_div_assoc, mul_comm length, mul_div_assoc, mul_div_cancel_left₀ _ hn]
    simp only [e]
    obtain ⟨k1, k2, k3, k4, k5⟩ := hat p.lon p.lat (azimuth p.lon p.lat q.lon q.lat)
      (((i : ℝ) + 1) * (geodeticDistance p.lon p.lat q.lon q.lat * (length / roundedDistance rnd p q))) h1 h2
    refine ⟨by omega, ?_, by push_cast; ring, fun h => absurd h (by omega), fun _ => ⟨k2, k3, k4, k5⟩⟩
    rw [k1]
    push_cast
    rfl

theorem intervals_length (rnd : ℝ → ℤ) (at_ : ℝ → ℝ → ℝ → ℝ → ℝ × ℝ) (p q : Pt) (length : ℝ) :
    (intervalsBetween rnd at_ p q length).length = numIntervals rnd p q length + 1 := by
  unfold intervalsBetween
  simp

theorem mkPoint_ok {lon lat depth : ℝ} {a : Pt} (h : mkPoint lon lat depth = .ok a) : a = ⟨lon, lat, depth⟩ := by
  unfold mkPoint at h
  split at h
  · cases h
  · split at h
    · cases h
    · split at h
      · cases h
      · split at h
        · cases h
        · cases h; rfl

/-- The distance of points whose horizontal and vertical distances are parts of those of `p` and `q`. -/
theorem dist_scaled (p q a b : Pt) (s : ℝ) (hs : 0 ≤ s) (hh : geodeticDistance a.lon a.lat b.lon b.lat = geodeticDistance p.lon p.lat q.lon q.lat * s)
    (hv : (a.depth - b.depth) ^ 2 = ((p.depth - q.depth) * s) ^ 2) : a.dist b = p.dist q * s := by
  unfold Pt.dist distance
  rw [hh, hv, show (geodeticDistance p.lon p.lat q.lon q.lat * s) ^ 2 + ((p.depth - q.depth) * s) ^ 2 =
    (geodeticDistance p.lon p.lat q.lon q.lat ^ 2 + (p.depth - q.depth) ^ 2) * s ^ 2 by ring, sqrt_mul (by positivity), sqrt_sq hs]

theorem geodetic_le_dist (p q : Pt) : geodeticDistance p.lon p.lat q.lon q.lat ≤ p.dist q := by
  unfold Pt.dist distance
  apply le_sqrt_of_sq_le
  nlinarith [sq_nonneg (p.depth - q.depth)]

/-- What the rounding gives when there is an interval. -/
theorem interval_facts {rnd : ℝ → ℤ} (hr : RoundsToNearest rnd) (p q : Pt) {length : ℝ} (h0 : 0 < length) (hn : 0 < numIntervals rnd p q length) :
    length / 2 ≤ roundedDistance rnd p q ∧
    |(numIntervals rnd p q length : ℝ) * length - roundedDistance rnd p q| ≤ length / 2 ∧
    |p.dist q * (length / roundedDistance rnd p q) - length| ≤ 1 / 10 ^ 7 := by
  set R := roundedDistance rnd p q with hR
  have hn1 : ((numIntervals rnd p q length : ℕ) : ℤ) = rnd (R / length) := by
    unfold numIntervals at hn ⊢
    rw [← hR] at hn ⊢
    omega
  have hn2 : (numIntervals rnd p q length : ℝ) = (rnd (R / length) : ℝ) := by exact_mod_cast hn1
  have hrl := hr (R / length)
  rw [← hn2] at hrl
  have h1 : (1 : ℝ) ≤ (numIntervals rnd p q length : ℝ) := by exact_mod_cast hn
  have hhalf : length / 2 ≤ R := by
    have : 1 / 2 ≤ R / length := by
      have := (abs_le.1 hrl).2
      linarith
    rw [le_div_iff₀ h0] at this
    linarith
  have hRpos : 0 < R := by linarith
  refine ⟨hhalf, ?_, ?_⟩
  · have e : (numIntervals rnd p q length : ℝ) * length - R = ((numIntervals rnd p q length : ℝ) - R / length) * length := by
      field_simp
    rw [e, abs_mul, abs_of_pos h0]
    nlinarith
  · have hnear := rounded_near hr p q
    rw [← hR] at hnear
    have e : p.dist q * (length / R) - length = (p.dist q - R) * (length / R) := by field_simp
    rw [e, abs_mul, abs_of_pos (div_pos h0 hRpos), abs_sub_comm]
    have h2 : length / R ≤ 2 := by rw [div_le_iff₀ hRpos]; linarith
    have h3 : 0 < length / R := div_pos h0 hRpos
    have := abs_nonneg (R - p.dist q)
    calc |R - p.dist q| * (length / R) ≤ 1 / 2 / 10 ^ 7 * 2 := by
          apply mul_le_mul hnear h2 h3.le (by norm_num)
      _ = 1 / 10 ^ 7 := by norm_num

theorem big_pi : (20001 : ℝ) ≤ π * 6371 := by nlinarith [pi_gt_d2]

/-- **C184** (partial): for a start that is not a pole and a spacing of up to 20000 km, the points begin with the start, follow one another at one and the
same distance, which is the spacing to a tenth of a millimetre, and the last one is no further from the destination than half the spacing. They
lie on the great circle from the start to the destination. What is missing: that they end at or before the destination, see `C184_beyond_violated`. -/
theorem C184_spaced_partial {rnd : ℝ → ℤ} (hr : RoundsToNearest rnd) {at_ : ℝ → ℝ → ℝ → ℝ → ℝ × ℝ} (hat : FindsPoint at_) {p q : Pt}
    (h1 : -90 < p.lat) (h2 : p.lat < 90) {length : ℝ} (hl : length ≤ 20000) {pts : List Pt}
    (h : p.equallySpacedPoints rnd at_ q length = .ok pts) :
    pts.head? = some p ∧
    (∃ d, |d - length| ≤ 1 / 10 ^ 7 ∧ ∀ (i : ℕ) a b, pts[i]? = some a → pts[i + 1]? = some b → a.dist b = d) ∧
    (∃ last, pts.getLast? = some last ∧ last.dist q ≤ length / 2 + 1 / 10 ^ 7) ∧
    ∃ s, ∀ (i : ℕ) a, pts[i]? = some a → onSphere a.lon a.lat = arrive p.lon p.lat (azimuth p.lon p.lat q.lon q.lat) (i * s) := by
  unfold Pt.equallySpacedPoints at h
  split at h
  swap
  · cases h
  rename_i h0
  obtain ⟨hlen, hget⟩ := mapM_get _ _ _ h
  rw [intervals_length] at hlen
  set n := numIntervals rnd p q length with hn
  set R := roundedDistance rnd p q with hR
  set H := geodeticDistance p.lon p.lat q.lon q.lat with hH
  have hH0 : 0 ≤ H := (C78_metric.2.1 _ _ _ _).1
  have hHle : H ≤ p.dist q := geodetic_le_dist p q
  have hT0 := dist_nonneg' p q
  have hpt : ∀ (i : ℕ) a, pts[i]? = some a → i ≤ n ∧
      onSphere a.lon a.lat = arrive p.lon p.lat (azimuth p.lon p.lat q.lon q.lat) (i * (H * (length / R))) ∧
      a.depth = p.depth + i * ((q.depth - p.depth) * (length / R)) ∧ (i = 0 → a = p) := by
    intro i a ha
    obtain ⟨t, ht, hmk⟩ := hget i a ha
    obtain ⟨g1, g2, g3, g4, _⟩ := intervals_get hat h1 h2 length i t ht
    have e := mkPoint_ok hmk
    subst e
    exact ⟨g1, g2, g3, fun hi => by rw [g4 hi]⟩
  have hhead : pts.head? = some p := by
    obtain ⟨a, ha⟩ : ∃ a, pts[0]? = some a := ⟨_, List.getElem?_eq_getElem (by omega)⟩
    rw [List.head?_eq_getElem?, ha, (hpt 0 a ha).2.2.2 rfl]
  refine ⟨hhead, ?_, ?_, H * (length / R), fun i a ha => (hpt i a ha).2.1⟩
  · by_cases hn0 : n = 0
    · refine ⟨length, by simp, fun i a b _ hb => ?_⟩
      have := (List.getElem?_eq_some_iff.1 hb).1
      omega
    · obtain ⟨f1, f2, f3⟩ := interval_facts hr p q h0 (Nat.pos_of_ne_zero hn0)
      have hRpos : 0 < R := by linarith
      have hs0 : 0 < length / R := div_pos h0 hRpos
      refine ⟨p.dist q * (length / R), f3, fun i a b ha hb => ?_⟩
      obtain ⟨_, a2, a3, _⟩ := hpt i a ha
      obtain ⟨_, b2, b3, _⟩ := hpt (i + 1) b hb
      have hstep : ((i + 1 : ℕ) : ℝ) * (H * (length / R)) - i * (H * (length / R)) = H * (length / R) := by push_cast; ring
      have hsmall : H * (length / R) ≤ π * 6371 := by
        have : H * (length / R) ≤ p.dist q * (length / R) := mul_le_mul_of_nonneg_right hHle hs0.le
        have := (abs_le.1 f3).2
        have := big_pi
        norm_num at *
        linarith
      apply dist_scaled p q a b _ hs0.le
      · rw [geodetic_on_way a2 b2 (by rw [hstep, abs_of_nonneg (by positivity)]; exact hsmall), hstep, abs_of_nonneg (by positivity)]
      · rw [a3, b3]
        push_cast
        ring
  · obtain ⟨last, hlast⟩ : ∃ last, pts[n]? = some last := ⟨_, List.getElem?_eq_getElem (by omega)⟩
    refine ⟨last, by rw [List.getLast?_eq_getElem?, hlen, Nat.add_sub_cancel, hlast], ?_⟩
    obtain ⟨_, a2, a3, a4⟩ := hpt n last hlast
    by_cases hn0 : n = 0
    · rw [a4 hn0]
      -- the rounded distance is at most half the spacing
      have hle : rnd (R / length) ≤ 0 := by
        have : (rnd (R / length)).toNat = 0 := hn0
        omega
      have hb := (abs_le.1 (hr (R / length))).1
      have hle' : (rnd (R / length) : ℝ) ≤ 0 := by exact_mod_cast hle
      have : R / length ≤ 1 / 2 := by linarith
      rw [div_le_iff₀ h0] at this
      have := (abs_le.1 (rounded_near hr p q)).1
      rw [← hR] at this
      norm_num at *
      linarith
    · obtain ⟨f1, f2, f3⟩ := interval_facts hr p q h0 (Nat.pos_of_ne_zero hn0)
      rw [← hn, ← hR] at f2
      have hRpos : 0 < R := by linarith
      have hs0 : 0 < length / R := div_pos h0 hRpos
      have hdest : onSphere q.lon q.lat = arrive p.lon p.lat (azimuth p.lon p.lat q.lon q.lat) H := (arrive_there _ _ _ _).symm
      have e1 : H - n * (H * (length / R)) = H * ((R - n * length) / R) := by field_simp
      have hf : |(R - n * length) / R| ≤ length / R / 2 := by
        rw [abs_div, abs_of_pos hRpos, abs_sub_comm, div_div, mul_comm R 2, ← div_div]
        exact div_le_div_of_nonneg_right f2 hRpos.le
      have hD : p.dist q * (length / R) ≤ length + 1 / 10 ^ 7 := by linarith [(abs_le.1 f3).2]
      have hprod : H * |(R - n * length) / R| ≤ p.dist q * (length / R) / 2 := by
        calc H * |(R - n * length) / R| ≤ p.dist q * (length / R / 2) := mul_le_mul hHle hf (abs_nonneg _) hT0
          _ = _ := by ring
      have habs : |H - n * (H * (length / R))| = H * |(R - n * length) / R| := by rw [e1, abs_mul, abs_of_nonneg hH0]
      have hd := dist_scaled p q last q |(R - n * length) / R| (abs_nonneg _)
        (by
          rw [geodetic_on_way a2 hdest, habs]
          rw [habs]
          have := big_pi
          norm_num at *
          linarith)
        (by
          rw [a3, mul_pow, sq_abs]
          field_simp
          ring)
      rw [hd]
      calc p.dist q * |(R - n * length) / R| ≤ p.dist q * (length / R / 2) := mul_le_mul_of_nonneg_left hf hT0
        _ ≤ length / 2 + 1 / 10 ^ 7 := by
          norm_num at *
          linarith

/-- **C184**: the call fails only for depths: it succeeds for a valid start that is not a pole, a positive spacing, and depths that stay allowed on the way and
as far again behind the destination. -/
theorem C184_succeeds {rnd : ℝ → ℤ} (hr : RoundsToNearest rnd) {at_ : ℝ → ℝ → ℝ → ℝ → ℝ × ℝ} (hat : FindsPoint at_) {p q : Pt}
    (h1 : -90 < p.lat) (h2 : p.lat < 90) (h3 : -180 ≤ p.lon) (h4 : p.lon ≤ 180) {length : ℝ} (h0 : 0 < length)
    (hd : ∀ t, 0 ≤ t → t ≤ 2 → -8.848 < p.depth + t * (q.depth - p.depth) ∧ p.depth + t * (q.depth - p.depth) < 6371) :
    ∃ pts, p.equallySpacedPoints rnd at_ q length = .ok pts := by
  unfold Pt.equallySpacedPoints
  rw [if_pos h0]
  apply mapM_exists
  intro t ht
  obtain ⟨i, hi, ht⟩ := List.getElem_of_mem ht
  obtain ⟨g1, g2, g3, g4, g5⟩ := intervals_get hat h1 h2 length i t (by rw [List.getElem?_eq_getElem hi, ht])
  have hplace : -180 ≤ t.1 ∧ t.1 ≤ 180 ∧ -90 ≤ t.2.1 ∧ t.2.1 ≤ 90 := by
    rcases Nat.eq_zero_or_pos i with h | h
    · rw [g4 h]; exact ⟨h3, h4, h1.le, h2.le⟩
    · exact g5 h
  have hdepth : -8.848 < t.2.2 ∧ t.2.2 < 6371 := by
    rcases Nat.eq_zero_or_pos i with h | h
    · rw [g4 h]
      simpa using hd 0 le_rfl (by norm_num)
    · have hn : 0 < numIntervals rnd p q length := by omega
      obtain ⟨f1, f2, f3⟩ := interval_facts hr p q h0 hn
      set R := roundedDistance rnd p q
      have hRpos : 0 < R := by linarith
      have hs0 : 0 < length / R := div_pos h0 hRpos
      have hin : (i : ℝ) ≤ numIntervals rnd p q length := by exact_mod_cast g1
      have key : (i : ℝ) * (length / R) ≤ 2 := by
        have : (numIntervals rnd p q length : ℝ) * length ≤ 2 * R := by linarith [(abs_le.1 f2).2]
        rw [← mul_div_assoc, div_le_iff₀ hRpos]
        nlinarith
      have := hd (i * (length / R)) (by positivity) key
      rw [g3]
      rw [show (i : ℝ) * ((q.depth - p.depth) * (length / R)) = i * (length / R) * (q.depth - p.depth) by ring]
      exact this
  refine ⟨⟨t.1, t.2.1, t.2.2⟩, ?_⟩
  unfold mkPoint earthRadius earthElevation
  rw [if_neg (by simpa using hdepth.2), if_neg (by simpa using hdepth.1), if_neg (by simp [hplace.1, hplace.2.1]),
    if_neg (by simp [hplace.2.2.1, hplace.2.2.2])]

/-- **C184** violated: the points do not stay between the two points: when the distance is 1.6 times the spacing, the last of the three points is a quarter of the
distance too far from the start. -/
theorem C184_beyond_violated {rnd : ℝ → ℤ} (hr : RoundsToNearest rnd) {at_ : ℝ → ℝ → ℝ → ℝ → ℝ × ℝ} (hat : FindsPoint at_) {p q : Pt}
    (h1 : -90 < p.lat) (h2 : p.lat < 90) (hpos : 0 < roundedDistance rnd p q) (hq : geodeticDistance p.lon p.lat q.lon q.lat ≤ 10000) {pts : List Pt}
    (h : p.equallySpacedPoints rnd at_ q (roundedDistance rnd p q / 1.6) = .ok pts) :
    ∃ last, pts.getLast? = some last ∧ p.dist last = p.dist q * 1.25 := by
  unfold Pt.equallySpacedPoints at h
  rw [if_pos (by positivity)] at h
  obtain ⟨hlen, hget⟩ := mapM_get _ _ _ h
  rw [intervals_length] at hlen
  set R := roundedDistance rnd p q with hR
  have hn : numIntervals rnd p q (R / 1.6) = 2 := by
    unfold numIntervals
    rw [← hR, show R / (R / 1.6) = 1.6 by field_simp]
    have := abs_le.1 (hr 1.6)
    have a1 : (1 : ℝ) < rnd 1.6 := by norm_num at *; linarith
    have a2 : (rnd 1.6 : ℝ) < 3 := by norm_num at *; linarith
    have a1' : (1 : ℤ) < rnd 1.6 := by exact_mod_cast a1
    have a2' : rnd 1.6 < 3 := by exact_mod_cast a2
    omega
  rw [hn] at hlen
  obtain ⟨last, hlast⟩ : ∃ last, pts[2]? = some last := ⟨_, List.getElem?_eq_getElem (by omega)⟩
  refine ⟨last, by rw [List.getLast?_eq_getElem?, hlen, hlast], ?_⟩
  obtain ⟨t, ht, hmk⟩ := hget 2 last hlast
  obtain ⟨_, g2, g3, _⟩ := intervals_get hat h1 h2 _ 2 t ht
  have e := mkPoint_ok hmk
  subst e
  have hH0 : 0 ≤ geodeticDistance p.lon p.lat q.lon q.lat := (C78_metric.2.1 _ _ _ _).1
  have es : R / 1.6 / R = 1 / 1.6 := by field_simp
  rw [← hR, es] at g2 g3
  apply dist_scaled p q _ _ _ (by norm_num)
  · have h00 : onSphere p.lon p.lat = arrive p.lon p.lat (azimuth p.lon p.lat q.lon q.lat) 0 := by unfold arrive; simp
    have e2 : ((2 : ℕ) : ℝ) * (geodeticDistance p.lon p.lat q.lon q.lat * (1 / 1.6)) - 0 = geodeticDistance p.lon p.lat q.lon q.lat * 1.25 := by
      push_cast; norm_num; ring
    rw [geodetic_on_way h00 g2, e2, abs_of_nonneg (by positivity)]
    rw [e2, abs_of_nonneg (by positivity)]
    have := big_pi
    norm_num at *
    linarith
  · simp only [g3]
    push_cast
    norm_num
    ring

/-- **C184**: a point made from the coordinates in space of a valid point is that point; a vector outside of the allowed depths is refused. -/
theorem C184_from_vector (p : Pt) (h1 : -180 < p.lon) (h2 : p.lon ≤ 180) (h3 : -90 < p.lat) (h4 : p.lat < 90) :
    (-8.848 < p.depth ∧ p.depth < 6371 → fromVector (sphericalToCartesian p) = .ok p) ∧
    (p.depth ≤ -8.848 → fromVector (sphericalToCartesian p) = .error "depth") := by
  constructor
  · rintro ⟨d1, d2⟩
    unfold fromVector
    rw [C127_coordinates.1 p h1 h2 h3 h4 d2]
    unfold mkPoint earthRadius earthElevation
    simp only
    rw [if_neg (by simpa using d2), if_neg (by simpa using d1), if_neg (by simp [h1.le, h2]), if_neg (by simp [h3.le, h4.le])]
  · intro d
    unfold fromVector
    have hlt : p.depth < 6371 := by norm_num at *; linarith
    rw [C127_coordinates.1 p h1 h2 h3 h4 hlt]
    unfold mkPoint earthRadius earthElevation
    simp only
    rw [if_neg (by simpa using hlt), if_pos (by simpa using d)]

/-- A hundred km, and the functions of the library and of Mathlib, meet the hypotheses. -/
example : RoundsToNearest round ∧ FindsPoint libraryPointAt ∧
    ∃ pts, Pt.equallySpacedPoints round libraryPointAt ⟨-122, 47, 10⟩ ⟨-121, 47, 5⟩ 10 = .ok pts :=
  have hr : RoundsToNearest round := fun x => by rw [abs_sub_comm]; exact abs_sub_round x
  ⟨hr, libraryPointAt_finds, C184_succeeds hr libraryPointAt_finds (by norm_num) (by norm_num) (by norm_num) (by norm_num) (by norm_num)
    (fun t h0 h1 => by constructor <;> norm_num <;> linarith)⟩

/-- The way straight up from a depth of 10 km to one of 5 km meets the hypotheses of the violation. -/
example : ∃ pts last, Pt.equallySpacedPoints round libraryPointAt ⟨-122, 47, 10⟩ ⟨-122, 47, 5⟩ (roundedDistance round ⟨-122, 47, 10⟩ ⟨-122, 47, 5⟩ / 1.6) = .ok pts ∧
    pts.getLast? = some last ∧ Pt.dist ⟨-122, 47, 10⟩ last = 6.25 := by
  have hr : RoundsToNearest round := fun x => by rw [abs_sub_comm]; exact abs_sub_round x
  have hd : Pt.dist ⟨-122, 47, 10⟩ ⟨-122, 47, 5⟩ = 5 := by
    unfold Pt.dist distance
    rw [C78_metric.2.2.2.1]
    rw [show ((0 : ℝ) ^ 2 + (10 - 5) ^ 2) = 5 ^ 2 by norm_num, sqrt_sq (by norm_num)]
  have hpos : 0 < roundedDistance round ⟨-122, 47, 10⟩ ⟨-122, 47, 5⟩ := by
    have := (abs_le.1 (rounded_near hr ⟨-122, 47, 10⟩ ⟨-122, 47, 5⟩)).1
    rw [hd] at this
    norm_num at *
    linarith
  obtain ⟨pts, hp⟩ := C184_succeeds (p := ⟨-122, 47, 10⟩) (q := ⟨-122, 47, 5⟩) hr libraryPointAt_finds (by norm_num) (by norm_num) (by norm_num)
    (by norm_num) (length := roundedDistance round ⟨-122, 47, 10⟩ ⟨-122, 47, 5⟩ / 1.6) (by positivity)
    (fun t h0 h1 => by constructor <;> norm_num <;> linarith)
  obtain ⟨last, h1, h2⟩ := C184_beyond_violated hr libraryPointAt_finds (by norm_num) (by norm_num) hpos
    (by rw [C78_metric.2.2.2.1]; norm_num) hp
  exact ⟨pts, last, hp, h1, by rw [h2, hd]; norm_num⟩

end Verif.Props
