import Mathlib.Analysis.InnerProductSpace.PiL2
import Verif.Props.EcefDouble
import Verif.Spec.QuadLength

/-!
# C205: lengths of ruptures in binary arithmetic
-/

namespace Verif.Props
open Verif.Dbl Verif.Spec
open Verif.Rup (Quad)

namespace Len
open Geo

/-- The triangle inequality in three coordinates. -/
theorem triangle {a b c A B C e : ℝ} (h1 : |a - A| ≤ e) (h2 : |b - B| ≤ e) (h3 : |c - C| ≤ e) :
    |√(a ^ 2 + b ^ 2 + c ^ 2) - √(A ^ 2 + B ^ 2 + C ^ 2)| ≤ 17321 / 10000 * e := by
  have e0 : 0 ≤ e := le_trans (abs_nonneg _) h1
  have n : ∀ x y z : ℝ, ‖(!₂[x, y, z] : EuclideanSpace ℝ (Fin 3))‖ = √(x ^ 2 + y ^ 2 + z ^ 2) := by
    intro x y z
    rw [EuclideanSpace.norm_eq, Fin.sum_univ_three]
    simp
  have h := abs_norm_sub_norm_le (!₂[a, b, c] : EuclideanSpace ℝ (Fin 3)) !₂[A, B, C]
  have d : (!₂[a, b, c] : EuclideanSpace ℝ (Fin 3)) - !₂[A, B, C] = !₂[a - A, b - B, c - C] := by
    ext i; fin_cases i <;> simp
  rw [d, n, n, n] at h
  refine le_trans h ?_
  rw [Real.sqrt_le_left (by positivity)]
  have k : ∀ {t : ℝ}, |t| ≤ e → t ^ 2 ≤ e ^ 2 := fun {t} ht => by rw [← sq_abs]; exact pow_le_pow_left₀ (abs_nonneg _) ht 2
  have := k h1
  have := k h2
  have := k h3
  nlinarith [sq_nonneg e]

theorem squares_real {u : ℝ} (hu : Precise u) {L : MathLib} (hL : RightTo u L) (x y z : ℚ) :
    0 ≤ rnd (rnd (L.sq x + L.sq y) + L.sq z) ∧
    |((rnd (rnd (L.sq x + L.sq y) + L.sq z) : ℚ) : ℝ) - ((x : ℝ) ^ 2 + (y : ℝ) ^ 2 + (z : ℝ) ^ 2)|
      ≤ 6 * u * ((x : ℝ) ^ 2 + (y : ℝ) ^ 2 + (z : ℝ) ^ 2) + 20 * 2 ^ (-1075 : ℤ) := by
  obtain ⟨u0, u1, τ0, τ2, τ1, τu⟩ := tiny hu
  have hx := hL.sq x
  have hy := hL.sq y
  have hz := hL.sq z
  have r1 := rnd_real hu (L.sq x + L.sq y)
  have r2 := rnd_real hu (rnd (L.sq x + L.sq y) + L.sq z)
  have nx := hL.sq_nonneg x
  have ny := hL.sq_nonneg y
  have nz := hL.sq_nonneg z
  have n1 : 0 ≤ rnd (L.sq x + L.sq y) := rnd_nonneg (by linarith)
  have n2 : 0 ≤ rnd (rnd (L.sq x + L.sq y) + L.sq z) := rnd_nonneg (by linarith)
  refine ⟨n2, ?_⟩
  have c1 : (0 : ℝ) ≤ (L.sq x : ℝ) + L.sq y := by exact_mod_cast add_nonneg nx ny
  have c2 : (0 : ℝ) ≤ ((rnd (L.sq x + L.sq y) : ℚ) : ℝ) + L.sq z := by exact_mod_cast add_nonneg n1 nz
  rw [Rat.cast_add, abs_of_nonneg c1] at r1
  rw [Rat.cast_add, abs_of_nonneg c2] at r2
  rw [τ1] at hx hy hz
  have px := sq_nonneg (x : ℝ)
  have py := sq_nonneg (y : ℝ)
  have pz := sq_nonneg (z : ℝ)
  clear τ1 n2 n1 nx ny nz c1 c2
  generalize (2 : ℝ) ^ (-1075 : ℤ) = τ at *
  generalize ((rnd (rnd (L.sq x + L.sq y) + L.sq z) : ℚ) : ℝ) = R at *
  generalize ((rnd (L.sq x + L.sq y) : ℚ) : ℝ) = r at *
  generalize (L.sq x : ℝ) = a at *
  generalize (L.sq y : ℝ) = b at *
  generalize (L.sq z : ℝ) = c at *
  generalize (x : ℝ) ^ 2 = X at *
  generalize (y : ℝ) ^ 2 = Y at *
  generalize (z : ℝ) ^ 2 = Z at *
  rw [abs_le] at hx hy hz r1 r2
  have k1 : u * (a + b) ≤ u * (2 * (X + Y) + 4 * τ) := mul_le_mul_of_nonneg_left (by nlinarith) u0.le
  have k1' : u * (a + b) ≤ u * (X + Y) + (u * X + u * Y) / 100 + τ / 100 := by
    have : a + b ≤ X + Y + (u * X + u * Y) + 4 * τ := by linarith
    have := mul_le_mul_of_nonneg_left this u0.le
    have : u * (u * X + u * Y) ≤ (u * X + u * Y) / 200 := by
      have : 0 ≤ u * X + u * Y := by positivity
      nlinarith
    have : u * (4 * τ) ≤ τ / 200 := by nlinarith
    linarith
  have k2 : u * (r + c) ≤ u * (X + Y + Z) + (u * X + u * Y + u * Z) / 10 + τ / 10 := by
    have : r + c ≤ X + Y + Z + 3 * (u * X + u * Y + u * Z) + 8 * τ := by
      have : 0 ≤ u * X := by positivity
      have : 0 ≤ u * Y := by positivity
      have : 0 ≤ u * Z := by positivity
      linarith
    have := mul_le_mul_of_nonneg_left this u0.le
    have : u * (3 * (u * X + u * Y + u * Z)) ≤ (u * X + u * Y + u * Z) / 20 := by
      have : 0 ≤ u * X + u * Y + u * Z := by positivity
      nlinarith
    have : u * (8 * τ) ≤ τ / 20 := by nlinarith
    linarith
  have pX : 0 ≤ u * X := by positivity
  have pY : 0 ≤ u * Y := by positivity
  have pZ : 0 ≤ u * Z := by positivity
  rw [abs_le]
  constructor <;> linarith

/-- The length of a vector, with components of any size. -/
theorem mag_real {u : ℝ} (hu : Precise u) {L : MathLib} (hL : RightTo u L) (d : D3) :
    0 ≤ d.mag L.sq ∧ |((d.mag L.sq : ℚ) : ℝ) - √((d.x : ℝ) ^ 2 + (d.y : ℝ) ^ 2 + (d.z : ℝ) ^ 2)|
      ≤ 8 * u * √((d.x : ℝ) ^ 2 + (d.y : ℝ) ^ 2 + (d.z : ℝ) ^ 2) + u := by
  obtain ⟨u0, u1, τ0, τ2, τ1, τu⟩ := tiny hu
  obtain ⟨h0, h⟩ := squares_real hu hL d.x d.y d.z
  have hr := root_near u0 (by linarith) (by positivity) (by exact_mod_cast h0) (by linarith) h
  have hs := sqrtRnd_real hu h0
  refine ⟨sqrtRnd_nonneg' hu h0, ?_⟩
  unfold D3.mag
  have p := Real.sqrt_nonneg ((d.x : ℝ) ^ 2 + (d.y : ℝ) ^ 2 + (d.z : ℝ) ^ 2)
  generalize √((d.x : ℝ) ^ 2 + (d.y : ℝ) ^ 2 + (d.z : ℝ) ^ 2) = A at *
  generalize √(((rnd (rnd (L.sq d.x + L.sq d.y) + L.sq d.z) : ℚ)) : ℝ) = B at *
  have t := abs_sub_le ((sqrtRnd (rnd (rnd (L.sq d.x + L.sq d.y) + L.sq d.z)) : ℚ) : ℝ) B A
  have hB : B ≤ A + (6 * u * A + u / 2) := by linarith [(abs_le.1 hr).2]
  have := mul_le_mul_of_nonneg_left hB u0.le
  have uA : 0 ≤ u * A := by positivity
  have : u * (6 * u * A) ≤ u * A / 2 := by nlinarith
  have : u * (u / 2) ≤ u / 4 := by nlinarith
  linarith

theorem coordinate_le {lat lon dep x y z : ℝ} (hd : |dep| ≤ 1000) (h : Geodetic lat lon dep x y z) : |x| ≤ 7410000 ∧ |y| ≤ 7410000 ∧ |z| ≤ 7410000 := by
  obtain ⟨hx, hy, hz⟩ := Ecef.geodetic_eq h
  obtain ⟨r0, r1⟩ := Ecef.radius_bounds (Real.abs_sin_le_one (Oq.radians lat))
  obtain ⟨e0, e1⟩ := Ecef.e2_bounds
  obtain ⟨d1, d2⟩ := abs_le.1 hd
  have k1 : |Ecef.radius (Real.sin (Oq.radians lat)) + -dep * 1000| ≤ 7410000 := abs_le.2 ⟨by linarith, by linarith⟩
  have k2 : |Ecef.radius (Real.sin (Oq.radians lat)) * (1 - Ecef.e2) + -dep * 1000| ≤ 7410000 := by
    have : Ecef.radius (Real.sin (Oq.radians lat)) * (1 - Ecef.e2) ≤ 6410000 * 1 := mul_le_mul r1 (by linarith) (by linarith) (by norm_num)
    have : 0 ≤ Ecef.radius (Real.sin (Oq.radians lat)) * (1 - Ecef.e2) := mul_nonneg r0.le (by linarith)
    exact abs_le.2 ⟨by linarith, by linarith⟩
  have m : ∀ {p q : ℝ}, |p| ≤ 7410000 → |q| ≤ 1 → |p * q| ≤ 7410000 := fun {p q} hp hq => by
    rw [abs_mul]
    calc |p| * |q| ≤ 7410000 * 1 := mul_le_mul hp hq (abs_nonneg _) (by norm_num)
      _ = _ := by norm_num
  rw [hx, hy, hz]
  exact ⟨m (m k1 (Real.abs_cos_le_one _)) (Real.abs_cos_le_one _), m (m k1 (Real.abs_cos_le_one _)) (Real.abs_sin_le_one _), m k2 (Real.abs_sin_le_one _)⟩

theorem difference_real {u : ℝ} (hu : Precise u) {a b : ℚ} {A B : ℝ} (ha : |(a : ℝ) - A| ≤ 200000000 * u) (hb : |(b : ℝ) - B| ≤ 200000000 * u)
    (hA : |A| ≤ 7410000) (hB : |B| ≤ 7410000) : |((rnd (a - b) : ℚ) : ℝ) - (A - B)| ≤ 416000000 * u := by
  obtain ⟨u0, u1, τ0, τ2, τ1, τu⟩ := tiny hu
  have h := rnd_real hu (a - b)
  rw [Rat.cast_sub] at h
  clear τ1 τ2
  generalize (2 : ℝ) ^ (-1075 : ℤ) = τ at *
  have k : |(a : ℝ) - b - (A - B)| ≤ 400000000 * u := by
    rw [abs_le] at *
    constructor <;> linarith
  have k2 : |(a : ℝ) - b| ≤ 15000000 := by
    rw [abs_le] at *
    constructor <;> linarith
  have := mul_le_mul_of_nonneg_left k2 u0.le
  have := abs_sub_le ((rnd (a - b) : ℚ) : ℝ) ((a : ℝ) - b) (A - B)
  linarith

/-- Top edges are shorter than 26000 km. -/
theorem edge_bounds {q : Quad GeoPoint} {ℓ : ℝ} (h0 : PlaceOnEarth q.p0) (h1 : PlaceOnEarth q.p1) (h : TopEdge q ℓ) : 0 ≤ ℓ ∧ ℓ ≤ 26000 := by
  obtain ⟨x, y, z, x', y', z', g, g', e⟩ := h
  have c := coordinate_le (by exact_mod_cast h0.2.2) g
  have c' := coordinate_le (by exact_mod_cast h1.2.2) g'
  have k : ∀ {p q : ℝ}, |p| ≤ 7410000 → |q| ≤ 7410000 → (p - q) ^ 2 ≤ 14820000 ^ 2 := fun {p q} hp hq => by
    rw [← sq_abs]
    refine pow_le_pow_left₀ (abs_nonneg _) ?_ 2
    rw [abs_le] at *
    constructor <;> linarith
  have := k c'.1 c.1
  have := k c'.2.1 c.2.1
  have := k c'.2.2 c.2.2
  have hs : √((x' - x) ^ 2 + (y' - y) ^ 2 + (z' - z) ^ 2) ≤ 26000000 := by
    rw [Real.sqrt_le_left (by norm_num)]
    linarith
  have := Real.sqrt_nonneg ((x' - x) ^ 2 + (y' - y) ^ 2 + (z' - z) ^ 2)
  constructor <;> linarith

theorem edge_near {u : ℝ} (hu : Precise u) {L : MathLib} (hL : RightTo u L) {q : Quad GeoPoint} {ℓ : ℝ} (h0 : PlaceOnEarth q.p0) (h1 : PlaceOnEarth q.p1) (h : TopEdge q ℓ) :
    0 ≤ quadLength L q ∧ |(quadLength L q : ℝ) - ℓ| ≤ 1000000 * u := by
  obtain ⟨b0, b1⟩ := edge_bounds h0 h1 h
  obtain ⟨u0, u1, τ0, τ2, τ1, τu⟩ := tiny hu
  obtain ⟨x, y, z, x', y', z', g, g', e⟩ := h
  have c := coordinate_le (by exact_mod_cast h0.2.2) g
  have c' := coordinate_le (by exact_mod_cast h1.2.2) g'
  have n := C203_near hu hL h0.1 h0.2.1 h0.2.2 g
  have n' := C203_near hu hL h1.1 h1.2.1 h1.2.2 g'
  set d := (fromPoint L q.p1).sub (fromPoint L q.p0) with hd
  have dx : |(d.x : ℝ) - (x' - x)| ≤ 416000000 * u := difference_real hu n'.1 n.1 c'.1 c.1
  have dy : |(d.y : ℝ) - (y' - y)| ≤ 416000000 * u := difference_real hu n'.2.1 n.2.1 c'.2.1 c.2.1
  have dz : |(d.z : ℝ) - (z' - z)| ≤ 416000000 * u := difference_real hu n'.2.2 n.2.2 c'.2.2 c.2.2
  have t := triangle dx dy dz
  rw [← e] at t
  obtain ⟨m0, m⟩ := mag_real hu hL d
  have r := rnd_real hu (d.mag L.sq / 1000)
  refine ⟨rnd_nonneg (by positivity), ?_⟩
  unfold quadLength
  rw [← hd]
  have m1 : (0 : ℝ) ≤ (d.mag L.sq : ℝ) / 1000 := div_nonneg (by exact_mod_cast m0) (by norm_num)
  rw [Rat.cast_div, Rat.cast_ofNat, abs_of_nonneg m1] at r
  clear τ1 τ2 n n' c c' dx dy dz g g' e
  clear_value d
  generalize (2 : ℝ) ^ (-1075 : ℤ) = τ at *
  generalize ((rnd (d.mag L.sq / 1000) : ℚ) : ℝ) = R at *
  generalize (d.mag L.sq : ℝ) = M at *
  generalize √((d.x : ℝ) ^ 2 + (d.y : ℝ) ^ 2 + (d.z : ℝ) ^ 2) = A at *
  rw [abs_le] at *
  have hA : A ≤ 26001000 := by linarith
  have := mul_le_mul_of_nonneg_left hA u0.le
  have hM : M ≤ 26002000 := by linarith
  have := mul_le_mul_of_nonneg_left hM u0.le
  constructor <;> linarith

theorem total_near {u : ℝ} (hu : Precise u) {L : MathLib} (hL : RightTo u L) :
    ∀ (qs : List (Quad GeoPoint)) (ls : List ℝ) (k : ℕ) (s : ℚ) (σ : ℝ), List.Forall₂ TopEdge qs ls → (∀ q ∈ qs, PlaceOnEarth q.p0 ∧ PlaceOnEarth q.p1) →
      k + qs.length ≤ 1000000 → 0 ≤ σ → σ ≤ 26000 * k → |(s : ℝ) - σ| ≤ k * (1000000 + 30000 * k) * u →
      |((qs.foldl (fun s q => rnd (s + quadLength L q)) s : ℚ) : ℝ) - (σ + ls.sum)| ≤ (k + qs.length : ℕ) * (1000000 + 30000 * (k + qs.length : ℕ)) * u := by
  obtain ⟨u0, u1, τ0, τ2, τ1, τu⟩ := tiny hu
  intro qs
  induction qs with
  | nil =>
    intro ls k s σ h _ _ _ _ hs
    cases h
    simpa using hs
  | cons q qs ih =>
    intro ls k s σ h hq hk h0 h1 hs
    cases h with
    | @cons _ ℓ _ ls hℓ h =>
      have hE := hq q (by simp)
      obtain ⟨b0, b1⟩ := edge_bounds hE.1 hE.2 hℓ
      obtain ⟨n0, n⟩ := edge_near hu hL hE.1 hE.2 hℓ
      have r := rnd_real hu (s + quadLength L q)
      rw [List.length_cons] at hk ⊢
      have step := ih ls (k + 1) (rnd (s + quadLength L q)) (σ + ℓ) h (fun q hq' => hq q (by simp [hq'])) (by omega) (by linarith)
        (by push_cast; linarith) (by
          rw [Rat.cast_add] at r
          clear τ1 τ2
          generalize (2 : ℝ) ^ (-1075 : ℤ) = τ at *
          have hk' : (k : ℝ) ≤ 1000000 := by exact_mod_cast (by omega : k ≤ 1000000)
          have hk0 : (0 : ℝ) ≤ k := Nat.cast_nonneg k
          push_cast
          generalize (k : ℝ) = K at *
          have hKu : K * (1000000 + 30000 * K) * u ≤ K + 1 := by
            have : K * (1000000 + 30000 * K) ≤ K * 31000000000 := by
              apply mul_le_mul_of_nonneg_left _ hk0
              linarith
            have := mul_le_mul_of_nonneg_right this u0.le
            have : K * 31000000000 * u ≤ K * 31000000000 * (1 / 1000000000000) := mul_le_mul_of_nonneg_left u1 (by positivity)
            linarith
          have hsum : |(s : ℝ) + quadLength L q| ≤ 26001 * (K + 1) + 1 := by
            rw [abs_le] at *
            constructor <;> linarith
          have hu' := mul_le_mul_of_nonneg_left hsum u0.le
          have t : |((rnd (s + quadLength L q) : ℚ) : ℝ) - (σ + ℓ)| ≤ u * (26001 * (K + 1) + 1) + τ + K * (1000000 + 30000 * K) * u + 1000000 * u := by
            rw [abs_le] at hs n r ⊢
            constructor <;> linarith
          refine le_trans t ?_
          have : 0 ≤ K * u := by positivity
          nlinarith)
      rw [List.foldl_cons, List.sum_cons, ← add_assoc]
      rw [show k + 1 + qs.length = k + (qs.length + 1) by omega] at step
      exact step

end Len

/-- C205: the length of a quadrilateral is right to `1000000 u` kilometres, and that of a rupture of `n` quadrilaterals to `n (1000000 + 30000 n) u`. -/
theorem C205_near {u : ℝ} (hu : Precise u) {L : MathLib} (hL : RightTo u L) :
    (∀ (q : Quad GeoPoint) (ℓ : ℝ), PlaceOnEarth q.p0 → PlaceOnEarth q.p1 → TopEdge q ℓ → |(quadLength L q : ℝ) - ℓ| ≤ 1000000 * u) ∧
    (∀ (qs : List (Quad GeoPoint)) (ls : List ℝ), List.Forall₂ TopEdge qs ls → (∀ q ∈ qs, PlaceOnEarth q.p0 ∧ PlaceOnEarth q.p1) → qs.length ≤ 1000000 →
      |(ruptureLength L qs : ℝ) - ls.sum| ≤ qs.length * (1000000 + 30000 * qs.length) * u) := by
  refine ⟨fun q ℓ h0 h1 h => (Len.edge_near hu hL h0 h1 h).2, fun qs ls h hq hn => ?_⟩
  have := Len.total_near hu hL qs ls 0 0 0 h hq (by omega) le_rfl (by simp) (by simp)
  simpa [ruptureLength] using this

/-- C205: every quadrilateral has one length of its top edge. -/
theorem C205_edge (q : Quad GeoPoint) : ∃ ℓ, TopEdge q ℓ ∧ ∀ ℓ', TopEdge q ℓ' → ℓ' = ℓ := by
  obtain ⟨x, y, z, g, uniq⟩ := C203_point q.p0.lat q.p0.lon q.p0.depth
  obtain ⟨x', y', z', g', uniq'⟩ := C203_point q.p1.lat q.p1.lon q.p1.depth
  refine ⟨√((x' - x) ^ 2 + (y' - y) ^ 2 + (z' - z) ^ 2) / 1000, ⟨x, y, z, x', y', z', g, g', by ring⟩, ?_⟩
  rintro ℓ' ⟨a, b, c, a', b', c', h, h', e⟩
  obtain ⟨rfl, rfl, rfl⟩ := uniq _ _ _ h
  obtain ⟨rfl, rfl, rfl⟩ := uniq' _ _ _ h'
  rw [← e]; ring

/-- C205: quadrilaterals reversed with `reverse_quad`, and mirrored ones, have exactly the same length; that of a quadrilateral with the same first two corners is 0. -/
theorem C205_same {u : ℝ} {L : MathLib} (hL : RightTo u L) (hsq : ∀ x, L.sq (-x) = L.sq x) (odd : ∀ x, L.sin (-x) = -L.sin x) (even : ∀ x, L.cos (-x) = L.cos x) (q : Quad GeoPoint) :
    quadLength L (reverseQuad q) = quadLength L q ∧ quadLength L (mirrored q) = quadLength L q ∧ (q.p0 = q.p1 → quadLength L q = 0) := by
  have neg : ∀ a b : ℚ, L.sq (rnd (a - b)) = L.sq (rnd (b - a)) := fun a b => by rw [← neg_sub, rnd_neg, hsq]
  refine ⟨?_, ?_, fun h => ?_⟩
  · simp only [quadLength, reverseQuad, D3.mag, D3.sub, neg]
  · simp only [quadLength, mirrored, fromPoint, (C203_mirror odd even _ _ _).1, D3.mag, D3.sub]
    rw [show ∀ a b : ℚ, -a - -b = b - a from fun a b => by ring, neg (Dbl.latlon2ecef L q.p0.lat q.p0.lon q.p0.depth).z]
  · simp [quadLength, h, D3.sub, D3.mag, rnd_zero, hL.sq_zero, sqrtRnd_zero]

/-- C205: the length of a rupture never gets smaller with more quadrilaterals, is no number below 0, that of one quadrilateral is its length, and `getIndividualTopLengths` lists the lengths. -/
theorem C205_grows {u : ℝ} (hu : Precise u) {L : MathLib} (hL : RightTo u L) (qs rs : List (Quad GeoPoint)) (q : Quad GeoPoint) :
    0 ≤ ruptureLength L qs ∧ ruptureLength L qs ≤ ruptureLength L (qs ++ rs) ∧ ruptureLength L [q] = quadLength L q ∧
    topLengths L qs = qs.map (quadLength L) := by
  have n0 : ∀ q, 0 ≤ quadLength L q := fun q => rnd_nonneg (div_nonneg (Len.mag_real hu hL _).1 (by norm_num))
  have grow : ∀ (rs : List (Quad GeoPoint)) (s : ℚ), IsDouble s → s ≤ rs.foldl (fun s q => rnd (s + quadLength L q)) s := by
    intro rs
    induction rs with
    | nil => intro s _; exact le_rfl
    | cons r rs ih =>
      intro s hs
      rw [List.foldl_cons]
      refine le_trans ?_ (ih _ (rnd_isDouble _))
      rw [← rnd_double hs, rnd_double hs]
      calc s = rnd s := (rnd_double hs).symm
        _ ≤ _ := rnd_mono (by linarith [n0 r])
  have dbl : ∀ (qs : List (Quad GeoPoint)) (s : ℚ), IsDouble s → IsDouble (qs.foldl (fun s q => rnd (s + quadLength L q)) s) := by
    intro qs
    induction qs with
    | nil => intro s hs; exact hs
    | cons q qs ih => intro s _; exact ih _ (rnd_isDouble _)
  have z : IsDouble 0 := by have := rnd_isDouble 0; rwa [rnd_zero] at this
  refine ⟨grow qs 0 z, ?_, ?_, rfl⟩
  · unfold ruptureLength
    rw [List.foldl_append]
    exact grow rs _ (dbl qs 0 z)
  · simp only [ruptureLength, List.foldl_cons, List.foldl_nil, zero_add]
    exact rnd_double (rnd_isDouble _)

/-- A quadrilateral and a library that meet the hypotheses. -/
example : ∃ ℓ, TopEdge ⟨⟨-122, 37, 0⟩, ⟨-121, 38, 0⟩, ⟨-121, 38, 10⟩, ⟨-122, 37, 10⟩⟩ ℓ ∧
    |(quadLength Geo.someLib ⟨⟨-122, 37, 0⟩, ⟨-121, 38, 0⟩, ⟨-121, 38, 10⟩, ⟨-122, 37, 10⟩⟩ : ℝ) - ℓ| ≤ 1000000 * 2 ^ (-49 : ℤ) := by
  obtain ⟨ℓ, h, -⟩ := C205_edge ⟨⟨-122, 37, 0⟩, ⟨-121, 38, 0⟩, ⟨-121, 38, 10⟩, ⟨-122, 37, 10⟩⟩
  exact ⟨ℓ, h, (C205_near Geo.precise49 Geo.someLib_right).1 _ ℓ (by norm_num [PlaceOnEarth, abs_le]) (by norm_num [PlaceOnEarth, abs_le]) h⟩

end Verif.Props
