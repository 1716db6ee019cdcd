import Verif.Props.QuadLength
import Verif.Props.EdgeDistance
import Verif.Model.EdgeDouble
import Verif.Spec.EdgeDouble

/-!
# C207: distances to ruptures of edges in binary arithmetic
-/

namespace Verif.Props
open Verif.Dbl Verif.Spec
open Verif.Rup (Quad linspace01)
open Verif.Vec (V3)

namespace Edge
open Geo Len

/-! ### Single operations -/

/-- The rounded product as the square of the library. -/
theorem product_right {u : ℝ} (hu : Precise u) {L : MathLib} (hL : RightTo u L) : RightTo u { L with sq := fun x => rnd (x * x) } where
  sin := hL.sin
  cos := hL.cos
  asin := hL.asin
  sq x := by
    have h := rnd_real hu (x * x)
    obtain ⟨u0, u1, τ0, τ2, τ1, τu⟩ := tiny hu
    rw [Rat.cast_mul, abs_of_nonneg (mul_self_nonneg (x : ℝ))] at h
    show |((rnd (x * x) : ℚ) : ℝ) - (x : ℝ) ^ 2| ≤ u * (x : ℝ) ^ 2 + _
    rw [τ1, _root_.sq (x : ℝ)]
    linarith
  sq_nonneg x := rnd_nonneg (mul_self_nonneg x)
  sq_zero := by show rnd (0 * 0) = 0; rw [mul_zero, rnd_zero]

theorem unit_near {u : ℝ} (hu : Precise u) {n i : ℕ} (hn : 2 ≤ n) (hN : n ≤ 100000000) (hi : i < n) : |(unitStep n i : ℝ) - linspace01 n i| ≤ 3 * u := by
  obtain ⟨u0, u1, τ0, τ2, τ1, τu⟩ := tiny hu
  have h2 : (2 : ℝ) ≤ n := by exact_mod_cast hn
  have h8 : (n : ℝ) ≤ 100000000 := by exact_mod_cast hN
  have hi0 : (0 : ℝ) ≤ i := Nat.cast_nonneg i
  unfold unitStep linspace01
  split_ifs with h
  · have : (i : ℝ) = n - 1 := by
      have : (i : ℝ) + 1 = n := by exact_mod_cast h
      linarith
    rw [this, div_self (by linarith)]
    simp only [Rat.cast_one, sub_self, abs_zero]
    linarith
  · have hi1 : (i : ℝ) ≤ n - 1 := by
      have : (i : ℝ) + 1 ≤ n := by exact_mod_cast hi
      linarith
    have r1 := rnd_real hu (1 / ((n : ℚ) - 1))
    have r2 := rnd_real hu (i * rnd (1 / ((n : ℚ) - 1)))
    push_cast at r1 r2
    have hm : (0 : ℝ) < (n : ℝ) - 1 := by linarith
    have hinv : (0 : ℝ) < 1 / ((n : ℝ) - 1) := by positivity
    rw [abs_of_pos hinv] at r1
    generalize ((rnd (1 / ((n : ℚ) - 1)) : ℚ) : ℝ) = s at *
    generalize ((rnd (i * rnd (1 / ((n : ℚ) - 1))) : ℚ) : ℝ) = a at *
    have one : (i : ℝ) * (1 / ((n : ℝ) - 1)) ≤ 1 := by rw [mul_one_div, div_le_one hm]; exact hi1
    have t0 : 0 ≤ (i : ℝ) * (1 / ((n : ℝ) - 1)) := by positivity
    have tiny1 : (i : ℝ) * 2 ^ (-1075 : ℤ) ≤ u / 10 := by
      have : (i : ℝ) * 2 ^ (-1075 : ℤ) ≤ 100000000 * (u ^ 2 / 1000) := mul_le_mul (by linarith) τ2 τ0.le (by norm_num)
      nlinarith
    have e : |(i : ℝ) * s - i * (1 / ((n : ℝ) - 1))| ≤ 11 / 10 * u := by
      rw [← mul_sub, abs_mul, abs_of_nonneg hi0]
      calc (i : ℝ) * |s - 1 / ((n : ℝ) - 1)| ≤ i * (u * (1 / ((n : ℝ) - 1)) + 2 ^ (-1075 : ℤ)) := mul_le_mul_of_nonneg_left r1 hi0
        _ = u * (i * (1 / ((n : ℝ) - 1))) + i * 2 ^ (-1075 : ℤ) := by ring
        _ ≤ u * 1 + u / 10 := add_le_add (mul_le_mul_of_nonneg_left one u0.le) tiny1
        _ = 11 / 10 * u := by ring
    have b : |(i : ℝ) * s| ≤ 11 / 10 := by
      rw [abs_le] at e ⊢
      constructor <;> linarith
    have := mul_le_mul_of_nonneg_left b u0.le
    rw [show (i : ℝ) / ((n : ℝ) - 1) = i * (1 / ((n : ℝ) - 1)) by rw [mul_one_div]]
    clear τ2 τ1 r1
    rw [abs_le] at *
    constructor <;> linarith

theorem between_real {u : ℝ} (hu : Precise u) {p q a : ℚ} {P Q A E : ℝ} (E0 : 0 ≤ E) (E1 : E ≤ 1000000000) (hp : |(p : ℝ) - P| ≤ E * u) (hq : |(q : ℝ) - Q| ≤ E * u)
    (hP : |P| ≤ 7410000) (hQ : |Q| ≤ 7410000) (A0 : 0 ≤ A) (A1 : A ≤ 1) (ha : |(a : ℝ) - A| ≤ 3 * u) :
    |((rnd (p + rnd (rnd (q - p) * a)) : ℚ) : ℝ) - (P + (Q - P) * A)| ≤ (3 * E + 82000000) * u := by
  obtain ⟨u0, u1, τ0, τ2, τ1, τu⟩ := tiny hu
  have r1 := rnd_real hu (q - p)
  have r2 := rnd_real hu (rnd (q - p) * a)
  have r3 := rnd_real hu (p + rnd (rnd (q - p) * a))
  push_cast at r1 r2 r3
  generalize ((rnd (p + rnd (rnd (q - p) * a)) : ℚ) : ℝ) = s at *
  generalize ((rnd (rnd (q - p) * a) : ℚ) : ℝ) = m at *
  generalize ((rnd (q - p) : ℚ) : ℝ) = d at *
  generalize (2 : ℝ) ^ (-1075 : ℤ) = τ at *
  generalize (p : ℝ) = p at *
  generalize (q : ℝ) = q at *
  generalize (a : ℝ) = a at *
  clear τ1 τ2
  have Eu : E * u ≤ 1 / 1000 := by
    calc E * u ≤ 1000000000 * (1 / 1000000000000) := mul_le_mul E1 u1 u0.le (by norm_num)
      _ = 1 / 1000 := by norm_num
  have Eu0 : 0 ≤ E * u := by positivity
  have hqp : |q - p| ≤ 14820001 := by
    rw [abs_le] at *
    constructor <;> linarith
  have hQP : |Q - P| ≤ 14820000 := by
    rw [abs_le] at *
    constructor <;> linarith
  have hd : |d - (Q - P)| ≤ 2 * (E * u) + 14820002 * u := by
    have := mul_le_mul_of_nonneg_left hqp u0.le
    rw [abs_le] at r1 hp hq ⊢
    constructor <;> linarith
  have ha1 : |a| ≤ 1 + 3 * u := by
    rw [abs_le] at ha ⊢
    constructor <;> linarith
  have hm : |d * a - (Q - P) * A| ≤ 2 * (E * u) + 59280003 * u := by
    have e : d * a - (Q - P) * A = (d - (Q - P)) * a + (Q - P) * (a - A) := by ring
    have h1 : |(d - (Q - P)) * a| ≤ (2 * (E * u) + 14820002 * u) * (1 + 3 * u) := by
      rw [abs_mul]
      exact mul_le_mul hd ha1 (abs_nonneg _) (by positivity)
    have h2 : |(Q - P) * (a - A)| ≤ 14820000 * (3 * u) := by
      rw [abs_mul]
      exact mul_le_mul hQP ha (abs_nonneg _) (by norm_num)
    have h3 : (2 * (E * u) + 14820002 * u) * (3 * u) ≤ u := by
      have : 2 * (E * u) + 14820002 * u ≤ 1 / 10 := by linarith
      have := mul_le_mul_of_nonneg_right this (by positivity : 0 ≤ 3 * u)
      linarith
    rw [e]
    have := abs_add_le ((d - (Q - P)) * a) ((Q - P) * (a - A))
    linarith
  have hQA : |(Q - P) * A| ≤ 14820000 := by
    rw [abs_mul, abs_of_nonneg A0]
    calc |Q - P| * A ≤ 14820000 * 1 := mul_le_mul hQP A1 A0 (by norm_num)
      _ = 14820000 := by norm_num
  have hda : |d * a| ≤ 14820001 := by
    rw [abs_le] at hm hQA ⊢
    constructor <;> linarith
  have hmm : |m - (Q - P) * A| ≤ 2 * (E * u) + 74100005 * u := by
    have := mul_le_mul_of_nonneg_left hda u0.le
    rw [abs_le] at r2 hm ⊢
    constructor <;> linarith
  have conv : |P + (Q - P) * A| ≤ 7410000 := by
    have e : P + (Q - P) * A = (1 - A) * P + A * Q := by ring
    rw [e, abs_le]
    rw [abs_le] at hP hQ
    have a1 := mul_le_mul_of_nonneg_left hP.1 (by linarith : 0 ≤ 1 - A)
    have a2 := mul_le_mul_of_nonneg_left hP.2 (by linarith : 0 ≤ 1 - A)
    have a3 := mul_le_mul_of_nonneg_left hQ.1 A0
    have a4 := mul_le_mul_of_nonneg_left hQ.2 A0
    constructor <;> linarith
  have hs : |p + m| ≤ 7410001 := by
    rw [abs_le] at hmm hp conv ⊢
    constructor <;> linarith
  have := mul_le_mul_of_nonneg_left hs u0.le
  rw [abs_le] at r3 hmm hp ⊢
  constructor <;> linarith

/-! ### Points -/

/-- The components differ by at most `e`. -/
def Near (e : ℝ) (a : D3) (A : V3) : Prop := |(a.x : ℝ) - A.x| ≤ e ∧ |(a.y : ℝ) - A.y| ≤ e ∧ |(a.z : ℝ) - A.z| ≤ e

/-- The components are those of points in the earth. -/
def Inside (A : V3) : Prop := |A.x| ≤ 7410000 ∧ |A.y| ≤ 7410000 ∧ |A.z| ≤ 7410000

/-- The point at the part `s` of the way. -/
noncomputable def onWay (P Q : V3) (s : ℝ) : V3 := ⟨P.x + (Q.x - P.x) * s, P.y + (Q.y - P.y) * s, P.z + (Q.z - P.z) * s⟩

theorem way_inside {P Q : V3} (hP : Inside P) (hQ : Inside Q) {s : ℝ} (s0 : 0 ≤ s) (s1 : s ≤ 1) : Inside (onWay P Q s) := by
  have key : ∀ {P Q : ℝ}, |P| ≤ 7410000 → |Q| ≤ 7410000 → |P + (Q - P) * s| ≤ 7410000 := by
    intro P Q hP hQ
    have e : P + (Q - P) * s = (1 - s) * P + s * Q := by ring
    rw [e, abs_le]
    rw [abs_le] at hP hQ
    have a1 := mul_le_mul_of_nonneg_left hP.1 (by linarith : 0 ≤ 1 - s)
    have a2 := mul_le_mul_of_nonneg_left hP.2 (by linarith : 0 ≤ 1 - s)
    have a3 := mul_le_mul_of_nonneg_left hQ.1 s0
    have a4 := mul_le_mul_of_nonneg_left hQ.2 s0
    constructor <;> linarith
  exact ⟨key hP.1 hQ.1, key hP.2.1 hQ.2.1, key hP.2.2 hQ.2.2⟩

theorem between_near {u : ℝ} (hu : Precise u) {p q : D3} {P Q : V3} {a : ℚ} {A E : ℝ} (E0 : 0 ≤ E) (E1 : E ≤ 1000000000) (hp : Near (E * u) p P) (hq : Near (E * u) q Q)
    (hP : Inside P) (hQ : Inside Q) (A0 : 0 ≤ A) (A1 : A ≤ 1) (ha : |(a : ℝ) - A| ≤ 3 * u) : Near ((3 * E + 82000000) * u) (p.between q a) (onWay P Q A) :=
  ⟨between_real hu E0 E1 hp.1 hq.1 hP.1 hQ.1 A0 A1 ha, between_real hu E0 E1 hp.2.1 hq.2.1 hP.2.1 hQ.2.1 A0 A1 ha,
    between_real hu E0 E1 hp.2.2 hq.2.2 hP.2.2 hQ.2.2 A0 A1 ha⟩

theorem place_near {u : ℝ} (hu : Precise u) {L : MathLib} (hL : RightTo u L) {p : GeoPoint} (hp : PlaceOnEarth p) {v : V3} (h : PlacedAt p v) :
    Near (200000000 * u) (fromPoint L p) v ∧ Inside v :=
  ⟨C203_near hu hL hp.1 hp.2.1 hp.2.2 h, coordinate_le (by exact_mod_cast hp.2.2) h⟩

/-- Distances in kilometres from the computed points. -/
theorem length_real {u : ℝ} (hu : Precise u) {L : MathLib} (hL : RightTo u L) {a b : D3} {A B : V3} {e f : ℝ} (ha : Near (e * u) a A) (hb : Near (f * u) b B) (hA : Inside A) (hB : Inside B)
    (he : 0 ≤ e) (hf : 0 ≤ f) (hE : e + f ≤ 3000000000) :
    0 ≤ rnd ((a.sub b).mag L.sq / 1000) ∧ |((rnd ((a.sub b).mag L.sq / 1000) : ℚ) : ℝ) - kilometres A B| ≤ ((e + f) / 500 + 300000) * u ∧ kilometres A B ≤ 26000 := by
  obtain ⟨u0, u1, τ0, τ2, τ1, τu⟩ := tiny hu
  have Eu : (e + f) * u ≤ 3 / 1000 := by
    calc (e + f) * u ≤ 3000000000 * (1 / 1000000000000) := mul_le_mul hE u1 u0.le (by norm_num)
      _ = 3 / 1000 := by norm_num
  have key : ∀ {p q : ℚ} {P Q : ℝ}, |(p : ℝ) - P| ≤ e * u → |(q : ℝ) - Q| ≤ f * u → |P| ≤ 7410000 → |Q| ≤ 7410000 →
      |((rnd (p - q) : ℚ) : ℝ) - (P - Q)| ≤ (e + f + 14820002) * u := by
    intro p q P Q hp hq hP hQ
    have r := rnd_real hu (p - q)
    push_cast at r
    have : |(p : ℝ) - q| ≤ 14820001 := by
      rw [abs_le] at *
      constructor <;> linarith
    have := mul_le_mul_of_nonneg_left this u0.le
    rw [abs_le] at *
    constructor <;> linarith
  have hx := key ha.1 hb.1 hA.1 hB.1
  have hy := key ha.2.1 hb.2.1 hA.2.1 hB.2.1
  have hz := key ha.2.2 hb.2.2 hA.2.2 hB.2.2
  have t := triangle hx hy hz
  obtain ⟨m0, m⟩ := mag_real hu hL (a.sub b)
  have r := rnd_real hu ((a.sub b).mag L.sq / 1000)
  have m1 : (0 : ℝ) ≤ ((a.sub b).mag L.sq : ℝ) / 1000 := div_nonneg (by exact_mod_cast m0) (by norm_num)
  rw [Rat.cast_div, Rat.cast_ofNat, abs_of_nonneg m1] at r
  have k : ∀ {p q : ℝ}, |p| ≤ 7410000 → |q| ≤ 7410000 → (p - q) ^ 2 ≤ 14820000 ^ 2 := fun {p q} hp hq => by
    rw [← sq_abs]
    refine pow_le_pow_left₀ (abs_nonneg _) ?_ 2
    rw [abs_le] at *
    constructor <;> linarith
  have hs : √(distSq A B) ≤ 26000000 := by
    rw [Real.sqrt_le_left (by norm_num)]
    unfold distSq
    have := k hA.1 hB.1
    have := k hA.2.1 hB.2.1
    have := k hA.2.2 hB.2.2
    linarith
  refine ⟨rnd_nonneg (by positivity), ?_, by unfold kilometres; linarith⟩
  unfold kilometres
  change |√(((a.sub b).x : ℝ) ^ 2 + ((a.sub b).y : ℝ) ^ 2 + ((a.sub b).z : ℝ) ^ 2) - √(distSq A B)| ≤ _ at t
  generalize √(distSq A B) = T at *
  generalize √(((a.sub b).x : ℝ) ^ 2 + ((a.sub b).y : ℝ) ^ 2 + ((a.sub b).z : ℝ) ^ 2) = S at *
  generalize ((rnd ((a.sub b).mag L.sq / 1000) : ℚ) : ℝ) = R at *
  generalize ((a.sub b).mag L.sq : ℝ) = M at *
  generalize (2 : ℝ) ^ (-1075 : ℤ) = τ at *
  clear hx hy hz key τ1 τ2 ha hb hA hB k
  have e0 : 0 ≤ e * u := by positivity
  have f0 : 0 ≤ f * u := by positivity
  rw [abs_le] at t m r ⊢
  have hS : S ≤ 26001000 := by linarith
  have := mul_le_mul_of_nonneg_left hS u0.le
  have hM : M ≤ 26002000 := by linarith
  have := mul_le_mul_of_nonneg_left hM u0.le
  constructor <;> linarith

/-! ### The mesh -/

theorem swept_way (c : Quad V3) (s t : ℝ) : sweptPoint c s t = onWay (onWay c.p0 c.p1 s) (onWay c.p3 c.p2 s) t := by
  ext <;> simp only [sweptPoint, mean4, onWay] <;> ring

theorem top_near {u : ℝ} (hu : Precise u) {L : MathLib} (hL : RightTo u L) {q : Quad GeoPoint} {c : Quad V3} (hq : QuadOnEarth q) (hc : CornersAt q c) {n i : ℕ} (hn : 2 ≤ n)
    (hN : n ≤ 100000000) (hi : i < n) :
    (Near (682000000 * u) (topNode L q n i) (onWay c.p0 c.p1 (linspace01 n i)) ∧ Inside (onWay c.p0 c.p1 (linspace01 n i))) ∧
    Near (682000000 * u) (bottomNode L q n i) (onWay c.p3 c.p2 (linspace01 n i)) ∧ Inside (onWay c.p3 c.p2 (linspace01 n i)) := by
  obtain ⟨l0, l1⟩ := linspace01_mem hn hi
  obtain ⟨n0, i0⟩ := place_near hu hL hq.1 hc.1
  obtain ⟨n1, i1⟩ := place_near hu hL hq.2.1 hc.2.1
  obtain ⟨n2, i2⟩ := place_near hu hL hq.2.2.1 hc.2.2.1
  obtain ⟨n3, i3⟩ := place_near hu hL hq.2.2.2 hc.2.2.2
  have e : (3 * 200000000 + 82000000 : ℝ) = 682000000 := by norm_num
  have w1 := between_near hu (by norm_num) (by norm_num) n0 n1 i0 i1 l0 l1 (unit_near hu hn hN hi)
  have w2 := between_near hu (by norm_num) (by norm_num) n3 n2 i3 i2 l0 l1 (unit_near hu hn hN hi)
  rw [e] at w1 w2
  exact ⟨⟨w1, way_inside i0 i1 l0 l1⟩, w2, way_inside i3 i2 l0 l1⟩

theorem grid_near {u : ℝ} (hu : Precise u) {L : MathLib} (hL : RightTo u L) {q : Quad GeoPoint} {c : Quad V3} (hq : QuadOnEarth q) (hc : CornersAt q c) {n m i j : ℕ} (hn : 2 ≤ n)
    (hN : n ≤ 100000000) (hi : i < n) (hm : 2 ≤ m) (hM : m ≤ 100000000) (hj : j < m) :
    Near (2128000000 * u) (gridNode L q n m j i) (sweptPoint c (linspace01 n i) (linspace01 m j)) ∧ Inside (sweptPoint c (linspace01 n i) (linspace01 m j)) := by
  obtain ⟨l0, l1⟩ := linspace01_mem hm hj
  obtain ⟨⟨n0, i0⟩, n1, i1⟩ := top_near hu hL hq hc hn hN hi
  have e : (3 * 682000000 + 82000000 : ℝ) = 2128000000 := by norm_num
  have w := between_near hu (by norm_num) (by norm_num) n0 n1 i0 i1 l0 l1 (unit_near hu hm hM hj)
  rw [e] at w
  rw [swept_way]
  exact ⟨w, way_inside i0 i1 l0 l1⟩

theorem node_real {u : ℝ} (hu : Precise u) {L : MathLib} (hL : RightTo u L) {q : Quad GeoPoint} {c : Quad V3} (hq : QuadOnEarth q) (hc : CornersAt q c) {n m i j : ℕ} (hn : 2 ≤ n)
    (hN : n ≤ 100000000) (hi : i < n) (hm : 2 ≤ m) (hM : m ≤ 100000000) (hj : j < m) {site : GeoPoint} {x : V3} (hs : PlaceOnEarth site) (hx : PlacedAt site x) :
    |((rnd (nodeDistance (latlon2ecef L site.lat site.lon site.depth) (gridNode L q n m j i) / 1000) : ℚ) : ℝ) - kilometres x (sweptPoint c (linspace01 n i) (linspace01 m j))|
      ≤ 5000000 * u := by
  obtain ⟨g, gi⟩ := grid_near hu hL hq hc hn hN hi hm hM hj
  obtain ⟨s, si⟩ := place_near hu hL hs hx
  have := (length_real hu (product_right hu hL) s g si gi (by norm_num) (by norm_num) (by norm_num)).2.1
  refine le_trans this ?_
  have := (tiny hu).1
  linarith

/-! ### The numbers of nodes -/

theorem count_two (l dx : ℚ) : 2 ≤ nodeCount l dx := by
  unfold nodeCount
  have : (2 : ℤ) ≤ max (Py.round (rnd (l / dx)) + 1) 2 := le_max_right _ _
  omega

theorem count_bounds {u : ℝ} (hu : Precise u) {l dx : ℚ} (hl : 0 ≤ l) (hl' : l ≤ 26002) (h1 : 1 / 1000 ≤ dx) (h2 : dx ≤ 1000) :
    nodeCount l dx ≤ 100000000 ∧ (l : ℝ) / ((nodeCount l dx : ℝ) - 1) ≤ 3 / 2 * dx + 30000 * u := by
  obtain ⟨u0, u1, τ0, τ2, τ1, τu⟩ := tiny hu
  have d0 : 0 < dx := by linarith
  have hq0 : 0 ≤ l / dx := div_nonneg hl d0.le
  have hq1 : l / dx ≤ 26002000 := by
    rw [div_le_iff₀ d0]
    linarith
  have hr1 : rnd (l / dx) ≤ 26002000 := rnd_at_most (int_double (n := 26002000) (by norm_num)) hq1
  have hr0 : 0 ≤ rnd (l / dx) := rnd_nonneg hq0
  have hc : ((nodeCount l dx : ℕ) : ℤ) = max (Py.round (rnd (l / dx)) + 1) 2 := by
    unfold nodeCount
    rw [Int.toNat_of_nonneg (le_trans (by norm_num) (le_max_right _ _))]
  have hround := abs_le.1 (Py.round_abs_sub_le (rnd (l / dx)))
  refine ⟨?_, ?_⟩
  · have : Py.round (rnd (l / dx)) ≤ 26002000 := by
      have := Py.round_mono hr1
      rwa [show (26002000 : ℚ) = ((26002000 : ℤ) : ℚ) by norm_num, Py.round_intCast] at this
    have : ((nodeCount l dx : ℕ) : ℤ) ≤ 100000000 := by
      rw [hc]
      exact max_le (by linarith) (by norm_num)
    exact_mod_cast this
  · have hn : (nodeCount l dx : ℝ) = max ((Py.round (rnd (l / dx)) : ℝ) + 1) 2 := by
      have : ((nodeCount l dx : ℤ) : ℝ) = ((max (Py.round (rnd (l / dx)) + 1) 2 : ℤ) : ℝ) := by rw [hc]
      push_cast at this
      exact this
    have r := rnd_real hu (l / dx)
    have hq0' : (0 : ℝ) ≤ (l : ℝ) / dx := by exact_mod_cast hq0
    push_cast at r
    rw [abs_of_nonneg hq0'] at r
    have hround' : (rnd (l / dx) : ℝ) - Py.round (rnd (l / dx)) ≤ 1 / 2 := by
      have := (Rat.cast_le (K := ℝ)).2 hround.2
      push_cast at this
      exact this
    have m1 := le_max_left ((Py.round (rnd (l / dx)) : ℝ) + 1) 2
    have m2 := le_max_right ((Py.round (rnd (l / dx)) : ℝ) + 1) 2
    rw [hn]
    generalize max ((Py.round (rnd (l / dx)) : ℝ) + 1) 2 = N at *
    have hp : 0 < N - 1 := by linarith
    rw [div_le_iff₀ hp]
    have hd0 : (0 : ℝ) < dx := by exact_mod_cast d0
    have hd1 : (dx : ℝ) ≤ 1000 := by exact_mod_cast h2
    have hl2 : (l : ℝ) ≤ 26002 := by exact_mod_cast hl'
    have hl0 : (0 : ℝ) ≤ l := by exact_mod_cast hl
    have key : (l : ℝ) / dx ≤ 3 / 2 * (N - 1) + u * (l / dx) + 2 ^ (-1075 : ℤ) := by
      have := (abs_le.1 r).1
      linarith
    have := mul_le_mul_of_nonneg_right key hd0.le
    have e1 : (l : ℝ) / dx * dx = l := div_mul_cancel₀ _ hd0.ne'
    have e2 : (3 / 2 * (N - 1) + u * (l / dx) + 2 ^ (-1075 : ℤ)) * dx = 3 / 2 * dx * (N - 1) + u * (l / dx * dx) + 2 ^ (-1075 : ℤ) * dx := by ring
    rw [e2, e1] at this
    have t1 : u * (l : ℝ) ≤ u * 26002 := mul_le_mul_of_nonneg_left hl2 u0.le
    have t2 : (2 : ℝ) ^ (-1075 : ℤ) * dx ≤ u / 1000 * 1000 := mul_le_mul τu hd1 hd0.le (by positivity)
    have t3 : 30000 * u * 1 ≤ 30000 * u * (N - 1) := mul_le_mul_of_nonneg_left (by linarith) (by positivity)
    rw [add_mul]
    linarith

theorem top_edge {q : Quad GeoPoint} {c : Quad V3} (hc : CornersAt q c) : TopEdge q (kilometres c.p0 c.p1) := by
  refine ⟨_, _, _, _, _, _, hc.1, hc.2.1, ?_⟩
  unfold kilometres distSq
  rw [mul_div_cancel₀ _ (by norm_num)]
  congr 1
  ring

theorem along_bounds {u : ℝ} (hu : Precise u) {L : MathLib} (hL : RightTo u L) {q : Quad GeoPoint} {c : Quad V3} (hq : QuadOnEarth q) (hc : CornersAt q c) {dx : ℚ} (h1 : 1 / 1000 ≤ dx)
    (h2 : dx ≤ 1000) : alongCount L dx q ≤ 100000000 ∧ kilometres c.p0 c.p1 / ((alongCount L dx q : ℝ) - 1) ≤ 3 / 2 * dx + 1100000 * u := by
  obtain ⟨u0, u1, -⟩ := tiny hu
  obtain ⟨l0, l⟩ := edge_near hu hL hq.1 hq.2.1 (top_edge hc)
  have b := (edge_bounds hq.1 hq.2.1 (top_edge hc)).2
  have l2 : (quadLength L q : ℝ) ≤ 26002 := by
    rw [abs_le] at l
    linarith
  obtain ⟨k1, k2⟩ := count_bounds hu l0 (by exact_mod_cast l2) h1 h2
  refine ⟨k1, ?_⟩
  have n2 : (2 : ℝ) ≤ nodeCount (quadLength L q) dx := by exact_mod_cast count_two _ _
  unfold alongCount
  have hp : (0 : ℝ) < (nodeCount (quadLength L q) dx : ℝ) - 1 := by linarith
  have : kilometres c.p0 c.p1 / ((nodeCount (quadLength L q) dx : ℝ) - 1) ≤ (quadLength L q : ℝ) / ((nodeCount (quadLength L q) dx : ℝ) - 1) + 1000000 * u := by
    rw [div_add' _ _ _ hp.ne']
    refine div_le_div_of_nonneg_right ?_ hp.le
    have : 1000000 * u * 1 ≤ 1000000 * u * ((nodeCount (quadLength L q) dx : ℝ) - 1) := mul_le_mul_of_nonneg_left (by linarith) (by positivity)
    rw [abs_le] at l
    linarith
  linarith

theorem down_lengths {u : ℝ} (hu : Precise u) {L : MathLib} (hL : RightTo u L) {q : Quad GeoPoint} {c : Quad V3} (hq : QuadOnEarth q) (hc : CornersAt q c) {n : ℕ} (hn : 2 ≤ n)
    (hN : n ≤ 100000000) : ∀ x ∈ downLengths L q n, 0 ≤ x ∧ (x : ℝ) ≤ 26001 ∧
      ∃ i < n, |(x : ℝ) - kilometres (onWay c.p0 c.p1 (linspace01 n i)) (onWay c.p3 c.p2 (linspace01 n i))| ≤ 3100000 * u := by
  obtain ⟨u0, u1, -⟩ := tiny hu
  intro x hx
  obtain ⟨i, hi, rfl⟩ := List.mem_map.1 hx
  rw [List.mem_range] at hi
  obtain ⟨⟨n0, i0⟩, n1, i1⟩ := top_near hu hL hq hc hn hN hi
  obtain ⟨h0, h, h'⟩ := length_real hu hL n0 n1 i0 i1 (by norm_num) (by norm_num) (by norm_num)
  have h3 : ((682000000 + 682000000 : ℝ) / 500 + 300000) * u ≤ 3100000 * u := by linarith
  refine ⟨h0, ?_, i, hi, h.trans h3⟩
  have := (abs_le.1 (h.trans h3)).2
  linarith

theorem mean_bounds {u : ℝ} (hu : Precise u) {mean : List ℚ → ℚ} (hm : MeanTo u mean) {l : List ℚ} (hl : l ≠ []) {a b : ℝ} (h : ∀ x ∈ l, 0 ≤ x ∧ a ≤ (x : ℝ) ∧ (x : ℝ) ≤ b) :
    a - 100 * u * b - u ≤ mean l ∧ (mean l : ℝ) ≤ b + 100 * u * b + u := by
  obtain ⟨u0, u1, -⟩ := tiny hu
  have hp : (0 : ℝ) < l.length := by exact_mod_cast List.length_pos_iff.2 hl
  have sums : ∀ l : List ℚ, (∀ x ∈ l, a ≤ (x : ℝ) ∧ (x : ℝ) ≤ b) → l.length * a ≤ (l.map fun x : ℚ => (x : ℝ)).sum ∧ (l.map fun x : ℚ => (x : ℝ)).sum ≤ l.length * b := by
    intro l
    induction l with
    | nil => simp
    | cons x l ih =>
      intro h
      obtain ⟨i1, i2⟩ := ih fun y hy => h y (List.mem_cons_of_mem _ hy)
      obtain ⟨x1, x2⟩ := h x (by simp)
      simp only [List.length_cons, List.map_cons, List.sum_cons]
      push_cast
      constructor <;> linarith
  obtain ⟨s1, s2⟩ := sums l fun x hx => (h x hx).2
  have a1 : a ≤ (l.map fun x : ℚ => (x : ℝ)).sum / l.length := by rw [le_div_iff₀ hp]; linarith
  have a2 : (l.map fun x : ℚ => (x : ℝ)).sum / l.length ≤ b := by rw [div_le_iff₀ hp]; linarith
  have e := abs_le.1 (hm l hl fun x hx => (h x hx).1).2
  have := mul_le_mul_of_nonneg_left a2 (by positivity : 0 ≤ 100 * u)
  constructor <;> linarith

theorem down_mean {u : ℝ} (hu : Precise u) {L : MathLib} (hL : RightTo u L) {mean : List ℚ → ℚ} (hm : MeanTo u mean) {q : Quad GeoPoint} {c : Quad V3} (hq : QuadOnEarth q)
    (hc : CornersAt q c) {n : ℕ} (hn : 2 ≤ n) (hN : n ≤ 100000000) : 0 ≤ mean (downLengths L q n) ∧ mean (downLengths L q n) ≤ 26002 := by
  obtain ⟨u0, u1, -⟩ := tiny hu
  have hne : downLengths L q n ≠ [] := by
    unfold downLengths
    simp only [ne_eq, List.map_eq_nil_iff, List.range_eq_nil]
    omega
  have d := down_lengths hu hL hq hc hn hN
  refine ⟨(hm _ hne fun x hx => (d x hx).1).1, ?_⟩
  have := (mean_bounds hu hm hne (a := 0) (b := 26001) fun x hx => ⟨(d x hx).1, by exact_mod_cast (d x hx).1, (d x hx).2.1⟩).2
  have h2 : (mean (downLengths L q n) : ℝ) ≤ 26002 := by linarith
  exact_mod_cast h2

/-- Every point of a quadrilateral is near one of the mesh. -/
theorem swept_near (c : Quad V3) {n m : ℕ} (hn : 2 ≤ n) (hm : 2 ≤ m) {s t : ℝ} (hs0 : 0 ≤ s) (hs1 : s ≤ 1) (ht0 : 0 ≤ t) (ht1 : t ≤ 1) :
    ∃ i < n, ∃ j < m, kilometres (sweptPoint c s t) (sweptPoint c (linspace01 n i) (linspace01 m j)) ≤ longSide c / (2 * ((n : ℝ) - 1)) + deepSide c / (2 * ((m : ℝ) - 1)) := by
  obtain ⟨i, hi, hi'⟩ := nearest_step hs0 hs1 hn
  obtain ⟨j, hj, hj'⟩ := nearest_step ht0 ht1 hm
  obtain ⟨a0, a1⟩ := linspace01_mem hn hi
  refine ⟨i, hi, j, hj, ?_⟩
  set s' := linspace01 n i
  set t' := linspace01 m j
  have hx : (0 : ℝ) < (n : ℝ) - 1 := by
    have : (2 : ℝ) ≤ n := by exact_mod_cast hn
    linarith
  have hy : (0 : ℝ) < (m : ℝ) - 1 := by
    have : (2 : ℝ) ≤ m := by exact_mod_cast hm
    linarith
  have km : ∀ a b : V3, kilometres a b = (b.sub a).mag / 1000 := by
    intro a b
    unfold kilometres
    rw [← distance_mag, distance_distSq]
    unfold distSq
    congr 2
    ring
  have km' : ∀ a b : V3, kilometres a b = a.distance b / 1000 := by
    intro a b
    unfold kilometres
    rw [distance_distSq]
  have hL : max ((c.p1.sub c.p0).mag) ((c.p2.sub c.p3).mag) = 1000 * longSide c := by
    unfold longSide
    rw [km, km, max_div_div_right (by norm_num)]
    ring
  have hD : max ((c.p3.sub c.p0).mag) ((c.p2.sub c.p1).mag) = 1000 * deepSide c := by
    unfold deepSide
    rw [km, km, max_div_div_right (by norm_num)]
    ring
  have one : (sweptPoint c s t).distance (sweptPoint c s' t) ≤ 1000 * (longSide c / (2 * ((n : ℝ) - 1))) := by
    have e : (sweptPoint c s t).sub (sweptPoint c s' t) = ((((c.p1.sub c.p0).mul (1 - t)).add ((c.p2.sub c.p3).mul t))).mul (s - s') := by
      ext <;> simp only [sweptPoint, mean4, V3.add, V3.sub, V3.mul] <;> ring
    rw [distance_mag, e, mag_mul]
    have hb := mag_between (c.p1.sub c.p0) (c.p2.sub c.p3) ht0 ht1
    rw [hL] at hb
    calc _ ≤ 1 / (2 * ((n : ℝ) - 1)) * (1000 * longSide c) := mul_le_mul hi' hb (mag_nonneg _) (by positivity)
      _ = _ := by ring
  have two : (sweptPoint c s' t).distance (sweptPoint c s' t') ≤ 1000 * (deepSide c / (2 * ((m : ℝ) - 1))) := by
    have e : (sweptPoint c s' t).sub (sweptPoint c s' t') = ((((c.p3.sub c.p0).mul (1 - s')).add ((c.p2.sub c.p1).mul s'))).mul (t - t') := by
      ext <;> simp only [sweptPoint, mean4, V3.add, V3.sub, V3.mul] <;> ring
    rw [distance_mag, e, mag_mul]
    have hb := mag_between (c.p3.sub c.p0) (c.p2.sub c.p1) a0 a1
    rw [hD] at hb
    calc _ ≤ 1 / (2 * ((m : ℝ) - 1)) * (1000 * deepSide c) := mul_le_mul hj' hb (mag_nonneg _) (by positivity)
      _ = _ := by ring
  have tri := distance_tri (sweptPoint c s t) (sweptPoint c s' t) (sweptPoint c s' t')
  rw [km', div_le_iff₀ (by norm_num)]
  linarith

theorem smallest_spec (l : List ℚ) : (smallest l = none ↔ l = []) ∧ ∀ m, smallest l = some m → m ∈ l ∧ ∀ a ∈ l, m ≤ a := by
  cases l with
  | nil => simp [smallest]
  | cons a l =>
    refine ⟨by simp [smallest], ?_⟩
    intro m hm
    simp only [smallest, Option.some.injEq] at hm
    subst hm
    have key : ∀ (l : List ℚ) (a : ℚ), l.foldl min a ∈ a :: l ∧ ∀ b ∈ a :: l, l.foldl min a ≤ b := by
      intro l
      induction l with
      | nil => intro a; simp
      | cons c l ih =>
        intro a
        rw [List.foldl_cons]
        obtain ⟨h1, h2⟩ := ih (min a c)
        constructor
        · rcases List.mem_cons.mp h1 with h | h
          · rw [h]
            rcases min_choice a c with h' | h' <;> rw [h'] <;> simp
          · simp [h]
        · intro b hb
          have hm := h2 (min a c) (by simp)
          rcases List.mem_cons.mp hb with h | h
          · rw [h]; exact le_trans hm (min_le_left _ _)
          · rcases List.mem_cons.mp h with h' | h'
            · rw [h']; exact le_trans hm (min_le_right _ _)
            · exact h2 b (by simp [h'])
    exact key l a

theorem grid_mem {L : MathLib} {mean : List ℚ → ℚ} {dx : ℚ} {q : Quad GeoPoint} {y : D3} :
    y ∈ gridNodes L mean dx q ↔ ∃ j < downCount L mean dx q, ∃ i < alongCount L dx q, gridNode L q (alongCount L dx q) (downCount L mean dx q) j i = y := by
  simp [gridNodes]

/-- What a distance that is returned is. -/
theorem rrup_spec {L : MathLib} {mean : List ℚ → ℚ} {dx : ℚ} {qs : List (Quad GeoPoint)} {site : GeoPoint} {D : ℚ} (h : edgeRrup L mean dx qs site = some D) :
    (∃ q ∈ qs, ∃ j < downCount L mean dx q, ∃ i < alongCount L dx q,
      D = rnd (nodeDistance (latlon2ecef L site.lat site.lon site.depth) (gridNode L q (alongCount L dx q) (downCount L mean dx q) j i) / 1000)) ∧
    ∀ q ∈ qs, ∀ j < downCount L mean dx q, ∀ i < alongCount L dx q,
      D ≤ rnd (nodeDistance (latlon2ecef L site.lat site.lon site.depth) (gridNode L q (alongCount L dx q) (downCount L mean dx q) j i) / 1000) := by
  unfold edgeRrup at h
  obtain ⟨d, hd, rfl⟩ := Option.map_eq_some_iff.1 h
  obtain ⟨h1, h2⟩ := (smallest_spec _).2 d hd
  refine ⟨?_, ?_⟩
  · obtain ⟨y, hy, rfl⟩ := List.mem_map.1 h1
    obtain ⟨q, hq, hy⟩ := List.mem_flatMap.1 hy
    obtain ⟨j, hj, i, hi, rfl⟩ := grid_mem.1 hy
    exact ⟨q, hq, j, hj, i, hi, rfl⟩
  · intro q hq j hj i hi
    refine rnd_mono (div_le_div_of_nonneg_right (h2 _ ?_) (by norm_num))
    exact List.mem_map.2 ⟨_, List.mem_flatMap.2 ⟨q, hq, grid_mem.2 ⟨j, hj, i, hi, rfl⟩⟩, rfl⟩

end Edge

open Edge in
/-- **C207.** For a rupture and a site of the earth and a spacing of the mesh from a metre to a thousand kilometres, the distance that is returned is that to a point of one of
the quadrilaterals, up to 5000000 units of error, which is about a thousandth of a millimetre, and exceeds the distance to any point by at most half a step of the mesh in each
direction: along the longer of the two sides divided by the number of steps. -/
theorem C207_near {u : ℝ} (hu : Precise u) {L : MathLib} (hL : RightTo u L) {mean : List ℚ → ℚ} (hm : MeanTo u mean) {dx : ℚ} (h1 : 1 / 1000 ≤ dx) (h2 : dx ≤ 1000)
    {qs : List (Quad GeoPoint)} {cs : List (Quad V3)} (hqs : ∀ q ∈ qs, QuadOnEarth q) (hcs : List.Forall₂ CornersAt qs cs) {site : GeoPoint} {x : V3} (hs : PlaceOnEarth site)
    (hx : PlacedAt site x) {D : ℚ} (hD : edgeRrup L mean dx qs site = some D) :
    (∃ c ∈ cs, ∃ s t, 0 ≤ s ∧ s ≤ 1 ∧ 0 ≤ t ∧ t ≤ 1 ∧ |(D : ℝ) - kilometres x (sweptPoint c s t)| ≤ 5000000 * u) ∧
    ∀ q c, (q, c) ∈ qs.zip cs → ∀ s t, 0 ≤ s → s ≤ 1 → 0 ≤ t → t ≤ 1 →
      (D : ℝ) ≤ kilometres x (sweptPoint c s t) + longSide c / (2 * ((alongCount L dx q : ℝ) - 1)) + deepSide c / (2 * ((downCount L mean dx q : ℝ) - 1)) + 5000000 * u := by
  obtain ⟨⟨q, hq, j, hj, i, hi, e⟩, all⟩ := rrup_spec hD
  have counts : ∀ q c, QuadOnEarth q → CornersAt q c → alongCount L dx q ≤ 100000000 ∧ downCount L mean dx q ≤ 100000000 := by
    intro q c hq hc
    have a := (along_bounds hu hL hq hc h1 h2).1
    obtain ⟨m0, m1⟩ := down_mean hu hL hm hq hc (count_two _ _) a
    exact ⟨a, (count_bounds hu m0 m1 h1 h2).1⟩
  constructor
  · obtain ⟨c, hc, hqc⟩ : ∃ c ∈ cs, CornersAt q c := by
      clear hD all e hqs
      induction hcs with
      | nil => simp at hq
      | cons h _ ih =>
        rcases List.mem_cons.1 hq with rfl | hq
        · exact ⟨_, by simp, h⟩
        · obtain ⟨c, hc, h⟩ := ih hq
          exact ⟨c, List.mem_cons_of_mem _ hc, h⟩
    obtain ⟨ca, cd⟩ := counts q c (hqs q hq) hqc
    obtain ⟨l0, l1⟩ := linspace01_mem (count_two _ _) hi
    obtain ⟨k0, k1⟩ := linspace01_mem (count_two _ _) hj
    refine ⟨c, hc, _, _, l0, l1, k0, k1, ?_⟩
    rw [e]
    exact node_real hu hL (hqs q hq) hqc (count_two _ _) ca hi (count_two _ _) cd hj hs hx
  · intro q c hz s t s0 s1 t0 t1
    have hq := (List.of_mem_zip hz).1
    have hqc : CornersAt q c := (List.forall₂_iff_zip.1 hcs).2 hz
    obtain ⟨ca, cd⟩ := counts q c (hqs q hq) hqc
    obtain ⟨i, hi, j, hj, near⟩ := swept_near c (n := alongCount L dx q) (m := downCount L mean dx q) (count_two _ _) (count_two _ _) s0 s1 t0 t1
    have up := all q hq j hj i hi
    have r := (abs_le.1 (node_real hu hL (hqs q hq) hqc (n := alongCount L dx q) (m := downCount L mean dx q) (count_two _ _) ca hi (count_two _ _) cd hj hs hx)).2
    have up' := (Rat.cast_le (K := ℝ)).2 up
    have tri : kilometres x (sweptPoint c (linspace01 (alongCount L dx q) i) (linspace01 (downCount L mean dx q) j)) ≤
        kilometres x (sweptPoint c s t) + kilometres (sweptPoint c s t) (sweptPoint c (linspace01 (alongCount L dx q) i) (linspace01 (downCount L mean dx q) j)) := by
      unfold kilometres
      rw [← distance_distSq, ← distance_distSq, ← distance_distSq, ← add_div]
      exact div_le_div_of_nonneg_right (distance_tri _ _ _) (by norm_num)
    linarith

open Edge in
/-- **C207.** For quadrilaterals that are parallelograms the distance that is returned exceeds that to any point by at most one and a half times the spacing of the mesh. -/
theorem C207_spacing {u : ℝ} (hu : Precise u) {L : MathLib} (hL : RightTo u L) {mean : List ℚ → ℚ} (hm : MeanTo u mean) {dx : ℚ} (h1 : 1 / 1000 ≤ dx) (h2 : dx ≤ 1000)
    {qs : List (Quad GeoPoint)} {cs : List (Quad V3)} (hqs : ∀ q ∈ qs, QuadOnEarth q) (hcs : List.Forall₂ CornersAt qs cs) {site : GeoPoint} {x : V3} (hs : PlaceOnEarth site)
    (hx : PlacedAt site x) {D : ℚ} (hD : edgeRrup L mean dx qs site = some D) :
    ∀ c ∈ cs, c.p2.sub c.p3 = c.p1.sub c.p0 → ∀ y ∈ surfaceOf c.p0 c.p1 c.p2 c.p3, (D : ℝ) ≤ kilometres x y + 3 / 2 * dx + 10000000 * u := by
  intro c hc hpar y hy
  obtain ⟨u0, u1, -⟩ := Geo.tiny hu
  obtain ⟨q, hz⟩ : ∃ q, (q, c) ∈ qs.zip cs := by
    clear hD hqs
    induction hcs with
    | nil => simp at hc
    | cons h _ ih =>
      rcases List.mem_cons.1 hc with rfl | hc
      · exact ⟨_, by rw [List.zip_cons_cons]; exact List.mem_cons_self⟩
      · obtain ⟨q, h⟩ := ih hc
        exact ⟨q, by rw [List.zip_cons_cons]; exact List.mem_cons_of_mem _ h⟩
  have hq := hqs q (List.of_mem_zip hz).1
  have hqc : CornersAt q c := (List.forall₂_iff_zip.1 hcs).2 hz
  obtain ⟨s, t, s0, s1, t0, t1, rfl⟩ := parallelogram_ruled hpar hy
  have main := (C207_near hu hL hm h1 h2 hqs hcs hs hx hD).2 q c hz s t s0 s1 t0 t1
  change (D : ℝ) ≤ kilometres x (ruledPoint c s t) + _ + _ + _ at main
  have ex := congrArg V3.x hpar
  have ey := congrArg V3.y hpar
  have ez := congrArg V3.z hpar
  simp only [V3.sub] at ex ey ez
  have kl : longSide c = kilometres c.p0 c.p1 := by
    unfold longSide
    rw [max_eq_left (le_of_eq _)]
    unfold kilometres distSq
    rw [show c.p3.x - c.p2.x = c.p0.x - c.p1.x by linarith, show c.p3.y - c.p2.y = c.p0.y - c.p1.y by linarith, show c.p3.z - c.p2.z = c.p0.z - c.p1.z by linarith]
  have way : ∀ s, kilometres (onWay c.p0 c.p1 s) (onWay c.p3 c.p2 s) = kilometres c.p0 c.p3 := by
    intro s
    unfold kilometres distSq onWay
    simp only
    rw [ex, ey, ez]
    congr 3
    all_goals ring
  have kd : deepSide c = kilometres c.p0 c.p3 := by
    unfold deepSide
    rw [max_eq_left (le_of_eq _)]
    unfold kilometres distSq
    rw [show c.p1.x - c.p2.x = c.p0.x - c.p3.x by linarith, show c.p1.y - c.p2.y = c.p0.y - c.p3.y by linarith, show c.p1.z - c.p2.z = c.p0.z - c.p3.z by linarith]
  obtain ⟨na, la⟩ := along_bounds hu hL hq hqc h1 h2
  have d := down_lengths hu hL hq hqc (n := alongCount L dx q) (count_two _ _) na
  obtain ⟨m0, m1⟩ := down_mean hu hL hm hq hqc (n := alongCount L dx q) (count_two _ _) na
  have hne : downLengths L q (alongCount L dx q) ≠ [] := by
    have : 2 ≤ alongCount L dx q := count_two _ _
    unfold downLengths
    simp only [ne_eq, List.map_eq_nil_iff, List.range_eq_nil]
    omega
  have mb := (Edge.mean_bounds hu hm hne (a := kilometres c.p0 c.p3 - 3100000 * u) (b := 26001) fun x hx => by
    obtain ⟨a0, a1, i, -, a2⟩ := d x hx
    rw [way] at a2
    exact ⟨a0, by linarith [(abs_le.1 a2).1], a1⟩).1
  have ld := (count_bounds hu m0 m1 h1 h2).2
  have n2 : (2 : ℝ) ≤ alongCount L dx q := by exact_mod_cast count_two (quadLength L q) dx
  have k2 : (2 : ℝ) ≤ downCount L mean dx q := by exact_mod_cast count_two (mean (downLengths L q (alongCount L dx q))) dx
  change (mean (downLengths L q (alongCount L dx q)) : ℝ) / ((downCount L mean dx q : ℝ) - 1) ≤ _ at ld
  rw [kl, kd] at main
  have e1 : ∀ a b : ℝ, a / (2 * b) = a / b / 2 := fun a b => by rw [mul_comm, div_div]
  rw [e1, e1] at main
  have hp : (0 : ℝ) < (downCount L mean dx q : ℝ) - 1 := by linarith
  have ld' : kilometres c.p0 c.p3 / ((downCount L mean dx q : ℝ) - 1) ≤ (mean (downLengths L q (alongCount L dx q)) : ℝ) / ((downCount L mean dx q : ℝ) - 1) + 5800000 * u := by
    rw [div_add' _ _ _ hp.ne']
    refine div_le_div_of_nonneg_right ?_ hp.le
    have : 5800000 * u * 1 ≤ 5800000 * u * ((downCount L mean dx q : ℝ) - 1) := mul_le_mul_of_nonneg_left (by linarith) (by positivity)
    linarith
  linarith

open Edge Geo in
/-- **C207.** There is a distance exactly when there is a quadrilateral, it is not negative, more quadrilaterals make it no larger, it is zero at the first corner of each quadrilateral,
and the Joyner-Boore distance is the distance to the quadrilaterals moved up to the surface. -/
theorem C207_exact (L : MathLib) (mean : List ℚ → ℚ) (dx : ℚ) (qs rs : List (Quad GeoPoint)) (site : GeoPoint) :
    ((edgeRrup L mean dx qs site).isSome ↔ qs ≠ []) ∧
    (∀ D, edgeRrup L mean dx qs site = some D → 0 ≤ D ∧ (∀ D', edgeRrup L mean dx (qs ++ rs) site = some D' → D' ≤ D) ∧ ((∃ q ∈ qs, q.p0 = site) → D = 0)) ∧
    ∀ us, List.Forall₂ MovedUp qs us → edgeRjb L mean dx qs site = edgeRrup L mean dx us site := by
  have two : ∀ q, 2 ≤ alongCount L dx q ∧ 2 ≤ downCount L mean dx q := fun q => ⟨count_two _ _, count_two _ _⟩
  have pos : ∀ a b, 0 ≤ nodeDistance a b := fun a b => by
    unfold nodeDistance D3.mag
    exact sqrtRnd_nonneg' precise49 (rnd_nonneg (add_nonneg (rnd_nonneg (add_nonneg (rnd_nonneg (mul_self_nonneg _)) (rnd_nonneg (mul_self_nonneg _)))) (rnd_nonneg (mul_self_nonneg _))))
  refine ⟨?_, ?_, ?_⟩
  · unfold edgeRrup
    rw [Option.isSome_map, ← not_iff_not]
    simp only [Bool.not_eq_true, Option.isSome_eq_false_iff, Option.isNone_iff_eq_none, (smallest_spec _).1, List.map_eq_nil_iff, List.flatMap_eq_nil_iff, not_not]
    constructor
    · intro h
      by_contra hne
      obtain ⟨q, l, rfl⟩ := List.exists_cons_of_ne_nil hne
      have hq := h q (by simp)
      have : gridNode L q (alongCount L dx q) (downCount L mean dx q) 0 0 ∈ gridNodes L mean dx q :=
        grid_mem.2 ⟨0, by have := two q; omega, 0, by have := two q; omega, rfl⟩
      rw [hq] at this
      simp at this
    · rintro rfl
      simp
  · intro D hD
    obtain ⟨⟨q, hq, j, hj, i, hi, e⟩, all⟩ := rrup_spec hD
    have D0 : 0 ≤ D := by
      rw [e]
      exact rnd_nonneg (div_nonneg (pos _ _) (by norm_num))
    refine ⟨D0, ?_, ?_⟩
    · intro D' hD'
      rw [e]
      exact (rrup_spec hD').2 q (by simp [hq]) j hj i hi
    · rintro ⟨q, hq, rfl⟩
      refine le_antisymm ?_ D0
      have up := all q hq 0 (by have := two q; omega) 0 (by have := two q; omega)
      refine le_trans up (le_of_eq ?_)
      have step : ∀ n, 2 ≤ n → unitStep n 0 = 0 := by
        intro n hn
        unfold unitStep
        rw [if_neg (by omega)]
        simp [rnd_zero]
      have start : ∀ p r : D3, IsDouble p.x → IsDouble p.y → IsDouble p.z → p.between r 0 = p := by
        intro p r hx hy hz
        unfold D3.between D3.add D3.sub D3.mul
        simp only [mul_zero, rnd_zero, add_zero, rnd_double hx, rnd_double hy, rnd_double hz]
      have node : gridNode L q (alongCount L dx q) (downCount L mean dx q) 0 0 = fromPoint L q.p0 := by
        unfold gridNode topNode
        rw [step _ (two q).1, step _ (two q).2, start (fromPoint L q.p0) _ (rnd_isDouble _) (rnd_isDouble _) (rnd_isDouble _),
          start (fromPoint L q.p0) _ (rnd_isDouble _) (rnd_isDouble _) (rnd_isDouble _)]
      rw [node]
      have z : nodeDistance (latlon2ecef L q.p0.lat q.p0.lon q.p0.depth) (fromPoint L q.p0) = 0 := by
        unfold nodeDistance fromPoint D3.sub D3.mag
        simp [rnd_zero, sqrtRnd_zero]
      rw [z]
      simp [rnd_zero]
  · intro us h
    have e : qs.map flattened = us := by
      clear two pos
      induction h with
      | nil => rfl
      | @cons q r _ _ h _ ih =>
        obtain ⟨⟨x0, y0, z0⟩, ⟨x1, y1, z1⟩, ⟨x2, y2, z2⟩, ⟨x3, y3, z3⟩⟩ := r
        obtain ⟨a0, b0, c0⟩ := h q.p0 ⟨x0, y0, z0⟩ (by simp)
        obtain ⟨a1, b1, c1⟩ := h q.p1 ⟨x1, y1, z1⟩ (by simp)
        obtain ⟨a2, b2, c2⟩ := h q.p2 ⟨x2, y2, z2⟩ (by simp)
        obtain ⟨a3, b3, c3⟩ := h q.p3 ⟨x3, y3, z3⟩ (by simp)
        rw [List.map_cons, ih]
        simp only [flattened, List.cons.injEq, and_true]
        simp_all
    rw [← e]
    rfl

open Geo in
/-- A mean that is right. -/
theorem exact_mean : MeanTo (2 ^ (-49 : ℤ)) fun l => l.sum / l.length := by
  intro l hl h
  have e : (((l.sum / l.length : ℚ)) : ℝ) = (l.map fun x : ℚ => (x : ℝ)).sum / l.length := by
    push_cast
    rfl
  have s0 : 0 ≤ l.sum := List.sum_nonneg h
  have q0 : (0 : ℚ) ≤ l.sum / l.length := div_nonneg s0 (Nat.cast_nonneg _)
  refine ⟨q0, ?_⟩
  rw [e, sub_self, abs_zero, ← e]
  have : (0 : ℝ) ≤ ((l.sum / l.length : ℚ) : ℝ) := by exact_mod_cast q0
  positivity

/-- A rupture of one quadrilateral, a site and a library that meet the hypotheses. -/
example : ∃ D c x, edgeRrup Geo.someLib (fun l => l.sum / l.length) (1 / 2) [⟨⟨-122, 37, 0⟩, ⟨-121, 38, 0⟩, ⟨-121, 38, 10⟩, ⟨-122, 37, 10⟩⟩] ⟨-120, 36, 0⟩ = some D ∧ PlacedAt ⟨-120, 36, 0⟩ x ∧
    ∃ s t, 0 ≤ s ∧ s ≤ 1 ∧ 0 ≤ t ∧ t ≤ 1 ∧ |(D : ℝ) - kilometres x (sweptPoint c s t)| ≤ 5000000 * 2 ^ (-49 : ℤ) := by
  obtain ⟨D, hD⟩ := Option.isSome_iff_exists.1 ((C207_exact Geo.someLib (fun l => l.sum / l.length) (1 / 2) [⟨⟨-122, 37, 0⟩, ⟨-121, 38, 0⟩, ⟨-121, 38, 10⟩, ⟨-122, 37, 10⟩⟩] [] ⟨-120, 36, 0⟩).1.2 (by simp))
  have at_ : ∀ p : GeoPoint, ∃ v : V3, PlacedAt p v := fun p => by
    obtain ⟨x, y, z, h, -⟩ := C203_point p.lat p.lon p.depth
    exact ⟨⟨x, y, z⟩, h⟩
  obtain ⟨x, hx⟩ := at_ ⟨-120, 36, 0⟩
  obtain ⟨c0, k0⟩ := at_ ⟨-122, 37, 0⟩
  obtain ⟨c1, k1⟩ := at_ ⟨-121, 38, 0⟩
  obtain ⟨c2, k2⟩ := at_ ⟨-121, 38, 10⟩
  obtain ⟨c3, k3⟩ := at_ ⟨-122, 37, 10⟩
  obtain ⟨c, -, s, t, h⟩ := (C207_near Geo.precise49 Geo.someLib_right exact_mean (by norm_num) (by norm_num) (by norm_num [QuadOnEarth, PlaceOnEarth, abs_le])
    (.cons (⟨k0, k1, k2, k3⟩ : CornersAt ⟨⟨-122, 37, 0⟩, ⟨-121, 38, 0⟩, ⟨-121, 38, 10⟩, ⟨-122, 37, 10⟩⟩ ⟨c0, c1, c2, c3⟩) .nil) (by norm_num [PlaceOnEarth, abs_le]) hx hD).1
  exact ⟨D, c, x, hD, hx, s, t, h⟩

/-- Places with opposite longitudes and latitudes form a rectangle, which meets the hypothesis of `C207_spacing`. -/
example : ∃ c, CornersAt ⟨⟨-1, 1, 0⟩, ⟨1, 1, 0⟩, ⟨1, -1, 0⟩, ⟨-1, -1, 0⟩⟩ c ∧ c.p2.sub c.p3 = c.p1.sub c.p0 ∧ QuadOnEarth ⟨⟨-1, 1, 0⟩, ⟨1, 1, 0⟩, ⟨1, -1, 0⟩, ⟨-1, -1, 0⟩⟩ := by
  have east : ∀ (p : GeoPoint) (v : V3), PlacedAt p v → PlacedAt ⟨-p.lon, p.lat, p.depth⟩ ⟨v.x, -v.y, v.z⟩ := by
    rintro p v ⟨X, Y, Z, k, e, k0, ex, ey, ez, hx, hy, hz⟩
    refine ⟨X, -Y, Z, k, by rw [neg_sq]; exact e, k0, ?_⟩
    simp only [vertical, Rat.cast_neg, neg_mul, neg_div, Real.cos_neg, Real.sin_neg] at *
    refine ⟨ex, by rw [ey]; ring, ez, hx, by rw [hy]; ring, hz⟩
  have north : ∀ (p : GeoPoint) (v : V3), PlacedAt p v → PlacedAt ⟨p.lon, -p.lat, p.depth⟩ ⟨v.x, v.y, -v.z⟩ := by
    rintro p v ⟨X, Y, Z, k, e, k0, ex, ey, ez, hx, hy, hz⟩
    refine ⟨X, Y, -Z, k, by rw [neg_sq]; exact e, k0, ?_⟩
    simp only [vertical, Rat.cast_neg, neg_mul, neg_div, Real.cos_neg, Real.sin_neg] at *
    refine ⟨ex, ey, by rw [ez]; ring, hx, hy, by rw [hz]; ring⟩
  obtain ⟨x, y, z, h, -⟩ := C203_point ((1 : ℚ) : ℝ) ((1 : ℚ) : ℝ) ((0 : ℚ) : ℝ)
  have h1 : PlacedAt ⟨1, 1, 0⟩ ⟨x, y, z⟩ := h
  have h2 : PlacedAt ⟨1, -1, 0⟩ ⟨x, y, -z⟩ := north ⟨1, 1, 0⟩ _ h1
  refine ⟨⟨⟨x, -y, z⟩, ⟨x, y, z⟩, ⟨x, y, -z⟩, ⟨x, -y, -z⟩⟩, ⟨east ⟨1, 1, 0⟩ _ h1, h1, h2, east ⟨1, -1, 0⟩ _ h2⟩, ?_, ?_⟩
  · simp only [V3.sub, V3.mk.injEq]
    norm_num
  · norm_num [QuadOnEarth, PlaceOnEarth, abs_le]

end Verif.Props
