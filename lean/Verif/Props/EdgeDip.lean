import Verif.Props.EdgeArea
import Verif.Spec.EdgeDip

/-!
# Dips of ruptures of edges in binary arithmetic

C224.
-/

namespace Verif.Props
open Verif.Spec
open Verif.Dbl
open Verif.Rup (Quad sumProd)
open Verif.Vec (V3)

namespace Edip
open Geo Len Edge Seg Shape Sur Wid Her

/-- A component of a direction times an area. -/
theorem term_near {u α δ M T D : ℝ} (hu : Precise u) (T0 : 0 ≤ T) (hT : T ≤ M) (hα : α ≤ M) (δ1 : δ ≤ 1 / 100) (hD : |D| ≤ 1) {A t : ℚ} (hA : |(A : ℝ) - T| ≤ α) (ht : |(t : ℝ) - D| ≤ δ) :
    |((rnd (t * rnd (A / 1000)) : ℚ) : ℝ) - D * (T / 1000)| ≤ 103 / 100000 * α + M * δ / 1000 + 3 * (u * M) / 1000 + u := by
  obtain ⟨u0, u1, τ0, τ2, τ1, τu⟩ := tiny hu
  have r1 := rnd_real hu (A / 1000)
  have r2 := rnd_real hu (t * rnd (A / 1000))
  push_cast at r1 r2
  generalize ((rnd (t * rnd (A / 1000)) : ℚ) : ℝ) = z at *
  generalize ((rnd (A / 1000) : ℚ) : ℝ) = a at *
  generalize (A : ℝ) = A at *
  generalize (t : ℝ) = t at *
  clear τ1 τ2
  generalize (2 : ℝ) ^ (-1075 : ℤ) = τ at *
  have α0 := (abs_nonneg _).trans hA
  have δ0 := (abs_nonneg _).trans ht
  have uα : u * α ≤ 1 / 1000000000000 * α := mul_le_mul_of_nonneg_right u1 α0
  have c1 : |A / 1000| ≤ M / 1000 + α / 1000 := by
    rw [abs_le] at *
    constructor <;> linarith
  have m1 := mul_le_mul_of_nonneg_left c1 u0.le
  have d1 : |a - T / 1000| ≤ 1001 / 1000000 * α + u * M / 1000 + u / 1000 := by
    rw [abs_le] at *
    constructor <;> linarith
  have ct : |t| ≤ 101 / 100 := by
    rw [abs_le] at *
    constructor <;> linarith
  have M0 : 0 ≤ M := by linarith
  have uM : u * M ≤ 1 / 1000000000000 * M := mul_le_mul_of_nonneg_right u1 M0
  have ca : |a| ≤ 21 / 10000 * M + u := by
    rw [abs_le] at *
    constructor <;> linarith
  have p1 : |t * (a - T / 1000)| ≤ 101 / 100 * (1001 / 1000000 * α + u * M / 1000 + u / 1000) := by
    rw [abs_mul]
    exact mul_le_mul ct d1 (abs_nonneg _) (by norm_num)
  have p2 : |(t - D) * (T / 1000)| ≤ δ * (M / 1000) := by
    rw [abs_mul, abs_of_nonneg (by linarith : 0 ≤ T / 1000)]
    exact mul_le_mul ht (by linarith) (by linarith) δ0
  have p3 : |t * a| ≤ 103 / 100000 * M + 103 / 100000 * α + 2 * u := by
    have e : t * a = t * (a - T / 1000) + t * (T / 1000) := by ring
    have q : |t * (T / 1000)| ≤ 101 / 100 * (M / 1000) := by
      rw [abs_mul, abs_of_nonneg (by linarith : 0 ≤ T / 1000)]
      exact mul_le_mul ct (by linarith) (by linarith) (by norm_num)
    have := abs_add_le (t * (a - T / 1000)) (t * (T / 1000))
    rw [← e] at this
    linarith
  have m2 := mul_le_mul_of_nonneg_left p3 u0.le
  have uu : u * u ≤ 1 / 1000000000000 * u := mul_le_mul_of_nonneg_right u1 u0.le
  have e : z - D * (T / 1000) = (z - t * a) + t * (a - T / 1000) + (t - D) * (T / 1000) := by ring
  have := abs_add_three (z - t * a) (t * (a - T / 1000)) ((t - D) * (T / 1000))
  rw [e]
  have : 0 ≤ u * M := by positivity
  linarith

/-- A component of a sum. -/
theorem acc_near {u M e σ X : ℝ} (hu : Precise u) (hM : 1 ≤ M) (he : e ≤ M / 100) {m : ℕ} (hm : m ≤ 2000000) {s x : ℚ} (hσ : |σ| ≤ M * m) (hX : |X| ≤ M) (hs : |(s : ℝ) - σ| ≤ m * (e + 2 * M * m * u))
    (hx : |(x : ℝ) - X| ≤ e) : |((rnd (s + x) : ℚ) : ℝ) - (σ + X)| ≤ (m + 1 : ℕ) * (e + 2 * M * (m + 1 : ℕ) * u) ∧ |σ + X| ≤ M * (m + 1 : ℕ) := by
  obtain ⟨u0, u1, τ0, τ2, τ1, τu⟩ := tiny hu
  have r := rnd_real hu (s + x)
  push_cast at r ⊢
  have hn' : (m : ℝ) ≤ 2000000 := by exact_mod_cast hm
  have hn0 : (0 : ℝ) ≤ m := Nat.cast_nonneg m
  generalize ((rnd (s + x) : ℚ) : ℝ) = z at *
  generalize (s : ℝ) = s at *
  generalize (x : ℝ) = x at *
  generalize (m : ℝ) = K at *
  clear τ1 τ2
  generalize (2 : ℝ) ^ (-1075 : ℤ) = τ at *
  have Ku : K * u ≤ 1 / 100000 := by
    have := mul_le_mul hn' u1 u0.le (by norm_num : (0 : ℝ) ≤ 2000000)
    linarith
  have b1 : K * (e + 2 * M * K * u) ≤ K * (M / 50) := by
    refine mul_le_mul_of_nonneg_left ?_ hn0
    have := mul_le_mul_of_nonneg_left Ku (by linarith : 0 ≤ M)
    linarith [show 2 * M * K * u = 2 * (M * (K * u)) by ring]
  have c : |s + x| ≤ 103 / 100 * (M * (K + 1)) := by
    rw [abs_le] at *
    constructor <;> linarith
  have c' := mul_le_mul_of_nonneg_left c u0.le
  constructor
  · have t : |z - (σ + X)| ≤ u * (103 / 100 * (M * (K + 1))) + τ + K * (e + 2 * M * K * u) + e := by
      rw [abs_le] at *
      constructor <;> linarith
    refine t.trans ?_
    have e1 : (K + 1) * (e + 2 * M * (K + 1) * u) = K * (e + 2 * M * K * u) + e + 4 * (M * (K * u)) + 2 * (M * u) := by ring
    have e2 : u * (103 / 100 * (M * (K + 1))) = 103 / 100 * (M * (K * u)) + 103 / 100 * (M * u) := by ring
    have y1 : 0 ≤ M * (K * u) := by positivity
    have y2 : 1 * u ≤ M * u := mul_le_mul_of_nonneg_right hM u0.le
    rw [e1, e2]
    linarith
  · rw [abs_le] at *
    constructor <;> linarith

/-- Vectors with components of at most `b`. -/
def Small (b : ℝ) (A : V3) : Prop := |A.x| ≤ b ∧ |A.y| ≤ b ∧ |A.z| ≤ b

theorem vec_acc {u M e : ℝ} (hu : Precise u) (hM : 1 ≤ M) (he : e ≤ M / 100) {m : ℕ} (hm : m ≤ 2000000) {s x : D3} {σ X : V3} (hσ : Small (M * m) σ) (hX : Small M X) (hs : Near (m * (e + 2 * M * m * u)) s σ)
    (hx : Near e x X) : Near ((m + 1 : ℕ) * (e + 2 * M * (m + 1 : ℕ) * u)) (s.add x) (σ.add X) ∧ Small (M * (m + 1 : ℕ)) (σ.add X) := by
  have a := acc_near hu hM he hm hσ.1 hX.1 hs.1 hx.1
  have b := acc_near hu hM he hm hσ.2.1 hX.2.1 hs.2.1 hx.2.1
  have c := acc_near hu hM he hm hσ.2.2 hX.2.2 hs.2.2 hx.2.2
  exact ⟨⟨a.1, b.1, c.1⟩, a.2, b.2, c.2⟩

theorem vec_term {u α δ M T : ℝ} (hu : Precise u) (T0 : 0 ≤ T) (hT : T ≤ M) (hα : α ≤ M) (δ1 : δ ≤ 1 / 100) {A : ℚ} {t : D3} {D : V3} (hD : Small 1 D) (hA : |(A : ℝ) - T| ≤ α) (ht : Near δ t D) :
    Near (103 / 100000 * α + M * δ / 1000 + 3 * (u * M) / 1000 + u) (t.mul (rnd (A / 1000))) (D.mul (T / 1000)) :=
  ⟨term_near hu T0 hT hα δ1 hD.1 hA ht.1, term_near hu T0 hT hα δ1 hD.2.1 hA ht.2.1, term_near hu T0 hT hα δ1 hD.2.2 hA ht.2.2⟩

theorem norm_parts {C : V3} (h : 0 < C.mag) : C.norm.mul C.mag = C ∧ innerOf C.norm C.norm = 1 := by
  have e := mag_sq C
  have n : C.norm = ⟨C.x / C.mag, C.y / C.mag, C.z / C.mag⟩ := rfl
  rw [n]
  constructor
  · unfold V3.mul
    ext <;> simp only <;> field_simp
  · simp only [innerOf]
    field_simp
    linarith

theorem unit_small {d : V3} (h : innerOf d d = 1) : Small 1 d ∧ d.mag = 1 := by
  have m := Dip.mag_one.1 h
  have := component_le d
  rw [m] at this
  exact ⟨this, m⟩

theorem sides_sum (P Q R : V3) : (P.sub Q).mag ≤ perimeter P Q R ∧ (P.sub R).mag ≤ perimeter P Q R := by
  unfold perimeter
  rw [dist_mag, dist_mag, dist_mag, Dip.mag_swap R P]
  have := mag_nonneg (P.sub Q)
  have := mag_nonneg (Q.sub R)
  have := mag_nonneg (P.sub R)
  constructor <;> linarith

/-- The normal of a triangle that is not too thin. -/
theorem normal_near {u k T : ℝ} (hu : Precise u) {L : MathLib} (hL : RightTo u L) (hk : 1000000000000 * (k * u) ≤ 1) {a b c : D3} {P Q R : V3} (ha : Near (200000000 * u) a P ∧ Inside P)
    (hb : Near (200000000 * u) b Q ∧ Inside Q) (hc : Near (200000000 * u) c R ∧ Inside R) (hT : TriangleArea P Q R T) (T1 : 1 ≤ T) (p1 : 1 ≤ perimeter P Q R) (pm : perimeter P Q R ≤ 80000000) (k4 : 4 ≤ k)
    (hst : perimeter P Q R ^ 2 ≤ k * T) :
    ∃ n, ((c.sub a).cross (b.sub a)).norm L.sq = some n ∧ ∃ D, Near (5000000000 * (k * u) / perimeter P Q R) n D ∧ Small 1 D ∧ D.mul T = areaVector P Q R := by
  obtain ⟨u0, u1, τ0, τ2, τ1, τu⟩ := tiny hu
  have big : ∀ {A : V3}, Inside A → Big A := fun h => ⟨h.1.trans (by norm_num), h.2.1.trans (by norm_num), h.2.2.trans (by norm_num)⟩
  obtain ⟨n1, -⟩ := sub_near hu le_rfl ⟨hb.1, big hb.2⟩ ⟨ha.1, big ha.2⟩
  obtain ⟨n2, -⟩ := sub_near hu le_rfl ⟨hc.1, big hc.2⟩ ⟨ha.1, big ha.2⟩
  have h := Sur.cross_near hu n2 n1
  have eT : ((R.sub P).cross (Q.sub P)).mag = 2 * T := by
    rw [area_cross hT]
    have : ((R.sub P).cross (Q.sub P)).mag = ((P.sub Q).cross (P.sub R)).mag :=
      mag_neg (by simp only [V3.sub, V3.cross]; ring) (by simp only [V3.sub, V3.cross]; ring) (by simp only [V3.sub, V3.cross]; ring)
    linarith
  obtain ⟨s1, s2⟩ := sides_sum P Q R
  rw [Dip.mag_swap] at s1 s2
  have x0 := mag_nonneg (Q.sub P)
  have y0 := mag_nonneg (R.sub P)
  have av : areaVector P Q R = ((R.sub P).cross (Q.sub P)).mul (1 / 2) := rfl
  rw [av]
  generalize (Q.sub P).mag = X at *
  generalize (R.sub P).mag = Y at *
  generalize (R.sub P).cross (Q.sub P) = C at *
  generalize perimeter P Q R = p at *
  have K : 2 * (3 * (200000000 * u) * X + 3 * (200000000 * u) * Y + 3 * (200000000 * u) * (3 * (200000000 * u))) + 5 * (u * ((Y + 3 * (200000000 * u)) * (X + 3 * (200000000 * u)))) + 4 * 2 ^ (-1075 : ℤ) ≤
      3000000000 * (u * p) := by
    have a1 := mul_le_mul_of_nonneg_left s1 u0.le
    have a2 := mul_le_mul_of_nonneg_left s2 u0.le
    have a3 : u * u ≤ 1 / 1000000000000 * u := mul_le_mul_of_nonneg_right u1 u0.le
    have a4 : u * 1 ≤ u * p := mul_le_mul_of_nonneg_left p1 u0.le
    have a5 : (Y + 3 * (200000000 * u)) * (X + 3 * (200000000 * u)) ≤ (80000000 + 1) * (1001 / 1000 * p) := by
      refine mul_le_mul (by linarith) (by linarith) (by positivity) (by norm_num)
    have a6 := mul_le_mul_of_nonneg_left a5 u0.le
    linarith
  have p0 : 0 < p := by linarith
  have T0 : 0 < T := by linarith
  have kT : 75000000000 * (u * p) ≤ T := by
    have b1 : 1000000000000 * (k * u) * p ≤ 1 * p := mul_le_mul_of_nonneg_right hk p0.le
    have b2 : p * 1 ≤ p * p := mul_le_mul_of_nonneg_left p1 p0.le
    have b3 : k * (100000000000 * (u * p)) ≤ k * T := by linarith [show k * (100000000000 * (u * p)) = 100000000000 * (k * u) * p by ring, sq p]
    have := le_of_mul_le_mul_left b3 (by linarith)
    have : 0 < u * p := by positivity
    linarith
  obtain ⟨n, hn, nn⟩ := unit_real hu hL (Dip.near_weaken h K) (by linarith) (by linarith)
  have C0 : 0 < C.mag := by linarith
  obtain ⟨f1, f2⟩ := norm_parts C0
  refine ⟨n, hn, C.norm, Dip.near_weaken nn ?_, (unit_small f2).1, ?_⟩
  · rw [eT]
    have b1 : 3000000000 * (u * p) / (2 * T) ≤ 1500000000 * (k * u / p) := by
      rw [mul_div_assoc', div_le_div_iff₀ (by linarith) p0]
      have := mul_le_mul_of_nonneg_left hst (by positivity : 0 ≤ 3000000000 * u)
      linarith [show 3000000000 * u * p ^ 2 = 3000000000 * (u * p) * p by ring, show 3000000000 * u * (k * T) = 1500000000 * (k * u) * (2 * T) by ring]
    have b2 : u ≤ 20000000 * (k * u / p) := by
      rw [mul_div_assoc', le_div_iff₀ p0]
      have := mul_le_mul_of_nonneg_left pm u0.le
      have := mul_le_mul_of_nonneg_right k4 u0.le
      linarith
    have e : 5000000000 * (k * u) / p = 5000000000 * (k * u / p) := by ring
    rw [e]
    linarith
  · conv_rhs => rw [← f1, eT]
    simp only [V3.mul]
    ext <;> ring

/-- Up. -/
theorem up_near {u : ℝ} (hu : Precise u) {L : MathLib} (hL : RightTo u L) {p : GeoPoint} (hp : PlaceOnEarth p) (hd : |p.depth| ≤ 998) : ∃ v, upward L p = some v ∧ Near (2000000 * u) v (upAt p) :=
  Dip.up_computed (q := ⟨p, p, p, p⟩) hu hL hp hd

/-- The share of one triangle in the two sums. -/
theorem share_near {u k B T p : ℝ} (hu : Precise u) (hk : 1000000000000 * (k * u) ≤ 1) (hB : 1 ≤ B) (k4 : 4 ≤ k) (T1 : 1 ≤ T) (p1 : 1 ≤ p) (pB : p ≤ 1000 * B) (hT : T ≤ p ^ 2 / 4) {A : ℚ}
    (hA : |(A : ℝ) - T| ≤ 1600000000 * (k * (p * u))) {n v : D3} {D V W : V3} (hn : Near (5000000000 * (k * u) / p) n D) (hD : Small 1 D) (hW : D.mul T = W) (hv : Near (2000000 * u) v V) (hV : Small 1 V) :
    (Near ((3000000000 * k * B + 600000000 * B ^ 2) * u) (n.mul (rnd (A / 1000))) (W.mul (1 / 1000)) ∧ Small (250 * B ^ 2) (W.mul (1 / 1000))) ∧
      Near ((3000000000 * k * B + 600000000 * B ^ 2) * u) (v.mul (rnd (A / 1000))) ((V.mul T).mul (1 / 1000)) ∧ Small (250 * B ^ 2) ((V.mul T).mul (1 / 1000)) := by
  obtain ⟨u0, u1, τ0, τ2, τ1, τu⟩ := tiny hu
  have p0 : 0 < p := by linarith
  have ku0 : 0 < k * u := by positivity
  have M : p ^ 2 / 4 ≤ 250000 * B ^ 2 := by
    have := pow_le_pow_left₀ p0.le pB 2
    linarith [show (1000 * B) ^ 2 = 1000000 * B ^ 2 by ring]
  have α : 1600000000 * (k * (p * u)) ≤ p ^ 2 / 4 := by
    have a1 : 1000000000000 * (k * u) * p ≤ 1 * p := mul_le_mul_of_nonneg_right hk p0.le
    have a2 : p * 1 ≤ p * p := mul_le_mul_of_nonneg_left p1 p0.le
    linarith [show k * (p * u) = k * u * p by ring, sq p]
  have δ : 5000000000 * (k * u) / p ≤ 1 / 100 := by
    rw [div_le_iff₀ p0]
    linarith
  have s1 : ∀ D : V3, (D.mul T).mul (1 / 1000) = D.mul (T / 1000) := fun D => by
    simp only [V3.mul]
    ext <;> simp only <;> ring
  have s2 : ∀ {D : V3}, Small 1 D → Small (250 * B ^ 2) (D.mul (T / 1000)) := by
    have key : ∀ {d : ℝ}, |d| ≤ 1 → |d * (T / 1000)| ≤ 250 * B ^ 2 := by
      intro d hd
      rw [abs_mul, abs_of_pos (by linarith : 0 < T / 1000)]
      have := mul_le_mul_of_nonneg_right hd (by linarith : 0 ≤ T / 1000)
      linarith
    exact fun {D} h => ⟨key h.1, key h.2.1, key h.2.2⟩
  have up : p * u ≤ 1000 * (B * u) := by
    have := mul_le_mul_of_nonneg_right pB u0.le
    linarith
  have kp : k * (p * u) ≤ 1000 * (k * (B * u)) := by
    have := mul_le_mul_of_nonneg_left up (by linarith : 0 ≤ k)
    linarith
  have uM : u * (p ^ 2 / 4) ≤ 250000 * (B ^ 2 * u) := by
    have := mul_le_mul_of_nonneg_left M u0.le
    linarith
  have B1 : u ≤ B ^ 2 * u := by
    have : 1 ^ 2 ≤ B ^ 2 := pow_le_pow_left₀ (by norm_num) hB 2
    nlinarith
  have kB : 0 ≤ k * (B * u) := by positivity
  have e0 : (3000000000 * k * B + 600000000 * B ^ 2) * u = 3000000000 * (k * (B * u)) + 600000000 * (B ^ 2 * u) := by ring
  rw [← hW, s1, s1, e0]
  refine ⟨⟨Dip.near_weaken (vec_term hu (by linarith) hT α δ hD hA hn) ?_, s2 hD⟩, Dip.near_weaken (vec_term hu (by linarith) hT α (by linarith) hV hA hv) ?_, s2 hV⟩
  · have e : p ^ 2 / 4 * (5000000000 * (k * u) / p) = 1250000000 * (k * (p * u)) := by field_simp; ring
    rw [e]
    linarith
  · have e : p ^ 2 / 4 * (2000000 * u) = 2000000 * (u * (p ^ 2 / 4)) := by ring
    rw [e]
    linarith

/-- One turn of the loop. -/
theorem turn_near {u k B : ℝ} (hu : Precise u) {L : MathLib} (hL : RightTo u L) (hk : 1000000000000 * (k * u) ≤ 1) (hku : 2000000000 * (k ^ 2 * u) ≤ 1) (hB : 1 ≤ B) (hB' : B ≤ 80000) {q : Quad GeoPoint}
    (hq : PerimetersUpTo B q) (hs : Stout k q) (hr : Roomy q) {c : Quad V3} (hc : CornersAt q c) {S T : ℝ} (hS : TriangleArea c.p0 c.p1 c.p2 S) (hT : TriangleArea c.p0 c.p2 c.p3 T) :
    ∃ n1 n2 v1 v2, (∀ s, addNormals L s q = some ((s.1.add n1).add n2, (s.2.add v1).add v2)) ∧
      (Near ((3000000000 * k * B + 600000000 * B ^ 2) * u) n1 ((areaVector c.p0 c.p1 c.p2).mul (1 / 1000)) ∧ Small (250 * B ^ 2) ((areaVector c.p0 c.p1 c.p2).mul (1 / 1000))) ∧
      (Near ((3000000000 * k * B + 600000000 * B ^ 2) * u) n2 ((areaVector c.p0 c.p2 c.p3).mul (1 / 1000)) ∧ Small (250 * B ^ 2) ((areaVector c.p0 c.p2 c.p3).mul (1 / 1000))) ∧
      (Near ((3000000000 * k * B + 600000000 * B ^ 2) * u) v1 (((upAt q.p1).mul S).mul (1 / 1000)) ∧ Small (250 * B ^ 2) (((upAt q.p1).mul S).mul (1 / 1000))) ∧
      (Near ((3000000000 * k * B + 600000000 * B ^ 2) * u) v2 (((upAt q.p3).mul T).mul (1 / 1000)) ∧ Small (250 * B ^ 2) (((upAt q.p3).mul T).mul (1 / 1000))) := by
  obtain ⟨u0, u1, τ0, τ2, τ1, τu⟩ := tiny hu
  obtain ⟨⟨g0, g1, g2, g3⟩, hP⟩ := hq
  obtain ⟨⟨p1, pB⟩, r1, rB⟩ := hP c hc
  obtain ⟨k1, k2⟩ := hs c hc
  obtain ⟨l1, l2⟩ := hr.1 c hc
  replace k1 := k1 S hS
  replace k2 := k2 T hT
  replace l1 := l1 S hS
  replace l2 := l2 T hT
  obtain ⟨a0, a1, a2, a3⟩ := hc
  have n0 := Edge.place_near hu hL g0 a0
  have n1 := Edge.place_near hu hL g1 a1
  have n2 := Edge.place_near hu hL g2 a2
  have n3 := Edge.place_near hu hL g3 a3
  have ES := heron_exact c.p0 c.p1 c.p2
  have ET := heron_exact c.p0 c.p2 c.p3
  rw [← area_cross hS] at ES
  rw [← area_cross hT] at ET
  have s10 := side_near hu hL n1 n0
  have s20 := side_near hu hL n2 n0
  have s12 := side_near hu hL n1 n2
  have s30 := side_near hu hL n3 n0
  have s32 := side_near hu hL n3 n2
  have s20' := s20
  rw [dist_comm c.p1 c.p0] at s10
  rw [dist_comm c.p3 c.p2] at s32
  rw [dist_comm c.p2 c.p0] at s20'
  obtain ⟨b1, x1, -⟩ := triangle_near hu (Real.sqrt_nonneg _) (Real.sqrt_nonneg _) (Real.sqrt_nonneg _) s10.2 s20.2 s12.2 (p := perimeter c.p0 c.p1 c.p2) (by unfold perimeter; ring) p1 (by linarith : 0 ≤ S)
    (by rw [← ES]; ring) s10.1 s20.1 s12.1
  obtain ⟨b2, x2, -⟩ := triangle_near hu (Real.sqrt_nonneg _) (Real.sqrt_nonneg _) (Real.sqrt_nonneg _) s30.2 s32.2 s20'.2 (p := perimeter c.p0 c.p2 c.p3) (by unfold perimeter; ring) r1 (by linarith : 0 ≤ T)
    (by rw [← ET]; ring) s30.1 s32.1 s20'.1
  obtain ⟨k4, A, eA, nA⟩ := x1 k k1 hku
  obtain ⟨-, A', eA', nA'⟩ := x2 k k2 hku
  obtain ⟨n, en, D, nn, sD, eD⟩ := normal_near hu hL hk n0 n1 n2 hS l1 p1 (by linarith) k4 k1
  obtain ⟨n', en', D', nn', sD', eD'⟩ := normal_near hu hL hk n0 n2 n3 hT l2 r1 (by linarith) k4 k2
  obtain ⟨d1, d2, -⟩ := hr.2 q.p1 (.inl rfl)
  obtain ⟨d3, d4, -⟩ := hr.2 q.p3 (.inr rfl)
  obtain ⟨v, ev, nv⟩ := up_near hu hL g1 (by rw [abs_le]; constructor <;> linarith)
  obtain ⟨v', ev', nv'⟩ := up_near hu hL g3 (by rw [abs_le]; constructor <;> linarith)
  have h1 := share_near hu hk hB k4 l1 p1 pB b1 nA nn sD eD nv (unit_small (Dip.up_unit _)).1
  have h2 := share_near hu hk hB k4 l2 r1 rB b2 nA' nn' sD' eD' nv' (unit_small (Dip.up_unit _)).1
  refine ⟨_, _, _, _, fun s => ?_, h1.1, h2.1, h1.2, h2.2⟩
  unfold sideLength at eA eA'
  simp only [addNormals, en, en', eA, eA', ev, ev', Option.bind_some]

/-- All turns. -/
theorem loop_near {u k B : ℝ} (hu : Precise u) {L : MathLib} (hL : RightTo u L) (hk : 1000000000000 * (k * u) ≤ 1) (hku : 2000000000 * (k ^ 2 * u) ≤ 1) (hB : 1 ≤ B) (hB' : B ≤ 80000) :
    ∀ (qs : List (Quad GeoPoint)) (N U : V3) (n : ℕ) (s t : D3) (σ τ : V3), NormalAndUp qs N U → (∀ q ∈ qs, PerimetersUpTo B q ∧ Stout k q ∧ Roomy q) → n + qs.length ≤ 1000000 →
      Small (250 * B ^ 2 * (2 * n : ℕ)) σ → Small (250 * B ^ 2 * (2 * n : ℕ)) τ →
      Near ((2 * n : ℕ) * ((3000000000 * k * B + 600000000 * B ^ 2) * u + 2 * (250 * B ^ 2) * (2 * n : ℕ) * u)) s σ →
      Near ((2 * n : ℕ) * ((3000000000 * k * B + 600000000 * B ^ 2) * u + 2 * (250 * B ^ 2) * (2 * n : ℕ) * u)) t τ →
      ∃ s' t', qs.foldl (fun s q => s.bind fun s => addNormals L s q) (some (s, t)) = some (s', t') ∧
        Near ((2 * (n + qs.length) : ℕ) * ((3000000000 * k * B + 600000000 * B ^ 2) * u + 2 * (250 * B ^ 2) * (2 * (n + qs.length) : ℕ) * u)) s' (σ.add (N.mul (1 / 1000))) ∧
        Near ((2 * (n + qs.length) : ℕ) * ((3000000000 * k * B + 600000000 * B ^ 2) * u + 2 * (250 * B ^ 2) * (2 * (n + qs.length) : ℕ) * u)) t' (τ.add (U.mul (1 / 1000))) := by
  obtain ⟨u0, u1, τ0, τ2, τ1, τu⟩ := tiny hu
  intro qs
  induction qs with
  | nil =>
    intro N U n s t σ τ h _ _ _ _ hs ht
    cases h
    have z : ∀ a : V3, a.add ((⟨0, 0, 0⟩ : V3).mul (1 / 1000)) = a := fun a => by
      simp only [V3.add, V3.mul]
      ext <;> simp
    rw [z, z]
    exact ⟨s, t, rfl, by simpa using hs, by simpa using ht⟩
  | cons q qs ih =>
    intro N U n s t σ τ h hq hn hσ hτ hs ht
    cases h with
    | @cons _ c S T _ N U hc hS hT h =>
      obtain ⟨q1, q2, q3⟩ := hq q (by simp)
      obtain ⟨n1, n2, v1, v2, step, ⟨x1, y1⟩, ⟨x2, y2⟩, ⟨x3, y3⟩, x4, y4⟩ := turn_near hu hL hk hku hB hB' q1 q2 q3 hc hS hT
      rw [List.length_cons] at hn ⊢
      have hB2 : 1 ≤ B ^ 2 := one_le_pow₀ hB
      have hM : 1 ≤ 250 * B ^ 2 := by linarith
      have he : (3000000000 * k * B + 600000000 * B ^ 2) * u ≤ 250 * B ^ 2 / 100 := by
        have a1 : k * u * B ≤ 1 / 100000000000 * B := mul_le_mul_of_nonneg_right (by linarith) (by linarith)
        have a2 : u * B ^ 2 ≤ 1 / 1000000000000 * B ^ 2 := mul_le_mul_of_nonneg_right u1 (by linarith)
        have a3 : B * 1 ≤ B * B := mul_le_mul_of_nonneg_left hB (by linarith)
        linarith [show (3000000000 * k * B + 600000000 * B ^ 2) * u = 3000000000 * (k * u * B) + 600000000 * (u * B ^ 2) by ring, sq B]
      obtain ⟨f1, g1⟩ := vec_acc hu hM he (by omega) hσ y1 hs x1
      obtain ⟨f2, g2⟩ := vec_acc hu hM he (by omega) g1 y2 f1 x2
      obtain ⟨f3, g3⟩ := vec_acc hu hM he (by omega) hτ y3 ht x3
      obtain ⟨f4, g4⟩ := vec_acc hu hM he (by omega) g3 y4 f3 x4
      obtain ⟨s', t', e, ns, nt⟩ := ih N U (n + 1) _ _ _ _ h (fun q hq' => hq q (by simp [hq'])) (by omega) g2 g4 f2 f4
      refine ⟨s', t', ?_, ?_, ?_⟩
      · rw [← e, List.foldl_cons]
        simp only [Option.bind_some, step]
      · rw [show n + (qs.length + 1) = n + 1 + qs.length by omega]
        convert ns using 1
        simp only [V3.add, V3.mul]
        ext <;> simp only <;> ring
      · rw [show n + (qs.length + 1) = n + 1 + qs.length by omega]
        convert nt using 1
        simp only [V3.add, V3.mul]
        ext <;> simp only <;> ring

/-- From radians to degrees. -/
theorem to_degrees {u A : ℝ} (hu : Precise u) {a : ℚ} (h : |(a : ℝ) - A| ≤ 4 * u) (hA : |A| ≤ 2) : |((rnd (rnd (a * 180) / npyPi) : ℚ) : ℝ) - A * (180 / Real.pi)| ≤ 700 * u := by
  obtain ⟨u0, u1, τ0, τ2, τ1, τu⟩ := tiny hu
  have r1 := rnd_real hu (a * 180)
  have r2 := rnd_real hu (rnd (a * 180) / npyPi)
  have hp := Real.pi_gt_d20
  have hp' := Real.pi_lt_d20
  have near : |(npyPi : ℝ) - Real.pi| ≤ 2 * u := by
    have : |(npyPi : ℝ) - Real.pi| ≤ 2 * 2 ^ (-53 : ℤ) := by
      unfold npyPi
      push_cast
      rw [abs_le]
      constructor <;> norm_num at * <;> linarith
    linarith [hu.1]
  have big : (314 / 100 : ℝ) ≤ npyPi := by unfold npyPi; push_cast; norm_num
  push_cast at r1 r2
  generalize ((rnd (rnd (a * 180) / npyPi) : ℚ) : ℝ) = z at *
  generalize ((rnd (a * 180) : ℚ) : ℝ) = b at *
  generalize (npyPi : ℝ) = P at *
  generalize (a : ℝ) = a at *
  clear τ1 τ2
  generalize (2 : ℝ) ^ (-1075 : ℤ) = τ at *
  have P0 : 0 < P := by linarith
  have π0 := Real.pi_pos
  have uu : u * u ≤ 1 / 1000000000000 * u := mul_le_mul_of_nonneg_right u1 u0.le
  have c1 : |a * 180| ≤ 360 + 720 * u := by
    rw [abs_le] at *
    constructor <;> linarith
  have m1 := mul_le_mul_of_nonneg_left c1 u0.le
  have d1 : |b - A * 180| ≤ 1082 * u := by
    rw [abs_le] at *
    constructor <;> linarith
  have d2 : |b / P - A * 180 / P| ≤ 345 * u := by
    rw [← sub_div, abs_div, abs_of_pos P0, div_le_iff₀ P0]
    have := mul_le_mul_of_nonneg_left big (by linarith : 0 ≤ 345 * u)
    linarith
  have d3 : |A * 180 / P - A * (180 / Real.pi)| ≤ 74 * u := by
    have e : A * 180 / P - A * (180 / Real.pi) = 180 * A * (Real.pi - P) / (P * Real.pi) := by field_simp
    rw [e, abs_div, abs_mul, abs_mul, abs_of_pos (by positivity : 0 < P * Real.pi), abs_of_pos (by norm_num : (0 : ℝ) < 180), div_le_iff₀ (by positivity), abs_sub_comm Real.pi P]
    have g1 : |A| * |P - Real.pi| ≤ 2 * (2 * u) := mul_le_mul hA near (abs_nonneg _) (by norm_num)
    have g2 : 314 / 100 * (314 / 100) ≤ P * Real.pi := mul_le_mul big (by linarith) (by norm_num) P0.le
    have := mul_le_mul_of_nonneg_left g2 (by linarith : 0 ≤ 74 * u)
    linarith
  have c2 : |b / P| ≤ 116 := by
    rw [abs_div, abs_of_pos P0, div_le_iff₀ P0]
    rw [abs_le] at hA d1
    have : |b| ≤ 361 := by rw [abs_le]; constructor <;> linarith
    linarith
  have m2 := mul_le_mul_of_nonneg_left c2 u0.le
  rw [abs_le] at *
  constructor <;> linarith

theorem mag_inner (a : V3) : √(innerOf a a) = a.mag := by
  unfold innerOf V3.mag
  congr 1
  ring

/-- The arc sine. -/
theorem arc_near {u θ η E : ℝ} (hu : Precise u) {L : MathLib} (hL : RightTo u L) {x : ℚ} (m0 : 0 ≤ x) (θ0 : 0 ≤ θ) (θ1 : θ ≤ 90) (hη : 0 < η) (hsin : Real.sin (θ * (Real.pi / 180)) ≤ 1 - η)
    (hx : |(x : ℝ) - Real.sin (θ * (Real.pi / 180))| ≤ E) (h2 : 2 * E ≤ η) : x ≤ 1 ∧ |((rnd (rnd (L.asin x * 180) / npyPi) : ℚ) : ℝ) - θ| ≤ 700 * u + 82 * (E / √η) := by
  obtain ⟨u0, u1, τ0, τ2, τ1, τu⟩ := tiny hu
  have π0 := Real.pi_pos
  have E0 := (abs_nonneg _).trans hx
  have sin0 : 0 ≤ Real.sin (θ * (Real.pi / 180)) := Real.sin_nonneg_of_nonneg_of_le_pi (by positivity) (by nlinarith)
  have x1 : (x : ℝ) ≤ 1 := by
    have := (abs_le.1 hx).2
    linarith
  have x1' : x ≤ 1 := by exact_mod_cast x1
  have x0 : (0 : ℝ) ≤ x := by exact_mod_cast m0
  refine ⟨x1', ?_⟩
  have ac := hL.asin x m0 x1'
  have p0 := Real.pi_gt_d2
  have p1 := Real.pi_lt_d2
  have A0 := Real.arcsin_nonneg.2 x0
  have A1 := Real.arcsin_le_pi_div_two (x : ℝ)
  have ac' : |(L.asin x : ℝ) - Real.arcsin x| ≤ 4 * u := by
    have := mul_le_mul_of_nonneg_left (by linarith : Real.arcsin x ≤ 2) u0.le
    linarith
  have dn := to_degrees hu ac' (by rw [abs_of_nonneg A0]; linarith)
  have cl := Dip.angle_close (a := Real.pi / 2 - Real.arcsin x) (θ := Real.pi / 2 - θ * (Real.pi / 180)) (by linarith) (by linarith) (by nlinarith) (by nlinarith) hη
    (by rw [Real.cos_pi_div_two_sub, abs_of_nonneg sin0]; exact hsin)
    (by rw [Real.cos_pi_div_two_sub, Real.cos_pi_div_two_sub, Real.sin_arcsin (by linarith) x1]; exact hx) h2
  have r : E / √(η / 2) ≤ 1415 / 1000 * (E / √η) := by
    have s0 : 0 < √η := by positivity
    have h : √η ≤ 1415 / 1000 * √(η / 2) := by
      refine Real.sqrt_le_iff.2 ⟨by positivity, ?_⟩
      rw [mul_pow, Real.sq_sqrt (by positivity)]
      linarith
    rw [mul_div_assoc', div_le_div_iff₀ (by positivity) s0]
    nlinarith
  have fin : |Real.arcsin x * (180 / Real.pi) - θ| ≤ 573 / 10 * |Real.pi / 2 - Real.arcsin x - (Real.pi / 2 - θ * (Real.pi / 180))| := by
    have e : Real.arcsin x * (180 / Real.pi) - θ = -(180 / Real.pi) * (Real.pi / 2 - Real.arcsin x - (Real.pi / 2 - θ * (Real.pi / 180))) := by
      field_simp
      ring
    rw [e, abs_mul, abs_neg, abs_of_pos (by positivity)]
    refine mul_le_mul_of_nonneg_right ?_ (abs_nonneg _)
    rw [div_le_iff₀ π0]
    have := Real.pi_gt_d4
    linarith
  have y0 : 0 ≤ E / √η := by positivity
  have t := abs_sub_le ((rnd (rnd (L.asin x * 180) / npyPi) : ℚ) : ℝ) (Real.arcsin x * (180 / Real.pi)) θ
  linarith

set_option maxHeartbeats 1000000 in
/-- The sums are turned into an angle. -/
theorem angle_near {u ε ρ θ η E : ℝ} (hu : Precise u) {L : MathLib} (hL : RightTo u L) {dot : D3 → D3 → ℚ} (hdot : InnerProduct dot) {s t : D3} {N U : V3} (hs : Near ε s N) (ht : Near ε t U) (hρ : 1 ≤ ρ)
    (hN : ρ ≤ N.mag) (hU : ρ ≤ U.mag) (hθ : AngleOfLines N U θ) (hη : 0 < η) (hsin : Real.sin (θ * (Real.pi / 180)) ≤ 1 - η) (hE : E = 27 * (ε / ρ) + 200 * u) (h2 : 2 * E ≤ η) :
    ∃ D, ((s.norm L.sq).bind fun n => (t.norm L.sq).bind fun v => if (v.cross (n.mul (signOf (dot v n)))).mag L.sq ≤ 1 then
      some (rnd (rnd (L.asin ((v.cross (n.mul (signOf (dot v n)))).mag L.sq) * 180) / npyPi)) else none) = some D ∧ |(D : ℝ) - θ| ≤ 700 * u + 82 * (E / √η) := by
  obtain ⟨u0, u1, τ0, τ2, τ1, τu⟩ := tiny hu
  obtain ⟨θ0, θ1, hcos⟩ := hθ
  have π0 := Real.pi_pos
  have ρ0 : 0 < ρ := by linarith
  have ε0 : 0 ≤ ε := (abs_nonneg _).trans hs.1
  have sin0 : 0 ≤ Real.sin (θ * (Real.pi / 180)) := Real.sin_nonneg_of_nonneg_of_le_pi (by positivity) (by nlinarith)
  set κ := ε / ρ with eκ
  have κ0 : 0 ≤ κ := by positivity
  have eε : ε = κ * ρ := by rw [eκ]; field_simp
  have κ1 : κ ≤ 1 / 54 := by linarith
  have fine : ∀ {C : V3}, ρ ≤ C.mag → ε ≤ C.mag / 50 ∧ 3 * (ε / C.mag) + 13 * u ≤ 3 * κ + 13 * u := by
    intro C h
    constructor
    · have : κ * ρ ≤ 1 / 54 * ρ := mul_le_mul_of_nonneg_right κ1 ρ0.le
      linarith
    · have : ε / C.mag ≤ ε / ρ := div_le_div_of_nonneg_left ε0 ρ0 h
      linarith
  obtain ⟨n, hn, nn⟩ := unit_real hu hL hs (by linarith) (fine hN).1
  obtain ⟨v, hv, nv⟩ := unit_real hu hL ht (by linarith) (fine hU).1
  replace nn := Dip.near_weaken nn (fine hN).2
  replace nv := Dip.near_weaken nv (fine hU).2
  obtain ⟨f1, f2⟩ := norm_parts (lt_of_lt_of_le ρ0 hN)
  obtain ⟨g1, g2⟩ := norm_parts (lt_of_lt_of_le ρ0 hU)
  obtain ⟨sn, mn⟩ := unit_small f2
  obtain ⟨sv, mv⟩ := unit_small g2
  have cosine : Real.cos (θ * (Real.pi / 180)) = |innerOf U.norm N.norm| := by
    have e : innerOf N U = innerOf U.norm N.norm * (N.mag * U.mag) := by
      conv_lhs => rw [← f1, ← g1]
      simp only [innerOf, V3.mul]
      ring
    rw [mag_inner, mag_inner, e, abs_mul, abs_of_pos (by have := lt_of_lt_of_le ρ0 hN; have := lt_of_lt_of_le ρ0 hU; positivity : 0 < N.mag * U.mag)] at hcos
    exact mul_right_cancel₀ (by have := lt_of_lt_of_le ρ0 hN; have := lt_of_lt_of_le ρ0 hU; positivity) hcos
  generalize N.norm = P at *
  generalize U.norm = V at *
  have lag : ((V.cross P).mag) ^ 2 + innerOf V P ^ 2 = 1 := by
    have e : ((V.cross P).mag) ^ 2 + innerOf V P ^ 2 = innerOf V V * innerOf P P := by
      rw [mag_sq]
      simp only [innerOf, V3.cross]
      ring
    rw [e, f2, g2, one_mul]
  have sine : (V.cross P).mag = Real.sin (θ * (Real.pi / 180)) := by
    have h := Real.sin_sq_add_cos_sq (θ * (Real.pi / 180))
    rw [cosine, sq_abs] at h
    exact (pow_left_inj₀ (mag_nonneg _) sin0 two_ne_zero).1 (by linarith)
  have ku : 3 * κ + 13 * u ≤ 6 / 100 := by linarith
  set δ := 3 * κ + 13 * u with eδ
  have δ0 : 0 ≤ δ := by positivity
  have δδ : δ * δ ≤ 6 / 100 * δ := mul_le_mul_of_nonneg_right ku δ0
  have d := inner_near hu hdot nv nn
  rw [mn, mv] at d
  have d' : |(dot v n : ℝ) - innerOf V P| ≤ E := by
    have e : sumProd V P = innerOf V P := rfl
    rw [e] at d
    refine d.trans ?_
    have a1 : (1 + 2 * δ) * (1 + 2 * δ) ≤ 2 := by nlinarith
    have a2 := mul_le_mul_of_nonneg_left a1 u0.le
    linarith [show 2 * δ * (1 + 2 * δ) = 2 * δ + 4 * (δ * δ) by ring]
  have E0 : 0 < E := by linarith
  have cb : η ≤ |innerOf V P| := by
    have x0 := mag_nonneg (V.cross P)
    refine (sq_le_sq₀ hη.le (abs_nonneg _)).1 ?_
    rw [sq_abs]
    rw [← sine] at hsin
    have : (V.cross P).mag ^ 2 ≤ (1 - η) ^ 2 := pow_le_pow_left₀ x0 hsin 2
    nlinarith
  have ne : dot v n ≠ 0 := by
    intro h
    rw [h, Rat.cast_zero, zero_sub, abs_neg] at d'
    linarith
  obtain ⟨f, hf, ff⟩ : ∃ f : ℚ, signOf (dot v n) = f ∧ (f = 1 ∨ f = -1) := by
    unfold signOf
    rcases lt_or_gt_of_ne ne with h | h
    · exact ⟨-1, by rw [if_neg (by linarith), if_pos h], .inr rfl⟩
    · exact ⟨1, by rw [if_pos h], .inl rfl⟩
  have turned : Near (δ + 2 * u) (n.mul f) (P.mul f) := by
    have key : ∀ {x : ℚ} {X : ℝ}, |(x : ℝ) - X| ≤ δ → |X| ≤ 1 → |((rnd (x * f) : ℚ) : ℝ) - X * f| ≤ δ + 2 * u := by
      intro x X h hX
      have r := rnd_real hu (x * f)
      push_cast at r
      have f1 : |(f : ℝ)| = 1 := by rcases ff with h | h <;> rw [h] <;> norm_num
      have xb : |(x : ℝ) * f| ≤ 11 / 10 := by
        rw [abs_mul, f1, mul_one]
        rw [abs_le] at *
        constructor <;> linarith
      have m := mul_le_mul_of_nonneg_left xb u0.le
      have w : |(x : ℝ) * f - X * f| ≤ δ := by rw [← sub_mul, abs_mul, f1, mul_one]; exact h
      have := abs_sub_le ((rnd (x * f) : ℚ) : ℝ) (x * f) (X * f)
      linarith
    exact ⟨key nn.1 sn.1, key nn.2.1 sn.2.1, key nn.2.2 sn.2.2⟩
  have mt : (P.mul f).mag = 1 ∧ (V.cross (P.mul f)).mag = (V.cross P).mag := by
    have f2 : (f : ℝ) ^ 2 = 1 := by rcases ff with h | h <;> rw [h] <;> norm_num
    constructor
    · rw [← mn]
      unfold V3.mag V3.mul
      congr 1
      linear_combination (P.x ^ 2 + P.y ^ 2 + P.z ^ 2) * f2
    · unfold V3.mag V3.mul V3.cross
      congr 1
      linear_combination ((V.y * P.z - V.z * P.y) ^ 2 + (V.z * P.x - V.x * P.z) ^ 2 + (V.x * P.y - V.y * P.x) ^ 2) * f2
  have c := Sur.cross_near hu nv turned
  rw [mt.1, mv] at c
  have w := near_mag c
  rw [mt.2, sine] at w
  obtain ⟨m0, m⟩ := mag_real hu hL (v.cross (n.mul f))
  rw [← exactly_mag] at m
  set x := (v.cross (n.mul f)).mag L.sq with ex
  have sin1 : Real.sin (θ * (Real.pi / 180)) ≤ 1 := Real.sin_le_one _
  have hx : |(x : ℝ) - Real.sin (θ * (Real.pi / 180))| ≤ E := by
    clear_value x
    clear τ1 τ2
    generalize (exactly (v.cross (n.mul f))).mag = y at *
    generalize Real.sin (θ * (Real.pi / 180)) = z at *
    generalize (2 : ℝ) ^ (-1075 : ℤ) = τ at *
    have a1 : (1 + δ) * (1 + (δ + 2 * u)) ≤ 2 := by nlinarith
    have a2 := mul_le_mul_of_nonneg_left a1 u0.le
    have a3 : δ * u ≤ 6 / 100 * u := mul_le_mul_of_nonneg_right ku u0.le
    have w' : |y - z| ≤ 8 * δ + 4 * (δ * δ) + 40 * u := by
      refine w.trans ?_
      linarith [show δ * (δ + 2 * u) = δ * δ + 2 * (δ * u) by ring]
    have y2 : y ≤ 2 := by
      have := (abs_le.1 w').2
      linarith
    have a4 := mul_le_mul_of_nonneg_left y2 u0.le
    have := abs_sub_le (x : ℝ) y z
    linarith
  obtain ⟨x1, fin⟩ := arc_near hu hL m0 θ0 θ1 hη hsin hx h2
  refine ⟨rnd (rnd (L.asin x * 180) / npyPi), ?_, fin⟩
  simp only [hn, hv, Option.bind_some, hf]
  rw [if_pos x1]

end Edip

/-- C224, first part: the dip that is computed from up to a million quadrilaterals is a number. It is the angle between the sum of the normals and the sum of the directions up, where each triangle counts with its area,
up to 700u + 82E/√η degrees, if the sums are at least as long as `R` square kilometres are large and the sine of the dip is at most 1 - η, where η is at least 2E. -/
theorem C224_dip {u k B R : ℝ} (hu : Precise u) {L : MathLib} (hL : RightTo u L) {dot : D3 → D3 → ℚ} (hdot : InnerProduct dot) (hk : 1000000000000 * (k * u) ≤ 1) (hku : 2000000000 * (k ^ 2 * u) ≤ 1) (hB : 1 ≤ B)
    (hB' : B ≤ 80000) {qs : List (Quad GeoPoint)} (hq : ∀ q ∈ qs, PerimetersUpTo B q ∧ Stout k q ∧ Roomy q) (hn : qs.length ≤ 1000000) {N U : V3} (h : NormalAndUp qs N U) (hR : 1 / 1000 ≤ R)
    (hN : 1000000 * R ≤ √(innerOf N N)) (hU : 1000000 * R ≤ √(innerOf U U)) {θ η E : ℝ} (hθ : AngleOfLines N U θ) (hη : 0 < η) (hs : Real.sin (θ * (Real.pi / 180)) ≤ 1 - η)
    (hE : E = (54 * (qs.length * (3000000 * k * B + 600000 * B ^ 2 + B ^ 2 * qs.length) / R) + 200) * u) (h2 : 2 * E ≤ η) :
    ∃ D, edgeDip L dot qs = some D ∧ |(D : ℝ) - θ| ≤ 700 * u + 82 * (E / √η) := by
  obtain ⟨s, t, e, ns, nt⟩ := Edip.loop_near hu hL hk hku hB hB' qs N U 0 ⟨0, 0, 0⟩ ⟨0, 0, 0⟩ ⟨0, 0, 0⟩ ⟨0, 0, 0⟩ h hq (by omega) (by simp [Edip.Small]) (by simp [Edip.Small]) (by simp [Edge.Near]) (by simp [Edge.Near])
  have z : ∀ a : V3, (⟨0, 0, 0⟩ : V3).add a = a := fun a => by
    simp only [V3.add]
    ext <;> simp
  rw [z] at ns nt
  rw [zero_add] at ns nt
  have sc : ∀ a : V3, √(innerOf (a.mul (1 / 1000)) (a.mul (1 / 1000))) = √(innerOf a a) / 1000 := fun a => by
    rw [show innerOf (a.mul (1 / 1000)) (a.mul (1 / 1000)) = innerOf a a / 1000 ^ 2 by simp only [innerOf, V3.mul]; ring, Real.sqrt_div' _ (by norm_num), Real.sqrt_sq (by norm_num)]
  have R0 : 0 < R := by linarith
  obtain ⟨D, hD, nD⟩ := Edip.angle_near hu hL hdot ns nt (ρ := 1000 * R) (by linarith) (by rw [← Edip.mag_inner, sc]; linarith) (by rw [← Edip.mag_inner, sc]; linarith)
    (θ := θ) (by
      refine ⟨hθ.1, hθ.2.1, ?_⟩
      have c := hθ.2.2
      rw [sc, sc, show innerOf (N.mul (1 / 1000)) (U.mul (1 / 1000)) = innerOf N U * (1 / 1000000) by simp only [innerOf, V3.mul]; ring, abs_mul, ← c, abs_of_pos (by norm_num)]
      ring)
    hη hs (E := E) (by
      rw [hE]
      push_cast
      field_simp
      ring) h2
  refine ⟨D, ?_, nD⟩
  rw [← hD, edgeDip, e]
  rfl

/-- C224: the vector that stands for a triangle is at right angles to its sides and as long as the triangle is large. -/
theorem C224_normal (a b c : V3) : innerOf (areaVector a b c) (b.sub a) = 0 ∧ innerOf (areaVector a b c) (c.sub a) = 0 ∧ TriangleArea a b c √(innerOf (areaVector a b c) (areaVector a b c)) := by
  refine ⟨by simp only [areaVector, innerOf, V3.mul, V3.cross, V3.sub]; ring, by simp only [areaVector, innerOf, V3.mul, V3.cross, V3.sub]; ring, ?_⟩
  have e : √(innerOf (areaVector a b c) (areaVector a b c)) = ((a.sub b).cross (a.sub c)).mag / 2 := by
    rw [show innerOf (areaVector a b c) (areaVector a b c) = ((a.sub b).cross (a.sub c)).mag ^ 2 / 2 ^ 2 by rw [mag_sq]; simp only [areaVector, innerOf, V3.mul, V3.cross, V3.sub]; ring, Real.sqrt_div' _ (by norm_num),
      Real.sqrt_sq (mag_nonneg _), Real.sqrt_sq (by norm_num)]
  rw [e]
  exact Her.area_exists a b c

/-- C224: all quadrilaterals have one pair of sums, and two sums that are not zero have one angle. -/
theorem C224_one (qs : List (Quad GeoPoint)) : ∃ N U, NormalAndUp qs N U ∧ (∀ N' U', NormalAndUp qs N' U' → N' = N ∧ U' = U) ∧
    (0 < √(innerOf N N) → 0 < √(innerOf U U) → ∃ θ, AngleOfLines N U θ ∧ ∀ θ', AngleOfLines N U θ' → θ' = θ) := by
  have sums : ∃ N U, NormalAndUp qs N U ∧ ∀ N' U', NormalAndUp qs N' U' → N' = N ∧ U' = U := by
    induction qs with
    | nil => exact ⟨_, _, .nil, fun N' U' h => by cases h; exact ⟨rfl, rfl⟩⟩
    | cons q qs ih =>
      obtain ⟨N, U, h, one⟩ := ih
      obtain ⟨c, hc⟩ := Dip.corners_exist q
      refine ⟨_, _, .cons hc (Her.area_exists _ _ _) (Her.area_exists _ _ _) h, fun N' U' h' => ?_⟩
      cases h' with
      | @cons _ c' S T _ N' U' hc' hS hT h' =>
        obtain ⟨rfl, rfl⟩ := one _ _ h'
        have e : c' = c := by
          obtain ⟨a0, a1, a2, a3⟩ := hc
          obtain ⟨b0, b1, b2, b3⟩ := hc'
          cases c; cases c'
          simp only at *
          rw [Dip.place_one a0 b0, Dip.place_one a1 b1, Dip.place_one a2 b2, Dip.place_one a3 b3]
        subst e
        rw [Her.area_cross hS, Her.area_cross hT]
        exact ⟨rfl, rfl⟩
  obtain ⟨N, U, h, one⟩ := sums
  refine ⟨N, U, h, one, fun hN hU => ?_⟩
  have π0 := Real.pi_pos
  have pos : 0 < √(innerOf N N) * √(innerOf U U) := by positivity
  have le : |innerOf N U| / (√(innerOf N N) * √(innerOf U U)) ≤ 1 := by
    rw [div_le_one pos, Edip.mag_inner, Edip.mag_inner]
    refine le_trans ?_ (Seg.cauchy N U)
    unfold innerOf
    exact abs_add_three _ _ _
  have ge : 0 ≤ |innerOf N U| / (√(innerOf N N) * √(innerOf U U)) := by positivity
  refine ⟨Real.arccos (|innerOf N U| / (√(innerOf N N) * √(innerOf U U))) * (180 / Real.pi), ⟨?_, ?_, ?_⟩, ?_⟩
  · have := Real.arccos_nonneg (|innerOf N U| / (√(innerOf N N) * √(innerOf U U)))
    positivity
  · have := Real.arccos_le_pi_div_two.2 ge
    rw [mul_div_assoc', div_le_iff₀ π0]
    linarith
  · rw [show ∀ x : ℝ, x * (180 / Real.pi) * (Real.pi / 180) = x from fun x => by field_simp, Real.cos_arccos (by linarith) le]
    field_simp
  · rintro θ' ⟨t0, t1, t2⟩
    rw [← t2, mul_div_assoc, div_self pos.ne', mul_one, Real.arccos_cos (by positivity) (by nlinarith)]
    field_simp

namespace Edip

/-- In the plane of the equator. -/
def Flat (a : D3) : Prop := a.z = 0

/-- Along the axis of the earth. -/
def Axial (a : D3) : Prop := a.x = 0 ∧ a.y = 0

theorem sin_zero {u : ℝ} {L : MathLib} (hL : RightTo u L) : L.sin 0 = 0 := by
  have := hL.sin 0 (by norm_num)
  simpa using this

theorem flat_point {u : ℝ} {L : MathLib} (hL : RightTo u L) {p : GeoPoint} (h : p.lat = 0) : Flat (fromPoint L p) := by
  have e : npRadians 0 = 0 := by simp [npRadians, rnd_zero]
  simp [Flat, fromPoint, latlon2ecef, h, e, sin_zero hL, rnd_zero]

theorem flat_sub {a b : D3} (ha : Flat a) (hb : Flat b) : Flat (a.sub b) := by
  unfold Flat at *
  simp [D3.sub, ha, hb, rnd_zero]

theorem flat_add {a b : D3} (ha : Flat a) (hb : Flat b) : Flat (a.add b) := by
  unfold Flat at *
  simp [D3.add, ha, hb, rnd_zero]

theorem flat_mul {a : D3} (ha : Flat a) (k : ℚ) : Flat (a.mul k) := by
  unfold Flat at *
  simp [D3.mul, ha, rnd_zero]

theorem flat_norm {a n : D3} {sq : ℚ → ℚ} (ha : Flat a) (h : a.norm sq = some n) : Flat n := by
  unfold D3.norm at h
  split_ifs at h
  cases h
  unfold Flat at *
  simp [ha, rnd_zero]

theorem axial_cross {a b : D3} (ha : Flat a) (hb : Flat b) : Axial (a.cross b) := by
  unfold Flat at *
  simp [Axial, D3.cross, ha, hb, rnd_zero]

theorem axial_add {a b : D3} (ha : Axial a) (hb : Axial b) : Axial (a.add b) := by
  obtain ⟨a1, a2⟩ := ha
  obtain ⟨b1, b2⟩ := hb
  simp [Axial, D3.add, a1, a2, b1, b2, rnd_zero]

theorem axial_mul {a : D3} (ha : Axial a) (k : ℚ) : Axial (a.mul k) := by
  obtain ⟨a1, a2⟩ := ha
  simp [Axial, D3.mul, a1, a2, rnd_zero]

theorem axial_norm {a n : D3} {sq : ℚ → ℚ} (ha : Axial a) (h : a.norm sq = some n) : Axial n := by
  unfold D3.norm at h
  split_ifs at h
  cases h
  obtain ⟨a1, a2⟩ := ha
  simp [Axial, a1, a2, rnd_zero]

theorem turn_flat {u : ℝ} {L : MathLib} (hL : RightTo u L) {q : Quad GeoPoint} (hq : q.p0.lat = 0 ∧ q.p1.lat = 0 ∧ q.p2.lat = 0 ∧ q.p3.lat = 0) {s s' : D3 × D3} (hs : Axial s.1 ∧ Flat s.2)
    (h : addNormals L s q = some s') : Axial s'.1 ∧ Flat s'.2 := by
  obtain ⟨l0, l1, l2, l3⟩ := hq
  have f0 := flat_point hL l0
  have f1 := flat_point hL l1
  have f2 := flat_point hL l2
  have f3 := flat_point hL l3
  have fu : ∀ {p : GeoPoint} {v : D3}, p.lat = 0 → upward L p = some v → Flat v := by
    intro p v hp hv
    have a := flat_point (p := { p with depth := rnd (p.depth - 1) }) hL hp
    have b := flat_point hL hp
    have c := flat_sub a b
    simp only [upward] at hv
    exact flat_norm c hv
  simp only [addNormals, Option.bind_eq_some_iff, Option.some.injEq] at h
  obtain ⟨n1, e1, A1, -, n2, e2, A2, -, v1, g1, v2, g2, e⟩ := h
  have x1 := axial_norm (axial_cross (flat_sub f2 f0) (flat_sub f1 f0)) e1
  have x2 := axial_norm (axial_cross (flat_sub f3 f0) (flat_sub f2 f0)) e2
  have y1 := fu l1 g1
  have y2 := fu l3 g2
  generalize rnd (A1 / 1000) = a at e
  generalize rnd (A2 / 1000) = b at e
  rw [← e]
  exact ⟨axial_add (axial_add hs.1 (axial_mul x1 a)) (axial_mul x2 b), flat_add (flat_add hs.2 (flat_mul y1 a)) (flat_mul y2 b)⟩

theorem dot_flat {dot : D3 → D3 → ℚ} (hdot : InnerProduct dot) {a b : D3} (ha : Flat a) (hb : Axial b) : dot a b = 0 := by
  have h := hdot a b
  obtain ⟨b1, b2⟩ := hb
  unfold Flat at ha
  simpa [D3.dots, ha, b1, b2, rnd_zero] using h

theorem loop_flat {u : ℝ} {L : MathLib} (hL : RightTo u L) : ∀ (qs : List (Quad GeoPoint)) (s s' : D3 × D3), (∀ q ∈ qs, q.p0.lat = 0 ∧ q.p1.lat = 0 ∧ q.p2.lat = 0 ∧ q.p3.lat = 0) → Axial s.1 ∧ Flat s.2 →
    qs.foldl (fun s q => s.bind fun s => addNormals L s q) (some s) = some s' → Axial s'.1 ∧ Flat s'.2 := by
  intro qs
  induction qs with
  | nil => intro s s' _ hs h; cases h; exact hs
  | cons q qs ih =>
    intro s s' hq hs h
    rw [List.foldl_cons, Option.bind_some] at h
    cases e : addNormals L s q with
    | none =>
      rw [e] at h
      have : ∀ qs : List (Quad GeoPoint), qs.foldl (fun s q => s.bind fun s => addNormals L s q) (none : Option (D3 × D3)) = none := by
        intro qs
        induction qs with
        | nil => rfl
        | cons q qs ih => rw [List.foldl_cons, Option.bind_none, ih]
      rw [this] at h
      cases h
    | some t =>
      rw [e] at h
      exact ih t s' (fun q hq' => hq q (by simp [hq'])) (turn_flat hL (hq q (by simp)) hs e) h

theorem zero_mag {u : ℝ} {L : MathLib} (hL : RightTo u L) {dot : D3 → D3 → ℚ} (hdot : InnerProduct dot) {s t n v : D3} (hs : Axial s) (ht : Flat t) (hn : s.norm L.sq = some n) (hv : t.norm L.sq = some v) :
    (v.cross (n.mul (signOf (dot v n)))).mag L.sq = 0 := by
  rw [dot_flat hdot (flat_norm ht hv) (axial_norm hs hn)]
  simp [signOf, D3.mul, D3.cross, D3.mag, rnd_zero, hL.sq_zero, sqrtRnd]

end Edip

/-- C224 violated for vertical ruptures: with every precise library the dip of a rupture along the equator, whose quadrilaterals are in the vertical plane of the equator, is 0 and not 90, if it is a number. -/
theorem C224_vertical_violated {u : ℝ} {L : MathLib} (hL : RightTo u L) {dot : D3 → D3 → ℚ} (hdot : InnerProduct dot) {qs : List (Quad GeoPoint)}
    (hq : ∀ q ∈ qs, q.p0.lat = 0 ∧ q.p1.lat = 0 ∧ q.p2.lat = 0 ∧ q.p3.lat = 0) {D : ℚ} (h : edgeDip L dot qs = some D) : D = 0 := by
  simp only [edgeDip, Option.bind_eq_some_iff] at h
  obtain ⟨s, e, n, en, v, ev, h⟩ := h
  obtain ⟨x, y⟩ := Edip.loop_flat hL qs (⟨0, 0, 0⟩, ⟨0, 0, 0⟩) s hq ⟨⟨rfl, rfl⟩, rfl⟩ e
  have a0 : L.asin 0 = 0 := by
    have := hL.asin 0 le_rfl (by norm_num)
    simpa using this
  rw [Edip.zero_mag hL hdot x y en ev, if_pos (by norm_num), a0] at h
  simpa [rnd_zero] using h.symm

/-- C224: and it is a number, and wrong by 90 degrees, whenever the triangles are not too thin and the sums not too short for that. -/
theorem C224_equator_violated {u k B R : ℝ} (hu : Precise u) {L : MathLib} (hL : RightTo u L) {dot : D3 → D3 → ℚ} (hdot : InnerProduct dot) (hk : 1000000000000 * (k * u) ≤ 1) (hku : 2000000000 * (k ^ 2 * u) ≤ 1)
    (hB : 1 ≤ B) (hB' : B ≤ 80000) {qs : List (Quad GeoPoint)} (hq : ∀ q ∈ qs, PerimetersUpTo B q ∧ Stout k q ∧ Roomy q) (hn : qs.length ≤ 1000000) {N U : V3} (h : NormalAndUp qs N U) (hR : 1 / 1000 ≤ R)
    (hN : 1000000 * R ≤ √(innerOf N N)) (hU : 1000000 * R ≤ √(innerOf U U)) (hE : 100 * (qs.length * (3000000 * k * B + 600000 * B ^ 2 + B ^ 2 * qs.length) * u) ≤ R)
    (hl : ∀ q ∈ qs, q.p0.lat = 0 ∧ q.p1.lat = 0 ∧ q.p2.lat = 0 ∧ q.p3.lat = 0) : edgeDip L dot qs = some 0 ∧ AngleOfLines N U 90 := by
  constructor
  · obtain ⟨s, t, e, ns, nt⟩ := Edip.loop_near hu hL hk hku hB hB' qs N U 0 ⟨0, 0, 0⟩ ⟨0, 0, 0⟩ ⟨0, 0, 0⟩ ⟨0, 0, 0⟩ h hq (by omega) (by simp [Edip.Small]) (by simp [Edip.Small]) (by simp [Edge.Near]) (by simp [Edge.Near])
    have z : ∀ a : V3, (⟨0, 0, 0⟩ : V3).add a = a := fun a => by
      simp only [V3.add]
      ext <;> simp
    rw [z] at ns nt
    rw [zero_add] at ns nt
    have sc : ∀ a : V3, (a.mul (1 / 1000)).mag = √(innerOf a a) / 1000 := fun a => by
      rw [← Edip.mag_inner, show innerOf (a.mul (1 / 1000)) (a.mul (1 / 1000)) = innerOf a a / 1000 ^ 2 by simp only [innerOf, V3.mul]; ring, Real.sqrt_div' _ (by norm_num), Real.sqrt_sq (by norm_num)]
    have small : ((2 * qs.length : ℕ) : ℝ) * ((3000000000 * k * B + 600000000 * B ^ 2) * u + 2 * (250 * B ^ 2) * (2 * qs.length : ℕ) * u) ≤ 20 * R := by
      push_cast
      linarith
    obtain ⟨n, hn', -⟩ := Sur.unit_real hu hL ns (by rw [sc]; linarith) (by rw [sc]; linarith)
    obtain ⟨v, hv, -⟩ := Sur.unit_real hu hL nt (by rw [sc]; linarith) (by rw [sc]; linarith)
    obtain ⟨x, y⟩ := Edip.loop_flat hL qs (⟨0, 0, 0⟩, ⟨0, 0, 0⟩) (s, t) hl ⟨⟨rfl, rfl⟩, rfl⟩ e
    have num : ∃ D, edgeDip L dot qs = some D := by
      simp only [edgeDip, e, Option.bind_some, hn', hv, Edip.zero_mag hL hdot x y hn' hv]
      exact ⟨_, if_pos (by norm_num)⟩
    obtain ⟨D, hD⟩ := num
    rw [hD, C224_vertical_violated hL hdot hl hD]
  · have flat : N.x = 0 ∧ N.y = 0 ∧ U.z = 0 := by
      clear hE hN hU hn hq
      induction h with
      | nil => exact ⟨rfl, rfl, rfl⟩
      | @cons q c S T qs N U hc hS hT h ih =>
        obtain ⟨l0, l1, l2, l3⟩ := hl q (by simp)
        obtain ⟨i1, i2, i3⟩ := ih fun q hq' => hl q (by simp [hq'])
        have pz : ∀ {p : GeoPoint} {v : V3}, p.lat = 0 → PlacedAt p v → v.z = 0 := by
          intro p v hp hv
          have := (Ecef.geodetic_eq hv).2.2
          simpa [hp, Oq.radians] using this
        have z0 := pz l0 hc.1
        have z1 := pz l1 hc.2.1
        have z2 := pz l2 hc.2.2.1
        have z3 := pz l3 hc.2.2.2
        refine ⟨?_, ?_, ?_⟩
        · simp [V3.add, V3.mul, V3.cross, V3.sub, areaVector, i1, z0, z1, z2, z3]
        · simp [V3.add, V3.mul, V3.cross, V3.sub, areaVector, i2, z0, z1, z2, z3]
        · simp [V3.add, V3.mul, upAt, vertical, i3, l1, l3]
    obtain ⟨f1, f2, f3⟩ := flat
    refine ⟨by norm_num, le_rfl, ?_⟩
    rw [show (90 : ℝ) * (Real.pi / 180) = Real.pi / 2 by ring, Real.cos_pi_div_two]
    simp [innerOf, f1, f2, f3]

/-- Two triangles: from the equator at longitudes 0 and 90 to the north pole, and from the pole to two depths at longitude 0. -/
def Edip.slope : Quad GeoPoint := ⟨⟨0, 0, 0⟩, ⟨90, 0, 0⟩, ⟨0, 90, 0⟩, ⟨0, 0, 900⟩⟩

theorem Edip.slope_at {c : Quad V3} (h : CornersAt Edip.slope c) : ∃ b : ℝ, 6356000 ≤ b ∧ b ≤ 6357000 ∧ c = ⟨⟨6378137, 0, 0⟩, ⟨0, 6378137, 0⟩, ⟨0, 0, b⟩, ⟨5478137, 0, 0⟩⟩ := by
  obtain ⟨h0, h1, h2, h3⟩ := h
  have r : Ecef.radius 0 = 6378137 := by simp [Ecef.radius, equatorial]
  have h90 : (90 : ℝ) * (Real.pi / 180) = Real.pi / 2 := by ring
  obtain ⟨a0, a1, a2⟩ := Ecef.geodetic_eq h0
  obtain ⟨b0, b1, b2⟩ := Ecef.geodetic_eq h1
  obtain ⟨d0, d1, d2⟩ := Ecef.geodetic_eq h2
  obtain ⟨f0, f1, f2⟩ := Ecef.geodetic_eq h3
  simp only [slope, Oq.radians, Rat.cast_zero, Rat.cast_ofNat, zero_mul, Real.sin_zero, Real.cos_zero, mul_zero, mul_one, neg_zero, add_zero, h90, Real.cos_pi_div_two, Real.sin_pi_div_two, r] at a0 a1 a2 b0 b1 b2 d0 d1 d2 f0 f1 f2
  have w0 : 0 < √(1 - Ecef.e2 * 1 ^ 2) := Real.sqrt_pos.2 (by norm_num [Ecef.e2])
  have w1 : √(1 - Ecef.e2 * 1 ^ 2) ^ 2 = 1 - Ecef.e2 := by rw [Real.sq_sqrt (by norm_num [Ecef.e2])]; ring
  have e : c.p2.z = 6378137 * √(1 - Ecef.e2 * 1 ^ 2) := by
    rw [d2, ← w1, Ecef.radius, equatorial]
    field_simp
  have lo : 9966 / 10000 ≤ √(1 - Ecef.e2 * 1 ^ 2) := Real.le_sqrt_of_sq_le (by norm_num [Ecef.e2])
  have hi : √(1 - Ecef.e2 * 1 ^ 2) ≤ 99665 / 100000 := (Real.sqrt_le_left (by norm_num)).2 (by norm_num [Ecef.e2])
  have bounds : 6356000 ≤ c.p2.z ∧ c.p2.z ≤ 6357000 := by
    rw [e]
    generalize √(1 - Ecef.e2 * 1 ^ 2) = w at *
    constructor <;> linarith
  refine ⟨c.p2.z, bounds.1, bounds.2, ?_⟩
  obtain ⟨⟨_, _, _⟩, ⟨_, _, _⟩, ⟨_, _, _⟩, ⟨_, _, _⟩⟩ := c
  simp only at *
  subst a0 a1 a2 b0 b1 b2 d0 d1 f0 f1 f2
  norm_num

theorem Edip.slope_area {b S T : ℝ} (b0 : 6356000 ≤ b) (b1 : b ≤ 6357000) (hS : TriangleArea ⟨6378137, 0, 0⟩ ⟨0, 6378137, 0⟩ ⟨0, 0, b⟩ S) (hT : TriangleArea ⟨6378137, 0, 0⟩ ⟨0, 0, b⟩ ⟨5478137, 0, 0⟩ T) :
    35000000000000 ≤ S ∧ S ≤ 35200000000000 ∧ T = 450000 * b := by
  have e1 := Her.area_cross hS
  have e2 := Her.area_cross hT
  have m1 := mag_sq (((⟨6378137, 0, 0⟩ : V3).sub ⟨0, 6378137, 0⟩).cross ((⟨6378137, 0, 0⟩ : V3).sub ⟨0, 0, b⟩))
  have m2 := mag_sq (((⟨6378137, 0, 0⟩ : V3).sub ⟨0, 0, b⟩).cross ((⟨6378137, 0, 0⟩ : V3).sub ⟨5478137, 0, 0⟩))
  have p1 := mag_nonneg (((⟨6378137, 0, 0⟩ : V3).sub ⟨0, 6378137, 0⟩).cross ((⟨6378137, 0, 0⟩ : V3).sub ⟨0, 0, b⟩))
  have p2 := mag_nonneg (((⟨6378137, 0, 0⟩ : V3).sub ⟨0, 0, b⟩).cross ((⟨6378137, 0, 0⟩ : V3).sub ⟨5478137, 0, 0⟩))
  rw [show (((⟨6378137, 0, 0⟩ : V3).sub ⟨0, 6378137, 0⟩).cross ((⟨6378137, 0, 0⟩ : V3).sub ⟨0, 0, b⟩)).mag = 2 * S by linarith] at m1 p1
  rw [show (((⟨6378137, 0, 0⟩ : V3).sub ⟨0, 0, b⟩).cross ((⟨6378137, 0, 0⟩ : V3).sub ⟨5478137, 0, 0⟩)).mag = 2 * T by linarith] at m2 p2
  simp only [V3.sub, V3.cross] at m1 m2
  have lo := pow_le_pow_left₀ (by norm_num) b0 2
  have hi := pow_le_pow_left₀ (by linarith) b1 2
  refine ⟨?_, ?_, ?_⟩
  · refine (sq_le_sq₀ (by norm_num) (by linarith)).1 ?_
    nlinarith
  · refine (sq_le_sq₀ (by linarith) (by norm_num)).1 ?_
    nlinarith
  · refine (pow_left_inj₀ (by linarith) (by linarith) two_ne_zero).1 ?_
    nlinarith

theorem Edip.slope_shape : PerimetersUpTo 28000 Edip.slope ∧ Stout 150 Edip.slope ∧ Roomy Edip.slope := by
  have up : ∀ {a b : V3} {r : ℝ}, 0 ≤ r → distSq a b ≤ r ^ 2 → √(distSq a b) ≤ r := fun hr h => (Real.sqrt_le_left hr).2 h
  have low : ∀ {a b : V3} {r : ℝ}, 0 ≤ r → r ^ 2 ≤ distSq a b → r ≤ √(distSq a b) := fun hr h => Real.le_sqrt_of_sq_le h
  have key : ∀ {b : ℝ}, 6356000 ≤ b → b ≤ 6357000 → (1 ≤ perimeter ⟨6378137, 0, 0⟩ ⟨0, 6378137, 0⟩ ⟨0, 0, b⟩ ∧ perimeter ⟨6378137, 0, 0⟩ ⟨0, 6378137, 0⟩ ⟨0, 0, b⟩ ≤ 27500000) ∧
      1 ≤ perimeter ⟨6378137, 0, 0⟩ ⟨0, 0, b⟩ ⟨5478137, 0, 0⟩ ∧ perimeter ⟨6378137, 0, 0⟩ ⟨0, 0, b⟩ ⟨5478137, 0, 0⟩ ≤ 20000000 := by
    intro b b0 b1
    have lo := pow_le_pow_left₀ (by norm_num) b0 2
    have hi := pow_le_pow_left₀ (by linarith) b1 2
    unfold perimeter
    have u1 : √(distSq ⟨6378137, 0, 0⟩ ⟨0, 6378137, 0⟩) ≤ 9100000 := up (by norm_num) (by norm_num [distSq])
    have u2 : √(distSq ⟨0, 6378137, 0⟩ ⟨0, 0, b⟩) ≤ 9100000 := up (by norm_num) (by simp only [distSq]; nlinarith)
    have u3 : √(distSq ⟨0, 0, b⟩ ⟨6378137, 0, 0⟩) ≤ 9100000 := up (by norm_num) (by simp only [distSq]; nlinarith)
    have u4 : √(distSq ⟨6378137, 0, 0⟩ ⟨0, 0, b⟩) ≤ 9100000 := up (by norm_num) (by simp only [distSq]; nlinarith)
    have u5 : √(distSq ⟨0, 0, b⟩ ⟨5478137, 0, 0⟩) ≤ 9100000 := up (by norm_num) (by simp only [distSq]; nlinarith)
    have u6 : √(distSq ⟨5478137, 0, 0⟩ ⟨6378137, 0, 0⟩) ≤ 900000 := up (by norm_num) (by norm_num [distSq])
    have l1 : 1 ≤ √(distSq ⟨6378137, 0, 0⟩ ⟨0, 6378137, 0⟩) := low (by norm_num) (by norm_num [distSq])
    have l4 : 1 ≤ √(distSq ⟨5478137, 0, 0⟩ ⟨6378137, 0, 0⟩) := low (by norm_num) (by norm_num [distSq])
    have n1 := Real.sqrt_nonneg (distSq ⟨0, 6378137, 0⟩ ⟨0, 0, b⟩)
    have n2 := Real.sqrt_nonneg (distSq ⟨0, 0, b⟩ ⟨6378137, 0, 0⟩)
    have n3 := Real.sqrt_nonneg (distSq ⟨6378137, 0, 0⟩ ⟨0, 0, b⟩)
    have n4 := Real.sqrt_nonneg (distSq ⟨0, 0, b⟩ ⟨5478137, 0, 0⟩)
    refine ⟨⟨?_, ?_⟩, ?_, ?_⟩ <;> linarith
  refine ⟨⟨by norm_num [QuadOnEarth, PlaceOnEarth, slope, abs_le], fun c hc => ?_⟩, fun c hc => ?_, fun c hc => ?_, by norm_num [slope]⟩
  · obtain ⟨b, b0, b1, rfl⟩ := Edip.slope_at hc
    obtain ⟨⟨h1, h2⟩, h3, h4⟩ := key b0 b1
    exact ⟨⟨h1, by linarith⟩, h3, by linarith⟩
  · obtain ⟨b, b0, b1, rfl⟩ := Edip.slope_at hc
    obtain ⟨⟨h1, h2⟩, h3, h4⟩ := key b0 b1
    refine ⟨fun S hS => ?_, fun T hT => ?_⟩
    · have := (Edip.slope_area b0 b1 hS (Her.area_exists _ _ _)).1
      have := pow_le_pow_left₀ (by linarith) h2 2
      linarith
    · have := (Edip.slope_area b0 b1 (Her.area_exists _ _ _) hT).2.2
      have := pow_le_pow_left₀ (by linarith) h4 2
      linarith
  · obtain ⟨b, b0, b1, rfl⟩ := Edip.slope_at hc
    refine ⟨fun S hS => ?_, fun T hT => ?_⟩
    · have := (Edip.slope_area b0 b1 hS (Her.area_exists _ _ _)).1
      linarith
    · have := (Edip.slope_area b0 b1 (Her.area_exists _ _ _) hT).2.2
      linarith

theorem Edip.slope_sums {N U : V3} (h : NormalAndUp [Edip.slope] N U) :
    ∃ b S : ℝ, 6356000 ≤ b ∧ b ≤ 6357000 ∧ 35000000000000 ≤ S ∧ S ≤ 35200000000000 ∧ N = ⟨-(6378137 * b) / 2, -(5478137 * b) / 2, -6378137 ^ 2 / 2⟩ ∧ U = ⟨450000 * b, S, 0⟩ := by
  cases h with
  | @cons _ c S T _ N' U' hc hS hT h' =>
    cases h'
    obtain ⟨b, b0, b1, rfl⟩ := Edip.slope_at hc
    obtain ⟨S0, S1, rfl⟩ := Edip.slope_area b0 b1 hS hT
    have v1 : upAt Edip.slope.p1 = ⟨0, 1, 0⟩ := by
      simp only [upAt, vertical, Edip.slope, Rat.cast_zero, Rat.cast_ofNat, zero_mul, Real.cos_zero, Real.sin_zero, show (90 : ℝ) * (Real.pi / 180) = Real.pi / 2 by ring, Real.cos_pi_div_two, Real.sin_pi_div_two]
      norm_num
    have v3 : upAt Edip.slope.p3 = ⟨1, 0, 0⟩ := by
      simp only [upAt, vertical, Edip.slope, Rat.cast_zero, zero_mul, Real.cos_zero, Real.sin_zero]
      norm_num
    rw [v1, v3]
    refine ⟨b, S, b0, b1, S0, S1, ?_, ?_⟩
    · simp only [areaVector, V3.add, V3.mul, V3.cross, V3.sub]
      ext <;> simp only <;> ring
    · simp only [V3.add, V3.mul]
      ext <;> simp only <;> ring

/-- The dip of these triangles is computed to a thousandth of a degree. -/
example {dot : D3 → D3 → ℚ} (hdot : InnerProduct dot) : ∃ N U θ, NormalAndUp [Edip.slope] N U ∧ AngleOfLines N U θ ∧ ∃ D, edgeDip Geo.someLib dot [Edip.slope] = some D ∧ |(D : ℝ) - θ| ≤ 1 / 1000 := by
  obtain ⟨N, U, h, one, angle⟩ := C224_one [Edip.slope]
  obtain ⟨b, S, b0, b1, S0, S1, eN, eU⟩ := Edip.slope_sums h
  have lo := pow_le_pow_left₀ (by norm_num) b0 2
  have hi := pow_le_pow_left₀ (by linarith) b1 2
  have sl := pow_le_pow_left₀ (by norm_num) S0 2
  have sh := pow_le_pow_left₀ (by linarith) S1 2
  have iN : innerOf N N = (6378137 ^ 2 * b ^ 2 + 5478137 ^ 2 * b ^ 2 + 6378137 ^ 4) / 4 := by rw [eN]; simp only [innerOf]; ring
  have iU : innerOf U U = 450000 ^ 2 * b ^ 2 + S ^ 2 := by rw [eU]; simp only [innerOf]; ring
  have N0 : 30000000000000 ≤ √(innerOf N N) := Real.le_sqrt_of_sq_le (by rw [iN]; linarith)
  have N1 : √(innerOf N N) ≤ 33700000000000 := (Real.sqrt_le_left (by norm_num)).2 (by rw [iN]; linarith)
  have U0 : 30000000000000 ≤ √(innerOf U U) := Real.le_sqrt_of_sq_le (by rw [iU]; linarith)
  have U1 : √(innerOf U U) ≤ 35500000000000 := (Real.sqrt_le_left (by norm_num)).2 (by rw [iU]; linarith)
  have both : 600000000000000000000000000 ≤ |innerOf N U| := by
    rw [eN, eU]
    simp only [innerOf]
    have := mul_le_mul b0 S0 (by norm_num) (by linarith)
    refine le_trans ?_ (neg_le_abs _)
    linarith [show -(6378137 * b) / 2 * (450000 * b) = -(6378137 * 450000 / 2) * b ^ 2 by ring, show -(5478137 * b) / 2 * S = -(5478137 / 2) * (b * S) by ring]
  obtain ⟨θ, hθ, -⟩ := angle (by linarith) (by linarith)
  have c := hθ.2.2
  have cos1 := Real.cos_le_one (θ * (Real.pi / 180))
  have half : 1 / 2 ≤ Real.cos (θ * (Real.pi / 180)) := by
    have m := mul_le_mul N1 U1 (by linarith) (by norm_num)
    have pos : 0 < √(innerOf N N) * √(innerOf U U) := by positivity
    by_contra hc
    push Not at hc
    have := mul_le_mul_of_nonneg_right hc.le pos.le
    linarith
  have sine : Real.sin (θ * (Real.pi / 180)) ≤ 1 - 1 / 10 := by
    have := Real.sin_sq_add_cos_sq (θ * (Real.pi / 180))
    nlinarith
  obtain ⟨D, hD, nD⟩ := C224_dip (B := 28000) (k := 150) (R := 30000000) Geo.precise49 Geo.someLib_right hdot (by norm_num) (by norm_num) (by norm_num) (by norm_num) (qs := [Edip.slope]) (by simp [Edip.slope_shape]) (by simp) h
    (by norm_num) (by linarith) (by linarith) hθ (η := 1 / 10) (by norm_num) sine rfl (by simp only [List.length_cons, List.length_nil]; norm_num)
  refine ⟨N, U, θ, h, hθ, D, hD, nD.trans ?_⟩
  have r : 3 / 10 ≤ √(1 / 10 : ℝ) := Real.le_sqrt_of_sq_le (by norm_num)
  have : ((54 * (([Edip.slope].length : ℝ) * (3000000 * 150 * 28000 + 600000 * 28000 ^ 2 + 28000 ^ 2 * ([Edip.slope].length : ℝ)) / 30000000) + 200) * 2 ^ (-49 : ℤ)) / √(1 / 10 : ℝ) ≤ 1 / 100000 := by
    rw [div_le_iff₀ (by linarith)]
    simp only [List.length_cons, List.length_nil]
    norm_num at r ⊢
    linarith
  norm_num at this ⊢
  linarith

/-- A vertical rupture along the equator, from longitude 0 to longitude 90 and 900 kilometres deep. -/
def Edip.wall : Quad GeoPoint := ⟨⟨0, 0, 0⟩, ⟨90, 0, 0⟩, ⟨90, 0, 900⟩, ⟨0, 0, 900⟩⟩

theorem Edip.wall_at {c : Quad V3} (h : CornersAt Edip.wall c) : c = ⟨⟨6378137, 0, 0⟩, ⟨0, 6378137, 0⟩, ⟨0, 5478137, 0⟩, ⟨5478137, 0, 0⟩⟩ := by
  obtain ⟨h0, h1, h2, h3⟩ := h
  have r : Ecef.radius 0 = 6378137 := by simp [Ecef.radius, equatorial]
  have h90 : (90 : ℝ) * (Real.pi / 180) = Real.pi / 2 := by ring
  obtain ⟨a0, a1, a2⟩ := Ecef.geodetic_eq h0
  obtain ⟨b0, b1, b2⟩ := Ecef.geodetic_eq h1
  obtain ⟨d0, d1, d2⟩ := Ecef.geodetic_eq h2
  obtain ⟨f0, f1, f2⟩ := Ecef.geodetic_eq h3
  simp only [wall, Oq.radians, Rat.cast_zero, Rat.cast_ofNat, zero_mul, Real.sin_zero, Real.cos_zero, mul_zero, mul_one, neg_zero, add_zero, h90, Real.cos_pi_div_two, Real.sin_pi_div_two, r] at a0 a1 a2 b0 b1 b2 d0 d1 d2 f0 f1 f2
  obtain ⟨⟨_, _, _⟩, ⟨_, _, _⟩, ⟨_, _, _⟩, ⟨_, _, _⟩⟩ := c
  simp only at *
  subst a0 a1 a2 b0 b1 b2 d0 d1 d2 f0 f1 f2
  norm_num

theorem Edip.wall_area {S T : ℝ} (hS : TriangleArea ⟨6378137, 0, 0⟩ ⟨0, 6378137, 0⟩ ⟨0, 5478137, 0⟩ S) (hT : TriangleArea ⟨6378137, 0, 0⟩ ⟨0, 5478137, 0⟩ ⟨5478137, 0, 0⟩ T) : S = 2870161650000 ∧ T = 2465161650000 := by
  rw [Her.area_cross hS, Her.area_cross hT]
  constructor
  · rw [show ((⟨6378137, 0, 0⟩ : V3).sub ⟨0, 6378137, 0⟩).cross ((⟨6378137, 0, 0⟩ : V3).sub ⟨0, 5478137, 0⟩) = ⟨0, 0, 5740323300000⟩ by simp only [V3.sub, V3.cross]; ext <;> norm_num]
    rw [show (⟨0, 0, 5740323300000⟩ : V3).mag = 5740323300000 by simp [V3.mag]]
    norm_num
  · rw [show ((⟨6378137, 0, 0⟩ : V3).sub ⟨0, 5478137, 0⟩).cross ((⟨6378137, 0, 0⟩ : V3).sub ⟨5478137, 0, 0⟩) = ⟨0, 0, 4930323300000⟩ by simp only [V3.sub, V3.cross]; ext <;> norm_num]
    rw [show (⟨0, 0, 4930323300000⟩ : V3).mag = 4930323300000 by simp [V3.mag]]
    norm_num

theorem Edip.wall_shape : PerimetersUpTo 20000 Edip.wall ∧ Stout 170 Edip.wall ∧ Roomy Edip.wall := by
  have up : ∀ {a b : V3} {r : ℝ}, 0 ≤ r → distSq a b ≤ r ^ 2 → √(distSq a b) ≤ r := fun hr h => (Real.sqrt_le_left hr).2 h
  have low : ∀ {a b : V3} {r : ℝ}, 0 ≤ r → r ^ 2 ≤ distSq a b → r ≤ √(distSq a b) := fun hr h => Real.le_sqrt_of_sq_le h
  have key : (1 ≤ perimeter ⟨6378137, 0, 0⟩ ⟨0, 6378137, 0⟩ ⟨0, 5478137, 0⟩ ∧ perimeter ⟨6378137, 0, 0⟩ ⟨0, 6378137, 0⟩ ⟨0, 5478137, 0⟩ ≤ 20000000) ∧
      1 ≤ perimeter ⟨6378137, 0, 0⟩ ⟨0, 5478137, 0⟩ ⟨5478137, 0, 0⟩ ∧ perimeter ⟨6378137, 0, 0⟩ ⟨0, 5478137, 0⟩ ⟨5478137, 0, 0⟩ ≤ 20000000 := by
    unfold perimeter
    have u1 : √(distSq ⟨6378137, 0, 0⟩ ⟨0, 6378137, 0⟩) ≤ 9100000 := up (by norm_num) (by norm_num [distSq])
    have u2 : √(distSq ⟨0, 6378137, 0⟩ ⟨0, 5478137, 0⟩) ≤ 900000 := up (by norm_num) (by norm_num [distSq])
    have u3 : √(distSq ⟨0, 5478137, 0⟩ ⟨6378137, 0, 0⟩) ≤ 9000000 := up (by norm_num) (by norm_num [distSq])
    have u4 : √(distSq ⟨6378137, 0, 0⟩ ⟨0, 5478137, 0⟩) ≤ 9000000 := up (by norm_num) (by norm_num [distSq])
    have u5 : √(distSq ⟨0, 5478137, 0⟩ ⟨5478137, 0, 0⟩) ≤ 9000000 := up (by norm_num) (by norm_num [distSq])
    have u6 : √(distSq ⟨5478137, 0, 0⟩ ⟨6378137, 0, 0⟩) ≤ 900000 := up (by norm_num) (by norm_num [distSq])
    have l1 : 1 ≤ √(distSq ⟨6378137, 0, 0⟩ ⟨0, 6378137, 0⟩) := low (by norm_num) (by norm_num [distSq])
    have l4 : 1 ≤ √(distSq ⟨6378137, 0, 0⟩ ⟨0, 5478137, 0⟩) := low (by norm_num) (by norm_num [distSq])
    have n1 := Real.sqrt_nonneg (distSq ⟨0, 6378137, 0⟩ ⟨0, 5478137, 0⟩)
    have n2 := Real.sqrt_nonneg (distSq ⟨0, 5478137, 0⟩ ⟨6378137, 0, 0⟩)
    have n3 := Real.sqrt_nonneg (distSq ⟨0, 5478137, 0⟩ ⟨5478137, 0, 0⟩)
    have n4 := Real.sqrt_nonneg (distSq ⟨5478137, 0, 0⟩ ⟨6378137, 0, 0⟩)
    refine ⟨⟨?_, ?_⟩, ?_, ?_⟩ <;> linarith
  obtain ⟨⟨h1, h2⟩, h3, h4⟩ := key
  refine ⟨⟨by norm_num [QuadOnEarth, PlaceOnEarth, wall, abs_le], fun c hc => ?_⟩, fun c hc => ?_, fun c hc => ?_, by norm_num [wall]⟩ <;> obtain rfl := Edip.wall_at hc
  · exact ⟨⟨h1, by linarith⟩, h3, by linarith⟩
  · refine ⟨fun S hS => ?_, fun T hT => ?_⟩
    · rw [(Edip.wall_area hS (Her.area_exists _ _ _)).1]
      have := pow_le_pow_left₀ (by linarith) h2 2
      linarith
    · rw [(Edip.wall_area (Her.area_exists _ _ _) hT).2]
      have := pow_le_pow_left₀ (by linarith) h4 2
      linarith
  · refine ⟨fun S hS => ?_, fun T hT => ?_⟩
    · rw [(Edip.wall_area hS (Her.area_exists _ _ _)).1]
      norm_num
    · rw [(Edip.wall_area (Her.area_exists _ _ _) hT).2]
      norm_num

/-- Its dip is 90, and 0 is computed. -/
example {dot : D3 → D3 → ℚ} (hdot : InnerProduct dot) : ∃ N U, NormalAndUp [Edip.wall] N U ∧ AngleOfLines N U 90 ∧ edgeDip Geo.someLib dot [Edip.wall] = some 0 := by
  obtain ⟨N, U, h, -, -⟩ := C224_one [Edip.wall]
  have v1 : upAt Edip.wall.p1 = ⟨0, 1, 0⟩ := by
    simp only [upAt, vertical, Edip.wall, Rat.cast_zero, Rat.cast_ofNat, zero_mul, Real.cos_zero, Real.sin_zero, show (90 : ℝ) * (Real.pi / 180) = Real.pi / 2 by ring, Real.cos_pi_div_two, Real.sin_pi_div_two]
    norm_num
  have v3 : upAt Edip.wall.p3 = ⟨1, 0, 0⟩ := by
    simp only [upAt, vertical, Edip.wall, Rat.cast_zero, zero_mul, Real.cos_zero, Real.sin_zero]
    norm_num
  have sizes : 3000000000000 ≤ √(innerOf N N) ∧ 3000000000000 ≤ √(innerOf U U) := by
    cases h with
    | @cons _ c S T _ N' U' hc hS hT h' =>
      cases h'
      obtain rfl := Edip.wall_at hc
      obtain ⟨rfl, rfl⟩ := Edip.wall_area hS hT
      rw [v1, v3]
      constructor <;> refine Real.le_sqrt_of_sq_le ?_ <;> norm_num [innerOf, areaVector, V3.add, V3.mul, V3.cross, V3.sub]
  obtain ⟨h1, h2⟩ := C224_equator_violated (B := 20000) (k := 170) (R := 3000000) Geo.precise49 Geo.someLib_right hdot (by norm_num) (by norm_num) (by norm_num) (by norm_num) (qs := [Edip.wall]) (by simp [Edip.wall_shape])
    (by simp) h (by norm_num) (by linarith) (by linarith) (by simp only [List.length_cons, List.length_nil]; norm_num) (by simp [Edip.wall])
  exact ⟨N, U, h, h2, h1⟩

end Verif.Props
