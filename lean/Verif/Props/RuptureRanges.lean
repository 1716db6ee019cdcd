import Verif.Props.EdgeDip
import Verif.Props.EdgeLength
import Verif.Props.QuadDip

/-!
# Lengths, areas, widths and dips of all ruptures stay in range in binary arithmetic

C225. Nothing is assumed about the shape or the place of the quadrilaterals.
-/

namespace Verif.Props
open Verif.Spec
open Verif.Dbl
open Verif.Rup (Quad)

namespace Rng
open Geo

/-- A rounded square root is no number below 0. -/
theorem root_nonneg (q : ℚ) : 0 ≤ sqrtRnd q := by
  unfold sqrtRnd
  split_ifs with h
  · exact le_rfl
  · dsimp only
    split_ifs <;> positivity

/-- A rounded sum of numbers that may not be numbers. -/
def total {α : Type} (f : α → Option ℚ) (l : List α) (s : Option ℚ) : Option ℚ :=
  l.foldl (fun s q => s.bind fun s => (f q).map fun d => rnd (s + d)) s

theorem total_none {α : Type} (f : α → Option ℚ) (l : List α) : total f l none = none := by
  induction l with
  | nil => rfl
  | cons a l ih => exact ih

/-- The sum of numbers from 0 to `b`: not below where it starts, and at most `b` more for each of them, as long as these bounds are doubles. -/
theorem total_range {α : Type} {f : α → Option ℚ} (h0 : ∀ a d, f a = some d → 0 ≤ d) :
    ∀ (l : List α) {s S : ℚ}, IsDouble s → total f l (some s) = some S → s ≤ S ∧ IsDouble S := by
  intro l
  induction l with
  | nil => rintro s S hs h; cases h; exact ⟨le_rfl, hs⟩
  | cons a l ih =>
    intro s S hs h
    rcases hf : f a with _ | d
    · have : total f (a :: l) (some s) = total f l none := by simp [total, hf]
      rw [this, total_none] at h; cases h
    · have e : total f (a :: l) (some s) = total f l (some (rnd (s + d))) := by simp [total, hf]
      rw [e] at h
      obtain ⟨h1, h2⟩ := ih (rnd_isDouble _) h
      exact ⟨(rnd_at_least hs (by linarith [h0 a d hf])).trans h1, h2⟩

theorem total_append {α : Type} {f : α → Option ℚ} (h0 : ∀ a d, f a = some d → 0 ≤ d) {l m : List α} {S : ℚ} (h : total f (l ++ m) (some 0) = some S) :
    ∃ R, total f l (some 0) = some R ∧ 0 ≤ R ∧ R ≤ S := by
  have e : total f (l ++ m) (some 0) = total f m (total f l (some 0)) := by simp [total, List.foldl_append]
  rw [e] at h
  rcases hR : total f l (some 0) with _ | R
  · rw [hR, total_none] at h; cases h
  · rw [hR] at h
    obtain ⟨h1, h2⟩ := total_range h0 l zero_double hR
    exact ⟨R, rfl, h1, (total_range h0 m h2 h).1⟩

/-- The sum of `n` numbers up to the whole number `b` is at most `n b`. -/
theorem total_above {α : Type} {f : α → Option ℚ} {b : ℕ} (hb : ∀ a d, f a = some d → d ≤ b) :
    ∀ (l : List α) {k : ℕ} {s S : ℚ}, s ≤ (k : ℚ) → k + b * l.length ≤ 2 ^ 53 → total f l (some s) = some S → S ≤ k + b * l.length := by
  intro l
  induction l with
  | nil => rintro k s S hs - h; cases h; simpa using hs
  | cons a l ih =>
    intro k s S hs hk h
    rw [List.length_cons] at hk ⊢
    rcases hf : f a with _ | d
    · have : total f (a :: l) (some s) = total f l none := by simp [total, hf]
      rw [this, total_none] at h; cases h
    · have e : total f (a :: l) (some s) = total f l (some (rnd (s + d))) := by simp [total, hf]
      rw [e] at h
      have hk' : k + b + b * l.length ≤ 2 ^ 53 := by rw [Nat.mul_add, Nat.mul_one] at hk; omega
      have := ih (k := k + b) (rnd_at_most (nat_double (by omega)) (by push_cast; linarith [hb a d hf])) hk' h
      push_cast at this ⊢
      linarith

theorem heron_nonneg {a b c A : ℚ} (h : heronArea a b c = some A) : 0 ≤ A := by
  unfold heronArea at h
  dsimp only at h
  split_ifs at h
  cases h
  exact root_nonneg _

theorem pair_nonneg {L : MathLib} (q : Quad GeoPoint) (A : ℚ) (h : pairArea L q = some A) : 0 ≤ A := by
  simp only [pairArea, Option.bind_eq_some_iff, Option.map_eq_some_iff] at h
  obtain ⟨A1, h1, A2, h2, rfl⟩ := h
  exact rnd_nonneg (div_nonneg (rnd_nonneg (div_nonneg (rnd_nonneg (add_nonneg (heron_nonneg h1) (heron_nonneg h2))) (by norm_num))) (by norm_num))

theorem step_nonneg {L : MathLib} (q : Quad GeoPoint) (d : ℚ) (h : surfaceStep L q = some d) : 0 ≤ d := by
  simp only [surfaceStep, depthDistance, Option.map_eq_some_iff] at h
  obtain ⟨x, -, rfl⟩ := h
  exact root_nonneg _

theorem dip_range {L : MathLib} {dot : D3 → D3 → ℚ} {acos : ℚ → ℚ} (ha : ∀ x, |x| ≤ 1 → 0 ≤ acos x ∧ acos x ≤ npyPi) (q : Quad GeoPoint) (d : ℚ) (h : Dbl.quadDip L dot acos q = some d) :
    0 ≤ d ∧ d ≤ 180 := by
  simp only [Dbl.quadDip, Option.bind_eq_some_iff] at h
  obtain ⟨n, -, v, -, h⟩ := h
  split_ifs at h with hx
  cases h
  obtain ⟨h1, h2⟩ := ha _ hx
  have hp : 0 ≤ rnd (180 / npyPi) := by decide +kernel
  exact ⟨rnd_nonneg (mul_nonneg h1 hp), (abs_le.1 (course_range (by rw [abs_of_nonneg h1]; exact h2))).2⟩

end Rng

/-- C225: the area of a rupture of edges is no number below 0 and never gets smaller with more quadrilaterals, whatever the library computes. -/
theorem C225_area (L : MathLib) (qs rs : List (Quad GeoPoint)) (S : ℚ) (h : edgeArea L (qs ++ rs) = some S) :
    ∃ R, edgeArea L qs = some R ∧ 0 ≤ R ∧ R ≤ S := Rng.total_append Rng.pair_nonneg h

/-- C225: the same for the length of a rupture of edges. -/
theorem C225_length (L : MathLib) (qs rs : List (Quad GeoPoint)) (S : ℚ) (h : edgeLength L (qs ++ rs) = some S) :
    ∃ R, edgeLength L qs = some R ∧ 0 ≤ R ∧ R ≤ S := Rng.total_append Rng.step_nonneg h

/-- C225: a width of a rupture of edges is no number below 0, and needs a length above 0. -/
theorem C225_width (L : MathLib) (qs : List (Quad GeoPoint)) (W : ℚ) (h : edgeWidth L qs = .ok (some W)) :
    0 ≤ W ∧ ∃ ℓ, edgeLength L qs = some ℓ ∧ 0 < ℓ := by
  unfold edgeWidth at h
  split_ifs at h with hn
  simp only [Except.ok.injEq, Option.bind_eq_some_iff] at h
  obtain ⟨A, hA, ℓ, hℓ, h⟩ := h
  split_ifs at h with h0
  cases h
  obtain ⟨A', hA', A0, -⟩ := C225_area L qs [] A (by rwa [List.append_nil])
  obtain ⟨ℓ', hℓ', ℓ0, -⟩ := C225_length L qs [] ℓ (by rwa [List.append_nil])
  rw [hA] at hA'
  rw [hℓ] at hℓ'
  cases hA'
  cases hℓ'
  exact ⟨rnd_nonneg (div_nonneg A0 ℓ0), ℓ, hℓ, lt_of_le_of_ne ℓ0 (Ne.symm h0)⟩

/-- C225: a dip of a rupture of edges is from 0 to 90 degrees, for every library with arc sines from 0 to a quarter of a turn, and is not a number without quadrilaterals. -/
theorem C225_edge_dip (L : MathLib) (hL : ∀ x, 0 ≤ x → x ≤ 1 → 0 ≤ L.asin x ∧ L.asin x ≤ npyPi / 2) (sq0 : L.sq 0 = 0) (dot : D3 → D3 → ℚ) :
    (∀ qs D, edgeDip L dot qs = some D → 0 ≤ D ∧ D ≤ 90) ∧ edgeDip L dot [] = none := by
  refine ⟨fun qs D h => ?_, ?_⟩
  · simp only [edgeDip, Option.bind_eq_some_iff] at h
    obtain ⟨s, -, n, -, v, -, h⟩ := h
    split_ifs at h with hx
    cases h
    obtain ⟨h1, h2⟩ := hL _ (by unfold D3.mag; exact Rng.root_nonneg _) hx
    have hp : (0 : ℚ) < npyPi := by decide +kernel
    have top : rnd (rnd (npyPi / 2 * 180) / npyPi) = 90 := by decide +kernel
    exact ⟨rnd_nonneg (div_nonneg (rnd_nonneg (by linarith)) hp.le),
      (rnd_mono (div_le_div_of_nonneg_right (rnd_mono (by linarith)) hp.le)).trans top.le⟩
  · simp [edgeDip, D3.norm, D3.mag, sq0, rnd_zero, sqrtRnd]

/-- C225: a dip of a rupture of up to a trillion quadrilaterals is from 0 to 180 degrees, for every library with arc cosines from 0 to half a turn. -/
theorem C225_quad_dip (L : MathLib) (dot : D3 → D3 → ℚ) {acos : ℚ → ℚ} (ha : ∀ x, |x| ≤ 1 → 0 ≤ acos x ∧ acos x ≤ npyPi) (qs : List (Quad GeoPoint)) (hn : qs.length ≤ 10 ^ 12)
    (D : ℚ) (h : Dbl.ruptureDip L dot acos qs = .ok (some D)) : 0 ≤ D ∧ D ≤ 180 := by
  unfold Dbl.ruptureDip at h
  split_ifs at h with h0
  simp only [Except.ok.injEq, Option.map_eq_some_iff] at h
  obtain ⟨S, hS, rfl⟩ := h
  have hS' : Rng.total (Dbl.quadDip L dot acos) qs (some 0) = some S := hS
  have lo := (Rng.total_range (fun q d h => (Rng.dip_range ha q d h).1) qs zero_double hS').1
  have hi := Rng.total_above (b := 180) (fun q d h => by exact_mod_cast (Rng.dip_range ha q d h).2) qs (k := 0) (by simp) (by omega) hS'
  have pos : (0 : ℚ) < qs.length := by exact_mod_cast Nat.pos_of_ne_zero h0
  refine ⟨rnd_nonneg (div_nonneg lo pos.le), rnd_at_most (by exact_mod_cast nat_double (n := 180) (by norm_num)) ?_⟩
  rw [div_le_iff₀ pos]
  push_cast at hi
  linarith

/-- A library of short power series, that evaluates. -/
def Rng.series : MathLib where
  sin x := rnd (x - x ^ 3 / 6 + x ^ 5 / 120)
  cos x := rnd (1 - x ^ 2 / 2 + x ^ 4 / 24)
  sq x := rnd (x * x)
  asin x := rnd (x + x ^ 3 / 6 + 3 * x ^ 5 / 40)

/-- The sum of the products from left to right. -/
def Rng.sumDot (a b : D3) : ℚ := rnd (rnd (rnd (a.x * b.x) + rnd (a.y * b.y)) + rnd (a.z * b.z))

/-- A rupture that dips to the north. -/
def Rng.ramp : Quad GeoPoint := ⟨⟨1, 1, 0⟩, ⟨2, 1, 0⟩, ⟨2, 2, 30⟩, ⟨1, 2, 30⟩⟩

theorem Rng.series_asin (x : ℚ) (h0 : 0 ≤ x) (h1 : x ≤ 1) : 0 ≤ Rng.series.asin x ∧ Rng.series.asin x ≤ npyPi / 2 := by
  have p3 := pow_le_one₀ (n := 3) h0 h1
  have p5 := pow_le_one₀ (n := 5) h0 h1
  refine ⟨rnd_nonneg (by positivity), ?_⟩
  have top : rnd (3 / 2) ≤ npyPi / 2 := by decide +kernel
  exact (rnd_mono (by linarith)).trans top

/-- An arc cosine with one term of its series. -/
def Rng.seriesAcos (x : ℚ) : ℚ := rnd (npyPi / 2 - x)

theorem Rng.series_acos (x : ℚ) (h : |x| ≤ 1) : 0 ≤ Rng.seriesAcos x ∧ Rng.seriesAcos x ≤ npyPi := by
  obtain ⟨h1, h2⟩ := abs_le.1 h
  have lo : (1 : ℚ) ≤ npyPi / 2 := by decide +kernel
  have top : rnd (npyPi / 2 + 1) ≤ npyPi := by decide +kernel
  exact ⟨rnd_nonneg (by linarith), (rnd_mono (by linarith)).trans top⟩

/-- Ruptures whose lengths, areas, widths and dips are numbers. -/
example : (∃ S, edgeArea Rng.series [Rng.ramp, Rng.ramp] = some S ∧ 0 < S) ∧ (∃ S, edgeLength Rng.series [Rng.ramp, Rng.ramp] = some S ∧ 0 < S) ∧
    (∃ W, edgeWidth Rng.series [Rng.ramp] = .ok (some W) ∧ 0 < W) ∧ (∃ D, edgeDip Rng.series Rng.sumDot [Rng.ramp, Rng.ramp] = some D ∧ 0 < D ∧ D < 90) ∧
    ∃ D, Dbl.ruptureDip Rng.series Rng.sumDot Rng.seriesAcos [Rng.ramp] = .ok (some D) ∧ 0 < D ∧ D < 180 := by
  have get : ∀ (o : Option ℚ) (p : ℚ → Bool), (o.any p = true) → ∃ x, o = some x ∧ p x = true := by
    rintro (_ | x) p h
    · cases h
    · exact ⟨x, rfl, h⟩
  refine ⟨?_, ?_, ?_, ?_, ?_⟩
  · simpa using get (edgeArea Rng.series [Rng.ramp, Rng.ramp]) (fun x => decide (0 < x)) (by decide +kernel)
  · simpa using get (edgeLength Rng.series [Rng.ramp, Rng.ramp]) (fun x => decide (0 < x)) (by decide +kernel)
  · obtain ⟨x, hx, h⟩ := get ((edgeArea Rng.series [Rng.ramp]).bind fun area => (edgeLength Rng.series [Rng.ramp]).bind fun length => if length = 0 then none else some (rnd (area / length)))
      (fun x => decide (0 < x)) (by decide +kernel)
    exact ⟨x, by simp [edgeWidth, hx], by simpa using h⟩
  · simpa using get (edgeDip Rng.series Rng.sumDot [Rng.ramp, Rng.ramp]) (fun x => decide (0 < x ∧ x < 90)) (by decide +kernel)
  · obtain ⟨x, hx, h⟩ := get ((dipSum Rng.series Rng.sumDot Rng.seriesAcos [Rng.ramp] (some 0)).map fun s => rnd (s / ([Rng.ramp].length : ℕ))) (fun x => decide (0 < x ∧ x < 180)) (by decide +kernel)
    exact ⟨x, by simp only [Dbl.ruptureDip, hx]; simp, by simpa using h⟩

end Verif.Props
