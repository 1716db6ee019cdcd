import Verif.Model.QuadDistDouble
import Verif.Props.RuptureRanges
import Verif.Props.EdgeDouble

/-!
# Distances to ruptures of quadrilaterals in binary arithmetic: order, parts and range

C226. Nothing is assumed about the shape or the place of the quadrilaterals, or about what the library computes.
-/

namespace Verif.Props
open Verif.Spec
open Verif.Dbl
open Verif.Rup (Quad)

namespace Ord

variable {L : MathLib} {sum : ℚ → ℚ → ℚ → ℚ} {zeros : Quad D3 → Quad Bool} {flat : Bool} {x : D3}

/-- The loop gives the number `D`, starting from `m`, exactly if all distances are numbers and `D` is the least of them and `m`. -/
theorem least_iff (qs : List (Quad D3)) : ∀ (m D : ℚ), leastDistance L sum zeros flat x qs m = some D ↔
    (∀ q ∈ qs, ∃ d, quadDistance L sum (zeros q) flat q x = some d ∧ D ≤ d) ∧ D ≤ m ∧ (D = m ∨ ∃ q ∈ qs, quadDistance L sum (zeros q) flat q x = some D) := by
  induction qs with
  | nil =>
    intro m D
    simp only [leastDistance, List.not_mem_nil, false_imp_iff, implies_true, false_and, exists_false, or_false, true_and, Option.some.injEq]
    exact ⟨fun h => ⟨h.ge, h.symm⟩, fun h => h.2.symm⟩
  | cons q qs ih =>
    intro m D
    simp only [List.forall_mem_cons, List.exists_mem_cons_iff]
    rcases hd : quadDistance L sum (zeros q) flat q x with _ | d
    · simp [leastDistance, hd]
    · simp only [leastDistance, hd, ih, le_min_iff, Option.some.injEq, exists_eq_left']
      constructor
      · rintro ⟨h1, ⟨h2, h3⟩, h4⟩
        refine ⟨⟨h3, h1⟩, h2, ?_⟩
        rcases h4 with h4 | h4
        · rcases min_choice m d with e | e
          · exact .inl (h4.trans e)
          · exact .inr (.inl (h4.trans e).symm)
        · exact .inr (.inr h4)
      · rintro ⟨⟨h3, h1⟩, h2, h4⟩
        refine ⟨h1, ⟨h2, h3⟩, ?_⟩
        rcases h4 with h4 | h4 | h4
        · exact .inl (le_antisymm (le_min h2 h3) (h4 ▸ min_le_left _ _))
        · exact .inl (le_antisymm (le_min h2 h3) (h4 ▸ min_le_right _ _))
        · exact .inr h4

theorem least_same {qs rs : List (Quad D3)} (h : ∀ q, q ∈ qs ↔ q ∈ rs) (m : ℚ) : leastDistance L sum zeros flat x qs m = leastDistance L sum zeros flat x rs m := by
  ext D
  rw [least_iff, least_iff]
  simp only [h]

theorem least_append (qs rs : List (Quad D3)) (m D : ℚ) : leastDistance L sum zeros flat x (qs ++ rs) m = some D ↔
    ∃ A B, leastDistance L sum zeros flat x qs m = some A ∧ leastDistance L sum zeros flat x rs m = some B ∧ D = min A B := by
  have all : ∀ (rs : List (Quad D3)) (a b D : ℚ), leastDistance L sum zeros flat x rs (min a b) = some D ↔ ∃ B, leastDistance L sum zeros flat x rs b = some B ∧ D = min a B := by
    intro rs
    induction rs with
    | nil =>
      intro a b D
      simp only [leastDistance, Option.some.injEq, exists_eq_left']
      exact eq_comm
    | cons q rs ih =>
      intro a b D
      rcases hd : quadDistance L sum (zeros q) flat q x with _ | d
      · simp [leastDistance, hd]
      · simp only [leastDistance, hd, min_assoc, ih]
  have shift : ∀ a, a ≤ m → ∀ D, leastDistance L sum zeros flat x rs a = some D ↔ ∃ B, leastDistance L sum zeros flat x rs m = some B ∧ D = min a B := fun a ha D => by
    have := all rs a m D
    rwa [min_eq_left ha] at this
  have app : ∀ (qs : List (Quad D3)) (m : ℚ), leastDistance L sum zeros flat x (qs ++ rs) m = (leastDistance L sum zeros flat x qs m).bind fun A => leastDistance L sum zeros flat x rs A := by
    intro qs
    induction qs with
    | nil => intro m; rfl
    | cons q qs ih =>
      intro m
      rcases hd : quadDistance L sum (zeros q) flat q x with _ | d
      · simp [leastDistance, hd]
      · simp only [List.cons_append, leastDistance, hd, ih]
  rw [app, Option.bind_eq_some_iff]
  constructor
  · rintro ⟨A, hA, h⟩
    obtain ⟨B, hB, e⟩ := (shift A ((least_iff qs m A).1 hA).2.1 D).1 h
    exact ⟨A, B, hA, hB, e⟩
  · rintro ⟨A, B, hA, hB, e⟩
    exact ⟨A, hA, (shift A ((least_iff qs m A).1 hA).2.1 D).2 ⟨B, hB, e⟩⟩

theorem distance_nonneg {q : Quad D3} {z : Quad Bool} {d : ℚ} (h : quadDistance L sum z flat q x = some d) : 0 ≤ d := by
  simp only [quadDistance, Option.map_eq_some_iff] at h
  obtain ⟨n, -, rfl⟩ := h
  exact rnd_nonneg (div_nonneg (Rng.root_nonneg _) (by norm_num))

theorem least_nonneg {qs : List (Quad D3)} {m D : ℚ} (hm : 0 ≤ m) (h : leastDistance L sum zeros flat x qs m = some D) : 0 ≤ D := by
  obtain ⟨-, -, h⟩ := (least_iff qs m D).1 h
  rcases h with rfl | ⟨q, -, h⟩
  · exact hm
  · exact distance_nonneg h

end Ord

/-- C226: distances that are numbers are from 0 to 1e16, and are 1e16 without quadrilaterals. -/
theorem C226_range (L : MathLib) (sum : ℚ → ℚ → ℚ → ℚ) (zeros : Quad D3 → Quad Bool) (site : GeoPoint) :
    (∀ qs D, quadRrup L sum zeros qs site = some D → 0 ≤ D ∧ D ≤ 10 ^ 16) ∧ (∀ qs D, quadRjb L sum zeros qs site = some D → 0 ≤ D ∧ D ≤ 10 ^ 16) ∧
    quadRrup L sum zeros [] site = some (10 ^ 16) ∧ quadRjb L sum zeros [] site = some (10 ^ 16) :=
  ⟨fun _ _ h => ⟨Ord.least_nonneg (by norm_num) h, ((Ord.least_iff _ _ _).1 h).2.1⟩, fun _ _ h => ⟨Ord.least_nonneg (by norm_num) h, ((Ord.least_iff _ _ _).1 h).2.1⟩, rfl, rfl⟩

/-- C226: the distances to a rupture of two parts are the smaller one of the distances to the parts, to the last bit, and are numbers exactly if those are. -/
theorem C226_parts (L : MathLib) (sum : ℚ → ℚ → ℚ → ℚ) (zeros : Quad D3 → Quad Bool) (site : GeoPoint) (qs rs : List (Quad GeoPoint)) (D : ℚ) :
    (quadRrup L sum zeros (qs ++ rs) site = some D ↔ ∃ A B, quadRrup L sum zeros qs site = some A ∧ quadRrup L sum zeros rs site = some B ∧ D = min A B) ∧
    (quadRjb L sum zeros (qs ++ rs) site = some D ↔ ∃ A B, quadRjb L sum zeros qs site = some A ∧ quadRjb L sum zeros rs site = some B ∧ D = min A B) := by
  unfold quadRrup quadRjb
  rw [List.map_append, List.map_append]
  exact ⟨Ord.least_append _ _ _ _, Ord.least_append _ _ _ _⟩

/-- C226: the distances depend on which quadrilaterals there are only, not on their order or on how often each of them occurs. -/
theorem C226_order (L : MathLib) (sum : ℚ → ℚ → ℚ → ℚ) (zeros : Quad D3 → Quad Bool) (site : GeoPoint) (qs rs : List (Quad GeoPoint)) (h : ∀ q, q ∈ qs ↔ q ∈ rs) :
    quadRrup L sum zeros qs site = quadRrup L sum zeros rs site ∧ quadRjb L sum zeros qs site = quadRjb L sum zeros rs site :=
  ⟨Ord.least_same (by simp [h]) _, Ord.least_same (by simp [h]) _⟩

/-- C226: the Joyner-Boore distance does not depend on the depths of the corners: it is the same for quadrilaterals whose corners are under the same places. -/
theorem C226_depth (L : MathLib) (sum : ℚ → ℚ → ℚ → ℚ) (zeros : Quad D3 → Quad Bool) (site : GeoPoint) (qs rs : List (Quad GeoPoint))
    (h : List.Forall₂ (fun q r => (q.p0.lon = r.p0.lon ∧ q.p0.lat = r.p0.lat) ∧ (q.p1.lon = r.p1.lon ∧ q.p1.lat = r.p1.lat) ∧
      (q.p2.lon = r.p2.lon ∧ q.p2.lat = r.p2.lat) ∧ (q.p3.lon = r.p3.lon ∧ q.p3.lat = r.p3.lat)) qs rs) :
    quadRjb L sum zeros qs site = quadRjb L sum zeros rs site := by
  have e : (qs.map fun q => corners L (flattened q)) = rs.map fun q => corners L (flattened q) := by
    induction h with
    | nil => rfl
    | cons h _ ih =>
      obtain ⟨⟨a, b⟩, ⟨c, d⟩, ⟨e, f⟩, g, i⟩ := h
      rw [List.map_cons, List.map_cons, ih]
      simp only [flattened, a, b, c, d, e, f, g, i]
  unfold quadRjb
  rw [e]

open Edge Geo in
/-- C226: also the distances to a rupture of edges depend on which quadrilaterals there are only, and those to a rupture of two parts are the smaller one of the distances to the parts. -/
theorem C226_edges (L : MathLib) (mean : List ℚ → ℚ) (dx : ℚ) (site : GeoPoint) (qs rs : List (Quad GeoPoint)) :
    ((∀ q, q ∈ qs ↔ q ∈ rs) → edgeRrup L mean dx qs site = edgeRrup L mean dx rs site ∧ edgeRjb L mean dx qs site = edgeRjb L mean dx rs site) ∧
    (∀ A B, edgeRrup L mean dx qs site = some A → edgeRrup L mean dx rs site = some B → edgeRrup L mean dx (qs ++ rs) site = some (min A B)) ∧
    (∀ A B, edgeRjb L mean dx qs site = some A → edgeRjb L mean dx rs site = some B → edgeRjb L mean dx (qs ++ rs) site = some (min A B)) := by
  have le : ∀ {qs rs : List (Quad GeoPoint)} {A B : ℚ}, (∀ q, q ∈ rs → q ∈ qs) → edgeRrup L mean dx qs site = some A → edgeRrup L mean dx rs site = some B → A ≤ B := by
    intro qs rs A B h hA hB
    obtain ⟨⟨q, hq, j, hj, i, hi, e⟩, -⟩ := rrup_spec hB
    rw [e]
    exact (rrup_spec hA).2 q (h q hq) j hj i hi
  have same : ∀ {qs rs : List (Quad GeoPoint)}, (∀ q, q ∈ qs ↔ q ∈ rs) → edgeRrup L mean dx qs site = edgeRrup L mean dx rs site := by
    intro qs rs h
    have nil : qs = [] ↔ rs = [] := by simp only [List.eq_nil_iff_forall_not_mem, h]
    have some_iff := ((C207_exact L mean dx qs [] site).1.trans (not_congr nil)).trans (C207_exact L mean dx rs [] site).1.symm
    rcases hA : edgeRrup L mean dx qs site with _ | A <;> rcases hB : edgeRrup L mean dx rs site with _ | B
    · rfl
    · simp [hA, hB] at some_iff
    · simp [hA, hB] at some_iff
    · rw [le_antisymm (le (fun q => (h q).2) hA hB) (le (fun q => (h q).1) hB hA)]
  have parts : ∀ {qs rs : List (Quad GeoPoint)} {A B : ℚ}, edgeRrup L mean dx qs site = some A → edgeRrup L mean dx rs site = some B → edgeRrup L mean dx (qs ++ rs) site = some (min A B) := by
    intro qs rs A B hA hB
    have ne : qs ≠ [] := (C207_exact L mean dx qs [] site).1.1 (by simp [hA])
    obtain ⟨D, hD⟩ := Option.isSome_iff_exists.1 ((C207_exact L mean dx (qs ++ rs) [] site).1.2 (by simp [ne]))
    rw [hD, Option.some.injEq]
    refine le_antisymm (le_min (le (by simp +contextual) hD hA) (le (by simp +contextual) hD hB)) ?_
    obtain ⟨⟨q, hq, j, hj, i, hi, e⟩, -⟩ := rrup_spec hD
    rw [e]
    rcases List.mem_append.1 hq with hq | hq
    · exact (min_le_left _ _).trans ((rrup_spec hA).2 q hq j hj i hi)
    · exact (min_le_right _ _).trans ((rrup_spec hB).2 q hq j hj i hi)
  refine ⟨fun h => ⟨same h, same (by simp [h])⟩, fun A B => parts, fun A B hA hB => ?_⟩
  have := parts hA hB
  rwa [← List.map_append] at this

/-- A second quadrilateral, beside the first. -/
def Ord.next : Quad GeoPoint := ⟨⟨3, 1, 0⟩, ⟨4, 1, 0⟩, ⟨4, 2, 30⟩, ⟨3, 2, 30⟩⟩

/-- A rupture of two quadrilaterals, whose distances are numbers: the second one is nearer. -/
example : ∃ A B D, quadRrup Rng.series (fun a b c => rnd (rnd (a + b) + c)) (fun _ => ⟨false, false, false, false⟩) [Rng.ramp] ⟨5, 1, 0⟩ = some A ∧
    quadRrup Rng.series (fun a b c => rnd (rnd (a + b) + c)) (fun _ => ⟨false, false, false, false⟩) [Ord.next] ⟨5, 1, 0⟩ = some B ∧
    quadRrup Rng.series (fun a b c => rnd (rnd (a + b) + c)) (fun _ => ⟨false, false, false, false⟩) [Rng.ramp, Ord.next] ⟨5, 1, 0⟩ = some D ∧ B < A ∧ D = B ∧ 0 < D := by
  have get : ∀ (o : Option ℚ) (p : ℚ → Bool), (o.any p = true) → ∃ x, o = some x ∧ p x = true := by
    rintro (_ | x) p h
    · cases h
    · exact ⟨x, rfl, h⟩
  obtain ⟨A, hA, a⟩ := get (quadRrup Rng.series (fun a b c => rnd (rnd (a + b) + c)) (fun _ => ⟨false, false, false, false⟩) [Rng.ramp] ⟨5, 1, 0⟩) (fun x => decide (200 < x)) (by decide +kernel)
  obtain ⟨B, hB, b⟩ := get (quadRrup Rng.series (fun a b c => rnd (rnd (a + b) + c)) (fun _ => ⟨false, false, false, false⟩) [Ord.next] ⟨5, 1, 0⟩) (fun x => decide (0 < x ∧ x < 200)) (by decide +kernel)
  rw [decide_eq_true_eq] at a b
  have := ((C226_parts Rng.series (fun a b c => rnd (rnd (a + b) + c)) (fun _ => ⟨false, false, false, false⟩) ⟨5, 1, 0⟩ [Rng.ramp] [Ord.next] (min A B)).1).2 ⟨A, B, hA, hB, rfl⟩
  rw [min_eq_right (by linarith [b.2])] at this
  exact ⟨A, B, B, hA, hB, this, by linarith [b.2], rfl, b.1⟩

/-- The same for ruptures of edges. -/
example (mean : List ℚ → ℚ) (site : GeoPoint) : ∃ A B, edgeRrup Rng.series mean 1 [Rng.ramp] site = some A ∧ edgeRrup Rng.series mean 1 [Ord.next] site = some B ∧
    edgeRrup Rng.series mean 1 [Rng.ramp, Ord.next] site = some (min A B) := by
  obtain ⟨A, hA⟩ := Option.isSome_iff_exists.1 ((C207_exact Rng.series mean 1 [Rng.ramp] [] site).1.2 (by simp))
  obtain ⟨B, hB⟩ := Option.isSome_iff_exists.1 ((C207_exact Rng.series mean 1 [Ord.next] [] site).1.2 (by simp))
  exact ⟨A, B, hA, hB, (C226_edges Rng.series mean 1 site [Rng.ramp] [Ord.next]).2.1 A B hA hB⟩

end Verif.Props
