import Verif.Model.QuadRupture
import Verif.Spec.Polygon
import Verif.Props.RuptureDistance
import Verif.Props.RuptureText

/-!
# Quadrilaterals of a rupture: C71, C102, C103
-/

namespace Verif.Props
open Verif.Vec Verif.Rup Verif.QuadR Real
open Verif.Spec (panels outline)

theorem segments_append (cur l : List Point) (rows : List (Option Point)) :
    segments cur (l.map some ++ rows) = segments (cur ++ l) rows := by
  induction l generalizing cur with
  | nil => simp
  | cons p l ih => simp only [List.map_cons, List.cons_append, segments]; rw [ih]; simp

/-- The segments are the polygons without their last points. -/
theorem segments_flatten (polys : List (List Point)) :
    segments [] (flatten polys) = polys.map List.dropLast := by
  induction polys with
  | nil => rfl
  | cons p polys ih =>
    have : flatten (p :: polys) = p.dropLast.map some ++ (none :: flatten polys) := by simp [flatten]
    rw [this, segments_append, List.nil_append, segments, ih]; rfl

theorem nQuads_even (m : ℕ) : nQuads (2 * m) = m - 1 := by
  unfold nQuads
  have h : ((2 * m : ℕ) : ℤ) - 4 = 2 * ((m : ℤ) - 2) := by push_cast; ring
  rw [h, Int.mul_tdiv_cancel_left _ (by norm_num)]
  omega

theorem panels_length {α : Type} (top bottom : List α) (h : top.length = bottom.length) :
    (panels top bottom).length = top.length - 1 := by
  induction top generalizing bottom with
  | nil => cases bottom <;> rfl
  | cons t0 top ih =>
    cases top with
    | nil => cases bottom <;> rfl
    | cons t1 ts =>
      match bottom, h with
      | b0 :: b1 :: bs, h =>
        rw [panels, List.length_cons, ih (b1 :: bs) (by simpa using h)]
        simp

theorem panels_get {α : Type} (top bottom : List α) (h : top.length = bottom.length) (k : ℕ)
    (h1 : k + 1 < top.length) : (panels top bottom)[k]? =
      some ⟨top[k], top[k + 1], bottom[k + 1], bottom[k]⟩ := by
  induction top generalizing bottom k with
  | nil => simp at h1
  | cons t0 top ih =>
    match top, bottom, h, h1 with
    | t1 :: ts, b0 :: b1 :: bs, h, h1 =>
      rw [panels]
      cases k with
      | zero => rfl
      | succ k =>
        rw [List.getElem?_cons_succ, ih (b1 :: bs) (by simpa using h) k (by simpa using h1)]
        rfl
    | [], _, _, h1 => simp at h1

theorem segQuads_strip {top bottom : List Point} (h : top.length = bottom.length) :
    segQuads (top ++ bottom.reverse) = (panels top bottom).map fixQuad := by
  have hl : (top ++ bottom.reverse).length = 2 * top.length := by simp [← h]; omega
  have ht : ∀ k (hk : k < top.length), ptAt (top ++ bottom.reverse) k = top[k] := by
    intro k hk
    unfold ptAt
    rw [List.getD_eq_getElem?_getD, List.getElem?_append_left hk, List.getElem?_eq_getElem hk]; rfl
  have hb : ∀ k (hk : k < bottom.length),
      ptAt (top ++ bottom.reverse) (2 * top.length - (k + 1)) = bottom[k] := by
    intro k hk
    unfold ptAt
    rw [List.getD_eq_getElem?_getD, List.getElem?_append_right (by omega),
      List.getElem?_reverse (by omega)]
    have : bottom.length - 1 - (2 * top.length - (k + 1) - top.length) = k := by omega
    rw [this, List.getElem?_eq_getElem hk]; rfl
  unfold segQuads
  rw [hl, nQuads_even]
  apply List.ext_getElem?
  intro k
  by_cases hk : k < top.length - 1
  · rw [List.getElem?_map, List.getElem?_map, List.getElem?_range hk, panels_get _ _ h k (by omega)]
    simp only [Option.map_some]
    congr 2
    unfold rawQuad
    rw [hl, ht k (by omega), ht (k + 1) (by omega), hb k (by omega)]
    have e : 2 * top.length - (k + 2) = 2 * top.length - ((k + 1) + 1) := rfl
    rw [e, hb (k + 1) (by omega)]
  · rw [List.getElem?_eq_none (by simpa using hk), List.getElem?_eq_none (by
      rw [List.length_map, panels_length _ _ h]; omega)]

/-- The position after conversion to ECEF coordinates and back. -/
noncomputable def roundTrip (p : Point) : Point := toPoint (fromPoint p)

/-- **C71** (partial). A polygon along a top edge and back along a bottom edge gives the quadrilaterals
between neighbouring points, one fewer than there are points on the top edge. Each has three corners at the
given points (as far as ECEF conversion reproduces them) and the end of the bottom edge moved into the plane
of the others, or is the same quadrilateral seen from the other side. Neighbours share the point of the top
edge. Each polygon has a group number, given once for each of its quadrilaterals. What is missing:
neighbours do not share the point of the bottom edge. -/
theorem C71_quads_partial (tbs : List (List Point × List Point))
    (h : ∀ tb ∈ tbs, tb.1.length = tb.2.length ∧ tb.1 ≠ []) :
    let polys := tbs.map fun tb => outline tb.1 tb.2
    quadrilaterals polys = (tbs.flatMap fun tb => panels tb.1 tb.2).map fixQuad ∧
    (∀ tb ∈ tbs, (panels tb.1 tb.2).length = tb.1.length - 1) ∧
    groupIndex polys = tbs.zipIdx.flatMap (fun p => List.replicate (p.1.1.length - 1) p.2) ∧
    (groupIndex polys).length = (quadrilaterals polys).length ∧
    ∀ q : Quad Point, fromPoint q.p0 ≠ fromPoint q.p1 →
      ∃ n : V3, n ∈ Spec.plane (fromPoint q.p0) (fromPoint q.p1) (fromPoint q.p3) ∧
        Spec.distSq n (fromPoint q.p3) = Spec.distSq (fromPoint q.p2) (fromPoint q.p3) ∧
        (fixQuad q = ⟨roundTrip q.p0, roundTrip q.p1, toPoint n, roundTrip q.p3⟩ ∨
         fixQuad q = ⟨roundTrip q.p1, roundTrip q.p0, roundTrip q.p3, toPoint n⟩) := by
  intro polys
  have hdl : ∀ tb ∈ tbs, (outline tb.1 tb.2).dropLast = tb.1 ++ tb.2.reverse := by
    intro tb htb
    cases h1 : tb.1 with
    | nil => exact absurd h1 (h tb htb).2
    | cons a l => exact List.dropLast_concat
  have hsegs : segments [] (flatten polys) = tbs.map fun tb => tb.1 ++ tb.2.reverse := by
    rw [segments_flatten, List.map_map]
    apply List.map_congr_left
    intro tb htb
    exact hdl tb htb
  have hq : quadrilaterals polys = (tbs.flatMap fun tb => panels tb.1 tb.2).map fixQuad := by
    unfold quadrilaterals
    rw [hsegs, List.flatMap_map, List.map_flatMap]
    apply List.flatMap_congr
    intro tb htb
    exact segQuads_strip (h tb htb).1
  have hg : ∀ i, groupIndexFrom i (tbs.map fun tb => tb.1 ++ tb.2.reverse) =
      (tbs.zipIdx i).flatMap (fun p => List.replicate (p.1.1.length - 1) p.2) := by
    clear hq hsegs hdl polys
    intro i
    induction tbs generalizing i with
    | nil => rfl
    | cons tb tbs ih =>
      simp only [List.forall_mem_cons] at h
      rw [List.map_cons, groupIndexFrom, ih h.2, List.zipIdx_cons, List.flatMap_cons]
      have : (tb.1 ++ tb.2.reverse).length = 2 * tb.1.length := by simp [← h.1.1]; omega
      rw [this, nQuads_even]
  refine ⟨hq, fun tb htb => panels_length _ _ (h tb htb).1, ?_, ?_, ?_⟩
  · unfold groupIndex
    rw [hsegs]; exact hg 0
  · rw [hq]
    unfold groupIndex
    rw [hsegs, hg 0, List.length_map, List.length_flatMap, List.length_flatMap]
    have : (tbs.zipIdx 0).map (fun p => (List.replicate (p.1.1.length - 1) p.2).length) =
        tbs.map (fun tb => tb.1.length - 1) := by
      simp only [List.length_replicate]
      rw [show (fun p : (List Point × List Point) × ℕ => p.1.1.length - 1) =
        (fun tb : List Point × List Point => tb.1.length - 1) ∘ Prod.fst from rfl, ← List.map_map,
        List.zipIdx_map_fst]
    rw [this]
    congr 1
    apply List.map_congr_left
    intro tb htb
    exact (panels_length _ _ (h tb htb).1).symm
  · intro q hne
    obtain ⟨c1, c2, -⟩ := C63_corrected_partial q.ecef hne
    refine ⟨newP2 q.ecef, c1, c2, ?_⟩
    unfold fixQuad fixStrikeDirection
    simp only
    split_ifs
    · left; rfl
    · right; rfl

theorem equator_ecef (lon dep : ℝ) : fromPoint ⟨lon, 0, dep⟩ =
    ⟨(wgsA - dep * 1000) * cos (lon * degToRad), (wgsA - dep * 1000) * sin (lon * degToRad), 0⟩ := by
  unfold fromPoint latlon2ecef primeVertical
  simp
  constructor <;> left <;> ring

/-- **C71** violated: with bottom depths of 9.95 and 10 km, within the tolerance, the first of two
quadrilaterals of a polygon ends at a longitude other than 90 at the bottom, where the next one starts. -/
theorem C71_gap_violated :
    let q0 : Quad Point := ⟨⟨0, 0, 0⟩, ⟨90, 0, 0⟩, ⟨90, 0, 10⟩, ⟨0, 0, 9.95⟩⟩
    let q1 : Quad Point := ⟨⟨90, 0, 0⟩, ⟨180, 0, 0⟩, ⟨180, 0, 10⟩, ⟨90, 0, 10⟩⟩
    quadrilaterals [[⟨0, 0, 0⟩, ⟨90, 0, 0⟩, ⟨180, 0, 0⟩, ⟨180, 0, 10⟩, ⟨90, 0, 10⟩, ⟨0, 0, 9.95⟩, ⟨0, 0, 0⟩]] =
      [fixQuad q0, fixQuad q1] ∧
    (fixQuad q0).p2.lon ≠ 90 ∧ (fixQuad q0).p3.lon ≠ 90 ∧
    ((fixQuad q1).p2.lon = 90 ∨ (fixQuad q1).p3.lon = 90) := by
  intro q0 q1
  have c90 : cos (90 * degToRad) = 0 := by
    rw [show (90 : ℝ) * degToRad = π / 2 by unfold degToRad; ring]; exact cos_pi_div_two
  have s90 : sin (90 * degToRad) = 1 := by
    rw [show (90 : ℝ) * degToRad = π / 2 by unfold degToRad; ring]; exact sin_pi_div_two
  have e0 : fromPoint q0.p0 = ⟨wgsA, 0, 0⟩ := by
    show fromPoint ⟨0, 0, 0⟩ = _
    rw [equator_ecef]; simp
  have e1 : fromPoint q0.p1 = ⟨0, wgsA, 0⟩ := by
    show fromPoint ⟨90, 0, 0⟩ = _
    rw [equator_ecef, c90, s90]; simp
  have e2 : fromPoint q0.p2 = ⟨0, wgsA - 10000, 0⟩ := by
    show fromPoint ⟨90, 0, 10⟩ = _
    rw [equator_ecef, c90, s90]; ext <;> (simp; try norm_num)
  have e3 : fromPoint q0.p3 = ⟨wgsA - 9950, 0, 0⟩ := by
    show fromPoint ⟨0, 0, 9.95⟩ = _
    rw [equator_ecef]; ext
    · simp; norm_num
    · simp
    · simp
  have hne : fromPoint q0.p0 ≠ fromPoint q0.p1 := by
    rw [e0, e1]; intro h
    have := congrArg V3.x h
    simp only [wgsA] at this; norm_num at this
  have lon90 : ∀ v : V3, v.x ≠ 0 → (toPoint v).lon ≠ 90 := by
    intro v hv h
    have h1 : lonDeg v = 90 := h
    rw [lonDeg_eq] at h1
    apply hv
    have h2 : arctan2 v.y v.x = π / 2 := by
      have hpi := Real.pi_pos
      unfold radToDeg at h1
      field_simp at h1
      linarith
    unfold arctan2 at h2
    exact (Complex.arg_eq_pi_div_two_iff.1 h2).1
  obtain ⟨-, c2, k, hk, c3⟩ := C63_corrected_partial q0.ecef hne
  have hn : (newP2 q0.ecef).x ≠ 0 := by
    change Spec.distSq (newP2 q0.ecef) (fromPoint q0.p3) = Spec.distSq (fromPoint q0.p2) (fromPoint q0.p3) at c2
    change newP2 q0.ecef = Spec.combine (fromPoint q0.p3)
      ((fromPoint q0.p3).add ((fromPoint q0.p1).sub (fromPoint q0.p0))) (fromPoint q0.p3) k 0 at c3
    rw [c3, e0, e1, e3]
    rw [c3, e0, e1, e2, e3] at c2
    simp only [Spec.distSq, Spec.combine, V3.add, V3.sub] at c2 ⊢
    intro hx
    have hx' : k * wgsA = wgsA - 9950 := by linarith
    have : (k * wgsA) ^ 2 + (k * wgsA) ^ 2 = (wgsA - 9950) ^ 2 + (wgsA - 10000) ^ 2 := by
      linear_combination c2
    rw [hx'] at this
    unfold wgsA at this
    norm_num at this
  have hx3 : (fromPoint q0.p3).x ≠ 0 := by rw [e3]; unfold wgsA; norm_num
  have hfix : ∀ q, fixQuad q = (isQuad q).2 ∨ fixQuad q = reverseQuad (isQuad q).2 := by
    intro q
    unfold fixQuad fixStrikeDirection
    simp only
    split_ifs
    · left; rfl
    · right; rfl
  refine ⟨?_, ?_, ?_, ?_⟩
  · have := (C71_quads_partial [([⟨0, 0, 0⟩, ⟨90, 0, 0⟩, ⟨180, 0, 0⟩], [⟨0, 0, 9.95⟩, ⟨90, 0, 10⟩, ⟨180, 0, 10⟩])]
      (by simp)).1
    exact this
  · rcases hfix q0 with h | h <;> rw [h]
    · exact lon90 _ hn
    · exact lon90 _ hx3
  · rcases hfix q0 with h | h <;> rw [h]
    · exact lon90 _ hx3
    · exact lon90 _ hn
  · have : (toPoint (fromPoint ⟨90, 0, 10⟩)).lon = 90 :=
      C59_longitude.2.1 0 90 10 (by norm_num) (by norm_num) (by norm_num) (by norm_num) (by norm_num)
    rcases hfix q1 with h | h <;> rw [h]
    · right; exact this
    · left; exact this

/-! ### C102: the outline -/

theorem panels_ends {α : Type} (t0 t1 b0 b1 : α) (ts bs : List α) (h : ts.length = bs.length) :
    (panels (t0 :: t1 :: ts) (b0 :: b1 :: bs)).map (·.p1) = t1 :: ts ∧
    (panels (t0 :: t1 :: ts) (b0 :: b1 :: bs)).map (·.p2) = b1 :: bs := by
  induction ts generalizing t0 t1 b0 b1 bs with
  | nil =>
    cases bs with
    | nil => exact ⟨rfl, rfl⟩
    | cons => simp at h
  | cons t2 ts ih =>
    cases bs with
    | nil => simp at h
    | cons b2 bs =>
      obtain ⟨a, b⟩ := ih t1 t2 b1 b2 bs (by simpa using h)
      rw [panels]
      exact ⟨by rw [List.map_cons, a], by rw [List.map_cons, b]⟩

/-- **C102** (partial). For quadrilaterals as they are between a top and a bottom edge, the outline goes
along the top edge, back along the bottom edge, and returns to its start. What is missing: quadrilaterals
that were reversed, see below. -/
theorem C102_outline_partial {α β : Type} (f : α → β) (top bottom : List α)
    (h : top.length = bottom.length) (h2 : 2 ≤ top.length) :
    groupOutline f (panels top bottom) = (outline top bottom).map f := by
  match top, bottom, h, h2 with
  | t0 :: t1 :: ts, b0 :: b1 :: bs, h, _ =>
    obtain ⟨a, b⟩ := panels_ends t0 t1 b0 b1 ts bs (by simpa using h)
    have e : panels (t0 :: t1 :: ts) (b0 :: b1 :: bs) = ⟨t0, t1, b1, b0⟩ :: panels (t1 :: ts) (b1 :: bs) := rfl
    rw [e] at a b ⊢
    unfold groupOutline
    have a' : (⟨t0, t1, b1, b0⟩ :: panels (t1 :: ts) (b1 :: bs)).map (fun x : Quad α => f x.p1) =
        (t1 :: ts).map f := by
      exact Eq.trans (List.map_map (f := fun x : Quad α => x.p1) (g := f)).symm (congrArg (List.map f) a)
    have b' : (⟨t0, t1, b1, b0⟩ :: panels (t1 :: ts) (b1 :: bs)).map (fun x : Quad α => f x.p2) =
        (b1 :: bs).map f := by
      exact Eq.trans (List.map_map (f := fun x : Quad α => x.p2) (g := f)).symm (congrArg (List.map f) b)
    simp only [a', b']
    simp [outline]

example : groupOutline id (panels [1, 2, 3] [4, 5, 6]) = [1, 2, 3, 6, 5, 4, 1] := rfl

theorem panels_starts {α : Type} (t0 t1 b0 b1 : α) (ts bs : List α) (h : ts.length = bs.length) :
    (panels (t0 :: t1 :: ts) (b0 :: b1 :: bs)).map (·.p0) = (t0 :: t1 :: ts).dropLast ∧
    (panels (t0 :: t1 :: ts) (b0 :: b1 :: bs)).map (·.p3) = (b0 :: b1 :: bs).dropLast := by
  induction ts generalizing t0 t1 b0 b1 bs with
  | nil =>
    cases bs with
    | nil => exact ⟨rfl, rfl⟩
    | cons => simp at h
  | cons t2 ts ih =>
    cases bs with
    | nil => simp at h
    | cons b2 bs =>
      obtain ⟨a, b⟩ := ih t1 t2 b1 b2 bs (by simpa using h)
      rw [panels]
      exact ⟨by rw [List.map_cons, a]; rfl, by rw [List.map_cons, b]; rfl⟩

theorem last_not_mem {α : Type} {l : List α} (h : l.Nodup) (hne : l ≠ []) : l.getLast hne ∉ l.dropLast := by
  intro hm
  rw [← List.dropLast_append_getLast hne] at h
  exact (List.nodup_append.1 h).2.2 _ hm _ (by simp) rfl

/-- **C102** violated: when the quadrilaterals of a group were reversed, as they are when the rupture dips to
the left of its top edge, and there are two or more of them, the outline leaves out the end of the top
edge and the end of the bottom edge. -/
theorem C102_reversed_violated {α : Type} (top bottom : List α) (h : top.length = bottom.length)
    (h3 : 3 ≤ top.length) (ht : top.Nodup) (hb : bottom.Nodup) (hd : List.Disjoint top bottom) :
    ∃ t ∈ top, ∃ b ∈ bottom,
      t ∉ groupOutline id ((panels top bottom).map reverseQuad) ∧
      b ∉ groupOutline id ((panels top bottom).map reverseQuad) := by
  match top, bottom, h, h3 with
  | t0 :: t1 :: t2 :: ts, b0 :: b1 :: b2 :: bs, h, _ =>
    obtain ⟨a, b⟩ := panels_starts t0 t1 b0 b1 (t2 :: ts) (b2 :: bs) (by simpa using h)
    have nt : t0 :: t1 :: t2 :: ts ≠ [] := by simp
    have nb : b0 :: b1 :: b2 :: bs ≠ [] := by simp
    have sub : ∀ x ∈ groupOutline id ((panels (t0 :: t1 :: t2 :: ts) (b0 :: b1 :: b2 :: bs)).map reverseQuad),
        x ∈ (t0 :: t1 :: t2 :: ts).dropLast ∨ x ∈ (b0 :: b1 :: b2 :: bs).dropLast := by
      intro x hx
      have e : (panels (t0 :: t1 :: t2 :: ts) (b0 :: b1 :: b2 :: bs)).map reverseQuad =
        ⟨t1, t0, b0, b1⟩ :: (panels (t1 :: t2 :: ts) (b1 :: b2 :: bs)).map reverseQuad := rfl
      rw [e] at hx
      have p1 : ∀ y, y ∈ (⟨t1, t0, b0, b1⟩ :: (panels (t1 :: t2 :: ts) (b1 :: b2 :: bs)).map reverseQuad).map
          (fun x : Quad α => id x.p1) → y ∈ (t0 :: t1 :: t2 :: ts).dropLast := by
        intro y hy
        rw [← e, List.map_map] at hy
        rw [← a]; exact hy
      have p2 : ∀ y, y ∈ (⟨t1, t0, b0, b1⟩ :: (panels (t1 :: t2 :: ts) (b1 :: b2 :: bs)).map reverseQuad).map
          (fun x : Quad α => id x.p2) → y ∈ (b0 :: b1 :: b2 :: bs).dropLast := by
        intro y hy
        rw [← e, List.map_map] at hy
        rw [← b]; exact hy
      unfold groupOutline at hx
      simp only [List.mem_append, List.mem_reverse] at hx
      have m1 : t1 ∈ (t0 :: t1 :: t2 :: ts).dropLast := by simp
      have m2 : b1 ∈ (b0 :: b1 :: b2 :: bs).dropLast := by simp
      rcases hx with ((hx | hx) | (hx | hx)) | hx
      · simp at hx; subst hx; exact Or.inl m1
      · exact Or.inl (p1 x hx)
      · simp at hx; subst hx; exact Or.inr m2
      · exact Or.inr (p2 x hx)
      · simp at hx; subst hx; exact Or.inl m1
    refine ⟨_, List.getLast_mem nt, _, List.getLast_mem nb, ?_, ?_⟩
    · intro hx
      rcases sub _ hx with h1 | h1
      · exact last_not_mem ht nt h1
      · exact hd (List.getLast_mem nt) (List.mem_of_mem_dropLast h1)
    · intro hx
      rcases sub _ hx with h1 | h1
      · exact hd (List.mem_of_mem_dropLast h1) (List.getLast_mem nb)
      · exact last_not_mem hb nb h1

example : groupOutline id ((panels [1, 2, 3] [4, 5, 6]).map reverseQuad) = [2, 1, 2, 5, 4, 5, 2] := rfl

/-! ### C103: `fromVertices` -/

theorem groupPolygon_panels {α : Type} (top bottom : List α) (h : top.length = bottom.length)
    (h2 : 2 ≤ top.length) : groupPolygon (panels top bottom) = outline top bottom := by
  match top, bottom, h, h2 with
  | t0 :: t1 :: ts, b0 :: b1 :: bs, h, _ =>
    obtain ⟨a, b⟩ := panels_ends t0 t1 b0 b1 ts bs (by simpa using h)
    have e : panels (t0 :: t1 :: ts) (b0 :: b1 :: bs) = ⟨t0, t1, b1, b0⟩ :: panels (t1 :: ts) (b1 :: bs) := rfl
    rw [e] at a b ⊢
    unfold groupPolygon
    simp only
    rw [a, b]
    simp [outline]

theorem zip_range_filter {α : Type} (l : List α) (s k : ℕ) (hk : k < l.length) :
    ((l.zip ((List.range' s l.length).map Int.ofNat)).filter fun p => p.2 = Int.ofNat (s + k)).map (·.1) =
      [l[k]] := by
  have none_of : ∀ (l : List α) (s j : ℕ), j < s →
      ((l.zip ((List.range' s l.length).map Int.ofNat)).filter fun p => p.2 = Int.ofNat j) = [] := by
    intro l
    induction l with
    | nil => intros; rfl
    | cons a l ih =>
      intro s j hj
      rw [List.length_cons, List.range'_succ, List.map_cons, List.zip_cons_cons, List.filter_cons, if_neg,
        ih (s + 1) j (by omega)]
      simp; omega
  induction l generalizing s k with
  | nil => simp at hk
  | cons a l ih =>
    rw [List.length_cons, List.range'_succ, List.map_cons, List.zip_cons_cons, List.filter_cons]
    cases k with
    | zero =>
      rw [if_pos (by simp), List.map_cons, none_of l (s + 1) (s + 0) (by omega)]
      rfl
    | succ k =>
      rw [if_neg (by simp; omega)]
      have := ih (s + 1) k (by simpa using hk)
      rw [show s + 1 + k = s + (k + 1) by omega] at this
      rw [this]; rfl

/-- **C103.** Without group numbers each quadrilateral becomes a polygon of its own, with its four corners
in order. With group numbers - one for each quadrilateral, otherwise there is an error - there is a polygon
for each number, in increasing order; when the quadrilaterals with that number lie side by side, between a
top and a bottom edge, the polygon goes along the top edge and back along the bottom edge. -/
theorem C103_from_vertices {α : Type} (quads : List (Quad α)) :
    fromVertices quads none = some (quads.map fun q => [q.p0, q.p1, q.p2, q.p3, q.p0]) ∧
    ∀ idx : List ℤ, (idx.length ≠ quads.length → fromVertices quads (some idx) = none) ∧
      (idx.length = quads.length → ∃ gs : List ℤ, gs.Pairwise (· < ·) ∧ (∀ g, g ∈ gs ↔ g ∈ idx) ∧
        ∃ ps, fromVertices quads (some idx) = some ps ∧ ps.length = gs.length ∧
          ∀ g p, (g, p) ∈ gs.zip ps → ∀ top bottom, top.length = bottom.length → 2 ≤ top.length →
            ((quads.zip idx).filter fun x => x.2 = g).map (·.1) = panels top bottom →
            p = outline top bottom) := by
  constructor
  · unfold fromVertices
    simp only
    have hu : uniqueGroups ((List.range quads.length).map Int.ofNat) =
        (List.range quads.length).map Int.ofNat := by
      unfold uniqueGroups
      rw [List.toFinset_sort]
      · rw [List.pairwise_map]
        exact List.pairwise_lt_range.imp (fun h => by simp; omega)
      · apply List.Nodup.map _ List.nodup_range
        intro a b h
        simpa using h
    rw [hu]
    congr 1
    apply List.ext_getElem?
    intro k
    by_cases hk : k < quads.length
    · rw [List.map_map, List.getElem?_map, List.getElem?_map, List.getElem?_range hk,
        List.getElem?_eq_getElem hk]
      simp only [Option.map_some, Function.comp]
      congr 1
      unfold ofGroup
      have := zip_range_filter quads 0 k hk
      rw [Nat.zero_add, ← List.range_eq_range'] at this
      rw [this]
      rfl
    · rw [List.getElem?_eq_none (by simpa using hk), List.getElem?_eq_none (by simpa using hk)]
  · intro idx
    constructor
    · intro h
      unfold fromVertices
      simp only
      rw [if_pos h]
    · intro h
      refine ⟨uniqueGroups idx, ?_, ?_, (uniqueGroups idx).map fun g => groupPolygon (ofGroup quads idx g), ?_,
        by simp, ?_⟩
      · have h1 := Finset.pairwise_sort idx.toFinset (· ≤ ·)
        have h2 := Finset.sort_nodup idx.toFinset (· ≤ ·)
        unfold uniqueGroups
        exact (h1.and h2).imp (fun ⟨a, b⟩ => lt_of_le_of_ne a b)
      · intro g
        unfold uniqueGroups
        simp
      · unfold fromVertices
        simp only
        rw [if_neg (by simpa using h)]
      · intro g p hgp top bottom hl h2 hq
        rw [List.zip_map_right] at hgp
        obtain ⟨⟨a, b⟩, hab, e⟩ := List.mem_map.1 hgp
        have hab' : a = b := by
          clear e hgp
          generalize uniqueGroups idx = l at hab
          induction l with
          | nil => simp at hab
          | cons x l ih =>
            simp at hab
            rcases hab with ⟨rfl, rfl⟩ | hab
            · rfl
            · exact ih (by simpa using hab)
        simp only [Prod.map_apply, id, Prod.mk.injEq] at e
        obtain ⟨rfl, rfl⟩ := e
        subst hab'
        unfold ofGroup
        rw [hq, groupPolygon_panels top bottom hl h2]

/-- Two groups, the second given first. -/
example : fromVertices [⟨1, 2, 3, 4⟩, ⟨5, 6, 7, 8⟩, ⟨6, 9, 10, 7⟩] (some [5, 2, 2]) =
    some [[5, 6, 9, 10, 7, 8, 5], [1, 2, 3, 4, 1]] := by
  have h : uniqueGroups [5, 2, 2] = [2, 5] := by
    unfold uniqueGroups
    rw [show ([5, 2, 2] : List ℤ).toFinset = [2, 5].toFinset by decide, List.toFinset_sort] <;> decide
  unfold fromVertices
  simp only
  rw [if_neg (by decide), h]
  decide +kernel

end Verif.Props
