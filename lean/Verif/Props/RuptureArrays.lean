import Verif.Model.RuptureArrays
import Verif.Spec.RuptureArrays
import Verif.Props.EdgeRupture
import Verif.Props.EdgeDistance

/-!
# C199: the arrays that ruptures give away
-/

namespace Verif.Props
open Verif.Vec Verif.Rup Verif.QuadR Verif.Spec

/-- A vertex with numbers. -/
def vertex (p : Point) : Vertex := (some p.lon, some p.lat, some p.depth)

theorem asArrays_fold (polys : List (List Vertex)) (a : Arrays) :
    polys.foldl addVertices a = ⟨a.lon ++ polys.flatMap (fun p => (p.map fun pt => pt.1).dropLast ++ [none]),
      a.lat ++ polys.flatMap (fun p => (p.map fun pt => pt.2.1).dropLast ++ [none]),
      a.depth ++ polys.flatMap (fun p => (p.map fun pt => pt.2.2).dropLast ++ [none])⟩ := by
  induction polys generalizing a with
  | nil => simp
  | cons p polys ih =>
    rw [List.foldl_cons, ih]
    simp [addVertices]

theorem arrays_eq (polys : List (List Vertex)) :
    getRuptureAsArrays polys = ⟨polys.flatMap (fun p => (p.map fun pt => pt.1).dropLast ++ [none]),
      polys.flatMap (fun p => (p.map fun pt => pt.2.1).dropLast ++ [none]),
      polys.flatMap (fun p => (p.map fun pt => pt.2.2).dropLast ++ [none])⟩ := by
  rw [getRuptureAsArrays, asArrays_fold]; simp

theorem holds_nil {gs : List (List ℝ)} (h : Holds [] gs) : gs = [] := by
  cases gs with
  | nil => rfl
  | cons g gs => simp [Holds] at h

theorem gap_unique : ∀ (g g' : List ℝ) (r r' : List (Option ℝ)), g.map some ++ none :: r = g'.map some ++ none :: r' → g = g' ∧ r = r'
  | [], [], r, r', h => ⟨rfl, by simpa using h⟩
  | [], b :: g', r, r', h => by simp at h
  | a :: g, [], r, r', h => by simp at h
  | a :: g, b :: g', r, r', h => by
    simp only [List.map_cons, List.cons_append, List.cons.injEq, Option.some.injEq] at h
    obtain ⟨h1, h2⟩ := gap_unique g g' r r' h.2
    exact ⟨by rw [h.1, h1], h2⟩

theorem holds_unique : ∀ (gs gs' : List (List ℝ)) (xs : List (Option ℝ)), Holds xs gs → Holds xs gs' → gs = gs'
  | [], gs', xs, h, h' => by
    have : xs = [] := h
    subst this
    exact (holds_nil h').symm
  | g :: gs, [], xs, h, h' => by
    have : xs = [] := h'
    subst this
    exact holds_nil h
  | g :: gs, g' :: gs', xs, h, h' => by
    have e : g.map some ++ none :: (gs.map fun g => g.map some ++ [none]).flatten = g'.map some ++ none :: (gs'.map fun g => g.map some ++ [none]).flatten := by
      have h1 : xs = _ := h
      have h2 : xs = _ := h'
      have := h1.symm.trans h2
      simpa using this
    obtain ⟨h1, h2⟩ := gap_unique _ _ _ _ e
    rw [h1, holds_unique gs gs' _ rfl h2]

theorem arrays_holds (c : Vertex → Option ℝ) (f : Point → ℝ) (hf : ∀ p, c (vertex p) = some (f p)) (polys : List (List Point)) :
    Holds ((polys.map fun p => p.map vertex).flatMap fun p => (p.map c).dropLast ++ [none]) (polys.map fun p => p.dropLast.map f) := by
  unfold Holds
  rw [List.flatMap_def, List.map_map, List.map_map]
  congr 1
  apply List.map_congr_left
  intro p _
  simp only [Function.comp, List.map_map]
  rw [List.append_cancel_right_eq, ← List.map_dropLast]
  apply List.map_congr_left
  intro q _
  exact hf q

/-- **C199**, arrays: the arrays of longitudes, latitudes and depths hold the polygons of the rupture, each without its closing point, with `nan` at the end of each;
and they can be read in one way only. `getDeps` is the array of depths. -/
theorem C199_arrays (polys : List (List Point)) (a : Arrays) (ha : a = getRuptureAsArrays (polys.map fun p => p.map vertex)) :
    (∀ gs, Holds a.lon gs ↔ gs = polys.map fun p => p.dropLast.map Point.lon) ∧
    (∀ gs, Holds a.lat gs ↔ gs = polys.map fun p => p.dropLast.map Point.lat) ∧
    (∀ gs, Holds a.depth gs ↔ gs = polys.map fun p => p.dropLast.map Point.depth) ∧
    getDeps (polys.map fun p => p.map vertex) = a.depth ∧ groupEnds (polys.map fun p => p.map vertex) = polys.length := by
  subst ha
  have h1 := arrays_holds (fun pt => pt.1) Point.lon (fun _ => rfl) polys
  have h2 := arrays_holds (fun pt => pt.2.1) Point.lat (fun _ => rfl) polys
  have h3 := arrays_holds (fun pt => pt.2.2) Point.depth (fun _ => rfl) polys
  rw [arrays_eq]
  refine ⟨fun gs => ⟨fun h => holds_unique _ _ _ h h1, fun h => h ▸ h1⟩, fun gs => ⟨fun h => holds_unique _ _ _ h h2, fun h => h ▸ h2⟩,
    fun gs => ⟨fun h => holds_unique _ _ _ h h3, fun h => h ▸ h3⟩, by rw [getDeps, arrays_eq], ?_⟩
  rw [groupEnds, arrays_eq]
  show (List.filter Option.isNone (List.flatMap (fun p => (p.map fun pt : Vertex => pt.1).dropLast ++ [none]) (polys.map fun p => p.map vertex))).length = _
  rw [show List.flatMap (fun p => (p.map fun pt : Vertex => pt.1).dropLast ++ [none]) (polys.map fun p => p.map vertex) = _ from h1]
  clear h1 h2 h3
  induction polys with
  | nil => rfl
  | cons p polys ih =>
    rw [List.map_cons, List.map_cons, List.flatten_cons, List.filter_append, List.length_append, ih]
    have : List.filter Option.isNone ((p.dropLast.map Point.lon).map some) = [] := by
      rw [List.filter_eq_nil_iff]
      intro a ha
      obtain ⟨x, -, rfl⟩ := List.mem_map.1 ha
      simp
    rw [List.filter_append, this, List.length_cons]
    simp only [List.nil_append, List.filter_cons, Option.isNone_none, List.filter_nil, if_true, List.length_singleton]
    omega

/-- **C199**, arrays: ruptures with the same arrays have the same polygons up to the closing points, and the same quadrilaterals and groups. -/
theorem C199_determined (polys polys' : List (List Point))
    (h : getRuptureAsArrays (polys.map fun p => p.map vertex) = getRuptureAsArrays (polys'.map fun p => p.map vertex)) :
    polys.map List.dropLast = polys'.map List.dropLast ∧ quadrilaterals polys = quadrilaterals polys' ∧ groupIndex polys = groupIndex polys' := by
  obtain ⟨a1, a2, a3, -⟩ := C199_arrays polys _ rfl
  obtain ⟨b1, b2, b3, -⟩ := C199_arrays polys' _ rfl
  rw [h] at a1 a2 a3
  have e1 := (b1 _).1 ((a1 _).2 rfl)
  have e2 := (b2 _).1 ((a2 _).2 rfl)
  have e3 := (b3 _).1 ((a3 _).2 rfl)
  have key : polys.map List.dropLast = polys'.map List.dropLast := by
    have inj : ∀ (l l' : List Point), l.map Point.lon = l'.map Point.lon → l.map Point.lat = l'.map Point.lat → l.map Point.depth = l'.map Point.depth → l = l' := by
      intro l
      induction l with
      | nil => intro l' h _ _; simpa using h.symm
      | cons p l ih =>
        intro l' h1 h2 h3
        cases l' with
        | nil => simp at h1
        | cons p' l' =>
          simp only [List.map_cons, List.cons.injEq] at h1 h2 h3
          rw [ih l' h1.2 h2.2 h3.2, Point.ext h1.1 h2.1 h3.1]
    clear a1 a2 a3 b1 b2 b3 h
    induction polys generalizing polys' with
    | nil => simpa using e1.symm
    | cons p polys ih =>
      cases polys' with
      | nil => simp at e1
      | cons p' polys' =>
        simp only [List.map_cons, List.cons.injEq] at e1 e2 e3 ⊢
        exact ⟨inj _ _ e1.1 e2.1 e3.1, ih polys' e1.2 e2.2 e3.2⟩
  refine ⟨key, ?_, ?_⟩
  · unfold quadrilaterals; rw [segments_flatten, segments_flatten, key]
  · unfold groupIndex; rw [segments_flatten, segments_flatten, key]

/-- **C199** violated: when a longitude of a polygon is `nan`, as JSON files may have it, the arrays show more groups than there are polygons. -/
theorem C199_nan_violated (polys : List (List Vertex)) (p : List Vertex) (hp : p ∈ polys) (v : Vertex) (hv : v ∈ p.dropLast) (hn : v.1 = none) :
    polys.length < groupEnds polys := by
  rw [groupEnds, arrays_eq]
  have key : ∀ q : List Vertex, 1 ≤ (List.filter Option.isNone ((q.map fun pt => pt.1).dropLast ++ [none])).length := by
    intro q; simp
  have h2 : 2 ≤ (List.filter Option.isNone ((p.map fun pt => pt.1).dropLast ++ [none])).length := by
    rw [List.filter_append, List.length_append]
    have : 0 < (List.filter Option.isNone (p.map fun pt => pt.1).dropLast).length := by
      apply List.length_pos_of_mem (a := none)
      rw [List.mem_filter, ← List.map_dropLast]
      exact ⟨List.mem_map.2 ⟨v, hv, hn⟩, rfl⟩
    simp only [List.filter_cons, Option.isNone_none, List.filter_nil, if_true, List.length_singleton]
    omega
  have hge : ∀ l : List (List Vertex), l.length ≤ (List.filter Option.isNone (l.flatMap fun p => (p.map fun pt => pt.1).dropLast ++ [none])).length := by
    intro l
    induction l with
    | nil => simp
    | cons q l ih =>
      rw [List.flatMap_cons, List.filter_append, List.length_append, List.length_cons]
      have := key q
      omega
  obtain ⟨l, r, rfl⟩ := List.append_of_mem hp
  have h3 := hge l
  have h4 := hge r
  show _ < (List.filter Option.isNone ((l ++ p :: r).flatMap fun p => (p.map fun pt => pt.1).dropLast ++ [none])).length
  rw [List.flatMap_append, List.flatMap_cons, List.filter_append, List.filter_append, List.length_append, List.length_append, List.length_append, List.length_cons]
  omega

theorem numbers_zipIdx (ns : List ℕ) (i : ℕ) : numbers i ns = (ns.zipIdx i).flatMap fun p => List.replicate p.1 p.2 := by
  induction ns generalizing i with
  | nil => rfl
  | cons n ns ih => rw [numbers, ih, List.zipIdx_cons, List.flatMap_cons]

/-- **C199** (partial), outlines of quadrilaterals: the arrays of the outline have one group for each polygon, with `nan` at the end: the outline of its quadrilaterals. When
the quadrilaterals are as they were given - already plane, and dipping to the right - the outline is the polygon with its closing point. What is missing: other quadrilaterals, see C71 and
C102. -/
theorem C199_outlines_partial (f : Point → ℝ) (tbs : List (List Point × List Point)) (h : ∀ tb ∈ tbs, tb.1.length = tb.2.length ∧ 2 ≤ tb.1.length) :
    Holds (QuadR.outlineArray f (tbs.map fun tb => outline tb.1 tb.2)) (tbs.map fun tb => groupOutline f ((panels tb.1 tb.2).map fixQuad)) ∧
    ((∀ tb ∈ tbs, ∀ q ∈ panels tb.1 tb.2, fixQuad q = q) →
      Holds (QuadR.outlineArray f (tbs.map fun tb => outline tb.1 tb.2)) (tbs.map fun tb => (outline tb.1 tb.2).map f)) := by
  have hne : ∀ tb ∈ tbs, tb.1.length = tb.2.length ∧ tb.1 ≠ [] := fun tb htb => ⟨(h tb htb).1, by
    have := (h tb htb).2
    rintro e
    simp [e] at this⟩
  obtain ⟨q1, q2, q3, -, -⟩ := C71_quads_partial tbs hne
  have first : Holds (QuadR.outlineArray f (tbs.map fun tb => outline tb.1 tb.2)) (tbs.map fun tb => groupOutline f ((panels tb.1 tb.2).map fixQuad)) := by
    let qs : List (List (Quad Point) × List (Quad Point)) := tbs.map fun tb => ((panels tb.1 tb.2).map fixQuad, (panels tb.1 tb.2).map fixQuad)
    have hg : groupIndex (tbs.map fun tb => outline tb.1 tb.2) = numbers 0 (qs.map fun tb => tb.1.length) := by
      rw [q3, numbers_zipIdx]
      simp only [qs, List.map_map, List.zipIdx_map, List.flatMap_map, Function.comp_def, List.length_map]
      apply List.flatMap_congr
      intro p hp
      have hm : p.1 ∈ tbs := List.fst_mem_of_mem_zipIdx hp
      show _ = List.replicate (panels p.1.1 p.1.2).length p.2
      rw [panels_length _ _ (h _ hm).1]
    have hq : quadrilaterals (tbs.map fun tb => outline tb.1 tb.2) = qs.flatMap (·.1) := by
      rw [q1, List.map_flatMap]
      simp only [qs, List.flatMap_map]
    have hu : EdgeR.uniqueNat (groupIndex (tbs.map fun tb => outline tb.1 tb.2)) = List.range' 0 tbs.length := by
      rw [hg, unique_numbers]
      · simp [qs]
      · intro n hn
        simp only [qs, List.map_map, List.mem_map, Function.comp] at hn
        obtain ⟨tb, htb, rfl⟩ := hn
        rw [List.length_map, panels_length _ _ (h tb htb).1]
        have := (h tb htb).2
        omega
    obtain ⟨-, -, k3⟩ := groups_quads qs (by
      intro tb htb
      simp only [qs, List.mem_map] at htb
      obtain ⟨_, _, rfl⟩ := htb
      rfl) [] [] [] 0 rfl rfl (by simp) ⟨qs.flatMap (·.1), qs.flatMap (·.2), numbers 0 (qs.map fun tb => tb.1.length)⟩ (by simp) (by simp) (by simp)
    unfold QuadR.outlineArray Holds
    simp only
    rw [hu, List.flatMap_def]
    congr 1
    apply List.ext_getElem?
    intro k
    by_cases hk : k < tbs.length
    · have hqk : qs[k]? = some ((panels tbs[k].1 tbs[k].2).map fixQuad, (panels tbs[k].1 tbs[k].2).map fixQuad) := by
        simp only [qs, List.getElem?_map, List.getElem?_eq_getElem hk, Option.map_some]
      have := (k3 k _ hqk).1
      rw [Nat.zero_add] at this
      simp only at this
      rw [List.getElem?_map, List.getElem?_map, List.getElem?_map, List.getElem?_eq_getElem hk, ← List.range_eq_range', List.getElem?_range hk]
      simp only [Option.map_some]
      rw [hg, hq, this]
    · rw [List.getElem?_eq_none (by simpa using hk), List.getElem?_eq_none (by simpa using hk)]
  refine ⟨first, fun hfix => ?_⟩
  have e : (tbs.map fun tb => (outline tb.1 tb.2).map f) = tbs.map fun tb => groupOutline f ((panels tb.1 tb.2).map fixQuad) := by
    apply List.map_congr_left
    intro tb htb
    rw [List.map_congr_left (fun q hq => hfix tb htb q hq), List.map_id', C102_outline_partial f _ _ (h tb htb).1 (h tb htb).2]
  rw [e]; exact first

/-- **C199**, edges: the arrays of the outline of an edge rupture hold its polygons with their closing points; and the depth to the top is the depth of the highest point of the
top edges, on their vertices or between them. -/
theorem C199_edges (f : Point → ℝ) (tbs : List (List Point × List Point)) (h : ∀ tb ∈ tbs, tb.1.length = tb.2.length ∧ tb.1 ≠ []) (e : EdgeR.Edges Point)
    (he : e = EdgeR.ofPolygons (tbs.map fun tb => outline tb.1 tb.2)) :
    (∀ gs, Holds (EdgeR.outlineArray f e) gs ↔ gs = tbs.map fun tb => (outline tb.1 tb.2).map f) ∧
    (EdgeR.getDepthToTop e = none ↔ tbs = []) ∧
    ∀ m, EdgeR.getDepthToTop e = some m → (∃ tb ∈ tbs, ∃ p ∈ tb.1, m = p.depth) ∧
      ∀ tb ∈ tbs, (∀ p ∈ tb.1, m ≤ p.depth) ∧ ∀ d, OnEdge (tb.1.map Point.depth) d → m ≤ d := by
  have ht : e.top = tbs.flatMap (·.1) := by rw [he, EdgeR.ofPolygons, addPolygons_outline tbs h]; simp
  have ho := (C72_quads_partial tbs h e he).2.2.1 f
  have hh : Holds (EdgeR.outlineArray f e) (tbs.map fun tb => (outline tb.1 tb.2).map f) := by
    unfold EdgeR.outlineArray Holds
    rw [ho, List.flatMap_def]
  refine ⟨fun gs => ⟨fun h => holds_unique _ _ _ h hh, fun h => h ▸ hh⟩, ?_, ?_⟩
  · unfold EdgeR.getDepthToTop
    rw [(npMin_spec _).1, List.map_eq_nil_iff, ht, List.flatMap_eq_nil_iff]
    constructor
    · intro hall
      cases tbs with
      | nil => rfl
      | cons tb tbs => exact absurd (hall tb (by simp)) (h tb (by simp)).2
    · rintro rfl; simp
  · intro m hm
    obtain ⟨h1, h2⟩ := (npMin_spec _).2 m hm
    rw [ht] at h1 h2
    have hle : ∀ tb ∈ tbs, ∀ p ∈ tb.1, m ≤ p.depth := fun tb htb p hp => h2 _ (List.mem_map_of_mem (List.mem_flatMap.2 ⟨tb, htb, hp⟩))
    refine ⟨?_, fun tb htb => ⟨hle tb htb, ?_⟩⟩
    · obtain ⟨p, hp, rfl⟩ := List.mem_map.1 h1
      obtain ⟨tb, htb, hp⟩ := List.mem_flatMap.1 hp
      exact ⟨tb, htb, p, hp, rfl⟩
    · rintro d ⟨a, b, t, hab, h0, h1, rfl⟩
      have ha : a ∈ tb.1.map Point.depth := hab.subset (by simp)
      have hb : b ∈ tb.1.map Point.depth := hab.subset (by simp)
      obtain ⟨p, hp, rfl⟩ := List.mem_map.1 ha
      obtain ⟨q, hq, rfl⟩ := List.mem_map.1 hb
      have := hle tb htb p hp
      have := hle tb htb q hq
      nlinarith

/-- **C199** violated: the depth to the top is that of the top edge also when the bottom edge is higher, unlike that of a rupture of quadrilaterals, which is the depth of its
shallowest corner. -/
theorem C199_bottom_violated (top bottom : List Point) (h : top.length = bottom.length) (hne : top ≠ []) (hup : ∃ b ∈ bottom, ∀ t ∈ top, b.depth < t.depth) :
    ∃ m, EdgeR.getDepthToTop (EdgeR.ofPolygons [outline top bottom]) = some m ∧ ∃ p ∈ outline top bottom, p.depth < m := by
  obtain ⟨b, hb, hup⟩ := hup
  obtain ⟨-, h2, h3⟩ := C199_edges Point.depth [(top, bottom)] (by simpa using ⟨h, hne⟩) _ rfl
  cases hm : EdgeR.getDepthToTop (EdgeR.ofPolygons [outline top bottom]) with
  | none => exact absurd (h2.1 hm) (by simp)
  | some m =>
    refine ⟨m, rfl, b, by simp [outline, hb], ?_⟩
    obtain ⟨⟨tb, htb, p, hp, rfl⟩, -⟩ := h3 m hm
    simp only [List.mem_singleton] at htb
    subst htb
    exact hup p hp

/-- Two groups, one of them with a slanting top edge. -/
example : (∀ tb ∈ ([([⟨0, 0, 1⟩, ⟨1, 0, 2⟩], [⟨0, 0, 9⟩, ⟨1, 0, 9⟩]), ([⟨2, 0, 3⟩, ⟨3, 0, 3⟩, ⟨4, 0, 3⟩], [⟨2, 1, 7⟩, ⟨3, 1, 7⟩, ⟨4, 1, 7⟩])] : List (List Point × List Point)),
    tb.1.length = tb.2.length ∧ 2 ≤ tb.1.length) ∧ OnEdge [1, 2] (3 / 2) ∧ Holds [some 1, some 2, none, some 3, none] [[1, 2], [3]] ∧
    ((some 1, none, none) : Vertex) ∈ [(some 1, none, none), (none, none, none)].dropLast := by
  refine ⟨by simp, ⟨1, 2, 1 / 2, List.infix_rfl, by norm_num, by norm_num, by norm_num⟩, rfl, by simp⟩

end Verif.Props
