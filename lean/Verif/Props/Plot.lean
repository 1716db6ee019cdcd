import Verif.Model.Plot
import Mathlib.Tactic.Linarith

/-!
# C175: pictures of ruptures
-/

namespace Verif.Props
open Verif Verif.Plot Verif.Rup

/-- Two points follow each other in a line. -/
def Joined {α : Type} (line : List α) (a b : α) : Prop := ∃ pre post, line = pre ++ a :: b :: post

theorem dropNan_coords (f : Point → ℝ) (outlines : List (List Point)) : dropNan (coords f outlines) = outlines.flatten.map f := by
  induction outlines with
  | nil => rfl
  | cons o os ih =>
    have e : coords f (o :: os) = (o.map (fun p => some (f p)) ++ [none]) ++ coords f os := rfl
    rw [e]
    unfold dropNan at *
    rw [List.filterMap_append, List.filterMap_append, ih, List.flatten_cons, List.map_append]
    have : ∀ o : List Point, List.filterMap id (o.map fun p => some (f p)) = o.map f := by
      intro o
      induction o with
      | nil => rfl
      | cons p o ih => exact congrArg (f p :: ·) ih
    rw [this]
    simp

theorem line_min_le (xs : List ℝ) : ∀ x, (xs.foldl min x ≤ x) ∧ (∀ y ∈ xs, xs.foldl min x ≤ y) ∧ xs.foldl min x ∈ x :: xs := by
  induction xs with
  | nil => intro x; simp
  | cons z xs ih =>
    intro x
    obtain ⟨h1, h2, h3⟩ := ih (min x z)
    refine ⟨h1.trans (min_le_left _ _), ?_, ?_⟩
    · intro y hy
      rcases List.mem_cons.mp hy with rfl | hy
      · exact h1.trans (min_le_right _ _)
      · exact h2 y hy
    · rw [List.foldl_cons]
      rcases List.mem_cons.mp h3 with h | h
      · rw [h]
        rcases min_choice x z with e | e <;> rw [e] <;> simp
      · simp [h]

theorem line_max_ge (xs : List ℝ) : ∀ x, (x ≤ xs.foldl max x) ∧ (∀ y ∈ xs, y ≤ xs.foldl max x) ∧ xs.foldl max x ∈ x :: xs := by
  induction xs with
  | nil => intro x; simp
  | cons z xs ih =>
    intro x
    obtain ⟨h1, h2, h3⟩ := ih (max x z)
    refine ⟨(le_max_left _ _).trans h1, ?_, ?_⟩
    · intro y hy
      rcases List.mem_cons.mp hy with rfl | hy
      · exact (le_max_right _ _).trans h1
      · exact h2 y hy
    · rw [List.foldl_cons]
      rcases List.mem_cons.mp h3 with h | h
      · rw [h]
        rcases max_choice x z with e | e <;> rw [e] <;> simp
      · simp [h]

theorem nanmin_coords (f : Point → ℝ) (outlines : List (List Point)) (hne : outlines.flatten ≠ []) :
    ∃ p ∈ outlines.flatten, nanmin (coords f outlines) = .ok (f p) ∧ ∀ q ∈ outlines.flatten, f p ≤ f q := by
  unfold nanmin
  rw [dropNan_coords]
  cases hl : outlines.flatten with
  | nil => exact absurd hl hne
  | cons a l =>
    simp only [List.map_cons]
    obtain ⟨h1, h2, h3⟩ := line_min_le (l.map f) (f a)
    rw [← List.map_cons, List.mem_map] at h3
    obtain ⟨p, hp, e⟩ := h3
    refine ⟨p, hp, by rw [e], fun q hq => ?_⟩
    rw [e]
    rcases List.mem_cons.mp hq with rfl | hq
    · exact h1
    · exact h2 _ (List.mem_map_of_mem hq)

theorem nanmax_coords (f : Point → ℝ) (outlines : List (List Point)) (hne : outlines.flatten ≠ []) :
    ∃ p ∈ outlines.flatten, nanmax (coords f outlines) = .ok (f p) ∧ ∀ q ∈ outlines.flatten, f q ≤ f p := by
  unfold nanmax
  rw [dropNan_coords]
  cases hl : outlines.flatten with
  | nil => exact absurd hl hne
  | cons a l =>
    simp only [List.map_cons]
    obtain ⟨h1, h2, h3⟩ := line_max_ge (l.map f) (f a)
    rw [← List.map_cons, List.mem_map] at h3
    obtain ⟨p, hp, e⟩ := h3
    refine ⟨p, hp, by rw [e], fun q hq => ?_⟩
    rw [e]
    rcases List.mem_cons.mp hq with rfl | hq
    · exact h1
    · exact h2 _ (List.mem_map_of_mem hq)

/-- **C175** (partial), the wire frame: for each quadrilateral a closed line through its four corners, with depths downwards. What is missing: point
ruptures, see below. -/
theorem C175_wire_partial (threeD : Option Bool) (quads : List (Quad Point)) (outlines : List (List Point)) :
    (threeD ≠ some false → ∃ lines, wire3d threeD (.surface quads outlines) = .ok lines ∧ List.Forall₂ (fun (q : Quad Point) line =>
      line = [q.p0, q.p1, q.p2, q.p3, q.p0].map fun p => (p.lon, p.lat, -p.depth)) quads lines) ∧
    (threeD = some false → wire3d threeD (.surface quads outlines) = .error .typeError) := by
  constructor
  · intro h
    refine ⟨quads.map wire, by simp [wire3d, h], ?_⟩
    induction quads with
    | nil => exact .nil
    | cons q qs ih => exact .cons rfl ih
  · intro h
    simp [wire3d, h]

/-- **C175** (partial), the map: every point of the outlines is drawn, in their order, and lies at least five degrees inside the extent, which is not larger
than that. What is missing: the lines between groups, ruptures at the date line or near the poles, and point ruptures, see below. -/
theorem C175_map_partial (quads : List (Quad Point)) (outlines : List (List Point)) (hne : outlines.flatten ≠ []) :
    ∃ m, mapRupture (.surface quads outlines) = .ok m ∧ m.line = outlines.flatten.map (fun p => (p.lon, p.lat)) ∧
      (∀ p ∈ outlines.flatten, m.west + 5 ≤ p.lon ∧ p.lon ≤ m.east - 5 ∧ m.south + 5 ≤ p.lat ∧ p.lat ≤ m.north - 5) ∧
      (∃ p ∈ outlines.flatten, m.west = p.lon - 5) ∧ (∃ p ∈ outlines.flatten, m.east = p.lon + 5) ∧
      (∃ p ∈ outlines.flatten, m.south = p.lat - 5) ∧ ∃ p ∈ outlines.flatten, m.north = p.lat + 5 := by
  obtain ⟨p1, m1, e1, h1⟩ := nanmin_coords Point.lat outlines hne
  obtain ⟨p2, m2, e2, h2⟩ := nanmax_coords Point.lat outlines hne
  obtain ⟨p3, m3, e3, h3⟩ := nanmin_coords Point.lon outlines hne
  obtain ⟨p4, m4, e4, h4⟩ := nanmax_coords Point.lon outlines hne
  refine ⟨⟨p3.lon - 10 / 2, p4.lon + 10 / 2, p1.lat - 10 / 2, p2.lat + 10 / 2, outlines.flatten.map (fun p => (p.lon, p.lat))⟩, ?_, rfl, ?_,
    ⟨p3, m3, ?_⟩, ⟨p4, m4, ?_⟩, ⟨p1, m1, ?_⟩, ⟨p2, m2, ?_⟩⟩
  · simp only [mapRupture, e1, e2, e3, e4, bind, Except.bind, pure, Except.pure, dropNan_coords]
    congr 2
    rw [List.zip_map']
  · intro p hp
    have a1 := h1 p hp
    have a2 := h2 p hp
    have a3 := h3 p hp
    have a4 := h4 p hp
    refine ⟨?_, ?_, ?_, ?_⟩ <;> (simp only; linarith)
  all_goals (simp only; norm_num)

/-- **C175**: for a rupture of one group the line on the map is its outline. -/
theorem C175_single (quads : List (Quad Point)) (outline : List Point) (hne : outline ≠ []) :
    ∃ m, mapRupture (.surface quads [outline]) = .ok m ∧ m.line = outline.map fun p => (p.lon, p.lat) := by
  obtain ⟨m, h1, h2, _⟩ := C175_map_partial quads [outline] (by simpa using hne)
  exact ⟨m, h1, by simpa using h2⟩

/-- **C175** is violated by every rupture of two or more groups: the end of the outline of one group is joined to the start of the next. -/
theorem C175_groups_violated (quads : List (Quad Point)) (before after : List (List Point)) (o o' : List Point) (a b : Point) :
    ∃ m, mapRupture (.surface quads (before ++ (o ++ [a]) :: (b :: o') :: after)) = .ok m ∧ Joined m.line (a.lon, a.lat) (b.lon, b.lat) := by
  obtain ⟨m, h1, h2, _⟩ := C175_map_partial quads (before ++ (o ++ [a]) :: (b :: o') :: after) (by simp)
  refine ⟨m, h1, (before.flatten ++ o).map (fun p => (p.lon, p.lat)), (o' ++ after.flatten).map (fun p => (p.lon, p.lat)), ?_⟩
  rw [h2]
  simp

/-- **C175** is violated at the date line: a rupture with points `e` west of it and `w` east of it, however near to each other, has a map that is wider
than the earth as soon as both are within five degrees of it. -/
theorem C175_dateline_violated (quads : List (Quad Point)) (outlines : List (List Point)) (e w : Point) (he : e ∈ outlines.flatten)
    (hw : w ∈ outlines.flatten) (he' : 175 ≤ e.lon) (hw' : w.lon ≤ -175) :
    ∃ m, mapRupture (.surface quads outlines) = .ok m ∧ 360 ≤ m.east - m.west := by
  obtain ⟨m, h1, _, h3, _⟩ := C175_map_partial quads outlines (List.ne_nil_of_mem he)
  refine ⟨m, h1, ?_⟩
  have a := h3 e he
  have b := h3 w hw
  linarith [a.2.1, b.1]

/-- **C175** is violated near the poles: the extent goes past latitude 90. -/
theorem C175_pole_violated (quads : List (Quad Point)) (outlines : List (List Point)) (p : Point) (hp : p ∈ outlines.flatten) (h : 85 < p.lat) :
    ∃ m, mapRupture (.surface quads outlines) = .ok m ∧ 90 < m.north := by
  obtain ⟨m, h1, _, h3, _⟩ := C175_map_partial quads outlines (List.ne_nil_of_mem hp)
  exact ⟨m, h1, by linarith [(h3 p hp).2.2.2]⟩

/-- **C175** is violated by point ruptures: neither picture can be made. -/
theorem C175_point_violated (threeD : Option Bool) (p : Point) : wire3d threeD (.point p) = .error .typeError ∧ mapRupture (.point p) = .error .typeError :=
  ⟨rfl, rfl⟩

/-- The rupture of one quadrilateral. -/
example : ∃ m, mapRupture (.surface [⟨⟨10, 20, 0⟩, ⟨11, 20, 0⟩, ⟨11, 19, 9⟩, ⟨10, 19, 9⟩⟩]
    [QuadR.groupOutline id [⟨⟨10, 20, 0⟩, ⟨11, 20, 0⟩, ⟨11, 19, 9⟩, ⟨10, 19, 9⟩⟩]]) = .ok m ∧
    m.line = [(10, 20), (11, 20), (11, 19), (10, 19), (10, 20)] := by
  obtain ⟨m, h1, h2⟩ := C175_single [⟨⟨10, 20, 0⟩, ⟨11, 20, 0⟩, ⟨11, 19, 9⟩, ⟨10, 19, 9⟩⟩]
    (QuadR.groupOutline id [⟨⟨10, 20, 0⟩, ⟨11, 20, 0⟩, ⟨11, 19, 9⟩, ⟨10, 19, 9⟩⟩]) (by simp [QuadR.groupOutline])
  exact ⟨m, h1, by rw [h2]; simp [QuadR.groupOutline]⟩

end Verif.Props
