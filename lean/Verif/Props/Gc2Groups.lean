import Verif.Props.EdgeDistance
import Verif.Props.Gc2

/-!
# GC2 coordinates of several traces: C120-C123
-/

namespace Verif.Props
open Verif.Vec Verif.Rup Verif.Gc2 Real
open Verif.QuadR (P2)
open Verif.EdgeR (uniqueNat members atIdx npSign)
open Verif.Spec (Leg totalWeight sumRight sumAlong traceLength)

/-! ### Vectors -/

theorem sub_swap_norm (a b : V3) : (b.sub a).norm = (a.sub b).norm.mul (-1) := by
  have h : √((b.sub a).x ^ 2 + (b.sub a).y ^ 2 + (b.sub a).z ^ 2) = √((a.sub b).x ^ 2 + (a.sub b).y ^ 2 + (a.sub b).z ^ 2) := by
    congr 1
    simp only [V3.sub]
    ring
  unfold V3.norm V3.mul
  rw [h]
  simp only [V3.sub]
  ext <;> (simp only; ring)

theorem dot_mul_left (a b : V3) (k : ℝ) : (a.mul k).dot b = k * a.dot b := by
  simp only [V3.dot, V3.mul]; ring

theorem dot_norm (b a : V3) : b.norm.dot a = b.dot a / b.mag := by
  unfold V3.norm V3.dot V3.mag
  simp only
  ring

theorem npSign_neg (x : ℝ) : npSign (-x) = -npSign x := by
  unfold npSign
  rcases lt_trichotomy x 0 with h | h | h
  · rw [if_pos (by linarith), if_neg (by linarith), if_pos h]; ring
  · subst h; simp
  · rw [if_neg (by linarith), if_pos (by linarith), if_pos h]

theorem npSign_mul_self (x : ℝ) : npSign x * x = |x| := by
  unfold npSign
  rcases lt_trichotomy x 0 with h | h | h
  · rw [if_neg (by linarith), if_pos h, abs_of_neg h]; ring
  · subst h; simp
  · rw [if_pos h, abs_of_pos h]; ring

/-! ### The loop that finds the origin -/

/-- The direction of a trace, from its first to its last corner. -/
noncomputable def traceVector (p : Point × Point) : V3 := (fromPoint (surface p.2)).sub (fromPoint (surface p.1))

theorem sum_neg (l : List ℝ) : (l.map fun x => -x).sum = -l.sum := by
  induction l with
  | nil => simp
  | cons a l ih => simp [ih]; ring

theorem frame_swap (ends : List (Point × Point)) (A0 A1 : Point) :
    (frameOf ends A1 A0).1.ahat = (frameOf ends A0 A1).1.ahat.mul (-1) ∧
    (frameOf ends A1 A0).1.E = -(frameOf ends A0 A1).1.E ∧ (frameOf ends A1 A0).1.dc = (frameOf ends A0 A1).1.dc ∧
    (frameOf ends A1 A0).2 = -(frameOf ends A0 A1).2 := by
  set v := ((fromPoint (surface A1)).sub (fromPoint (surface A0))).norm with hv
  have hv' : ((fromPoint (surface A0)).sub (fromPoint (surface A1))).norm = v.mul (-1) := by rw [hv, sub_swap_norm]
  set bp := ends.map fun p => (fromPoint (surface p.2)).sub (fromPoint (surface p.1)) with hbp
  have he' : ∀ l : List V3, l.map (v.mul (-1)).dot = (l.map v.dot).map fun x => -x := by
    intro l
    rw [List.map_map]
    apply List.map_congr_left
    intro b _
    simp only [Function.comp, dot_mul_left]; ring
  have he := he' bp
  have hE : (bp.map (v.mul (-1)).dot).sum = -(bp.map v.dot).sum := by rw [he, sum_neg]
  have hdc : ((bp.map (v.mul (-1)).dot).map fun x => npSign x * npSign (bp.map (v.mul (-1)).dot).sum) =
      (bp.map v.dot).map fun x => npSign x * npSign (bp.map v.dot).sum := by
    rw [hE, he, List.map_map]
    apply List.map_congr_left
    intro x _
    simp only [Function.comp, npSign_neg]; ring
  unfold frameOf
  simp only
  rw [← hbp, hv', ← hv, hdc]
  refine ⟨rfl, hE, rfl, ?_⟩
  simp only [V3.dot, V3.mul]; ring

theorem fold_dot (ahat : V3) (l : List (V3 × ℝ)) (b : V3) :
    (l.foldl (fun (b : V3) p => b.add (p.1.mul p.2)) b).dot ahat =
      b.dot ahat + (l.map fun p => p.2 * ahat.dot p.1).sum := by
  induction l generalizing b with
  | nil => simp
  | cons p l ih =>
    rw [List.foldl_cons, ih, List.map_cons, List.sum_cons]
    simp only [V3.dot, V3.add, V3.mul]; ring

/-- The sign of `dummy` is that of `E`. -/
theorem dummy_sign (ends : List (Point × Point)) (A0 A1 : Point) (h : (frameOf ends A0 A1).1.E < 0) :
    (frameOf ends A0 A1).2 < 0 := by
  set v := ((fromPoint (surface A1)).sub (fromPoint (surface A0))).norm with hv
  set bp := ends.map fun p => (fromPoint (surface p.2)).sub (fromPoint (surface p.1)) with hbp
  have hE : (bp.map v.dot).sum < 0 := h
  set E := (bp.map v.dot).sum with hEdef
  have hs : npSign E = -1 := by unfold npSign; rw [if_neg (by linarith), if_pos hE]
  set dc := (bp.map v.dot).map (fun x => npSign x * npSign E) with hdc
  set b := (bp.zip dc).foldl (fun (b : V3) p => b.add (p.1.mul p.2)) ⟨0, 0, 0⟩ with hb
  have hdot : b.dot v = -((bp.map v.dot).map fun x => |x|).sum := by
    rw [hb, fold_dot, hdc, hs]
    simp only [V3.dot, zero_mul, add_zero, zero_add]
    have : ∀ l : List V3, ((l.zip ((l.map v.dot).map fun x => npSign x * -1)).map fun p => p.2 * v.dot p.1).sum =
        -((l.map v.dot).map fun x => |x|).sum := by
      intro l
      induction l with
      | nil => simp
      | cons a l ih =>
        simp only [List.map_cons, List.zip_cons_cons, List.sum_cons, ih]
        rw [← npSign_mul_self]; ring
    exact this bp
  have habs : ∀ l : List ℝ, -l.sum ≤ (l.map fun x => |x|).sum := by
    intro l
    induction l with
    | nil => simp
    | cons a l ih =>
      rw [List.map_cons, List.sum_cons, List.sum_cons]
      have := neg_abs_le a
      linarith
  have hneg : b.dot v < 0 := by
    rw [hdot]
    have := habs (bp.map v.dot)
    linarith
  show b.norm.dot v < 0
  rw [dot_norm]
  apply div_neg_of_neg_of_pos hneg
  rcases (mag_nonneg b).lt_or_eq with h | h
  · exact h
  · exfalso
    have h2 := mag_sq b
    rw [← h] at h2
    have hx : b.x = 0 := by nlinarith [sq_nonneg b.x, sq_nonneg b.y, sq_nonneg b.z]
    have hy : b.y = 0 := by nlinarith [sq_nonneg b.x, sq_nonneg b.y, sq_nonneg b.z]
    have hz : b.z = 0 := by nlinarith [sq_nonneg b.x, sq_nonneg b.y, sq_nonneg b.z]
    rw [V3.dot, hx, hy, hz] at hneg
    simp at hneg

/-- The loop ends after at most two turns; the sum of the projections of the traces on the direction is then not
negative. -/
theorem turn_ends (ends : List (Point × Point)) (A0 A1 : Point) (n : ℕ) :
    ∃ B0 B1, ((B0 = A0 ∧ B1 = A1) ∨ (B0 = A1 ∧ B1 = A0)) ∧
      turn ends (n + 2) A0 A1 = some (frameOf ends B0 B1).1 ∧ 0 ≤ (frameOf ends B0 B1).1.E := by
  by_cases h : (frameOf ends A0 A1).2 < 0
  · refine ⟨A1, A0, Or.inr ⟨rfl, rfl⟩, ?_, ?_⟩
    · have h2 : ¬ (frameOf ends A1 A0).2 < 0 := by
        rw [(frame_swap ends A0 A1).2.2.2]; linarith
      rw [turn, if_pos h, turn, if_neg h2]
    · by_contra hE
      have := dummy_sign ends A1 A0 (not_le.mp hE)
      rw [(frame_swap ends A0 A1).2.2.2] at this
      linarith
  · refine ⟨A0, A1, Or.inl ⟨rfl, rfl⟩, ?_, ?_⟩
    · rw [turn, if_neg h]
    · by_contra hE
      exact h (dummy_sign ends A0 A1 (not_le.mp hE))

/-! ### Array positions -/

theorem atIdx_block {α : Type} (pre g rest : List α) :
    atIdx (pre ++ (g ++ rest)) ((List.range g.length).map (pre.length + ·)) = g := by
  unfold atIdx
  rw [List.filterMap_map]
  have : ∀ (g : List α) (f : ℕ → Option α), (∀ i, i < g.length → f i = g[i]?) → (List.range g.length).filterMap f = g := by
    intro g
    induction g using List.reverseRecOn with
    | nil => intro f _; rfl
    | append_singleton g a ih =>
      intro f hf
      rw [List.length_append, List.length_singleton, List.range_succ, List.filterMap_append,
        ih f (fun i hi => by rw [hf i (by simp; omega), List.getElem?_append_left hi])]
      have := hf g.length (by simp)
      rw [List.getElem?_concat_length] at this
      simp [this]
  apply this
  intro i hi
  simp only [Function.comp]
  rw [List.getElem?_append_right (by omega), List.getElem?_append_left (by omega)]
  congr 1
  omega

theorem blocks {α : Type} (groups : List (List α)) (hne : ∀ g ∈ groups, g ≠ []) (pre : List α) (pidx : List ℕ) (i : ℕ)
    (hl : pidx.length = pre.length) (hp : ∀ k ∈ pidx, k < i) (quads : List α) (idx : List ℕ)
    (hq : quads = pre ++ groups.flatten) (hidx : idx = pidx ++ numbers i (groups.map List.length)) :
    ((List.range' i groups.length).map fun k => (atIdx quads (members idx k), quads[((members idx k).head?).getD 0]?,
      quads[((members idx k).getLast?).getD 0]?)) = groups.map fun g => (g, g.head?, g.getLast?) := by
  induction groups generalizing pre pidx i with
  | nil => rfl
  | cons g groups ih =>
    rw [List.length_cons, List.range'_succ, List.map_cons, List.map_cons]
    congr 1
    · have hm : members idx i = (List.range g.length).map (pre.length + ·) := by
        rw [hidx, List.map_cons, numbers, members_numbers pidx _ _ i hp, hl]
      have hpos : 0 < g.length := List.length_pos_iff.mpr (hne g (by simp))
      rw [hm]
      refine Prod.ext ?_ (Prod.ext ?_ ?_)
      · simp only
        rw [hq, List.flatten_cons, atIdx_block]
      · simp only
        rw [List.head?_map, List.head?_range, if_neg (by omega), hq, List.flatten_cons]
        simp only [Option.map_some, Option.getD_some]
        rw [List.getElem?_append_right (by omega), List.getElem?_append_left (by omega)]
        simp [List.head?_eq_getElem?]
      · simp only
        rw [List.getLast?_map, List.getLast?_range, if_neg (by omega), hq, List.flatten_cons]
        simp only [Option.map_some, Option.getD_some]
        rw [List.getElem?_append_right (by omega), List.getElem?_append_left (by omega), List.getLast?_eq_getElem?]
        congr 1
        omega
    · apply ih (fun g hg => hne g (by simp [hg])) (pre ++ g) (pidx ++ List.replicate g.length i) (i + 1)
      · simp [hl]
      · intro k hk
        rcases List.mem_append.mp hk with hk | hk
        · have := hp k hk; omega
        · rw [List.eq_of_mem_replicate hk]; omega
      · rw [hq]; simp
      · rw [hidx, List.map_cons, numbers]; simp

theorem last_member (idx : List ℕ) (g : ℕ) (h : idx.getLast? = some g) : (members idx g).getLast? = some (idx.length - 1) := by
  have hpos : 0 < idx.length := by
    cases idx with
    | nil => simp at h
    | cons a l => simp
  rw [List.getLast?_eq_getElem?] at h
  unfold members
  obtain ⟨n, hn⟩ := Nat.exists_eq_succ_of_ne_zero hpos.ne'
  rw [hn, List.range_succ, List.filter_append]
  have : [n].filter (fun i => decide (idx[i]? = some g)) = [n] := by
    rw [List.filter_cons, if_pos]
    · rfl
    · simp only [decide_eq_true_eq]
      rw [← h, hn]; rfl
  rw [this]
  simp

/-! ### C122: edge ruptures with several groups -/

theorem farthest_none (dist : Point → Point → ℝ) (l : List (Option (Point × Point))) (h : none ∈ l)
    (best : ℝ × Option (Point × Point)) : farthest dist best l = .error .index := by
  induction l generalizing best with
  | nil => simp at h
  | cons a l ih =>
    cases a with
    | none => rfl
    | some p =>
      have h' : none ∈ l := by simpa using h
      rw [farthest]
      split_ifs
      · exact ih h' _
      · exact ih h' _

theorem combos_last {α : Type} (a b : α) (l : List α) : (a, b) ∈ combos (a :: (l ++ [b])) := by
  rw [combos]
  simp

/-- **C122** violated: for every edge rupture with two or more groups, GC2 coordinates cannot be computed for any site:
the group index has an entry for each point of an edge, not for each quadrilateral, and the last one is out of range. -/
theorem C122_edge_groups_violated (dist : Point → Point → ℝ) (proj : Point → P2) (tbs : List (List Point × List Point))
    (h : ∀ tb ∈ tbs, tb.1.length = tb.2.length ∧ tb.1 ≠ []) (h2 : 2 ≤ tbs.length) (e : EdgeR.Edges Point)
    (he : e = EdgeR.ofPolygons (tbs.map fun tb => Spec.outline tb.1 tb.2)) (quads : List (Quad Point))
    (hq : EdgeR.getQuadrilaterals e = quads.map some) (site : P2) (fuel : ℕ) :
    computeGC2 dist proj quads e.group site fuel = some (.error .index) := by
  have hg : e.group = numbers 0 (tbs.map fun tb => tb.1.length) := by
    rw [he, EdgeR.ofPolygons, addPolygons_outline tbs h]; simp
  have hpos : ∀ n ∈ tbs.map (fun tb => tb.1.length), 0 < n := by
    intro n hn
    obtain ⟨tb, htb, rfl⟩ := List.mem_map.1 hn
    exact List.length_pos_iff.2 (h tb htb).2
  have hu : uniqueNat e.group = List.range' 0 tbs.length := by rw [hg, unique_numbers _ hpos]; simp
  have hlen : quads.length ≤ e.group.length - 1 := by
    have hql : quads.length = ((List.range' 0 tbs.length).map fun k => (members e.group k).length - 1).sum := by
      have := congrArg List.length hq
      rw [List.length_map] at this
      rw [← this]
      unfold EdgeR.getQuadrilaterals
      rw [hu, List.length_flatMap]
      simp
    have key : ∀ (tbs : List (List Point × List Point)) (i : ℕ) (pidx : List ℕ), (∀ k ∈ pidx, k < i) →
        (∀ tb ∈ tbs, tb.1 ≠ []) →
        ((List.range' i tbs.length).map fun k =>
          (members (pidx ++ numbers i (tbs.map fun tb => tb.1.length)) k).length - 1).sum + tbs.length =
          (numbers i (tbs.map fun tb => tb.1.length)).length := by
      intro tbs
      induction tbs with
      | nil => intro i pidx _ _; rfl
      | cons tb tbs ih =>
        intro i pidx hp hne
        have h1 : 0 < tb.1.length := List.length_pos_iff.2 (hne tb (by simp))
        rw [List.length_cons, List.range'_succ, List.map_cons, List.sum_cons, List.map_cons, numbers,
          members_numbers _ _ _ _ hp]
        have := ih (i + 1) (pidx ++ List.replicate tb.1.length i) (by
          intro k hk
          rcases List.mem_append.mp hk with hk | hk
          · have := hp k hk; omega
          · rw [List.eq_of_mem_replicate hk]; omega) (fun t ht => hne t (by simp [ht]))
        rw [List.append_assoc] at this
        simp only [List.length_map, List.length_range, List.length_append, List.length_replicate] at this ⊢
        omega
    have := key tbs 0 [] (by simp) (fun tb htb => (h tb htb).2)
    rw [List.nil_append, ← hg] at this
    omega
  have hlast : e.group.getLast? = some (tbs.length - 1) := by
    rw [hg]
    have : ∀ (ns : List ℕ) (i : ℕ), (∀ n ∈ ns, 0 < n) → ns ≠ [] → (numbers i ns).getLast? = some (i + (ns.length - 1)) := by
      intro ns
      induction ns with
      | nil => intro _ _ h; exact absurd rfl h
      | cons n ns ih =>
        intro i hp _
        rw [numbers]
        cases ns with
        | nil =>
          have := hp n (by simp)
          obtain ⟨m, hm⟩ := Nat.exists_eq_succ_of_ne_zero this.ne'
          simp [numbers, hm, List.getLast?_replicate]
        | cons m ns =>
          have := ih (i + 1) (fun n hn => hp n (by simp [hn])) (by simp)
          rw [List.getLast?_append, this]
          simp
          omega
    rw [this _ 0 hpos (by intro hc; rw [List.map_eq_nil_iff] at hc; rw [hc] at h2; simp at h2)]
    simp
  obtain ⟨m, hm⟩ : ∃ m, tbs.length = m + 2 := ⟨tbs.length - 2, by omega⟩
  unfold computeGC2
  simp only
  have h1 : (uniqueNat e.group).length > 1 := by rw [hu]; simp; omega
  rw [if_pos h1, farthest_none]
  apply List.mem_flatMap.mpr
  have hend : ∃ a l b, endIndex e.group = a :: (l ++ [b]) ∧ b.2 = e.group.length - 1 := by
    unfold endIndex
    rw [hu, hm, List.range'_succ, List.map_cons, List.range'_concat, List.map_append]
    refine ⟨_, _, _, rfl, ?_⟩
    have : 0 + 1 + 1 * m = tbs.length - 1 := by omega
    show ((members e.group (0 + 1 + 1 * m)).getLast?).getD 0 = _
    rw [this, last_member _ _ hlast]
    rfl
  obtain ⟨a, l, b, hab, hb⟩ := hend
  refine ⟨(a, b), by rw [hab]; exact combos_last a b l, ?_⟩
  unfold pointPairs
  simp only
  rw [hb, List.getElem?_eq_none hlen]
  simp [both]

example : ∃ quads : List (Quad Point), EdgeR.getQuadrilaterals (EdgeR.ofPolygons ([([⟨0, 0, 0⟩, ⟨1, 0, 0⟩], [⟨0, 0, 9⟩, ⟨1, 0, 9⟩]),
    ([⟨2, 0, 0⟩, ⟨3, 0, 0⟩], [⟨2, 0, 9⟩, ⟨3, 0, 9⟩])].map fun tb => Spec.outline (α := Point) tb.1 tb.2)) =
    quads.map some := by
  rw [List.map_cons, List.map_cons, List.map_nil,
    C72_second_group_violated _ _ _ _ (by simp) (by simp) (by simp) (by simp)]
  exact ⟨_, rfl⟩

/-! ### Legs of quadrilaterals -/

theorem leg_exists {proj : Point → P2} {q : Quad Point} (h : proj q.p0 ≠ proj q.p1) (hl : 0 < quadLength q.ecef) :
    ∃ g, LegOf proj q g := by
  set ux := (proj q.p1).x - (proj q.p0).x with hux
  set uy := (proj q.p1).y - (proj q.p0).y with huy
  have hpos : 0 < ux ^ 2 + uy ^ 2 := by
    by_contra hc
    have hx : ux = 0 := by nlinarith [sq_nonneg ux, sq_nonneg uy]
    have hy : uy = 0 := by nlinarith [sq_nonneg ux, sq_nonneg uy]
    apply h
    cases h0 : proj q.p0 with
    | mk a b =>
      cases h1 : proj q.p1 with
      | mk c d =>
        rw [h0, h1] at hux huy
        simp only at hux huy
        congr 1 <;> linarith
  set r := √(ux ^ 2 + uy ^ 2) with hr
  have hrp : 0 < r := sqrt_pos.mpr hpos
  have hr2 : r ^ 2 = ux ^ 2 + uy ^ 2 := sq_sqrt hpos.le
  have hr' : r ≠ 0 := hrp.ne'
  refine ⟨⟨(proj q.p0).x, (proj q.p0).y, ux / r, uy / r, quadLength q.ecef⟩, rfl, ⟨r, hrp, ?_⟩, ⟨?_, hl⟩, rfl⟩
  · cases h1 : proj q.p1 with
    | mk c d =>
      rw [h1] at hux huy
      simp only at hux huy ⊢
      rw [mul_div_cancel₀ _ hr', mul_div_cancel₀ _ hr', hux, huy]
      congr 1 <;> ring
  · simp only
    field_simp
    rw [hr2]

theorem reverse_length (q : Quad Point) : quadLength (reverseQuad q).ecef = quadLength q.ecef := by
  unfold quadLength
  congr 1
  show ((fromPoint q.p0).sub (fromPoint q.p1)).mag = ((fromPoint q.p1).sub (fromPoint q.p0)).mag
  unfold V3.mag V3.sub
  congr 1
  simp only
  ring

/-- A quadrilateral with a top edge that is not empty, in space and in the projection. -/
def HasTop (proj : Point → P2) (q : Quad Point) : Prop := proj q.p0 ≠ proj q.p1 ∧ 0 < quadLength q.ecef

theorem legs_exist {proj : Point → P2} (qs : List (Quad Point)) (h : ∀ q ∈ qs, ∃ g, LegOf proj q g) :
    ∃ gs, List.Forall₂ (LegOf proj) qs gs := by
  induction qs with
  | nil => exact ⟨[], .nil⟩
  | cons q qs ih =>
    obtain ⟨g, hg⟩ := h q (by simp)
    obtain ⟨gs, hgs⟩ := ih fun q hq => h q (by simp [hq])
    exact ⟨g :: gs, .cons hg hgs⟩

theorem groupLegs_exist {proj : Point → P2} (runs : List (ℝ × List (Quad Point)))
    (h : ∀ r ∈ runs, ∀ q ∈ r.2, ∃ g, LegOf proj q g) :
    ∃ legs, List.Forall₂ (fun r gs => List.Forall₂ (LegOf proj) r.2 gs) runs legs := by
  induction runs with
  | nil => exact ⟨[], .nil⟩
  | cons r runs ih =>
    obtain ⟨g, hg⟩ := legs_exist r.2 (h r (by simp))
    obtain ⟨gs, hgs⟩ := ih fun q hq => h q (by simp [hq])
    exact ⟨g :: gs, .cons hg hgs⟩

/-- Sum of the weights of all traces. -/
noncomputable def allWeight (x y : ℝ) (legs : List (List Leg)) : ℝ := (legs.map (totalWeight x y)).sum

/-- Weighted sum of the distances to the right, for all traces. -/
noncomputable def allRight (x y : ℝ) (legs : List (List Leg)) : ℝ := (legs.map (sumRight x y)).sum

/-- Weighted sum of the distances along the traces, which start at the given coordinates. -/
noncomputable def allAlong (x y : ℝ) (bases : List ℝ) (legs : List (List Leg)) : ℝ :=
  ((bases.zip legs).map fun p => sumAlong x y p.1 p.2).sum

theorem fold_groups {proj : Point → P2} {x y : ℝ} {runs : List (ℝ × List (Quad Point))} {legs : List (List Leg)}
    (h : List.Forall₂ (fun r gs => List.Forall₂ (LegOf proj) r.2 gs) runs legs)
    (ho : ∀ gs ∈ legs, ∀ g ∈ gs, ¬ g.On x y) (a : Acc) :
    ∃ off, runs.foldl (addGroup proj ⟨x, y⟩) a = ⟨a.tot + allWeight x y legs, a.T + allRight x y legs,
      a.U + allAlong x y (runs.map (·.1)) legs, off⟩ := by
  induction h generalizing a with
  | nil => exact ⟨a.off, by simp [allWeight, allRight, allAlong]⟩
  | cons hr _ ih =>
    rw [List.foldl_cons, addGroup, fold_off hr (ho _ (by simp))]
    obtain ⟨off, hoff⟩ := ih (fun gs hgs => ho gs (by simp [hgs])) _
    refine ⟨off, ?_⟩
    rw [hoff]
    simp only [allWeight, allRight, allAlong, List.map_cons, List.sum_cons, List.zip_cons_cons]
    congr 1 <;> ring

/-! ### C120: several traces -/

/-- A trace drawn as given, or backwards. -/
def drawn (back : Bool) (g : List (Quad Point)) : List (Quad Point) := if back then (g.map reverseQuad).reverse else g

/-- The corners at the start and at the end of a trace. -/
def Ends (g : List (Quad Point)) (p : Point × Point) : Prop :=
  ∃ q q', g.head? = some q ∧ g.getLast? = some q' ∧ p = (q.p0, q'.p1)

/-- The unit vector from one point on the surface to another. -/
noncomputable def heading (A0 A1 : Point) : V3 := ((fromPoint (surface A1)).sub (fromPoint (surface A0))).norm

/-- The distance in km of a corner from the origin, in a direction. -/
noncomputable def coordinate (o : Point) (dir : V3) (p : Point) : ℝ :=
  ((fromPoint p).sub (fromPoint (surface o))).dot dir / 1000

theorem ends_of {g : List (Quad Point)} (h : g ≠ []) : ∃ p, Ends g p := by
  cases hg : g with
  | nil => exact absurd hg h
  | cons q l =>
    rw [← hg]
    refine ⟨_, q, g.getLast h, by rw [hg]; rfl, List.getLast?_eq_some_getLast h, rfl⟩

theorem ends_back {g : List (Quad Point)} {p : Point × Point} (h : Ends g p) :
    Ends (drawn true g) (p.2, p.1) := by
  obtain ⟨q, q', h1, h2, rfl⟩ := h
  refine ⟨reverseQuad q', reverseQuad q, ?_, ?_, rfl⟩
  · unfold drawn
    rw [if_pos rfl, List.head?_reverse, List.getLast?_map, h2]; rfl
  · unfold drawn
    rw [if_pos rfl, List.getLast?_reverse, List.head?_map, h1]; rfl

theorem ends_unique {g : List (Quad Point)} {p p' : Point × Point} (h : Ends g p) (h' : Ends g p') : p = p' := by
  obtain ⟨q, q', h1, h2, rfl⟩ := h
  obtain ⟨r, r', h3, h4, rfl⟩ := h'
  rw [h1] at h3; rw [h2] at h4
  cases h3; cases h4; rfl

theorem farthest_ok (dist : Point → Point → ℝ) (l : List (Option (Point × Point))) (h : none ∉ l)
    (best : ℝ × Option (Point × Point)) (hb : best.2 ≠ none ∨ ∃ p ∈ l, ∃ ab, p = some ab ∧ best.1 < dist ab.1 ab.2) :
    ∃ A, farthest dist best l = .ok A := by
  induction l generalizing best with
  | nil =>
    rcases hb with hb | ⟨p, hp, -⟩
    · rw [farthest]
      cases h2 : best.2 with
      | none => exact absurd h2 hb
      | some A => exact ⟨A, rfl⟩
    · simp at hp
  | cons a l ih =>
    cases a with
    | none => simp at h
    | some ab =>
      have h' : none ∉ l := by simpa using h
      rw [farthest]
      split_ifs with hd
      · exact ih h' _ (Or.inl (by simp))
      · apply ih h'
        rcases hb with hb | ⟨p, hp, ab', rfl, hlt⟩
        · exact Or.inl hb
        · rcases List.mem_cons.mp hp with hp | hp
          · cases hp; exact absurd hlt hd
          · exact Or.inr ⟨_, hp, _, rfl, hlt⟩

theorem numbers_unique (groups : List (List (Quad Point))) (hne : ∀ g ∈ groups, g ≠ []) :
    uniqueNat (numbers 0 (groups.map List.length)) = List.range' 0 groups.length := by
  rw [unique_numbers]
  · simp
  · intro n hn
    obtain ⟨g, hg, rfl⟩ := List.mem_map.1 hn
    exact List.length_pos_iff.2 (hne g hg)

theorem endIndex_spec (groups : List (List (Quad Point))) (hne : ∀ g ∈ groups, g ≠ []) :
    ((endIndex (numbers 0 (groups.map List.length))).map fun e => (groups.flatten[e.1]?, groups.flatten[e.2]?)) =
      groups.map fun g => (g.head?, g.getLast?) := by
  have hb := blocks groups hne [] [] 0 rfl (by simp) groups.flatten _ (by simp) rfl
  have := congrArg (List.map Prod.snd) hb
  rw [List.map_map, List.map_map] at this
  unfold endIndex
  rw [numbers_unique groups hne, List.map_map]
  exact this

theorem groups_spec (groups : List (List (Quad Point))) (hne : ∀ g ∈ groups, g ≠ []) :
    ((uniqueNat (numbers 0 (groups.map List.length))).map fun k =>
      atIdx groups.flatten (members (numbers 0 (groups.map List.length)) k)) = groups := by
  have hb := blocks groups hne [] [] 0 rfl (by simp) groups.flatten _ (by simp) rfl
  have := congrArg (List.map Prod.fst) hb
  rw [List.map_map, List.map_map] at this
  rw [numbers_unique groups hne]
  refine this.trans ?_
  exact List.map_id' groups

theorem endIndex_found (groups : List (List (Quad Point))) (hne : ∀ g ∈ groups, g ≠ []) (e : ℕ × ℕ)
    (he : e ∈ endIndex (numbers 0 (groups.map List.length))) :
    (∃ q, groups.flatten[e.1]? = some q) ∧ ∃ q, groups.flatten[e.2]? = some q := by
  have h := List.mem_map_of_mem (f := fun e : ℕ × ℕ => (groups.flatten[e.1]?, groups.flatten[e.2]?)) he
  rw [endIndex_spec groups hne] at h
  obtain ⟨g, hg, hge⟩ := List.mem_map.1 h
  have h1 : g.head? = groups.flatten[e.1]? := congrArg Prod.fst hge
  have h2 : g.getLast? = groups.flatten[e.2]? := congrArg Prod.snd hge
  rw [← h1, ← h2]
  exact ⟨⟨_, List.head?_eq_some_head (hne g hg)⟩, ⟨_, List.getLast?_eq_some_getLast (hne g hg)⟩⟩

theorem combos_mem {α : Type} {l : List α} {p : α × α} (h : p ∈ combos l) : p.1 ∈ l ∧ p.2 ∈ l := by
  induction l with
  | nil => simp [combos] at h
  | cons a l ih =>
    rw [combos, List.mem_append] at h
    rcases h with h | h
    · obtain ⟨b, hb, rfl⟩ := List.mem_map.1 h
      exact ⟨by simp, by simp [hb]⟩
    · exact ⟨by simp [(ih h).1], by simp [(ih h).2]⟩

theorem pairs_found (groups : List (List (Quad Point))) (hne : ∀ g ∈ groups, g ≠ []) :
    none ∉ (combos (endIndex (numbers 0 (groups.map List.length)))).flatMap (pointPairs groups.flatten) := by
  intro hc
  obtain ⟨e, he, hn⟩ := List.mem_flatMap.1 hc
  obtain ⟨⟨q1, h1⟩, ⟨q2, h2⟩⟩ := endIndex_found groups hne _ (combos_mem he).1
  obtain ⟨⟨q3, h3⟩, ⟨q4, h4⟩⟩ := endIndex_found groups hne _ (combos_mem he).2
  unfold pointPairs at hn
  rw [h1, h2, h3, h4] at hn
  simp [both] at hn

theorem combos_map {α β : Type} (f : α → β) (l : List α) :
    combos (l.map f) = (combos l).map fun p => (f p.1, f p.2) := by
  induction l with
  | nil => rfl
  | cons a l ih =>
    rw [List.map_cons, combos, combos, ih, List.map_append, List.map_map, List.map_map]
    rfl

theorem combos_iff {α : Type} (l : List α) (a b : α) : (a, b) ∈ combos l ↔ List.Sublist [a, b] l := by
  induction l with
  | nil => simp [combos]
  | cons c l ih =>
    rw [combos, List.mem_append, ih, List.sublist_cons_iff]
    constructor
    · rintro (h | h)
      · obtain ⟨d, hd, hcd⟩ := List.mem_map.1 h
        cases hcd
        exact Or.inr ⟨[b], rfl, by simpa using hd⟩
      · exact Or.inl h
    · rintro (h | ⟨r, hr, h⟩)
      · exact Or.inr h
      · cases hr
        exact Or.inl (List.mem_map.2 ⟨b, by simpa using h, rfl⟩)

/-- The pairs of points from which the two corners are chosen: for an earlier trace its first and last corner, for a later one the first
corner of its last quadrilateral and the second corner of its first. -/
def Candidate (groups : List (List (Quad Point))) (a b : Point) : Prop :=
  ∃ g h q0 q1 r0 r1, List.Sublist [g, h] groups ∧ g.head? = some q0 ∧ g.getLast? = some q1 ∧ h.head? = some r0 ∧
    h.getLast? = some r1 ∧ (a = q0.p0 ∨ a = q1.p1) ∧ (b = r1.p0 ∨ b = r0.p1)

theorem candidate_iff (groups : List (List (Quad Point))) (hne : ∀ g ∈ groups, g ≠ []) (a b : Point) :
    some (a, b) ∈ (combos (endIndex (numbers 0 (groups.map List.length)))).flatMap (pointPairs groups.flatten) ↔
      Candidate groups a b := by
  have key : (combos (endIndex (numbers 0 (groups.map List.length)))).flatMap (pointPairs groups.flatten) =
      (combos groups).flatMap fun p =>
        [both (p.1.head?.map (·.p0)) (p.2.getLast?.map (·.p0)), both (p.1.head?.map (·.p0)) (p.2.head?.map (·.p1)),
         both (p.1.getLast?.map (·.p1)) (p.2.getLast?.map (·.p0)), both (p.1.getLast?.map (·.p1)) (p.2.head?.map (·.p1))] := by
    have h := endIndex_spec groups hne
    have h1 := congrArg combos h
    rw [combos_map, combos_map] at h1
    have h2 := congrArg (List.flatMap fun p : (Option (Quad Point) × Option (Quad Point)) ×
        (Option (Quad Point) × Option (Quad Point)) =>
      [both (p.1.1.map (·.p0)) (p.2.2.map (·.p0)), both (p.1.1.map (·.p0)) (p.2.1.map (·.p1)),
       both (p.1.2.map (·.p1)) (p.2.2.map (·.p0)), both (p.1.2.map (·.p1)) (p.2.1.map (·.p1))]) h1
    rw [List.flatMap_map, List.flatMap_map] at h2
    exact h2
  rw [key, List.mem_flatMap]
  constructor
  · rintro ⟨⟨g, h⟩, hc, hm⟩
    have hs := (combos_iff groups g h).mp hc
    obtain ⟨hg, hh⟩ := combos_mem hc
    simp only at hm hg hh
    rw [List.head?_eq_some_head (hne g hg), List.getLast?_eq_some_getLast (hne g hg),
      List.head?_eq_some_head (hne h hh), List.getLast?_eq_some_getLast (hne h hh)] at hm
    refine ⟨g, h, _, _, _, _, hs, List.head?_eq_some_head (hne g hg), List.getLast?_eq_some_getLast (hne g hg),
      List.head?_eq_some_head (hne h hh), List.getLast?_eq_some_getLast (hne h hh), ?_⟩
    simp only [Option.map_some, both, List.mem_cons, Option.some.injEq, Prod.mk.injEq, List.not_mem_nil, or_false] at hm
    tauto
  · rintro ⟨g, h, q0, q1, r0, r1, hs, h1, h2, h3, h4, ha, hb⟩
    refine ⟨(g, h), (combos_iff groups g h).mpr hs, ?_⟩
    simp only [h1, h2, h3, h4, Option.map_some, both, List.mem_cons, Option.some.injEq, Prod.mk.injEq, List.not_mem_nil, or_false]
    tauto

theorem farthest_max (dist : Point → Point → ℝ) (l : List (Option (Point × Point))) (best : ℝ × Option (Point × Point))
    (hb : ∀ B, best.2 = some B → best.1 = dist B.1 B.2) (hb0 : best.2 = none → best.1 = 0) (A : Point × Point)
    (h : farthest dist best l = .ok A) :
    (some A ∈ l ∨ best.2 = some A) ∧ best.1 ≤ dist A.1 A.2 ∧ ∀ p, some p ∈ l → dist p.1 p.2 ≤ dist A.1 A.2 := by
  induction l generalizing best with
  | nil =>
    rw [farthest] at h
    cases h2 : best.2 with
    | none => rw [h2] at h; simp at h
    | some B =>
      rw [h2] at h
      cases h
      exact ⟨Or.inr rfl, (hb A h2).le, by simp⟩
  | cons a l ih =>
    cases a with
    | none => simp [farthest] at h
    | some p =>
      rw [farthest] at h
      split_ifs at h with hd
      · obtain ⟨i1, i2, i3⟩ := ih _ (by simp) (by simp) h
        refine ⟨?_, by simp only at i2; linarith, ?_⟩
        · rcases i1 with i1 | i1
          · exact Or.inl (by simp [i1])
          · simp only at i1; exact Or.inl (by rw [i1]; simp)
        · intro p' hp'
          rcases List.mem_cons.mp hp' with hp' | hp'
          · cases hp'; exact i2
          · exact i3 p' hp'
      · obtain ⟨i1, i2, i3⟩ := ih best hb hb0 h
        refine ⟨?_, i2, ?_⟩
        · rcases i1 with i1 | i1
          · exact Or.inl (by simp [i1])
          · exact Or.inr i1
        · intro p' hp'
          rcases List.mem_cons.mp hp' with hp' | hp'
          · cases hp'; linarith [not_lt.mp hd]
          · exact i3 p' hp'

/-- The two corners are a pair at the greatest distance among the candidates, in either order. -/
def Farthest (dist : Point → Point → ℝ) (groups : List (List (Quad Point))) (o o' : Point) : Prop :=
  ∃ a b, ((o = a ∧ o' = b) ∨ (o = b ∧ o' = a)) ∧ Candidate groups a b ∧
    ∀ c d, Candidate groups c d → dist c d ≤ dist a b

theorem allSome_ends (l : List (Option (Quad Point) × Option (Quad Point))) (groups : List (List (Quad Point)))
    (hne : ∀ g ∈ groups, g ≠ []) (h : l = groups.map fun g => (g.head?, g.getLast?)) :
    ∃ ends, allSome (l.map fun e => both (e.1.map (·.p0)) (e.2.map (·.p1))) = some ends ∧
      List.Forall₂ Ends groups ends := by
  induction groups generalizing l with
  | nil => exact ⟨[], by rw [h]; rfl, .nil⟩
  | cons g groups ih =>
    obtain ⟨ends, h1, h2⟩ := ih _ (fun g hg => hne g (by simp [hg])) rfl
    have ha := List.head?_eq_some_head (hne g (by simp))
    have hb := List.getLast?_eq_some_getLast (hne g (by simp))
    refine ⟨((g.head (hne g (by simp))).p0, (g.getLast (hne g (by simp))).p1) :: ends, ?_, .cons ⟨_, _, ha, hb, rfl⟩ h2⟩
    rw [h, List.map_cons, List.map_cons, ha, hb]
    show (allSome (List.map (fun e : Option (Quad Point) × Option (Quad Point) =>
      both (e.1.map (·.p0)) (e.2.map (·.p1))) (groups.map fun g => (g.head?, g.getLast?)))).map _ = _
    rw [h1]
    rfl

theorem forall2_right {α β : Type} {R : α → β → Prop} {l : List α} {l' : List β} (h : List.Forall₂ R l l') {b : β}
    (hb : b ∈ l') : ∃ a ∈ l, R a b := by
  induction h with
  | nil => simp at hb
  | cons hab _ ih =>
    rcases List.mem_cons.mp hb with rfl | hb
    · exact ⟨_, by simp, hab⟩
    · obtain ⟨r, hr, h⟩ := ih hb
      exact ⟨r, by simp [hr], h⟩

/-- The runs that `based` makes, when the sum of the projections is positive. -/
theorem based_pos (f : Frame) (hE : 0 < f.E) (o : Point) (ho : f.origin = fromPoint (surface o))
    (groups : List (List (Quad Point))) (ends : List (Point × Point)) (he : List.Forall₂ Ends groups ends)
    (hdc : f.dc = ends.map fun p => npSign (f.ahat.dot (traceVector p)) * npSign f.E) :
    ∃ flips : List Bool, flips.length = groups.length ∧
      (based f groups).map (·.2) = (flips.zip groups).map (fun p => drawn p.1 p.2) ∧
      ∀ r ∈ based f groups, ∃ p, Ends r.2 p ∧ 0 ≤ f.ahat.dot (traceVector p) ∧ r.1 = coordinate o f.ahat p.1 := by
  have hs : npSign f.E = 1 := by unfold npSign; rw [if_pos hE]
  unfold based
  rw [hdc, hs]
  clear hdc
  induction he with
  | nil => exact ⟨[], rfl, rfl, by simp⟩
  | cons hg _ ih =>
    rename_i g p groups ends _
    obtain ⟨flips, h1, h2, h3⟩ := ih
    have hbase : ∀ r : List (Quad Point), ∀ p, Ends r p → groupBase f r = coordinate o f.ahat p.1 := by
      rintro r p ⟨q, q', hq, -, rfl⟩
      cases r with
      | nil => simp at hq
      | cons a r =>
        cases hq
        unfold groupBase coordinate
        rw [hs, ho]
        simp [V3.dot, V3.mul]
    obtain ⟨b, p', hfl, he', hp'⟩ : ∃ b p', flipGroup (npSign (f.ahat.dot (traceVector p)) * 1) g = drawn b g ∧
        Ends (drawn b g) p' ∧ 0 ≤ f.ahat.dot (traceVector p') := by
      by_cases hneg : f.ahat.dot (traceVector p) < 0
      · have hsg : npSign (f.ahat.dot (traceVector p)) = -1 := by
          unfold npSign; rw [if_neg (by linarith), if_pos hneg]
        refine ⟨true, (p.2, p.1), ?_, ends_back hg, ?_⟩
        · unfold flipGroup drawn
          rw [hsg, if_pos (by norm_num), if_pos rfl]
        · have : f.ahat.dot (traceVector (p.2, p.1)) = -f.ahat.dot (traceVector p) := by
            simp only [traceVector, V3.dot, V3.sub]; ring
          rw [this]; linarith
      · have hsg : ¬ npSign (f.ahat.dot (traceVector p)) * 1 < 0 := by
          unfold npSign
          rw [if_neg hneg]
          split_ifs <;> norm_num
        refine ⟨false, p, ?_, hg, not_lt.mp hneg⟩
        unfold flipGroup drawn
        rw [if_neg hsg, if_neg (by simp)]
    have hcons : ((g :: groups).zip ((p :: ends).map fun p => npSign (f.ahat.dot (traceVector p)) * 1)).map
        (fun p => (groupBase f (flipGroup p.2 p.1), flipGroup p.2 p.1)) =
        (groupBase f (drawn b g), drawn b g) ::
        (groups.zip (ends.map fun p => npSign (f.ahat.dot (traceVector p)) * 1)).map
        (fun p => (groupBase f (flipGroup p.2 p.1), flipGroup p.2 p.1)) := by
      rw [List.map_cons, List.zip_cons_cons, List.map_cons]
      simp only [hfl]
    rw [hcons]
    refine ⟨b :: flips, by simp [h1], ?_, ?_⟩
    · rw [List.map_cons, h2]; rfl
    · intro r hr
      rcases List.mem_cons.mp hr with rfl | hr
      · exact ⟨p', he', hp', hbase _ _ he'⟩
      · exact h3 r hr

theorem traces_frame (dist : Point → Point → ℝ) (proj : Point → P2) (groups : List (List (Quad Point)))
    (hne : ∀ g ∈ groups, g ≠ [])
    (hd : ∃ g0 g1 rest q0 q1, groups = g0 :: g1 :: rest ∧ g0.head? = some q0 ∧ g1.getLast? = some q1 ∧
      0 < dist q0.p0 q1.p0) (x y : ℝ) (fuel : ℕ) :
    ∃ o o' ends, computeGC2 dist proj groups.flatten (numbers 0 (groups.map List.length)) ⟨x, y⟩ (fuel + 2) =
        some (.ok (finish proj ⟨x, y⟩ (based (frameOf ends o o').1 groups))) ∧
      Farthest dist groups o o' ∧ List.Forall₂ Ends groups ends ∧ 0 ≤ (frameOf ends o o').1.E ∧
      (frameOf ends o o').1.E = (ends.map fun p => (heading o o').dot (traceVector p)).sum ∧
      (frameOf ends o o').1.dc = ends.map fun p =>
        npSign ((frameOf ends o o').1.ahat.dot (traceVector p)) * npSign (frameOf ends o o').1.E := by
  obtain ⟨g0, g1, rest, q0, q1, hgr, hq0, hq1, hdist⟩ := hd
  set idx := numbers 0 (groups.map List.length) with hidx
  have hu := numbers_unique groups hne
  have hlen : (uniqueNat idx).length > 1 := by rw [hu]; simp [hgr]
  obtain ⟨A, hA⟩ := farthest_ok dist _ (pairs_found groups hne) (0, none) (by
    right
    have hes := endIndex_spec groups hne
    rw [← hidx] at hes
    have : ∃ e0 e1 es, endIndex idx = e0 :: e1 :: es := by
      have h1 := congrArg List.length hes
      rw [hgr] at h1
      simp only [List.length_map, List.length_cons] at h1
      cases hE : endIndex idx with
      | nil => rw [hE] at h1; simp at h1
      | cons a l =>
        cases l with
        | nil => rw [hE] at h1; simp at h1
        | cons b l => exact ⟨a, b, l, rfl⟩
    obtain ⟨e0, e1, es, hE⟩ := this
    rw [hE] at hes
    have hes' : (e0 :: e1 :: es).map (fun e => (groups.flatten[e.1]?, groups.flatten[e.2]?)) =
      (g0 :: g1 :: rest).map fun g => (g.head?, g.getLast?) := by rw [← hgr]; exact hes
    simp only [List.map_cons, List.cons.injEq, Prod.mk.injEq] at hes'
    refine ⟨some (q0.p0, q1.p0), ?_, _, rfl, hdist⟩
    apply List.mem_flatMap.2
    refine ⟨(e0, e1), ?_, ?_⟩
    · rw [hE, combos]; simp
    · unfold pointPairs
      simp only
      rw [hes'.1.1, hes'.2.1.2, hq0, hq1]
      simp [both])
  obtain ⟨ends, hends, hfor⟩ := allSome_ends _ groups hne (endIndex_spec groups hne)
  rw [List.map_map] at hends
  obtain ⟨o, o', hoo, hturn, hE⟩ := turn_ends ends A.1 A.2 fuel
  have hfar : Farthest dist groups o o' := by
    obtain ⟨m1, -, m3⟩ := farthest_max dist _ (0, none) (by simp) (by simp) A hA
    refine ⟨A.1, A.2, hoo, ?_, ?_⟩
    · rcases m1 with m1 | m1
      · exact (candidate_iff groups hne A.1 A.2).mp m1
      · simp at m1
    · intro c d hcd
      exact m3 (c, d) ((candidate_iff groups hne c d).mpr hcd)
  have hfE : (frameOf ends o o').1.E = (ends.map fun p => (heading o o').dot (traceVector p)).sum := by
    unfold frameOf
    simp only [List.map_map]
    rfl
  have hfdc : (frameOf ends o o').1.dc = ends.map fun p =>
      npSign ((frameOf ends o o').1.ahat.dot (traceVector p)) * npSign (frameOf ends o o').1.E := by
    unfold frameOf
    simp only [List.map_map]
    rfl
  have hcomp : computeGC2 dist proj groups.flatten idx ⟨x, y⟩ (fuel + 2) =
      some (.ok (finish proj ⟨x, y⟩ (based (frameOf ends o o').1 groups))) := by
    unfold computeGC2
    simp only
    rw [if_pos hlen, hA]
    simp only
    rw [show (allSome ((endIndex idx).map fun e => both (groups.flatten[e.1]?.map (·.p0)) (groups.flatten[e.2]?.map (·.p1)))) =
      some ends from hends]
    simp only
    rw [hturn]
    simp only
    rw [groups_spec groups hne]
  exact ⟨o, o', ends, hcomp, hfar, hfor, hE, hfE, hfdc⟩

/-- **C120** (partial). For a rupture of two or more traces whose quadrilaterals have top edges, the computation ends. There are two
corners such that, in the direction from the first to the second, the traces have a non-negative total extent; if this is
positive, some traces are turned round so that each runs forward in this direction, and for a site off all traces
`T` is the weighted average of the distances to the right of all legs of the traces so drawn, and `U` that of the distances along
them, each trace starting at the coordinate of its first corner from the first of the two corners. The two corners are
a pair of candidates at the greatest distance. What is missing: a total extent of zero, see below; for the candidates, see
C121. -/
theorem C120_traces_partial (dist : Point → Point → ℝ) (proj : Point → P2) (groups : List (List (Quad Point)))
    (hne : ∀ g ∈ groups, g ≠ []) (htop : ∀ g ∈ groups, ∀ q ∈ g, HasTop proj q)
    (hd : ∃ g0 g1 rest q0 q1, groups = g0 :: g1 :: rest ∧ g0.head? = some q0 ∧ g1.getLast? = some q1 ∧
      0 < dist q0.p0 q1.p0)
    (x y : ℝ) (hoff : ∀ g ∈ groups, ∀ q ∈ g, ∀ leg, LegOf proj q leg ∨ LegOf proj (reverseQuad q) leg → ¬ leg.On x y)
    (fuel : ℕ) :
    ∃ out o o' ends,
      computeGC2 dist proj groups.flatten (numbers 0 (groups.map List.length)) ⟨x, y⟩ (fuel + 2) = some (.ok out) ∧
      Farthest dist groups o o' ∧ List.Forall₂ Ends groups ends ∧ 0 ≤ (ends.map fun p => (heading o o').dot (traceVector p)).sum ∧
      (0 < (ends.map fun p => (heading o o').dot (traceVector p)).sum →
        ∃ (flips : List Bool) (runs : List (ℝ × List (Quad Point))) (legs : List (List Leg)),
          flips.length = groups.length ∧ runs.map (·.2) = (flips.zip groups).map (fun p => drawn p.1 p.2) ∧
          (∀ r ∈ runs, ∃ p, Ends r.2 p ∧ 0 ≤ (heading o o').dot (traceVector p) ∧
            r.1 = coordinate o (heading o o') p.1) ∧
          List.Forall₂ (fun r gs => List.Forall₂ (LegOf proj) r.2 gs) runs legs ∧
          out.T = allRight x y legs / allWeight x y legs ∧
          out.U = allAlong x y (runs.map (·.1)) legs / allWeight x y legs) := by
  obtain ⟨o, o', ends, hcomp, hfar, hfor, hE, hfE, hfdc⟩ := traces_frame dist proj groups hne hd x y fuel
  refine ⟨_, o, o', ends, hcomp, hfar, hfor, by rw [← hfE]; exact hE, ?_⟩
  intro hpos
  rw [← hfE] at hpos
  obtain ⟨flips, h1, h2, h3⟩ := based_pos _ hpos o rfl groups ends hfor hfdc
  have hmem : ∀ r ∈ based (frameOf ends o o').1 groups, ∀ q ∈ r.2, ∃ g ∈ groups, ∃ q' ∈ g, q = q' ∨ q = reverseQuad q' := by
    intro r hr q hq
    have hr2 : r.2 ∈ (flips.zip groups).map (fun p => drawn p.1 p.2) := by
      rw [← h2]; exact List.mem_map_of_mem hr
    obtain ⟨⟨b, g⟩, hbg, hdr⟩ := List.mem_map.1 hr2
    refine ⟨g, (List.of_mem_zip hbg).2, ?_⟩
    rw [← hdr] at hq
    unfold drawn at hq
    cases b with
    | false => exact ⟨q, hq, Or.inl rfl⟩
    | true =>
      simp only [if_true, List.mem_reverse, List.mem_map] at hq
      obtain ⟨q', hq', rfl⟩ := hq
      exact ⟨q', hq', Or.inr rfl⟩
  have hexist : ∀ r ∈ based (frameOf ends o o').1 groups, ∀ q ∈ r.2, ∃ leg, LegOf proj q leg := by
    intro r hr q hq
    obtain ⟨g, hg, q', hq', rfl | rfl⟩ := hmem r hr q hq
    · exact leg_exists (htop g hg q hq').1 (htop g hg q hq').2
    · exact leg_exists (fun h => (htop g hg q' hq').1 h.symm) (by rw [reverse_length]; exact (htop g hg q' hq').2)
  obtain ⟨legs, hlegs⟩ := groupLegs_exist _ hexist
  have hoff' : ∀ gs ∈ legs, ∀ g ∈ gs, ¬ g.On x y := by
    intro gs hgs leg hleg
    obtain ⟨r, hr, hrg⟩ := forall2_right hlegs hgs
    obtain ⟨q, hq, hql⟩ := forall2_right hrg hleg
    obtain ⟨g, hg, q', hq', rfl | rfl⟩ := hmem r hr q hq
    · exact hoff g hg _ hq' leg (Or.inl hql)
    · exact hoff g hg q' hq' leg (Or.inr hql)
  refine ⟨flips, _, legs, h1, h2, ?_, hlegs, ?_⟩
  · exact h3
  · obtain ⟨off, hfold⟩ := fold_groups hlegs hoff' ⟨0, 0, 0, 0⟩
    unfold finish
    simp only
    rw [hfold]
    simp only [zero_add, and_self]

theorem based_zero (f : Frame) (hE : f.E = 0) (groups : List (List (Quad Point))) (ends : List (Point × Point))
    (he : List.Forall₂ Ends groups ends)
    (hdc : f.dc = ends.map fun p => npSign (f.ahat.dot (traceVector p)) * npSign f.E) :
    based f groups = groups.map fun g => (0, g) := by
  have hs : npSign f.E = 0 := by unfold npSign; rw [hE]; simp
  unfold based
  rw [hdc, hs]
  clear hdc
  induction he with
  | nil => rfl
  | cons hg _ ih =>
    rw [List.map_cons, List.zip_cons_cons, List.map_cons, ih, List.map_cons]
    congr 1
    simp only [mul_zero]
    have hf : ∀ g : List (Quad Point), flipGroup 0 g = g := by
      intro g; unfold flipGroup; rw [if_neg (lt_irrefl _)]
    have hb : ∀ g : List (Quad Point), groupBase f g = 0 := by
      intro g
      cases g with
      | nil => rfl
      | cons q g => unfold groupBase; rw [hs]; simp [V3.dot, V3.mul]
    rw [hf, hb]

/-- **C120** violated: two traces of one quadrilateral, at opposite latitudes and drawn in opposite directions between the same
meridians, are not made to run the same way: `T` and `U` are averages for the traces as drawn, and both start at 0. -/
theorem C120_opposite_violated (dist : Point → Point → ℝ) (proj : Point → P2) (q r : Quad Point) (a b phi : ℝ)
    (h0 : surface q.p0 = ⟨a, phi, 0⟩) (h1 : surface q.p1 = ⟨b, phi, 0⟩) (h2 : surface r.p0 = ⟨b, -phi, 0⟩)
    (h3 : surface r.p1 = ⟨a, -phi, 0⟩) (hd : 0 < dist q.p0 r.p0) (g k : Leg) (hg : LegOf proj q g) (hk : LegOf proj r k)
    (x y : ℝ) (hgo : ¬ g.On x y) (hko : ¬ k.On x y) (fuel : ℕ) :
    ∃ out, computeGC2 dist proj [q, r] [0, 1] ⟨x, y⟩ (fuel + 2) = some (.ok out) ∧
      out.T = (g.weight x y * g.right x y + k.weight x y * k.right x y) / (g.weight x y + k.weight x y) ∧
      out.U = (g.weight x y * g.along x y + k.weight x y * k.along x y) / (g.weight x y + k.weight x y) := by
  obtain ⟨o, o', ends, hcomp, -, hfor, -, hfE, hfdc⟩ := traces_frame dist proj [[q], [r]] (by simp)
    ⟨[q], [r], [], q, r, rfl, rfl, rfl, hd⟩ x y fuel
  have he : ends = [(q.p0, q.p1), (r.p0, r.p1)] := by
    cases hfor with
    | cons e1 hf =>
      cases hf with
      | cons e2 hf =>
        cases hf
        rw [ends_unique e1 ⟨q, q, rfl, rfl, rfl⟩, ends_unique e2 ⟨r, r, rfl, rfl, rfl⟩]
  have hsum : (frameOf ends o o').1.E = 0 := by
    rw [hfE, he]
    simp only [List.map_cons, List.map_nil, List.sum_cons, List.sum_nil, traceVector, h0, h1, h2, h3]
    have hopp : ((fromPoint ⟨a, -phi, 0⟩).sub (fromPoint ⟨b, -phi, 0⟩)) =
        ((fromPoint ⟨b, phi, 0⟩).sub (fromPoint ⟨a, phi, 0⟩)).mul (-1) := by
      have hN : primeVertical (sin (-phi * degToRad)) = primeVertical (sin (phi * degToRad)) := by
        rw [neg_mul, sin_neg]
        unfold primeVertical
        congr 2
        ring
      unfold fromPoint latlon2ecef
      simp only
      rw [hN, neg_mul phi, cos_neg, sin_neg]
      unfold V3.sub V3.mul
      ext <;> (simp only; ring)
    rw [hopp]
    simp only [V3.dot, V3.mul]
    ring
  rw [based_zero _ hsum _ _ hfor hfdc] at hcomp
  refine ⟨_, hcomp, ?_⟩
  obtain ⟨off, hfold⟩ := fold_groups (runs := [(0, [q]), (0, [r])]) (legs := [[g], [k]]) (x := x) (y := y)
    (.cons (.cons hg .nil) (.cons (.cons hk .nil) .nil)) (by simp [hgo, hko]) ⟨0, 0, 0, 0⟩
  unfold finish
  simp only [List.map_cons, List.map_nil]
  rw [hfold]
  simp [allWeight, allRight, allAlong, totalWeight, sumRight, sumAlong]

/-! ### C121: the corners -/

/-- **C121** (partial). If every trace is a single quadrilateral, the candidates are the pairs of an end of a trace and an end of a
later one. What is missing: traces of more quadrilaterals, see below, and pairs of ends of the same trace. -/
theorem C121_candidates_partial (qs : List (Quad Point)) (a b : Point) :
    Candidate (qs.map fun q => [q]) a b ↔
      ∃ q r, List.Sublist [q, r] qs ∧ (a = q.p0 ∨ a = q.p1) ∧ (b = r.p0 ∨ b = r.p1) := by
  constructor
  · rintro ⟨g, h, q0, q1, r0, r1, hs, h1, h2, h3, h4, ha, hb⟩
    obtain ⟨l, hl, he⟩ := List.sublist_map_iff.mp hs
    match l, he with
    | [q, r], he =>
      cases he
      cases h1; cases h2; cases h3; cases h4
      exact ⟨_, _, hl, ha, hb⟩
  · rintro ⟨q, r, hs, ha, hb⟩
    exact ⟨[q], [r], q, q, r, r, hs.map (fun q => [q]), rfl, rfl, rfl, rfl, ha, hb⟩

theorem farthest_congr (dist dist' : Point → Point → ℝ) (l : List (Option (Point × Point)))
    (h : ∀ p, some p ∈ l → dist p.1 p.2 = dist' p.1 p.2) (best : ℝ × Option (Point × Point)) :
    farthest dist best l = farthest dist' best l := by
  induction l generalizing best with
  | nil => rfl
  | cons a l ih =>
    cases a with
    | none => rfl
    | some p =>
      have ih' := ih fun p hp => h p (by simp [hp])
      rw [farthest, farthest, h p (by simp), ih', ih']

/-- **C121** violated: the origin of `U` should be one of the two most distant ends of traces. For a second trace of two or more
quadrilaterals, the distances of its ends from the first trace do not matter: only those of the first corner of its last and
the second corner of its first quadrilateral do, which are inside the trace. -/
theorem C121_inner_corners_violated (dist dist' : Point → Point → ℝ) (proj : Point → P2) (g : List (Quad Point))
    (hg : g ≠ []) (r0 r1 : Quad Point) (mid : List (Quad Point))
    (h : ∀ a, dist a r1.p0 = dist' a r1.p0 ∧ dist a r0.p1 = dist' a r0.p1) (site : P2) (fuel : ℕ) :
    computeGC2 dist proj (g ++ r0 :: (mid ++ [r1])) (numbers 0 [g.length, mid.length + 2]) site fuel =
    computeGC2 dist' proj (g ++ r0 :: (mid ++ [r1])) (numbers 0 [g.length, mid.length + 2]) site fuel := by
  have hne : ∀ x ∈ [g, r0 :: (mid ++ [r1])], x ≠ [] := by
    intro x hx
    simp only [List.mem_cons, List.not_mem_nil, or_false] at hx
    rcases hx with rfl | rfl
    · exact hg
    · simp
  have hfl : g ++ r0 :: (mid ++ [r1]) = [g, r0 :: (mid ++ [r1])].flatten := by simp
  have hnum : numbers 0 [g.length, mid.length + 2] = numbers 0 ([g, r0 :: (mid ++ [r1])].map List.length) := by simp
  rw [hfl, hnum]
  have hcong : farthest dist (0, none) ((combos (endIndex (numbers 0 ([g, r0 :: (mid ++ [r1])].map List.length)))).flatMap
      (pointPairs [g, r0 :: (mid ++ [r1])].flatten)) =
      farthest dist' (0, none) ((combos (endIndex (numbers 0 ([g, r0 :: (mid ++ [r1])].map List.length)))).flatMap
      (pointPairs [g, r0 :: (mid ++ [r1])].flatten)) := by
    apply farthest_congr
    intro p hp
    obtain ⟨g', h', q0, q1, s0, s1, hs, -, -, h3, h4, -, hb⟩ := (candidate_iff _ hne p.1 p.2).mp hp
    have he : [g', h'] = [g, r0 :: (mid ++ [r1])] := hs.eq_of_length (by simp)
    simp only [List.cons.injEq, and_true] at he
    obtain ⟨rfl, rfl⟩ := he
    have e0 : s0 = r0 := by simpa using h3.symm
    have e1 : s1 = r1 := by
      rw [← List.cons_append, List.getLast?_concat] at h4
      simpa using h4.symm
    subst e0 e1
    rcases hb with hb | hb
    · rw [hb]; exact (h p.1).1
    · rw [hb]; exact (h p.1).2
  unfold computeGC2
  simp only
  rw [hcong]

/-! ### C123: ry0 for several traces -/

theorem fold_last {proj : Point → P2} {x y : ℝ} {runs : List (ℝ × List (Quad Point))} {base : ℝ} {last : List (Quad Point)}
    {gs : List Leg} (h : List.Forall₂ (LegOf proj) last gs) (ho : ∀ g ∈ gs, ¬ g.On x y) (a : Acc) :
    ((runs ++ [(base, last)]).foldl (addGroup proj ⟨x, y⟩) a).off = base + traceLength gs := by
  rw [List.foldl_append, List.foldl_cons, List.foldl_nil, addGroup, fold_off h ho]

/-- **C123** (partial). For several traces, `ry0` is 0 if `U` lies between 0 and the coordinate of the end of the last trace in the
list, and the distance past the nearer of the two otherwise; it is not negative if that coordinate is not. What is missing: the last
trace in the list need not be the one that ends last, see below. -/
theorem C123_ry0_partial (proj : Point → P2) (x y : ℝ) (runs : List (ℝ × List (Quad Point))) (base : ℝ)
    (last : List (Quad Point)) (gs : List Leg) (h : List.Forall₂ (LegOf proj) last gs) (ho : ∀ g ∈ gs, ¬ g.On x y)
    (out : Out) (hout : out = finish proj ⟨x, y⟩ (runs ++ [(base, last)])) (s : ℝ) (hs : s = base + traceLength gs) :
    (0 ≤ out.U → out.U ≤ s → out.ry0 = 0) ∧ (s < out.U → out.ry0 = out.U - s) ∧
      (out.U < 0 → out.U ≤ s → out.ry0 = -out.U) := by
  have hr : out.ry0 = ry0Of out.U s := by
    rw [hout, hs]
    unfold finish
    simp only
    rw [fold_last h ho]
  rw [hr]
  unfold ry0Of
  refine ⟨?_, ?_, ?_⟩
  · intro h1 h2; rw [if_neg (not_lt.mpr h2), if_neg (not_lt.mpr h1)]
  · intro h1; rw [if_pos h1]
  · intro h1 h2; rw [if_neg (not_lt.mpr h2), if_pos h1, abs_of_neg h1]

theorem equator_point (a d : ℝ) : fromPoint (surface ⟨a, 0, d⟩) = ⟨wgsA * cos (a * (π / 180)), wgsA * sin (a * (π / 180)), 0⟩ := by
  simp [surface, fromPoint, latlon2ecef, primeVertical, degToRad]

/-- A quadrilateral on the equator. -/
noncomputable def onEquator (a b : ℝ) : Quad Point := ⟨⟨a, 0, 0⟩, ⟨b, 0, 0⟩, ⟨b, 0, 10⟩, ⟨a, 0, 10⟩⟩

theorem onEquator_length (a b : ℝ) : quadLength (onEquator a b).ecef =
    wgsA * √(2 - 2 * cos ((b - a) * (π / 180))) / 1000 := by
  have h1 := equator_point a 0
  have h2 := equator_point b 0
  simp only [surface] at h1 h2
  unfold quadLength
  congr 1
  show ((fromPoint ⟨b, 0, 0⟩).sub (fromPoint ⟨a, 0, 0⟩)).mag = _
  rw [h1, h2]
  unfold V3.mag V3.sub
  simp only
  rw [show (wgsA * cos (b * (π / 180)) - wgsA * cos (a * (π / 180))) ^ 2 +
      (wgsA * sin (b * (π / 180)) - wgsA * sin (a * (π / 180))) ^ 2 + (0 - 0) ^ 2 =
      wgsA ^ 2 * (2 - 2 * cos ((b - a) * (π / 180))) by
    rw [sub_mul b a, cos_sub]
    linear_combination wgsA ^ 2 * (sin_sq_add_cos_sq (a * (π / 180)) + sin_sq_add_cos_sq (b * (π / 180)))]
  rw [sqrt_mul (by positivity), sqrt_sq (by unfold wgsA; norm_num)]

theorem deg30 : (30 : ℝ) * (π / 180) = π / 6 := by ring
theorem deg60 : (60 : ℝ) * (π / 180) = π / 3 := by ring
theorem deg90 : (90 : ℝ) * (π / 180) = π / 2 := by ring

theorem pt0 (d : ℝ) : fromPoint (surface ⟨0, 0, d⟩) = ⟨wgsA, 0, 0⟩ := by rw [equator_point]; simp
theorem pt30 (d : ℝ) : fromPoint (surface ⟨30, 0, d⟩) = ⟨wgsA * (√3 / 2), wgsA * (1 / 2), 0⟩ := by
  rw [equator_point, deg30, cos_pi_div_six, sin_pi_div_six]
theorem pt60 (d : ℝ) : fromPoint (surface ⟨60, 0, d⟩) = ⟨wgsA * (1 / 2), wgsA * (√3 / 2), 0⟩ := by
  rw [equator_point, deg60, cos_pi_div_three, sin_pi_div_three]
theorem pt90 (d : ℝ) : fromPoint (surface ⟨90, 0, d⟩) = ⟨0, wgsA, 0⟩ := by rw [equator_point, deg90]; simp

theorem heading_0_90 (d d' : ℝ) : heading ⟨0, 0, d⟩ ⟨90, 0, d'⟩ = ⟨-(1 / √2), 1 / √2, 0⟩ := by
  unfold heading
  rw [pt0, pt90]
  have hA : (0 : ℝ) < wgsA := by unfold wgsA; norm_num
  have hs : √((0 - wgsA) ^ 2 + (wgsA - 0) ^ 2 + (0 - 0) ^ 2) = wgsA * √2 := by
    rw [show (0 - wgsA) ^ 2 + (wgsA - 0) ^ 2 + (0 - 0 : ℝ) ^ 2 = wgsA ^ 2 * 2 by ring, sqrt_mul (by positivity), sqrt_sq hA.le]
  have h2 : √2 ≠ 0 := by positivity
  have hA' := hA.ne'
  unfold V3.norm V3.sub
  simp only
  rw [hs]
  ext
  · simp only; field_simp; ring
  · simp only; field_simp; ring
  · simp

theorem onEquator_leg {a b : ℝ} (h : a < b) (hl : 0 < quadLength (onEquator a b).ecef) :
    LegOf (fun p => ⟨p.lon, p.lat⟩) (onEquator a b) ⟨a, 0, 1, 0, quadLength (onEquator a b).ecef⟩ :=
  ⟨rfl, ⟨b - a, by linarith, by simp [onEquator]⟩, ⟨by norm_num, hl⟩, rfl⟩

/-- **C123** violated: two traces on the equator, the first from 60 to 90 degrees and the second from 0 to 30. The origin of `U` is at 0
degrees. There is a site whose `U` lies between the ends of the rupture at 0 and 90 degrees, but whose `ry0` is positive. -/
theorem C123_ry0_violated : ∃ (dist : Point → Point → ℝ) (proj : Point → P2) (site : P2) (out : Out),
    computeGC2 dist proj [onEquator 60 90, onEquator 0 30] [0, 1] site 2 = some (.ok out) ∧
      0 ≤ out.U ∧ out.U ≤ coordinate ⟨0, 0, 0⟩ (heading ⟨0, 0, 0⟩ ⟨90, 0, 0⟩) ⟨90, 0, 0⟩ ∧ 0 < out.ry0 := by
  have hA : (0 : ℝ) < wgsA := by unfold wgsA; norm_num
  have h3 : (√3) ^ 2 = 3 := sq_sqrt (by norm_num)
  have h3p : 0 < √3 := sqrt_pos.mpr (by norm_num)
  have h3l : 1.7 < √3 := by rw [lt_sqrt] <;> norm_num
  have h3u : √3 < 1.8 := by rw [sqrt_lt'] <;> norm_num
  have h2 : (√2) ^ 2 = 2 := sq_sqrt (by norm_num)
  have h2p : 0 < √2 := sqrt_pos.mpr (by norm_num)
  set L := wgsA * √(2 - √3) / 1000 with hL
  have hlen : ∀ a b : ℝ, b - a = 30 → quadLength (onEquator a b).ecef = L := by
    intro a b hab
    rw [onEquator_length, hab, deg30, cos_pi_div_six, hL]
    congr 3
    ring
  have hroot : 0 < √(2 - √3) := sqrt_pos.mpr (by linarith)
  have hLpos : 0 < L := by positivity
  set q := onEquator 60 90 with hq
  set r := onEquator 0 30 with hr
  have hqL : quadLength q.ecef = L := hlen 60 90 (by norm_num)
  have hrL : quadLength r.ecef = L := hlen 0 30 (by norm_num)
  have hg : LegOf (fun p => ⟨p.lon, p.lat⟩) q ⟨60, 0, 1, 0, L⟩ := by
    rw [← hqL]; exact onEquator_leg (by norm_num) (by rw [← hq, hqL]; exact hLpos)
  have hk : LegOf (fun p => ⟨p.lon, p.lat⟩) r ⟨0, 0, 1, 0, L⟩ := by
    rw [← hrL]; exact onEquator_leg (by norm_num) (by rw [← hr, hrL]; exact hLpos)
  have hgo : ¬ (Leg.mk 60 0 1 0 L).On (30 + L / 2) 1 := by
    rintro ⟨s, -, -, -, h⟩; norm_num at h
  have hko : ¬ (Leg.mk 0 0 1 0 L).On (30 + L / 2) 1 := by
    rintro ⟨s, -, -, -, h⟩; norm_num at h
  obtain ⟨o, o', ends, hcomp, hfar, hfor, hE, hfE, hfdc⟩ := traces_frame (fun p p' => |p.lon - p'.lon|)
    (fun p => ⟨p.lon, p.lat⟩) [[q], [r]] (by simp) ⟨[q], [r], [], q, r, rfl, rfl, rfl, by simp [hq, hr, onEquator]⟩
    (30 + L / 2) 1 0
  have he : ends = [(q.p0, q.p1), (r.p0, r.p1)] := by
    cases hfor with
    | cons e1 hf =>
      cases hf with
      | cons e2 hf =>
        cases hf
        rw [ends_unique e1 ⟨q, q, rfl, rfl, rfl⟩, ends_unique e2 ⟨r, r, rfl, rfl, rfl⟩]
  have tq : traceVector (q.p0, q.p1) = ⟨wgsA * (-(1 / 2)), wgsA * (1 - √3 / 2), 0⟩ := by
    show (fromPoint (surface ⟨90, 0, 0⟩)).sub (fromPoint (surface ⟨60, 0, 0⟩)) = _
    rw [pt90, pt60]
    ext <;> (simp only [V3.sub]; ring)
  have tr : traceVector (r.p0, r.p1) = ⟨wgsA * (√3 / 2 - 1), wgsA * (1 / 2), 0⟩ := by
    show (fromPoint (surface ⟨30, 0, 0⟩)).sub (fromPoint (surface ⟨0, 0, 0⟩)) = _
    rw [pt30, pt0]
    ext <;> (simp only [V3.sub]; ring)
  have dq : (heading ⟨0, 0, 0⟩ ⟨90, 0, 0⟩).dot (traceVector (q.p0, q.p1)) = wgsA * (3 - √3) / (2 * √2) := by
    rw [heading_0_90, tq]; simp only [V3.dot]; field_simp; ring
  have dr : (heading ⟨0, 0, 0⟩ ⟨90, 0, 0⟩).dot (traceVector (r.p0, r.p1)) = wgsA * (3 - √3) / (2 * √2) := by
    rw [heading_0_90, tr]; simp only [V3.dot]; field_simp; ring
  have dpos : 0 < wgsA * (3 - √3) / (2 * √2) := by
    apply div_pos (mul_pos hA (by linarith)) (by positivity)
  have hoo : o = ⟨0, 0, 0⟩ ∧ o' = ⟨90, 0, 0⟩ := by
    obtain ⟨a, b, hab, hc, hmax⟩ := hfar
    have hc' := (C121_candidates_partial [q, r] a b).mp hc
    obtain ⟨q', r', hs, ha, hb⟩ := hc'
    have hs' : [q', r'] = [q, r] := hs.eq_of_length (by simp)
    simp only [List.cons.injEq, and_true] at hs'
    obtain ⟨rfl, rfl⟩ := hs'
    have hm := hmax q.p1 r.p0 ((C121_candidates_partial [q, r] _ _).mpr ⟨q, r, List.Sublist.refl _, Or.inr rfl, Or.inl rfl⟩)
    simp only [hq, hr, onEquator] at hm ha hb
    have hae : a = ⟨90, 0, 0⟩ ∧ b = ⟨0, 0, 0⟩ := by
      rcases ha with rfl | rfl <;> rcases hb with rfl | rfl <;> first | exact ⟨rfl, rfl⟩ | (exfalso; norm_num at hm)
    obtain ⟨rfl, rfl⟩ := hae
    rcases hab with ⟨rfl, rfl⟩ | ⟨rfl, rfl⟩
    · exfalso
      have hsw : heading ⟨90, 0, 0⟩ ⟨0, 0, 0⟩ = (heading ⟨0, 0, 0⟩ ⟨90, 0, 0⟩).mul (-1) := by
        unfold heading; rw [sub_swap_norm]
      rw [hfE, he] at hE
      simp only [List.map_cons, List.map_nil, List.sum_cons, List.sum_nil] at hE
      rw [hsw, dot_mul_left, dot_mul_left, dq, dr] at hE
      linarith
    · exact ⟨rfl, rfl⟩
  obtain ⟨rfl, rfl⟩ := hoo
  set f := (frameOf ends ⟨0, 0, 0⟩ ⟨90, 0, 0⟩).1 with hf
  have hfa : f.ahat = heading ⟨0, 0, 0⟩ ⟨90, 0, 0⟩ := rfl
  have hfo : f.origin = fromPoint (surface ⟨0, 0, 0⟩) := rfl
  have hEpos : 0 < f.E := by
    rw [hfE, he]
    simp only [List.map_cons, List.map_nil, List.sum_cons, List.sum_nil]
    rw [dq, dr]; linarith
  have hs1 : npSign f.E = 1 := by unfold npSign; rw [if_pos hEpos]
  have hs2 : npSign (wgsA * (3 - √3) / (2 * √2)) = 1 := by unfold npSign; rw [if_pos dpos]
  have hdc : f.dc = [1, 1] := by
    rw [hfdc, he]
    simp only [List.map_cons, List.map_nil]
    rw [hfa, dq, dr, hs1, hs2]; norm_num
  have hfl : ∀ g : List (Quad Point), flipGroup 1 g = g := by
    intro g; unfold flipGroup; rw [if_neg (by norm_num)]
  have hbq : groupBase f [q] = wgsA * (1 + √3) / (2 * √2) / 1000 := by
    show ((fromPoint (surface ⟨60, 0, 0⟩)).sub f.origin).dot (f.ahat.mul (npSign f.E)) / 1000 = _
    rw [hs1, hfo, hfa, heading_0_90, pt60, pt0]
    simp only [V3.dot, V3.sub, V3.mul]
    field_simp
    ring
  have hbr : groupBase f [r] = 0 := by
    show ((fromPoint (surface ⟨0, 0, 0⟩)).sub f.origin).dot (f.ahat.mul (npSign f.E)) / 1000 = _
    rw [hfo]
    simp [V3.dot, V3.sub]
  set B := wgsA * (1 + √3) / (2 * √2) / 1000 with hB
  have hbased : based f [[q], [r]] = [(B, [q])] ++ [(0, [r])] := by
    unfold based
    rw [hdc]
    simp only [List.zip_cons_cons, List.zip_nil_left, List.map_cons, List.map_nil, hfl]
    rw [hbq, hbr]; rfl
  have hLB : L < B := by
    have e1 : √(2 - √3) < (1 + √3) / (2 * √2) := by
      rw [sqrt_lt' (by positivity), div_pow, mul_pow, h2, lt_div_iff₀ (by norm_num)]
      nlinarith
    have : wgsA * √(2 - √3) < wgsA * ((1 + √3) / (2 * √2)) := mul_lt_mul_of_pos_left e1 hA
    rw [hL, hB, mul_div_assoc wgsA (1 + √3)]
    linarith
  have hw : (Leg.mk 60 0 1 0 L).weight (30 + L / 2) 1 = (Leg.mk 0 0 1 0 L).weight (30 + L / 2) 1 := by
    rw [← leg_weight hg.proper hgo, ← leg_weight hk.proper hko]
    unfold Leg.right Leg.along weight
    simp only
    norm_num
    rw [show L - (30 + L / 2 - 60) = 30 + L / 2 by ring, show 60 - (30 + L / 2) = -(L - (30 + L / 2)) by ring,
      show -(L / 2) + -30 = -(30 + L / 2) by ring, neg_div, neg_div, arctan_neg, arctan_neg]
    ring
  have hwpos := leg_weight_pos hk.proper hko
  set W := (Leg.mk 0 0 1 0 L).weight (30 + L / 2) 1 with hWdef
  have hU : (finish (fun p => ⟨p.lon, p.lat⟩) ⟨30 + L / 2, 1⟩ (based f [[q], [r]])).U = L / 2 + B / 2 := by
    obtain ⟨off, hfold⟩ := fold_groups (runs := [(B, [q])] ++ [(0, [r])]) (legs := [[⟨60, 0, 1, 0, L⟩], [⟨0, 0, 1, 0, L⟩]])
      (x := 30 + L / 2) (y := 1) (.cons (.cons hg .nil) (.cons (.cons hk .nil) .nil)) (by simp [hgo, hko]) ⟨0, 0, 0, 0⟩
    rw [hbased]
    unfold finish
    simp only
    rw [hfold]
    simp only [List.cons_append, List.nil_append, allWeight, allAlong, List.map_cons, List.map_nil, List.zip_cons_cons,
      List.zip_nil_left, List.sum_cons, List.sum_nil, totalWeight, sumAlong, hw, ← hWdef]
    simp only [Leg.along]
    field_simp
    ring
  obtain ⟨-, p2, -⟩ := C123_ry0_partial (fun p => ⟨p.lon, p.lat⟩) (30 + L / 2) 1 [(B, [q])] 0 [r] [⟨0, 0, 1, 0, L⟩]
    (.cons hk .nil) (by simpa using hko) _ rfl L (by simp [traceLength])
  rw [← hbased, hU] at p2
  refine ⟨_, _, _, _, hcomp, ?_, ?_, ?_⟩
  · rw [hU]; linarith
  · rw [hU]
    have hco : coordinate ⟨0, 0, 0⟩ (heading ⟨0, 0, 0⟩ ⟨90, 0, 0⟩) ⟨90, 0, 0⟩ = wgsA * (2 / √2) / 1000 := by
      show ((fromPoint (surface ⟨90, 0, 0⟩)).sub (fromPoint (surface ⟨0, 0, 0⟩))).dot _ / 1000 = _
      rw [heading_0_90, pt90, pt0]
      simp only [V3.dot, V3.sub]
      field_simp
      ring
    rw [hco]
    have hBC : B ≤ wgsA * (2 / √2) / 1000 := by
      rw [hB, mul_div_assoc wgsA (1 + √3)]
      have : (1 + √3) / (2 * √2) ≤ 2 / √2 := by
        rw [div_le_div_iff₀ (by positivity) h2p]; nlinarith
      have := mul_le_mul_of_nonneg_left this hA.le
      linarith
    linarith
  · rw [p2 (by linarith)]; linarith

/-- The hypotheses of `C120_traces_partial` and `C120_opposite_violated` hold for two traces on the equator and for two
antiparallel traces on the parallels at 60 degrees north and south. -/
example (x y : ℝ) (hy : y ≠ 0) : ∃ (dist : Point → Point → ℝ) (proj : Point → P2) (out : Out),
    computeGC2 dist proj [onEquator 60 90, onEquator 0 30] [0, 1] ⟨x, y⟩ 2 = some (.ok out) := by
  have h3 : √3 < 1.8 := by rw [sqrt_lt'] <;> norm_num
  have hA : (0 : ℝ) < wgsA := by unfold wgsA; norm_num
  have hlen : ∀ a b : ℝ, b - a = 30 → 0 < quadLength (onEquator a b).ecef := by
    intro a b hab
    rw [onEquator_length, hab, deg30, cos_pi_div_six]
    have : 0 < √(2 - 2 * (√3 / 2)) := sqrt_pos.mpr (by linarith)
    positivity
  have hflat : ∀ (q : Quad Point) (leg : Leg), q.p0.lat = 0 → q.p1.lat = 0 →
      LegOf (fun p => ⟨p.lon, p.lat⟩) q leg → ¬ leg.On x y := by
    rintro q leg h0 h1 h ⟨s, -, -, -, hs⟩
    obtain ⟨r, hr, ha⟩ := h.ahead
    have hst := h.start
    simp only [P2.mk.injEq, h0, h1] at hst ha
    have hdy : leg.dy = 0 := by
      have : r * leg.dy = 0 := by linarith [ha.2]
      rcases mul_eq_zero.mp this with h | h
      · linarith
      · exact h
    rw [hdy, ← hst.2] at hs
    apply hy
    simpa using hs
  obtain ⟨out, -, -, -, h, -⟩ := C120_traces_partial (fun p p' => |p.lon - p'.lon|) (fun p => ⟨p.lon, p.lat⟩)
    [[onEquator 60 90], [onEquator 0 30]] (by simp)
    (by
      intro g hg q hq
      simp only [List.mem_cons, List.not_mem_nil, or_false] at hg
      rcases hg with rfl | rfl <;> (simp only [List.mem_cons, List.not_mem_nil, or_false] at hq; subst hq)
      · exact ⟨by simp [onEquator], hlen 60 90 (by norm_num)⟩
      · exact ⟨by simp [onEquator], hlen 0 30 (by norm_num)⟩)
    ⟨_, _, [], _, _, rfl, rfl, rfl, by simp [onEquator]⟩ x y
    (by
      intro g hg q hq leg hleg
      simp only [List.mem_cons, List.not_mem_nil, or_false] at hg
      rcases hg with rfl | rfl <;> (simp only [List.mem_cons, List.not_mem_nil, or_false] at hq; subst hq) <;>
        rcases hleg with h | h <;> exact hflat _ leg rfl rfl h) 0
  exact ⟨_, _, out, h⟩

example : ∃ (dist : Point → Point → ℝ) (proj : Point → P2) (q r : Quad Point) (g k : Leg) (x y : ℝ),
    surface q.p0 = ⟨0, 60, 0⟩ ∧ surface q.p1 = ⟨90, 60, 0⟩ ∧ surface r.p0 = ⟨90, -60, 0⟩ ∧ surface r.p1 = ⟨0, -60, 0⟩ ∧
      0 < dist q.p0 r.p0 ∧ LegOf proj q g ∧ LegOf proj r k ∧ ¬ g.On x y ∧ ¬ k.On x y := by
  have hA : (0 : ℝ) < wgsA := by unfold wgsA; norm_num
  have hN : 0 < primeVertical (sin (60 * degToRad)) := lt_of_lt_of_le hA (primeVertical_ge _ (sin_sq_le_one _))
  have hN' : 0 < primeVertical (sin (-60 * degToRad)) := lt_of_lt_of_le hA (primeVertical_ge _ (sin_sq_le_one _))
  have hc : cos ((60 : ℝ) * degToRad) = 1 / 2 := by
    rw [show (60 : ℝ) * degToRad = π / 3 by unfold degToRad; ring, cos_pi_div_three]
  have hc' : cos ((-60 : ℝ) * degToRad) = 1 / 2 := by rw [neg_mul, cos_neg, hc]
  have h90 : (90 : ℝ) * degToRad = π / 2 := by unfold degToRad; ring
  set q : Quad Point := ⟨⟨0, 60, 0⟩, ⟨90, 60, 0⟩, ⟨90, 60, 10⟩, ⟨0, 60, 10⟩⟩ with hq
  set r : Quad Point := ⟨⟨90, -60, 0⟩, ⟨0, -60, 0⟩, ⟨0, -60, 10⟩, ⟨90, -60, 10⟩⟩ with hr
  have hql : 0 < quadLength q.ecef := by
    unfold quadLength V3.mag
    apply div_pos (sqrt_pos.mpr _) (by norm_num)
    have : (q.ecef.p1.sub q.ecef.p0).x ≠ 0 := by
      simp only [Quad.ecef, fromPoint, latlon2ecef, V3.sub, hq, h90, hc]
      simp [hN.ne']
    positivity
  have hrl : 0 < quadLength r.ecef := by
    unfold quadLength V3.mag
    apply div_pos (sqrt_pos.mpr _) (by norm_num)
    have : (r.ecef.p1.sub r.ecef.p0).x ≠ 0 := by
      simp only [Quad.ecef, fromPoint, latlon2ecef, V3.sub, hr, h90, hc', zero_mul, cos_zero, cos_pi_div_two]
      intro h
      linarith
    positivity
  refine ⟨fun _ _ => 1, fun p => ⟨p.lon, p.lat⟩, q, r, ⟨0, 60, 1, 0, quadLength q.ecef⟩, ⟨90, -60, -1, 0, quadLength r.ecef⟩, 0, 0,
    rfl, rfl, rfl, rfl, by norm_num, ⟨rfl, ⟨90, by norm_num, by simp [hq]⟩, ⟨by norm_num, hql⟩, rfl⟩,
    ⟨rfl, ⟨90, by norm_num, by simp [hr]⟩, ⟨by norm_num, hrl⟩, rfl⟩, ?_, ?_⟩
  · rintro ⟨s, -, -, -, h⟩; norm_num at h
  · rintro ⟨s, -, -, -, h⟩; norm_num at h

/-- The corners in `C121_candidates_partial` for two traces on the equator: one pair is that of the most distant ends. -/
example : Candidate ([onEquator 60 90, onEquator 0 30].map fun q => [q]) ⟨90, 0, 0⟩ ⟨0, 0, 0⟩ :=
  (C121_candidates_partial _ _ _).mpr ⟨_, _, List.Sublist.refl _, Or.inr rfl, Or.inl rfl⟩

end Verif.Props
