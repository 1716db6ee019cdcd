import Verif.Props.Gc2Groups

/-!
# T of several traces lies between the distances to the legs: C74
-/

namespace Verif.Props
open Verif.Vec Verif.Rup Verif.Gc2 Real
open Verif.QuadR (P2)
open Verif.EdgeR (npSign)
open Verif.Spec (Leg totalWeight sumRight sumAlong traceLength)

/-- Every group is taken as it is or turned round, whatever the signs are. -/
theorem based_drawn (f : Frame) (groups : List (List (Quad Point))) (hl : f.dc.length = groups.length) :
    ∃ flips : List Bool, flips.length = groups.length ∧ (based f groups).map (·.2) = (flips.zip groups).map (fun p => drawn p.1 p.2) := by
  classical
  refine ⟨f.dc.map fun d => decide (d < 0), by simp [hl], ?_⟩
  unfold based
  generalize f.dc = dc at hl
  induction groups generalizing dc with
  | nil => simp
  | cons g groups ih =>
    cases dc with
    | nil => simp at hl
    | cons d dc =>
      simp only [List.zip_cons_cons, List.map_cons, ih dc (by simpa using hl), List.cons.injEq, and_true]
      unfold flipGroup drawn
      by_cases h : d < 0 <;> simp [h]

theorem allRight_bounds {legs : List (List Leg)} (h : ∀ gs ∈ legs, ∀ g ∈ gs, g.Proper) {x y : ℝ} (ho : ∀ gs ∈ legs, ∀ g ∈ gs, ¬ g.On x y) {lo hi : ℝ}
    (hb : ∀ gs ∈ legs, ∀ g ∈ gs, lo ≤ g.right x y ∧ g.right x y ≤ hi) :
    lo * allWeight x y legs ≤ allRight x y legs ∧ allRight x y legs ≤ hi * allWeight x y legs := by
  induction legs with
  | nil => simp [allWeight, allRight]
  | cons gs legs ih =>
    obtain ⟨i1, i2⟩ := ih (fun a ha => h a (by simp [ha])) (fun a ha => ho a (by simp [ha])) (fun a ha => hb a (by simp [ha]))
    obtain ⟨b1, b2⟩ := sumRight_bounds (h gs (by simp)) (ho gs (by simp)) (hb gs (by simp))
    simp only [allWeight, allRight, List.map_cons, List.sum_cons] at *
    constructor <;> linarith

theorem allWeight_pos {legs : List (List Leg)} (hne : legs ≠ []) (hg : ∀ gs ∈ legs, gs ≠ []) (h : ∀ gs ∈ legs, ∀ g ∈ gs, g.Proper) {x y : ℝ}
    (ho : ∀ gs ∈ legs, ∀ g ∈ gs, ¬ g.On x y) : 0 < allWeight x y legs := by
  unfold allWeight
  refine List.sum_pos _ ?_ (by simpa using hne)
  intro w hw
  obtain ⟨gs, hgs, rfl⟩ := List.mem_map.1 hw
  exact total_pos (hg gs hgs) (h gs hgs) (ho gs hgs)

/-- **C74**, several traces. Whatever the directions of the traces are, also when they balance each other: some of the traces are turned round, the weight of every leg so drawn is
positive for a site off the traces, and `T` and `rx` lie between bounds for the distances to the right of all legs so drawn. -/
theorem C74_traces (dist : Point → Point → ℝ) (proj : Point → P2) (groups : List (List (Quad Point)))
    (hne : ∀ g ∈ groups, g ≠ []) (htop : ∀ g ∈ groups, ∀ q ∈ g, HasTop proj q)
    (hd : ∃ g0 g1 rest q0 q1, groups = g0 :: g1 :: rest ∧ g0.head? = some q0 ∧ g1.getLast? = some q1 ∧
      0 < dist q0.p0 q1.p0)
    (x y : ℝ) (hoff : ∀ g ∈ groups, ∀ q ∈ g, ∀ leg, LegOf proj q leg ∨ LegOf proj (reverseQuad q) leg → ¬ leg.On x y)
    (fuel : ℕ) :
    ∃ (out : Out) (flips : List Bool) (legs : List (List Leg)),
      computeGC2 dist proj groups.flatten (numbers 0 (groups.map List.length)) ⟨x, y⟩ (fuel + 2) = some (.ok out) ∧
      flips.length = groups.length ∧
      List.Forall₂ (List.Forall₂ (LegOf proj)) ((flips.zip groups).map fun p => drawn p.1 p.2) legs ∧
      (∀ gs ∈ legs, ∀ g ∈ gs, 0 < g.weight x y) ∧
      ∀ lo hi, (∀ gs ∈ legs, ∀ g ∈ gs, lo ≤ g.right x y ∧ g.right x y ≤ hi) →
        lo ≤ out.T ∧ out.T ≤ hi ∧ lo ≤ out.rx ∧ out.rx ≤ hi := by
  have two : groups ≠ [] := by
    obtain ⟨g0, g1, rest, q0, q1, rfl, -⟩ := hd
    simp
  obtain ⟨o, o', ends, hcomp, -, hfor, -, -, hfdc⟩ := traces_frame dist proj groups hne hd x y fuel
  obtain ⟨flips, h1, h2⟩ := based_drawn (frameOf ends o o').1 groups (by rw [hfdc, List.length_map, hfor.length_eq])
  have hmem : ∀ r ∈ based (frameOf ends o o').1 groups, r.2 ≠ [] ∧ ∀ q ∈ r.2, ∃ g ∈ groups, ∃ q' ∈ g, q = q' ∨ q = reverseQuad q' := by
    intro r hr
    have hr2 : r.2 ∈ (flips.zip groups).map (fun p => drawn p.1 p.2) := by
      rw [← h2]; exact List.mem_map_of_mem hr
    obtain ⟨⟨b, g⟩, hbg, hdr⟩ := List.mem_map.1 hr2
    have hg := (List.of_mem_zip hbg).2
    rw [← hdr]
    unfold drawn
    cases b with
    | false => exact ⟨by simpa using hne g hg, fun q hq => ⟨g, hg, q, by simpa using hq, Or.inl rfl⟩⟩
    | true =>
      refine ⟨by simpa using hne g hg, fun q hq => ?_⟩
      simp only [if_true, List.mem_reverse, List.mem_map] at hq
      obtain ⟨q', hq', rfl⟩ := hq
      exact ⟨g, hg, q', hq', Or.inr rfl⟩
  have hexist : ∀ r ∈ based (frameOf ends o o').1 groups, ∀ q ∈ r.2, ∃ leg, LegOf proj q leg := by
    intro r hr q hq
    obtain ⟨g, hg, q', hq', rfl | rfl⟩ := (hmem r hr).2 q hq
    · exact leg_exists (htop g hg q hq').1 (htop g hg q hq').2
    · exact leg_exists (fun h => (htop g hg q' hq').1 h.symm) (by rw [reverse_length]; exact (htop g hg q' hq').2)
  obtain ⟨legs, hlegs⟩ := groupLegs_exist _ hexist
  have hoff' : ∀ gs ∈ legs, ∀ g ∈ gs, ¬ g.On x y := by
    intro gs hgs leg hleg
    obtain ⟨r, hr, hrg⟩ := forall2_right hlegs hgs
    obtain ⟨q, hq, hql⟩ := forall2_right hrg hleg
    obtain ⟨g, hg, q', hq', rfl | rfl⟩ := (hmem r hr).2 q hq
    · exact hoff g hg _ hq' leg (Or.inl hql)
    · exact hoff g hg q' hq' leg (Or.inr hql)
  have hprop : ∀ gs ∈ legs, ∀ g ∈ gs, g.Proper := by
    intro gs hgs
    obtain ⟨r, -, hrg⟩ := forall2_right hlegs hgs
    exact legs_proper hrg
  have hfull : ∀ gs ∈ legs, gs ≠ [] := by
    intro gs hgs e
    obtain ⟨r, hr, hrg⟩ := forall2_right hlegs hgs
    subst e
    exact (hmem r hr).1 (List.forall₂_nil_right_iff.1 hrg)
  have hsome : legs ≠ [] := by
    rintro rfl
    have e := List.forall₂_nil_right_iff.1 hlegs
    have := congrArg List.length h2
    rw [e] at this
    simp only [List.map_nil, List.length_nil, List.length_map, List.length_zip, h1, min_self] at this
    exact two (List.length_eq_zero_iff.1 this.symm)
  obtain ⟨off, hfold⟩ := fold_groups hlegs hoff' ⟨0, 0, 0, 0⟩
  refine ⟨_, flips, legs, hcomp, h1, ?_, fun gs hgs g hg => leg_weight_pos (hprop gs hgs g hg) (hoff' gs hgs g hg), ?_⟩
  · rw [← h2]
    exact List.forall₂_map_left_iff.2 hlegs
  · intro lo hi hb
    obtain ⟨b1, b2⟩ := allRight_bounds hprop hoff' hb
    have hw := allWeight_pos hsome hfull hprop hoff'
    unfold finish
    simp only
    rw [hfold]
    simp only [zero_add]
    have e1 : lo ≤ allRight x y legs / allWeight x y legs := by rw [le_div_iff₀ hw]; exact b1
    have e2 : allRight x y legs / allWeight x y legs ≤ hi := by rw [div_le_iff₀ hw]; exact b2
    exact ⟨e1, e2, e1, e2⟩

/-- Two traces on the equator that run away from each other, and a site one unit to the north. -/
example : ∃ (out : Out) (flips : List Bool) (legs : List (List Leg)),
    computeGC2 (fun p p' => |p.lon - p'.lon|) (fun p => ⟨p.lon, p.lat⟩) [onEquator 60 90, reverseQuad (onEquator 0 30)] [0, 1] ⟨45, 1⟩ 2 = some (.ok out) ∧
      legs.length = 2 ∧ (∀ lo hi, (∀ gs ∈ legs, ∀ g ∈ gs, lo ≤ g.right 45 1 ∧ g.right 45 1 ≤ hi) → lo ≤ out.T ∧ out.T ≤ hi ∧ lo ≤ out.rx ∧ out.rx ≤ hi) ∧
      flips.length = 2 := by
  have hlen : ∀ a b : ℝ, b - a = 30 → 0 < quadLength (onEquator a b).ecef := by
    intro a b hab
    have hA : (0 : ℝ) < wgsA := by unfold wgsA; norm_num
    have h3u : √3 < 1.8 := by rw [sqrt_lt'] <;> norm_num
    have hroot : 0 < √(2 - √3) := sqrt_pos.mpr (by linarith)
    rw [onEquator_length, hab, deg30, cos_pi_div_six, show 2 - 2 * (√3 / 2) = 2 - √3 by ring]
    positivity
  have level : ∀ (q : Quad Point) (leg : Leg), q.p0.lat = 0 → q.p1.lat = 0 → LegOf (fun p => ⟨p.lon, p.lat⟩) q leg → leg.py = 0 ∧ leg.dy = 0 := by
    intro q leg e0 e1 h
    obtain ⟨k, hk, e'⟩ := h.ahead
    have e := h.start
    simp only [P2.mk.injEq] at e e'
    have p0 : leg.py = 0 := by rw [← e.2]; exact e0
    have := e'.2
    rw [p0, zero_add, e1] at this
    exact ⟨p0, (mul_eq_zero.1 this.symm).resolve_left hk.ne'⟩
  obtain ⟨out, flips, legs, h1, h2, h3, -, h5⟩ := C74_traces (fun p p' => |p.lon - p'.lon|) (fun p => ⟨p.lon, p.lat⟩) [[onEquator 60 90], [reverseQuad (onEquator 0 30)]] (by simp)
    (by
      intro g hg q hq
      simp only [List.mem_cons, List.not_mem_nil, or_false] at hg
      rcases hg with rfl | rfl <;> (simp only [List.mem_cons, List.not_mem_nil, or_false] at hq; subst hq)
      · exact ⟨by simp [onEquator], hlen _ _ (by norm_num)⟩
      · exact ⟨by simp [onEquator, reverseQuad], by rw [reverse_length]; exact hlen _ _ (by norm_num)⟩)
    ⟨_, _, [], _, _, rfl, rfl, rfl, by norm_num [onEquator, reverseQuad]⟩ 45 1
    (by
      rintro g hg q hq leg hleg ⟨s, -, -, -, hy⟩
      have flat : leg.py = 0 ∧ leg.dy = 0 := by
        simp only [List.mem_cons, List.not_mem_nil, or_false] at hg
        rcases hg with rfl | rfl <;> (simp only [List.mem_cons, List.not_mem_nil, or_false] at hq; subst hq) <;>
          (rcases hleg with hleg | hleg <;> exact level _ _ rfl rfl hleg)
      rw [flat.1, flat.2] at hy
      norm_num at hy) 0
  refine ⟨out, flips, legs, h1, ?_, h5, h2⟩
  rw [← h3.length_eq]
  simp [h2]

end Verif.Props
