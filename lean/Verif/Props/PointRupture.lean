import Verif.Props.Distance
import Verif.Props.Origin

/-!
# Point ruptures (C133-C135)
-/

namespace Verif.Props
open Verif.Dist Verif.Spec Verif.Oq

theorem distanceTo_get (x y z : ℝ) (lon lat dep : Arr) (i : ℕ) (a b c : ℝ) (h1 : lon.data[i]? = some a) (h2 : lat.data[i]? = some b)
    (h3 : dep.data[i]? = some c) : (distanceTo x y z lon lat dep)[i]? = some (distance x y z a b c) := by
  unfold distanceTo
  have hz : (lon.data.zip (lat.data.zip dep.data))[i]? = some (a, b, c) :=
    List.getElem?_zip_eq_some.mpr ⟨h1, List.getElem?_zip_eq_some.mpr ⟨h2, h3⟩⟩
  rw [List.getElem?_map, hz]
  rfl

/-- **C133.** Epicentral and hypocentral distances of a site: for a site on the surface the first is the great-circle distance to
the epicentre, the square of the second is larger by that of the depth; in general both include the difference of depths to the
place at the surface, or to the hypocentre. -/
theorem C133_distances (o : Hypo) (lon lat dep : Arr) (i : ℕ) (a b c : ℝ) (h1 : lon.data[i]? = some a) (h2 : lat.data[i]? = some b)
    (h3 : dep.data[i]? = some c) :
    ∃ e h, (computeRepi o lon lat dep).data[i]? = some e ∧ (computeRhyp o lon lat dep).data[i]? = some h ∧ 0 ≤ e ∧ 0 ≤ h ∧
      e ^ 2 = greatCircle o.lon o.lat a b ^ 2 + c ^ 2 ∧ h ^ 2 = greatCircle o.lon o.lat a b ^ 2 + (o.depth - c) ^ 2 ∧
      (c = 0 → e = greatCircle o.lon o.lat a b ∧ h ^ 2 = e ^ 2 + o.depth ^ 2 ∧ e ≤ h) := by
  refine ⟨_, _, distanceTo_get _ _ _ _ _ _ i a b c h1 h2 h3, distanceTo_get _ _ _ _ _ _ i a b c h1 h2 h3, Real.sqrt_nonneg _,
    Real.sqrt_nonneg _, ?_, ?_, ?_⟩
  · unfold distance
    rw [Real.sq_sqrt (by positivity), C78_great_circle]; ring
  · unfold distance
    rw [Real.sq_sqrt (by positivity), C78_great_circle]
  · intro hc
    have hn : 0 ≤ greatCircle o.lon o.lat a b := by
      rw [← C78_great_circle]; exact (C78_metric.2.1 _ _ _ _).1
    have he : distance o.lon o.lat 0 a b c = greatCircle o.lon o.lat a b := by
      unfold distance
      rw [hc, C78_great_circle]; simp [Real.sqrt_sq hn]
    refine ⟨he, ?_, ?_⟩
    · rw [he]
      unfold distance
      rw [Real.sq_sqrt (by positivity), C78_great_circle, hc]; ring
    · unfold distance
      apply Real.sqrt_le_sqrt
      rw [hc]; nlinarith [sq_nonneg o.depth]

/-- **C133** violated: the epicentral distance should be measured along the surface and be no more than the hypocentral distance,
but for a site at depth it contains the depth of the site, and below half the depth of the hypocentre it is the larger. -/
theorem C133_deep_site_violated (o : Hypo) (lon lat dep : Arr) (i : ℕ) (a b c : ℝ) (h1 : lon.data[i]? = some a)
    (h2 : lat.data[i]? = some b) (h3 : dep.data[i]? = some c) (hc : c ≠ 0) :
    ∃ e h, (computeRepi o lon lat dep).data[i]? = some e ∧ (computeRhyp o lon lat dep).data[i]? = some h ∧
      greatCircle o.lon o.lat a b < e ∧ (0 < o.depth → o.depth < 2 * c → h < e) := by
  obtain ⟨e, h, he, hh, e0, h0, es, hs, -⟩ := C133_distances o lon lat dep i a b c h1 h2 h3
  refine ⟨e, h, he, hh, ?_, fun hd hc2 => ?_⟩
  · apply lt_of_pow_lt_pow_left₀ 2 e0
    rw [es]; have := sq_pos_of_ne_zero hc; linarith
  · apply lt_of_pow_lt_pow_left₀ 2 e0
    rw [es, hs]; nlinarith

/-- **C134.** The distances of a point rupture need a scaling relation, a mechanism and a range of dips. Every origin that can be
constructed has a mechanism for which these are set, for every tectonic region, and the range of dips is not empty. -/
theorem C134_parameters (parse : String → Option Origin.Fl) (ev a : Origin.Dict) (ha : (Origin.construct parse ev).1 = .ok a)
    (region : Option String) :
    ∃ m s, a.lookup "mech" = some (.str m) ∧ scaling region (some m) = some s ∧ 0 ≤ s.mindip ∧ s.mindip < s.maxdip ∧ s.maxdip ≤ 90 ∧
      0 < s.aspect := by
  obtain ⟨-, -, h3⟩ := C70_construct_partial parse ev
  obtain ⟨m, r, -, hm, hl, -⟩ := h3 a ha
  have key : ∀ m ∈ ["SS", "NM", "RS", "ALL"], ∃ s, scaling region (some m) = some s ∧ 0 ≤ s.mindip ∧ s.mindip < s.maxdip ∧
      s.maxdip ≤ 90 ∧ 0 < s.aspect := by
    intro m hm
    unfold scaling
    cases region with
    | none => exact ⟨_, rfl, by norm_num, by norm_num, by norm_num, by norm_num⟩
    | some region =>
      by_cases e1 : region = "Active Shallow Crust"
      · subst e1
        fin_cases hm <;> exact ⟨_, rfl, by norm_num, by norm_num, by norm_num, by norm_num⟩
      · by_cases e2 : region = "Stable Shallow Crust"
        · subst e2
          fin_cases hm <;> exact ⟨_, rfl, by norm_num, by norm_num, by norm_num, by norm_num⟩
        · simp only [e1, e2, if_false]
          exact ⟨_, rfl, by norm_num, by norm_num, by norm_num, by norm_num⟩
  have hm' : m ∈ ["SS", "NM", "RS", "ALL"] := by
    have : m ∈ mechRake.map (·.1) := List.mem_map_of_mem (f := (·.1)) hm
    revert this
    simp [mechRake]
    try tauto
  obtain ⟨s, h⟩ := key m hm'
  exact ⟨m, s, hl, h⟩

theorem foldl_min_le (l : List ℝ) (a : ℝ) : l.foldl min a ≤ a ∧ (∀ x ∈ l, l.foldl min a ≤ x) ∧ (l.foldl min a = a ∨ l.foldl min a ∈ l) := by
  induction l generalizing a with
  | nil => simp
  | cons b l ih =>
    obtain ⟨h1, h2, h3⟩ := ih (min a b)
    refine ⟨h1.trans (min_le_left _ _), ?_, ?_⟩
    · intro x hx
      rcases List.mem_cons.mp hx with rfl | hx
      · exact h1.trans (min_le_right _ _)
      · exact h2 x hx
    · rw [List.foldl_cons]
      rcases h3 with h3 | h3
      · rcases min_choice a b with h | h
        · left; rw [h3, h]
        · right; rw [h3, h]; exact List.mem_cons_self
      · right; exact List.mem_cons_of_mem _ h3

theorem le_foldl_max (l : List ℝ) (a : ℝ) : a ≤ l.foldl max a ∧ (∀ x ∈ l, x ≤ l.foldl max a) := by
  induction l generalizing a with
  | nil => simp
  | cons b l ih =>
    obtain ⟨h1, h2⟩ := ih (max a b)
    refine ⟨(le_max_left _ _).trans h1, ?_⟩
    intro x hx
    rcases List.mem_cons.mp hx with rfl | hx
    · exact (le_max_right _ _).trans h1
    · exact h2 x hx

/-- **C134.** For every list of at least one site the table of distances is computed over a range that begins above zero and
contains, in its interior, every distance that is then looked up; a distance below 10 cm is taken for 10 cm. If the table has a
value for every distance in its range, both arrays of the result have one value for each site. -/
theorem C134_range (table : Scaling → ℝ × ℝ → ℝ → Option (ℝ × ℝ)) (region mech : Option String) (o : Hypo) (lon lat dep : Arr)
    (s : Scaling) (hs : scaling region mech = some s) (hne : distanceTo o.lon o.lat 0 lon lat dep ≠ []) :
    ∃ lo hi, 0 < lo ∧ (∀ x ∈ (computeRepi o lon lat dep).data, lo < max x 0.0001 ∧ max x 0.0001 < hi) ∧
      ((∀ x, lo < x → x < hi → (table s (lo, hi) x).isSome) →
        ∃ d v, computeRdist table region mech o lon lat dep = .ok (d, v) ∧ d.shape = lon.shape ∧ v.shape = lon.shape ∧
          List.Forall₂ (fun x p => table s (lo, hi) (max x 0.0001) = some p) (computeRepi o lon lat dep).data (d.data.zip v.data) ∧
          d.data.length = v.data.length) := by
  set rs := clipped o lon lat dep with hrs
  have hrne : rs ≠ [] := by
    rw [hrs]; unfold clipped computeRepi
    simpa using hne
  obtain ⟨a, l, hl⟩ := List.exists_cons_of_ne_nil hrne
  have hpos : ∀ x ∈ rs, (0.0001 : ℝ) ≤ x := by
    intro x hx
    rw [hrs] at hx
    unfold clipped at hx
    obtain ⟨y, -, rfl⟩ := List.mem_map.mp hx
    exact le_max_right _ _
  have hmin := foldl_min_le l a
  have hmax := le_foldl_max l a
  have hin : ∀ x ∈ rs, l.foldl min a - 0.00001 < x ∧ x < l.foldl max a + 0.1 := by
    intro x hx
    rw [hl] at hx
    rcases List.mem_cons.mp hx with rfl | hx
    · exact ⟨by linarith [hmin.1], by linarith [hmax.1]⟩
    · exact ⟨by linarith [hmin.2.1 x hx], by linarith [hmax.2 x hx]⟩
  refine ⟨l.foldl min a - 0.00001, l.foldl max a + 0.1, ?_, ?_, ?_⟩
  · have : (0.0001 : ℝ) ≤ l.foldl min a := by
      rcases hmin.2.2 with h | h
      · rw [h]; exact hpos a (by rw [hl]; simp)
      · exact hpos _ (by rw [hl]; exact List.mem_cons_of_mem _ h)
    norm_num at this ⊢
    linarith
  · intro x hx
    exact hin _ (List.mem_map_of_mem (f := fun x => max x 0.0001) hx)
  · intro htab
    have hall : (rs.all fun x => (table s (l.foldl min a - 0.00001, l.foldl max a + 0.1) x).isSome) = true := by
      rw [List.all_eq_true]
      intro x hx
      exact htab x (hin x hx).1 (hin x hx).2
    have hr : tableRange rs = some (l.foldl min a - 0.00001, l.foldl max a + 0.1) := by rw [hl]; rfl
    have hc : computeRdist table region mech o lon lat dep =
        .ok (⟨lon.shape, (rs.filterMap fun x => table s (l.foldl min a - 0.00001, l.foldl max a + 0.1) x).map (·.1)⟩,
          ⟨lon.shape, (rs.filterMap fun x => table s (l.foldl min a - 0.00001, l.foldl max a + 0.1) x).map (·.2)⟩) := by
      unfold computeRdist
      rw [hs]
      simp only [← hrs]
      rw [hr]
      simp only
      rw [if_pos hall]
    refine ⟨_, _, hc, rfl, rfl, ?_, by simp⟩
    have hz : ∀ l : List (ℝ × ℝ), (l.map (·.1)).zip (l.map (·.2)) = l := by
      intro l
      induction l with
      | nil => rfl
      | cons p l ih => simp [ih]
    simp only
    rw [hz]
    have hforall : ∀ (f : ℝ → Option (ℝ × ℝ)) (l : List ℝ), (∀ x ∈ l.map fun x => max x 0.0001, (f x).isSome) →
        List.Forall₂ (fun x p => f (max x 0.0001) = some p) l ((l.map fun x => max x 0.0001).filterMap f) := by
      intro f l
      induction l with
      | nil => intro _; exact .nil
      | cons x l ih =>
        intro h
        obtain ⟨p, hp⟩ := Option.isSome_iff_exists.mp (h (max x 0.0001) (by simp))
        rw [List.map_cons, List.filterMap_cons, hp]
        exact .cons hp (ih fun y hy => h y (by rw [List.map_cons]; exact List.mem_cons_of_mem _ hy))
    exact hforall _ _ (fun x hx => htab x (hin x hx).1 (hin x hx).2)

/-- **C134.** The generalized coordinates of a point rupture are the five documented ones, all zero, one value for each site. -/
theorem C134_gc2 (tjb trup : Scaling → ℝ × ℝ → ℝ → Option (ℝ × ℝ)) (region mech : Option String) (o : Hypo) :
    GoodGc2 (pointRupture tjb trup region mech o) ∧
    ∀ dx lon lat dep, ∃ g, (pointRupture tjb trup region mech o).gc2 dx lon lat dep = .ok g ∧
      ∀ k v, g.lookup k = some v → v.shape = lon.shape ∧ v.data = List.replicate lon.data.length 0 := by
  have hl : ∀ (z : Arr) (k : String), List.lookup k [("rx", z), ("ry", z), ("ry0", z), ("U", z), ("T", z)] =
      if IsGc2 k then some z else none := by
    intro z k
    by_cases h : IsGc2 k
    · rw [if_pos h]
      rcases h with rfl | rfl | rfl | rfl | rfl <;> rfl
    · rw [if_neg h, List.lookup_eq_none_iff]
      unfold IsGc2 at h
      push Not at h
      simp [h]
  refine ⟨?_, ?_⟩
  · rintro dx lon lat dep g hg
    cases hg
    refine ⟨by unfold zeroGC2; simp, fun k => ?_⟩
    unfold zeroGC2
    rw [hl]
    by_cases h : IsGc2 k <;> simp [h]
  · intro dx lon lat dep
    refine ⟨_, rfl, fun k v h => ?_⟩
    unfold zeroGC2 at h
    rw [hl] at h
    split at h
    · cases h; exact ⟨rfl, by simp [List.map_const']⟩
    · cases h

/-- **C134.** The two rupture distances of a point rupture come from their own tables: every Joyner-Boore distance with its
variance is an entry of the first one, every rupture distance an entry of the second, one for each site. -/
theorem C134_tables (tjb trup : Scaling → ℝ × ℝ → ℝ → Option (ℝ × ℝ)) (region mech : Option String) (o : Hypo)
    (dx : ℝ) (lon lat dep : Arr) :
    (∀ d v, (pointRupture tjb trup region mech o).rjb dx lon lat dep = .ok (d, v) →
      ∃ s range, scaling region mech = some s ∧
        List.Forall₂ (fun x p => tjb s range (max x 0.0001) = some p) (computeRepi o lon lat dep).data (d.data.zip v.data)) ∧
    (∀ d v, (pointRupture tjb trup region mech o).rrup dx lon lat dep = .ok (d, v) →
      ∃ s range, scaling region mech = some s ∧
        List.Forall₂ (fun x p => trup s range (max x 0.0001) = some p) (computeRepi o lon lat dep).data (d.data.zip v.data)) := by
  have hz : ∀ l : List (ℝ × ℝ), (l.map (·.1)).zip (l.map (·.2)) = l := by
    intro l
    induction l with
    | nil => rfl
    | cons p l ih => simp [ih]
  have hforall : ∀ (f : ℝ → Option (ℝ × ℝ)) (l : List ℝ), (∀ x ∈ l.map fun x => max x 0.0001, (f x).isSome) →
      List.Forall₂ (fun x p => f (max x 0.0001) = some p) l ((l.map fun x => max x 0.0001).filterMap f) := by
    intro f l
    induction l with
    | nil => intro _; exact .nil
    | cons x l ih =>
      intro h
      obtain ⟨p, hp⟩ := Option.isSome_iff_exists.mp (h (max x 0.0001) (by simp))
      rw [List.map_cons, List.filterMap_cons, hp]
      exact .cons hp (ih fun y hy => h y (by rw [List.map_cons]; exact List.mem_cons_of_mem _ hy))
  have key : ∀ table d v, computeRdist table region mech o lon lat dep = .ok (d, v) → ∃ s range, scaling region mech = some s ∧
      List.Forall₂ (fun x p => table s range (max x 0.0001) = some p) (computeRepi o lon lat dep).data (d.data.zip v.data) := by
    intro table d v h
    unfold computeRdist at h
    cases hs : scaling region mech with
    | none => rw [hs] at h; cases h
    | some s =>
      rw [hs] at h
      simp only at h
      cases hr : tableRange (clipped o lon lat dep) with
      | none => rw [hr] at h; cases h
      | some range =>
        rw [hr] at h
        simp only at h
        split_ifs at h with hall
        cases h
        refine ⟨s, range, rfl, ?_⟩
        simp only
        rw [hz]
        refine hforall _ _ fun x hx => ?_
        exact List.all_eq_true.1 hall x hx
  exact ⟨key tjb, key trup⟩

/-- **C135.** The rake of the context of a rupture: for every origin that can be constructed it is the rake of the origin, a number:
the given one, or that of the mechanism, which is zero for unknown mechanisms. -/
theorem C135_rake (parse : String → Option Origin.Fl) (ev a : Origin.Dict) (ha : (Origin.construct parse ev).1 = .ok a) :
    ∃ x m r, contextRake a = some (.num x) ∧ MechOf ev m ∧ (m, r) ∈ mechRake ∧ (ev.lookup "rake" = none → x = .fin r) ∧
      (∀ v, ev.lookup "rake" = some v → FloatOf parse v x) := by
  obtain ⟨-, -, h3⟩ := C70_construct_partial parse ev
  obtain ⟨m, r, hmo, hm, hl, h1, h2, -⟩ := h3 a ha
  unfold contextRake Origin.Dict.get
  cases hr : ev.lookup "rake" with
  | none =>
    refine ⟨.fin r, m, r, ?_, hmo, hm, fun _ => rfl, by simp⟩
    rw [h1 hr]
  | some v =>
    obtain ⟨x, hx, hax⟩ := h2 v hr
    refine ⟨x, m, r, ?_, hmo, hm, by simp, ?_⟩
    · rw [hax]
    · rintro w hw; cases hw; exact hx

/-! ### The hypotheses can be met -/

/-- A table that has a value for every distance. -/
def totalTable : Scaling → ℝ × ℝ → ℝ → Option (ℝ × ℝ) := fun _ _ x => some (x, 0)

/-- A point rupture in active crust, 10 km below the equator. -/
noncomputable def samplePoint : Rupture := pointRupture totalTable totalTable (some "Active Shallow Crust") (some "SS") ⟨0, 0, 10⟩

/-- Two sites on the equator, at the surface. -/
def sampleLon : Arr := ⟨[2], [0, 1]⟩
def sampleZero : Arr := ⟨[2], [0, 0]⟩

/-- All the measures can be computed for a point rupture. -/
example : ∃ d, (getDistance (.list ["rrup", "rx", "repi", "rvolc"]) sampleZero sampleLon sampleZero (some samplePoint) (1 / 2)).1 = .ok d ∧
    (d.lookup "rrup").isSome ∧ (d.lookup "rrup_var").isSome ∧ (d.lookup "ry0").isSome ∧ d.lookup "rhypo" = none := by
  have hk : ∀ m ∈ ["rrup", "rx", "repi", "rvolc"], Known m := by decide
  rcases (C77_get_distance (req := .list ["rrup", "rx", "repi", "rvolc"]) rfl sampleZero sampleLon sampleZero samplePoint
    (C134_gc2 _ _ _ _ _).1 (1 / 2)).2.2 hk rfl rfl with ⟨d, hd, ha⟩ | ⟨e, -, hr⟩
  · refine ⟨d, hd, ?_, ?_, ?_, ?_⟩
    · rw [ha.keys]; simp
    · rw [ha.keys]; simp
    · rw [ha.keys]; simp [IsGc2]
    · rw [← Option.not_isSome_iff_eq_none, ha.keys]; simp [IsGc2]
  · exfalso
    obtain ⟨lo, hi, -, -, h⟩ := C134_range totalTable (some "Active Shallow Crust") (some "SS") ⟨0, 0, 10⟩ sampleLon sampleZero sampleZero
      _ rfl (by simp [distanceTo, sampleLon, sampleZero])
    obtain ⟨dd, v, hdv, -⟩ := h fun _ _ _ => rfl
    rcases hr with ⟨-, h⟩ | ⟨-, h⟩ | ⟨-, h⟩ | ⟨h, -⟩ | ⟨-, h⟩
    · cases h
    · cases h
    · have : samplePoint.rrup (1 / 2) sampleLon sampleZero sampleZero = .ok (dd, v) := hdv
      rw [this] at h; cases h
    · revert h; decide
    · cases h

/-- Names that are not measures, and sites of different shapes. -/
example : (getDistance (.one "rfoo") sampleZero sampleLon sampleZero (some samplePoint) 1).1 = .error .notImplemented :=
  (C77_get_distance (req := .one "rfoo") rfl _ _ _ _ (C134_gc2 _ _ _ _ _).1 _).1 ⟨"rfoo", by simp, by decide⟩

example : (getDistance (.one "rjb") sampleZero ⟨[3], [0, 1, 2]⟩ sampleZero (some samplePoint) 1).1 = .error .lengths :=
  (C77_get_distance (req := .one "rjb") rfl _ _ _ _ (C134_gc2 _ _ _ _ _).1 _).2.1 (by decide) (by simp [sampleZero])

/-- A site below half the depth of the hypocentre. -/
example : ∃ e h, (computeRepi ⟨0, 0, 10⟩ ⟨[1], [1]⟩ ⟨[1], [0]⟩ ⟨[1], [6]⟩).data[0]? = some e ∧
    (computeRhyp ⟨0, 0, 10⟩ ⟨[1], [1]⟩ ⟨[1], [0]⟩ ⟨[1], [6]⟩).data[0]? = some h ∧ h < e := by
  obtain ⟨e, h, he, hh, -, hlt⟩ := C133_deep_site_violated ⟨0, 0, 10⟩ ⟨[1], [1]⟩ ⟨[1], [0]⟩ ⟨[1], [6]⟩ 0 1 0 6 rfl rfl rfl (by norm_num)
  exact ⟨e, h, he, hh, hlt (by norm_num) (by norm_num)⟩

end Verif.Props
