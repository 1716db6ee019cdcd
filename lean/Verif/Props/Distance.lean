import Verif.Model.Distance
import Verif.Props.OqPoints

/-!
# Distances from sites to ruptures (C77, C131-C134)
-/

namespace Verif.Props
open Verif.Dist Verif.Spec

theorem put_lookup (d : Dist.Dict) (k j : String) (v : Arr) :
    (d.put k v).lookup j = if j = k then some v else d.lookup j := by
  induction d with
  | nil =>
    by_cases h : j = k
    · simp [Dict.put, h]
    · simp [Dict.put, List.lookup, h, beq_eq_false_iff_ne.mpr h]
  | cons p d ih =>
    obtain ⟨k', v'⟩ := p
    unfold Dict.put
    by_cases hk : k' = k
    · rw [if_pos hk]
      by_cases h : j = k
      · simp [List.lookup, h]
      · simp only [List.lookup, hk, beq_eq_false_iff_ne.mpr h]
        rw [if_neg h]
    · rw [if_neg hk]
      by_cases h : j = k'
      · have : j ≠ k := fun e => hk (h ▸ e)
        simp [List.lookup, h, if_neg (h ▸ this)]
      · simp only [List.lookup, beq_eq_false_iff_ne.mpr h]
        exact ih

theorem update_lookup (d g : Dist.Dict) (hn : (g.map (·.1)).Nodup) (j : String) :
    (d.update g).lookup j = (g.lookup j).or (d.lookup j) := by
  induction g generalizing d with
  | nil => rfl
  | cons p g ih =>
    obtain ⟨k, v⟩ := p
    simp only [List.map_cons, List.nodup_cons] at hn
    have h := ih (d.put k v) hn.2
    unfold Dict.update at h ⊢
    rw [List.foldl_cons, h, put_lookup]
    by_cases hj : j = k
    · subst hj
      have hno : g.lookup j = none := by
        rw [List.lookup_eq_none_iff]
        intro q hq
        have : q.1 ∈ g.map (·.1) := List.mem_map_of_mem hq
        rw [bne_iff_ne]
        intro e
        exact hn.1 (e ▸ this)
      simp [hno, List.lookup]
    · simp [hj, List.lookup, beq_eq_false_iff_ne.mpr hj]

/-- The measures that can be requested, from the documentation of `get_distance`. -/
def Known (m : String) : Prop :=
  m = "repi" ∨ m = "rhypo" ∨ m = "rjb" ∨ m = "rrup" ∨ m = "rx" ∨ m = "ry" ∨ m = "ry0" ∨ m = "U" ∨ m = "T" ∨ m = "rvolc"

instance : DecidablePred Known := fun m => by unfold Known; infer_instance

/-- The five measures from generalized coordinates. -/
def IsGc2 (m : String) : Prop := m = "rx" ∨ m = "ry" ∨ m = "ry0" ∨ m = "U" ∨ m = "T"

instance : DecidablePred IsGc2 := fun m => by unfold IsGc2; infer_instance

theorem known_iff (m : String) : distanceMeasures.contains m = true ↔ Known m := by
  simp [distanceMeasures, Known]

theorem gc2_iff (m : String) : gc2Distances.contains m = true ↔ IsGc2 m := by
  simp [gc2Distances, IsGc2]

theorem not_known {ms : List String} : (ms.all fun m => distanceMeasures.contains m) = true ↔ ∀ m ∈ ms, Known m := by
  rw [List.all_eq_true]
  exact forall₂_congr fun m _ => known_iff m

/-- The list that a request stands for. -/
def Req.Asks : Req → List String → Prop
  | .list l, ms => ms = l
  | .one m, ms => ms = [m]
  | .other _, _ => False

theorem getDistance_eq {req : Req} {ms : List String} (h : Req.Asks req ms) (lat lon dep : Arr) (r : Rupture) (dx : ℝ) :
    (getDistance req lat lon dep (some r) dx).1 =
      if (∀ m ∈ ms, Known m) then
        if lat.shape ≠ lon.shape ∨ lat.shape ≠ dep.shape then .error .lengths
        else measures ms { r with meshDx := dx } lon lat dep
      else .error .notImplemented := by
  have hd : ∀ ms : List String, (if (ms.all fun m => distanceMeasures.contains m) = true then
      if lat.shape ≠ lon.shape ∨ lat.shape ≠ dep.shape then Except.error DErr.lengths
      else measures ms { r with meshDx := dx } lon lat dep else .error .notImplemented) =
      if (∀ m ∈ ms, Known m) then
        if lat.shape ≠ lon.shape ∨ lat.shape ≠ dep.shape then .error .lengths
        else measures ms { r with meshDx := dx } lon lat dep
      else .error .notImplemented := by
    intro ms
    by_cases hk : ∀ m ∈ ms, Known m
    · rw [if_pos hk, if_pos (not_known.mpr hk)]
    · rw [if_neg hk, if_neg (fun e => hk (not_known.mp e))]
  cases req with
  | list l => cases h; exact hd _
  | one m => cases h; exact hd _
  | other b => cases h

/-- One of the measures that were asked for raises `e`. -/
def Raises (r : Rupture) (dx : ℝ) (lon lat dep : Arr) (ms : List String) (e : DErr) : Prop :=
  ("rhypo" ∈ ms ∧ r.rhyp dx lon lat dep = .error e) ∨ ("repi" ∈ ms ∧ r.repi dx lon lat dep = .error e) ∨
  ("rrup" ∈ ms ∧ r.rrup dx lon lat dep = .error e) ∨ ("rjb" ∈ ms ∧ r.rjb dx lon lat dep = .error e) ∨
  ((∃ m ∈ ms, IsGc2 m) ∧ r.gc2 dx lon lat dep = .error e)

theorem addOne_cases (ms : List String) (k : String) (m : Except DErr Arr) (d : Dist.Dict) :
    (∃ e, k ∈ ms ∧ m = .error e ∧ addOne ms k m d = .error e) ∨
    (∃ d', addOne ms k m d = .ok d' ∧ (k ∈ ms → ∃ a, m = .ok a ∧ d'.lookup k = some a) ∧
      (k ∉ ms → d'.lookup k = d.lookup k) ∧ ∀ j, j ≠ k → d'.lookup j = d.lookup j) := by
  unfold addOne
  by_cases h : k ∈ ms
  · rw [if_pos (by simpa using h)]
    cases m with
    | error e => exact Or.inl ⟨e, h, rfl, rfl⟩
    | ok a =>
      refine Or.inr ⟨_, rfl, fun _ => ⟨a, rfl, by rw [put_lookup, if_pos rfl]⟩, fun hn => absurd h hn, fun j hj => ?_⟩
      rw [put_lookup, if_neg hj]
  · rw [if_neg (by simpa using h)]
    exact Or.inr ⟨_, rfl, fun hn => absurd hn h, fun _ => rfl, fun _ _ => rfl⟩

theorem addTwo_cases (ms : List String) (k : String) (hk : k ++ "_var" ≠ k) (m : Except DErr (Arr × Arr)) (d : Dist.Dict) :
    (∃ e, k ∈ ms ∧ m = .error e ∧ addTwo ms k m d = .error e) ∨
    (∃ d', addTwo ms k m d = .ok d' ∧ (k ∈ ms → ∃ a v, m = .ok (a, v) ∧ d'.lookup k = some a ∧ d'.lookup (k ++ "_var") = some v) ∧
      (k ∉ ms → d' = d) ∧ ∀ j, j ≠ k → j ≠ k ++ "_var" → d'.lookup j = d.lookup j) := by
  unfold addTwo
  by_cases h : k ∈ ms
  · rw [if_pos (by simpa using h)]
    cases m with
    | error e => exact Or.inl ⟨e, h, rfl, rfl⟩
    | ok p =>
      obtain ⟨a, v⟩ := p
      refine Or.inr ⟨_, rfl, fun _ => ⟨a, v, rfl, ?_, ?_⟩, fun hn => absurd h hn, fun j hj hj' => ?_⟩
      · rw [put_lookup, if_neg (Ne.symm hk), put_lookup, if_pos rfl]
      · rw [put_lookup, if_pos rfl]
      · rw [put_lookup, if_neg hj', put_lookup, if_neg hj]
  · rw [if_neg (by simpa using h)]
    exact Or.inr ⟨_, rfl, fun hn => absurd hn h, fun _ => rfl, fun _ _ _ => rfl⟩

/-- A rupture whose generalized coordinates are a dictionary with the five documented keys. -/
def GoodGc2 (r : Rupture) : Prop :=
  ∀ dx lon lat dep g, r.gc2 dx lon lat dep = .ok g → (g.map (·.1)).Nodup ∧ ∀ k, (g.lookup k).isSome ↔ IsGc2 k

/-- What `get_distance` must return for a list of measures: `d` has the measures of the rupture at the given spacing of the
mesh, with variances, all five generalized coordinates if one is asked for, zeros for `rvolc`, and nothing else. -/
structure Answer (r : Rupture) (dx : ℝ) (lon lat dep : Arr) (ms : List String) (d : Dist.Dict) : Prop where
  keys : ∀ k, (d.lookup k).isSome ↔ (k ∈ ms ∨ (k = "rrup_var" ∧ "rrup" ∈ ms) ∨ (k = "rjb_var" ∧ "rjb" ∈ ms) ∨
    (IsGc2 k ∧ ∃ m ∈ ms, IsGc2 m))
  rhypo : "rhypo" ∈ ms → ∃ a, r.rhyp dx lon lat dep = .ok a ∧ d.lookup "rhypo" = some a
  repi : "repi" ∈ ms → ∃ a, r.repi dx lon lat dep = .ok a ∧ d.lookup "repi" = some a
  rrup : "rrup" ∈ ms → ∃ a v, r.rrup dx lon lat dep = .ok (a, v) ∧ d.lookup "rrup" = some a ∧ d.lookup "rrup_var" = some v
  rjb : "rjb" ∈ ms → ∃ a v, r.rjb dx lon lat dep = .ok (a, v) ∧ d.lookup "rjb" = some a ∧ d.lookup "rjb_var" = some v
  gc2 : (∃ m ∈ ms, IsGc2 m) → ∃ g, r.gc2 dx lon lat dep = .ok g ∧ ∀ k, IsGc2 k → d.lookup k = g.lookup k
  rvolc : "rvolc" ∈ ms → ∃ z : Arr, d.lookup "rvolc" = some z ∧ z.shape = lon.shape ∧ z.data.length = lon.data.length ∧
    ∀ x ∈ z.data, x = 0

theorem measures_spec (r : Rupture) (hg : GoodGc2 r) (lon lat dep : Arr) (ms : List String) (hk : ∀ m ∈ ms, Known m) :
    (∃ e, measures ms r lon lat dep = .error e ∧ Raises r r.meshDx lon lat dep ms e) ∨
    (∃ d, measures ms r lon lat dep = .ok d ∧ Answer r r.meshDx lon lat dep ms d) := by
  unfold measures
  rcases addOne_cases ms "rhypo" (r.rhyp r.meshDx lon lat dep) [] with ⟨e, h, he, ha⟩ | ⟨d1, ha, p1, n1, o1⟩
  · exact Or.inl ⟨e, by rw [ha]; rfl, Or.inl ⟨h, he⟩⟩
  rcases addOne_cases ms "repi" (r.repi r.meshDx lon lat dep) d1 with ⟨e, h, he, hb⟩ | ⟨d2, hb, p2, n2, o2⟩
  · exact Or.inl ⟨e, by rw [ha]; show (addOne ms "repi" _ d1 >>= _) = _; rw [hb]; rfl, Or.inr (Or.inl ⟨h, he⟩)⟩
  rcases addTwo_cases ms "rrup" (by decide) (r.rrup r.meshDx lon lat dep) d2 with ⟨e, h, he, hc⟩ | ⟨d3, hc, p3, n3, o3⟩
  · refine Or.inl ⟨e, ?_, Or.inr (Or.inr (Or.inl ⟨h, he⟩))⟩
    rw [ha]; show (addOne ms "repi" _ d1 >>= _) = _
    rw [hb]; show (addTwo ms "rrup" _ d2 >>= _) = _
    rw [hc]; rfl
  rcases addTwo_cases ms "rjb" (by decide) (r.rjb r.meshDx lon lat dep) d3 with ⟨e, h, he, hd⟩ | ⟨d4, hd, p4, n4, o4⟩
  · refine Or.inl ⟨e, ?_, Or.inr (Or.inr (Or.inr (Or.inl ⟨h, he⟩)))⟩
    rw [ha]; show (addOne ms "repi" _ d1 >>= _) = _
    rw [hb]; show (addTwo ms "rrup" _ d2 >>= _) = _
    rw [hc]; show (addTwo ms "rjb" _ d3 >>= _) = _
    rw [hd]; rfl
  rw [ha]; show (∃ e, (addOne ms "repi" _ d1 >>= _) = _ ∧ _) ∨ (∃ d, (addOne ms "repi" _ d1 >>= _) = _ ∧ _)
  rw [hb]; show (∃ e, (addTwo ms "rrup" _ d2 >>= _) = _ ∧ _) ∨ (∃ d, (addTwo ms "rrup" _ d2 >>= _) = _ ∧ _)
  rw [hc]; show (∃ e, (addTwo ms "rjb" _ d3 >>= _) = _ ∧ _) ∨ (∃ d, (addTwo ms "rjb" _ d3 >>= _) = _ ∧ _)
  rw [hd]
  -- the lookups so far
  have l4 : ∀ k, (d4.lookup k).isSome ↔ ((k = "rhypo" ∧ "rhypo" ∈ ms) ∨ (k = "repi" ∧ "repi" ∈ ms) ∨
      ((k = "rrup" ∨ k = "rrup_var") ∧ "rrup" ∈ ms) ∨ ((k = "rjb" ∨ k = "rjb_var") ∧ "rjb" ∈ ms)) := by
    intro k
    have e1 : (d1.lookup k).isSome ↔ (k = "rhypo" ∧ "rhypo" ∈ ms) := by
      by_cases hk1 : k = "rhypo"
      · subst hk1
        by_cases hm : "rhypo" ∈ ms
        · obtain ⟨a, -, h⟩ := p1 hm; simp [h, hm]
        · rw [n1 hm]; simp [hm]
      · rw [o1 k hk1]; simp [hk1]
    have e2 : (d2.lookup k).isSome ↔ ((k = "rhypo" ∧ "rhypo" ∈ ms) ∨ (k = "repi" ∧ "repi" ∈ ms)) := by
      by_cases hk1 : k = "repi"
      · subst hk1
        by_cases hm : "repi" ∈ ms
        · obtain ⟨a, -, h⟩ := p2 hm; simp [h, hm]
        · rw [n2 hm, e1]; simp [hm]
      · rw [o2 k hk1, e1]; simp [hk1]
    have e3 : (d3.lookup k).isSome ↔ ((k = "rhypo" ∧ "rhypo" ∈ ms) ∨ (k = "repi" ∧ "repi" ∈ ms) ∨
        ((k = "rrup" ∨ k = "rrup_var") ∧ "rrup" ∈ ms)) := by
      by_cases hm : "rrup" ∈ ms
      · obtain ⟨a, v, -, h1, h2⟩ := p3 hm
        by_cases hk1 : k = "rrup"
        · subst hk1; simp [h1, hm]
        · by_cases hk2 : k = "rrup_var"
          · subst hk2
            have : ("rrup" ++ "_var" : String) = "rrup_var" := by decide
            rw [this] at h2
            simp [h2, hm]
          · rw [o3 k hk1 (by simpa using hk2), e2]; simp [hk1, hk2]
      · rw [n3 hm, e2]; simp [hm]
    by_cases hm : "rjb" ∈ ms
    · obtain ⟨a, v, -, h1, h2⟩ := p4 hm
      by_cases hk1 : k = "rjb"
      · subst hk1; simp [h1, hm]
      · by_cases hk2 : k = "rjb_var"
        · subst hk2
          have : ("rjb" ++ "_var" : String) = "rjb_var" := by decide
          rw [this] at h2
          simp [h2, hm]
        · rw [o4 k hk1 (by simpa using hk2), e3]; simp [hk1, hk2]
    · rw [n4 hm, e3]; simp [hm]
  have q1 : "rhypo" ∈ ms → ∃ a, r.rhyp r.meshDx lon lat dep = .ok a ∧ d4.lookup "rhypo" = some a := by
    intro hm
    obtain ⟨a, h1, h2⟩ := p1 hm
    exact ⟨a, h1, by rw [o4 _ (by decide) (by decide), o3 _ (by decide) (by decide), o2 _ (by decide), h2]⟩
  have q2 : "repi" ∈ ms → ∃ a, r.repi r.meshDx lon lat dep = .ok a ∧ d4.lookup "repi" = some a := by
    intro hm
    obtain ⟨a, h1, h2⟩ := p2 hm
    exact ⟨a, h1, by rw [o4 _ (by decide) (by decide), o3 _ (by decide) (by decide), h2]⟩
  have q3 : "rrup" ∈ ms → ∃ a v, r.rrup r.meshDx lon lat dep = .ok (a, v) ∧ d4.lookup "rrup" = some a ∧ d4.lookup "rrup_var" = some v := by
    intro hm
    obtain ⟨a, v, h1, h2, h3⟩ := p3 hm
    exact ⟨a, v, h1, by rw [o4 _ (by decide) (by decide), h2], by rw [o4 _ (by decide) (by decide)]; exact h3⟩
  have q4 : "rjb" ∈ ms → ∃ a v, r.rjb r.meshDx lon lat dep = .ok (a, v) ∧ d4.lookup "rjb" = some a ∧ d4.lookup "rjb_var" = some v := by
    intro hm
    obtain ⟨a, v, h1, h2, h3⟩ := p4 hm
    exact ⟨a, v, h1, h2, h3⟩
  -- generalized coordinates
  have hany : (ms.any fun m => gc2Distances.contains m) = true ↔ ∃ m ∈ ms, IsGc2 m := by
    rw [List.any_eq_true]
    exact exists_congr fun m => and_congr_right fun _ => gc2_iff m
  have h5 : (∃ e, (∃ m ∈ ms, IsGc2 m) ∧ r.gc2 r.meshDx lon lat dep = .error e ∧
        addGc2 ms (r.gc2 r.meshDx lon lat dep) d4 = .error e) ∨
      ∃ d5 : Dist.Dict, addGc2 ms (r.gc2 r.meshDx lon lat dep) d4 = .ok d5 ∧
        (∀ k, ¬ IsGc2 k → d5.lookup k = d4.lookup k) ∧
        ((∃ m ∈ ms, IsGc2 m) → ∃ g, r.gc2 r.meshDx lon lat dep = .ok g ∧ ∀ k, IsGc2 k → d5.lookup k = g.lookup k ∧ (g.lookup k).isSome) ∧
        (¬ (∃ m ∈ ms, IsGc2 m) → d5 = d4) := by
    unfold addGc2
    by_cases hm : ∃ m ∈ ms, IsGc2 m
    · rw [if_pos (hany.mpr hm)]
      cases hgc : r.gc2 r.meshDx lon lat dep with
      | error e => exact Or.inl ⟨e, hm, rfl, rfl⟩
      | ok g =>
        obtain ⟨gn, gk⟩ := hg _ _ _ _ _ hgc
        refine Or.inr ⟨_, rfl, ?_, fun _ => ⟨g, rfl, ?_⟩, fun hn => absurd hm hn⟩
        · intro k hk5
          have : g.lookup k = none := by
            rw [← Option.not_isSome_iff_eq_none]; exact fun e => hk5 ((gk k).mp e)
          rw [update_lookup _ _ gn, this]; rfl
        · intro k hk5
          have hs := (gk k).mpr hk5
          obtain ⟨v, hv⟩ := Option.isSome_iff_exists.mp hs
          exact ⟨by rw [update_lookup _ _ gn, hv]; rfl, hs⟩
    · rw [if_neg (fun e => hm (hany.mp e))]
      exact Or.inr ⟨d4, rfl, fun _ _ => rfl, fun h => absurd h hm, fun _ => rfl⟩
  rcases h5 with ⟨e, hm, he, hif⟩ | ⟨d5, hif, o5, p5, n5⟩
  · refine Or.inl ⟨e, ?_, Or.inr (Or.inr (Or.inr (Or.inr ⟨hm, he⟩)))⟩
    show (addGc2 ms _ d4 >>= _) = _
    rw [hif]; rfl
  refine Or.inr ?_
  show ∃ d, (addGc2 ms _ d4 >>= _) = _ ∧ _
  rw [hif]
  show ∃ d, (if ms.contains "rvolc" = true then _ else _) = _ ∧ _
  set d6 : Dist.Dict := if ms.contains "rvolc" = true then d5.put "rvolc" ⟨lon.shape, lon.data.map fun _ => 0⟩ else d5 with hd6
  refine ⟨d6, ?_, ?_⟩
  · by_cases h : ms.contains "rvolc" = true
    · rw [if_pos h, hd6, if_pos h]
    · rw [if_neg h, hd6, if_neg h]
  have o6 : ∀ k, k ≠ "rvolc" → d6.lookup k = d5.lookup k := by
    intro k hk6
    rw [hd6]
    split
    · rw [put_lookup, if_neg hk6]
    · rfl
  have h45 : ∀ k, ¬ IsGc2 k → k ≠ "rvolc" → d6.lookup k = d4.lookup k := fun k a b => by rw [o6 k b, o5 k a]
  constructor
  · intro k
    by_cases hv : k = "rvolc"
    · subst hv
      have hng : ¬ IsGc2 "rvolc" := by unfold IsGc2; decide
      have h4 : d4.lookup "rvolc" = none := by
        rw [← Option.not_isSome_iff_eq_none, l4]; simp
      by_cases hm : "rvolc" ∈ ms
      · simp [hd6, hm, put_lookup]
      · have : d6.lookup "rvolc" = none := by
          rw [hd6, if_neg (by simpa using hm), o5 _ hng, h4]
        simp [this, hm, hng]
    · by_cases hgk : IsGc2 k
      · rw [o6 k hv]
        by_cases hm : ∃ m ∈ ms, IsGc2 m
        · obtain ⟨g, -, hgl⟩ := p5 hm
          rw [(hgl k hgk).1]
          simp [(hgl k hgk).2, hgk, hm]
        · rw [n5 hm, l4]
          have hkm : k ∉ ms := fun h => hm ⟨k, h, hgk⟩
          unfold IsGc2 at hgk
          rcases hgk with rfl | rfl | rfl | rfl | rfl <;> simp [hkm, hm]
      · rw [h45 k hgk hv, l4]
        simp only [hgk, false_and, or_false]
        constructor
        · rintro (⟨rfl, h⟩ | ⟨rfl, h⟩ | ⟨rfl | rfl, h⟩ | ⟨rfl | rfl, h⟩) <;> simp [h]
        · rintro (h | ⟨rfl, h⟩ | ⟨rfl, h⟩)
          · have hkn := hk k h
            unfold Known at hkn
            unfold IsGc2 at hgk
            push Not at hgk
            obtain ⟨g1, g2, g3, g4, g5⟩ := hgk
            rcases hkn with rfl | rfl | rfl | rfl | rfl | rfl | rfl | rfl | rfl | rfl <;> simp_all
          · simp [h]
          · simp [h]
  · intro hm; obtain ⟨a, h1, h2⟩ := q1 hm
    exact ⟨a, h1, by rw [h45 _ (by unfold IsGc2; decide) (by decide), h2]⟩
  · intro hm; obtain ⟨a, h1, h2⟩ := q2 hm
    exact ⟨a, h1, by rw [h45 _ (by unfold IsGc2; decide) (by decide), h2]⟩
  · intro hm; obtain ⟨a, v, h1, h2, h3⟩ := q3 hm
    exact ⟨a, v, h1, by rw [h45 _ (by unfold IsGc2; decide) (by decide), h2], by rw [h45 _ (by unfold IsGc2; decide) (by decide), h3]⟩
  · intro hm; obtain ⟨a, v, h1, h2, h3⟩ := q4 hm
    exact ⟨a, v, h1, by rw [h45 _ (by unfold IsGc2; decide) (by decide), h2], by rw [h45 _ (by unfold IsGc2; decide) (by decide), h3]⟩
  · intro hm
    obtain ⟨g, h1, h2⟩ := p5 hm
    refine ⟨g, h1, fun k hgk => ?_⟩
    have hv : k ≠ "rvolc" := by rintro rfl; revert hgk; unfold IsGc2; decide
    rw [o6 k hv, (h2 k hgk).1]
  · intro hm
    refine ⟨⟨lon.shape, lon.data.map fun _ => 0⟩, ?_, rfl, by simp, by simp⟩
    rw [hd6, if_pos (by simpa using hm), put_lookup, if_pos rfl]

/-- **C77.** `get_distance` for a list of names, or one name: `NotImplementedError` if one of them is unknown; otherwise
`ConsistentLengthError` if the shapes of the coordinates differ; otherwise the answer that was asked for, unless one of the
measures of the rupture raises an exception. -/
theorem C77_get_distance {req : Req} {ms : List String} (h : Req.Asks req ms) (lat lon dep : Arr) (r : Rupture) (hg : GoodGc2 r) (dx : ℝ) :
    ((∃ m ∈ ms, ¬ Known m) → (getDistance req lat lon dep (some r) dx).1 = .error .notImplemented) ∧
    ((∀ m ∈ ms, Known m) → ¬ (lat.shape = lon.shape ∧ lat.shape = dep.shape) →
      (getDistance req lat lon dep (some r) dx).1 = .error .lengths) ∧
    ((∀ m ∈ ms, Known m) → lat.shape = lon.shape → lat.shape = dep.shape →
      (∃ d, (getDistance req lat lon dep (some r) dx).1 = .ok d ∧ Answer r dx lon lat dep ms d) ∨
      (∃ e, (getDistance req lat lon dep (some r) dx).1 = .error e ∧ Raises r dx lon lat dep ms e)) := by
  rw [getDistance_eq h]
  refine ⟨?_, ?_, ?_⟩
  · rintro ⟨m, hm, hn⟩
    rw [if_neg (fun hk => hn (hk m hm))]
  · intro hk hs
    rw [if_pos hk, if_pos (by tauto)]
  · intro hk h1 h2
    rw [if_pos hk, if_neg (by tauto)]
    rcases measures_spec { r with meshDx := dx } hg lon lat dep ms hk with h | ⟨d, h, ha⟩
    · exact Or.inr h
    · exact Or.inl ⟨d, h, ⟨ha.keys, ha.rhypo, ha.repi, ha.rrup, ha.rjb, ha.gc2, ha.rvolc⟩⟩

/-! ### The mesh of the rupture -/

/-- **C131** violated: a request for distances should not change the rupture. Whatever is asked for, also if an exception
is raised, the spacing of the mesh is overwritten; a call without `dx` sets it to half a kilometre. The distances computed
afterwards are those of that mesh. -/
theorem C131_mesh_violated (req : Req) (lat lon dep : Arr) (r : Rupture) (hne : r.meshDx ≠ 1 / 2) :
    ∃ r', (getDistance req lat lon dep (some r) defaultDx).2 = some r' ∧ r'.meshDx = 1 / 2 ∧ r' ≠ r ∧
      ∀ lon' lat' dep', r'.rrup r'.meshDx lon' lat' dep' = r.rrup (1 / 2) lon' lat' dep' := by
  refine ⟨{ r with meshDx := defaultDx }, ?_, rfl, ?_, fun _ _ _ => rfl⟩
  · cases req with
    | list l => rfl
    | one m => rfl
    | other b => cases b <;> rfl
  · intro h
    have := congrArg Rupture.meshDx h
    exact hne this.symm

/-! ### Distance -/

theorem mem_union (a b : List String) (k : String) : k ∈ union a b ↔ k ∈ a ∨ k ∈ b := by
  unfold union
  induction b generalizing a with
  | nil => simp
  | cons x b ih =>
    rw [List.foldl_cons, ih]
    by_cases h : x ∈ a
    · rw [if_pos (by simpa using h)]
      constructor
      · rintro (h1 | h1) <;> simp [h1]
      · rintro (h1 | h1)
        · simp [h1]
        · rcases List.mem_cons.mp h1 with rfl | h1
          · simp [h]
          · simp [h1]
    · rw [if_neg (by simpa using h)]
      simp only [List.mem_append, List.mem_cons]
      tauto

theorem requires_spec (acc : List String) (gs : List (Option (List String))) :
    (none ∈ gs → requires acc gs = .error .type) ∧
    (none ∉ gs → ∃ req, requires acc gs = .ok req ∧ ∀ k, k ∈ req ↔ k ∈ acc ∨ ∃ l, some l ∈ gs ∧ k ∈ l) := by
  induction gs generalizing acc with
  | nil => exact ⟨by simp, fun _ => ⟨acc, rfl, by simp⟩⟩
  | cons g gs ih =>
    cases g with
    | none => exact ⟨fun _ => rfl, fun h => absurd (List.mem_cons_self) h⟩
    | some l =>
      obtain ⟨h1, h2⟩ := ih (union acc l)
      refine ⟨fun h => h1 (by simpa using h), fun h => ?_⟩
      obtain ⟨req, hr, hk⟩ := h2 (by simpa using h)
      refine ⟨req, hr, fun k => ?_⟩
      rw [hk, mem_union]
      constructor
      · rintro ((h | h) | ⟨l', hl, h⟩)
        · exact Or.inl h
        · exact Or.inr ⟨l, by simp, h⟩
        · exact Or.inr ⟨l', by simp [hl], h⟩
      · rintro (h | ⟨l', hl, h⟩)
        · exact Or.inl (Or.inl h)
        · rcases List.mem_cons.mp hl with hl | hl
          · cases hl; exact Or.inl (Or.inr h)
          · exact Or.inr ⟨l', hl, h⟩

/-- The names copied for a list of measures. -/
def Copied (ms : List String) (k : String) : Prop := k ∈ ms ∨ (k = "rrup_var" ∧ "rrup" ∈ ms) ∨ (k = "rjb_var" ∧ "rjb" ∈ ms)

theorem fill_spec (dd : Dist.Dict) (ms : List String) (h : ∀ k, Copied ms k → (dd.lookup k).isSome) (ctx : Dist.Dict) :
    ∃ c, fill dd ms ctx = .ok c ∧ (∀ k, Copied ms k → c.lookup k = dd.lookup k) ∧ ∀ k, ¬ Copied ms k → c.lookup k = ctx.lookup k := by
  induction ms generalizing ctx with
  | nil => exact ⟨ctx, rfl, by simp [Copied], fun _ _ => rfl⟩
  | cons m ms ih =>
    obtain ⟨a, ha⟩ := Option.isSome_iff_exists.mp (h m (Or.inl (by simp)))
    have hsub : ∀ k, Copied ms k → Copied (m :: ms) k := by
      rintro k (h | ⟨h1, h2⟩ | ⟨h1, h2⟩)
      · exact Or.inl (by simp [h])
      · exact Or.inr (Or.inl ⟨h1, by simp [h2]⟩)
      · exact Or.inr (Or.inr ⟨h1, by simp [h2]⟩)
    have ih := ih fun k hk => h k (hsub k hk)
    unfold fill
    rw [ha]
    simp only
    by_cases hv : m = "rrup" ∨ m = "rjb"
    · rw [if_pos hv]
      have hcv : Copied (m :: ms) (m ++ "_var") := by
        rcases hv with rfl | rfl
        · exact Or.inr (Or.inl ⟨by decide, by simp⟩)
        · exact Or.inr (Or.inr ⟨by decide, by simp⟩)
      obtain ⟨v, hva⟩ := Option.isSome_iff_exists.mp (h _ hcv)
      rw [hva]
      simp only
      obtain ⟨c, hc, h1, h2⟩ := ih ((ctx.put m a).put (m ++ "_var") v)
      refine ⟨c, hc, ?_, ?_⟩
      · intro k hk
        by_cases hkm : Copied ms k
        · exact h1 k hkm
        · rw [h2 k hkm, put_lookup]
          by_cases e1 : k = m ++ "_var"
          · rw [if_pos e1, e1, hva]
          · rw [if_neg e1, put_lookup]
            by_cases e2 : k = m
            · rw [if_pos e2, e2, ha]
            · exfalso
              rcases hk with hk | ⟨hk, hk'⟩ | ⟨hk, hk'⟩
              · rcases List.mem_cons.mp hk with hk | hk
                · exact e2 hk
                · exact hkm (Or.inl hk)
              · rcases List.mem_cons.mp hk' with hk' | hk'
                · subst hk'; exact e1 hk
                · exact hkm (Or.inr (Or.inl ⟨hk, hk'⟩))
              · rcases List.mem_cons.mp hk' with hk' | hk'
                · subst hk'; exact e1 hk
                · exact hkm (Or.inr (Or.inr ⟨hk, hk'⟩))
      · intro k hk
        have e1 : k ≠ m ++ "_var" := by rintro rfl; exact hk hcv
        have e2 : k ≠ m := by rintro rfl; exact hk (Or.inl (by simp))
        rw [h2 k fun h => hk (hsub k h), put_lookup, if_neg e1, put_lookup, if_neg e2]
    · rw [if_neg hv]
      obtain ⟨c, hc, h1, h2⟩ := ih (ctx.put m a)
      refine ⟨c, hc, ?_, ?_⟩
      · intro k hk
        by_cases hkm : Copied ms k
        · exact h1 k hkm
        · rw [h2 k hkm, put_lookup]
          by_cases e2 : k = m
          · rw [if_pos e2, e2, ha]
          · exfalso
            rcases hk with hk | ⟨hk, hk'⟩ | ⟨hk, hk'⟩
            · rcases List.mem_cons.mp hk with hk | hk
              · exact e2 hk
              · exact hkm (Or.inl hk)
            · rcases List.mem_cons.mp hk' with hk' | hk'
              · exact hv (Or.inl hk'.symm)
              · exact hkm (Or.inr (Or.inl ⟨hk, hk'⟩))
            · rcases List.mem_cons.mp hk' with hk' | hk'
              · exact hv (Or.inr hk'.symm)
              · exact hkm (Or.inr (Or.inr ⟨hk, hk'⟩))
      · intro k hk
        have e2 : k ≠ m := by rintro rfl; exact hk (Or.inl (by simp))
        rw [h2 k fun h => hk (hsub k h), put_lookup, if_neg e2]

/-- The measures a list of GMPEs needs: the four that are always there, and those of every GMPE. -/
def Needed (gmpe : List (Option (List String))) (k : String) : Prop :=
  k = "repi" ∨ k = "rhypo" ∨ k = "rrup" ∨ k = "rjb" ∨ ∃ l, some l ∈ gmpe ∧ k ∈ l

/-- **C132.** `Distance`: `TypeError` if an object is not a GMPE; otherwise `NotImplementedError` if one needs an unknown measure;
otherwise `ConsistentLengthError` if the shapes differ; otherwise the context holds exactly the measures that are needed, and the
variances of rupture and Joyner-Boore distances, each as `get_distance` computes it for all of them, unless the rupture raises an
exception. An `EdgeRupture` keeps its mesh. -/
theorem C132_context (gmpe : List (Option (List String))) (lon lat dep : Arr) (r : Rupture) (hg : GoodGc2 r) :
    (none ∈ gmpe → distanceContext gmpe lon lat dep (some r) = (.error .type, some r)) ∧
    (none ∉ gmpe → (∃ k, Needed gmpe k ∧ ¬ Known k) → (distanceContext gmpe lon lat dep (some r)).1 = .error .notImplemented) ∧
    (none ∉ gmpe → (∀ k, Needed gmpe k → Known k) → ¬ (lat.shape = lon.shape ∧ lat.shape = dep.shape) →
      (distanceContext gmpe lon lat dep (some r)).1 = .error .lengths) ∧
    (none ∉ gmpe → (∀ k, Needed gmpe k → Known k) → lat.shape = lon.shape → lat.shape = dep.shape →
      ∃ ms dx, (∀ k, k ∈ ms ↔ Needed gmpe k) ∧ (r.edge = true → dx = r.meshDx) ∧
      ((∃ c d, (distanceContext gmpe lon lat dep (some r)).1 = .ok c ∧ Answer r dx lon lat dep ms d ∧
          ∀ k, ((Needed gmpe k ∨ k = "rrup_var" ∨ k = "rjb_var") → c.lookup k = d.lookup k) ∧
            (¬ (Needed gmpe k ∨ k = "rrup_var" ∨ k = "rjb_var") → c.lookup k = none)) ∨
        (∃ e, (distanceContext gmpe lon lat dep (some r)).1 = .error e ∧ Raises r dx lon lat dep ms e))) ∧
    (r.edge = true → (distanceContext gmpe lon lat dep (some r)).2 = some r) := by
  obtain ⟨r1, r2⟩ := requires_spec always gmpe
  have hneed : ∀ req : List String, (∀ k, k ∈ req ↔ k ∈ always ∨ ∃ l, some l ∈ gmpe ∧ k ∈ l) → ∀ k, k ∈ req ↔ Needed gmpe k := by
    intro req h k
    rw [h, Needed]
    simp only [always, List.mem_cons, List.not_mem_nil, or_false]
    tauto
  have hsecond : ∀ req dx, (getDistance (.list req) lat lon dep (some r) dx).2 = some { r with meshDx := dx } := fun _ _ => rfl
  set dx := if r.edge then r.meshDx else defaultDx with hdx
  have hunf : ∀ req, requires always gmpe = .ok req → distanceContext gmpe lon lat dep (some r) =
      match (getDistance (.list req) lat lon dep (some r) dx).1 with
      | .error e => (.error e, some { r with meshDx := dx })
      | .ok dd => (fill dd req [], some { r with meshDx := dx }) := by
    intro req h
    unfold distanceContext
    rw [h]
    rfl
  refine ⟨?_, ?_, ?_, ?_, ?_⟩
  · intro h
    unfold distanceContext
    rw [r1 h]
  · rintro h ⟨k, hk, hn⟩
    obtain ⟨req, hr, hm⟩ := r2 h
    rw [hunf req hr, (C77_get_distance (req := .list req) rfl lat lon dep r hg dx).1 ⟨k, (hneed req hm k).mpr hk, hn⟩]
  · intro h hk hs
    obtain ⟨req, hr, hm⟩ := r2 h
    rw [hunf req hr, (C77_get_distance (req := .list req) rfl lat lon dep r hg dx).2.1 (fun m hmm => hk m ((hneed req hm m).mp hmm)) hs]
  · intro h hk h1 h2
    obtain ⟨req, hr, hm⟩ := r2 h
    have hn := hneed req hm
    refine ⟨req, dx, hn, fun he => by rw [hdx, if_pos he], ?_⟩
    rcases (C77_get_distance (req := .list req) rfl lat lon dep r hg dx).2.2 (fun m hmm => hk m ((hn m).mp hmm)) h1 h2 with ⟨d, hd, ha⟩ | ⟨e, he, hra⟩
    · left
      obtain ⟨c, hc, f1, f2⟩ := fill_spec d req (by
        intro k hkc
        rw [ha.keys]
        rcases hkc with h | h | h
        · exact Or.inl h
        · exact Or.inr (Or.inl h)
        · exact Or.inr (Or.inr (Or.inl h))) []
      refine ⟨c, d, by rw [hunf req hr, hd]; exact hc, ha, ?_⟩
      intro k
      have hcop : Copied req k ↔ (Needed gmpe k ∨ k = "rrup_var" ∨ k = "rjb_var") := by
        unfold Copied
        rw [hn k, hn "rrup", hn "rjb"]
        have e1 : Needed gmpe "rrup" := Or.inr (Or.inr (Or.inl rfl))
        have e2 : Needed gmpe "rjb" := Or.inr (Or.inr (Or.inr (Or.inl rfl)))
        tauto
      exact ⟨fun h => f1 k (hcop.mpr h), fun h => by rw [f2 k fun h' => h (hcop.mp h')]; rfl⟩
    · right
      exact ⟨e, by rw [hunf req hr, he], hra⟩
  · intro he
    by_cases h : none ∈ gmpe
    · unfold distanceContext
      rw [r1 h]
    · obtain ⟨req, hr, -⟩ := r2 h
      rw [hunf req hr]
      have : some { r with meshDx := dx } = some r := by rw [hdx, if_pos he]
      rw [this]
      cases (getDistance (.list req) lat lon dep (some r) dx).1 <;> rfl

/-- **C132** violated: the rupture is documented as optional, but without one every call fails. -/
theorem C132_no_rupture_violated (gmpe : List (Option (List String))) (lon lat dep : Arr) (h : none ∉ gmpe) :
    distanceContext gmpe lon lat dep none = (.error .attribute, none) := by
  obtain ⟨req, hr, -⟩ := (requires_spec always gmpe).2 h
  unfold distanceContext
  rw [hr]
  rfl

end Verif.Props
