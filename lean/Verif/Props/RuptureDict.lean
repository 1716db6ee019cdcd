import Verif.Model.RuptureDict
import Verif.Props.Origin

/-!
# C168: ruptures written as dictionaries and read again; C169: origins from files
-/

namespace Verif.Props
open Verif.Origin Verif.Factory Verif.RupDict

/-- No key occurs twice, as in every Python dictionary. -/
def UniqueKeys (d : Dict) : Prop := (d.map Prod.fst).Nodup

/-- A dictionary as read from JSON: strings, numbers and null only. -/
def JsonDict (d : Dict) : Prop := UniqueKeys d ∧ ∀ k n, d.lookup k ≠ some (.other n)

theorem keys_set (d : Dict) (k : String) (v : Val) :
    (d.set k v).map Prod.fst = if k ∈ d.map Prod.fst then d.map Prod.fst else d.map Prod.fst ++ [k] := by
  induction d with
  | nil => simp [Dict.set]
  | cons p d ih =>
    obtain ⟨a, b⟩ := p
    unfold Dict.set
    by_cases h : a = k
    · subst h; simp
    · rw [if_neg h, List.map_cons, ih]
      simp only [List.map_cons, List.mem_cons]
      by_cases h2 : k ∈ d.map Prod.fst
      · rw [if_pos h2, if_pos (Or.inr h2)]
      · rw [if_neg h2, if_neg (by rintro (h3 | h3); exacts [h h3.symm, h2 h3])]
        rfl

theorem unique_set (d : Dict) (k : String) (v : Val) (h : UniqueKeys d) : UniqueKeys (d.set k v) := by
  unfold UniqueKeys at *
  rw [keys_set]
  split_ifs with h2
  · exact h
  · rw [List.nodup_append]
    refine ⟨h, by simp, ?_⟩
    rintro a ha b hb rfl
    rw [List.mem_singleton] at hb
    exact h2 (hb ▸ ha)

theorem unique_addOrigin (t : ℕ → Bool) (fmt : ℕ → String) (o : Dict) :
    ∀ m, UniqueKeys m → UniqueKeys (addOrigin t fmt o m) := by
  unfold addOrigin
  induction o with
  | nil => exact fun m h => h
  | cons p o ih => exact fun m h => ih _ (unique_set _ _ _ h)

theorem lookup_none_iff (d : Dict) (k : String) : d.lookup k = none ↔ k ∉ d.map Prod.fst := by
  rw [List.lookup_eq_none_iff]
  simp only [List.mem_map, not_exists, not_and, bne_iff_ne, ne_eq]
  constructor
  · exact fun h p hp he => by simpa [he] using h p hp
  · intro h p hp
    have := h p hp
    simpa [eq_comm] using this

theorem get_addOrigin (t : ℕ → Bool) (fmt : ℕ → String) (o : Dict) (ho : UniqueKeys o) (k : String) :
    ∀ m : Dict, (addOrigin t fmt o m).get k = match o.lookup k with
      | some v => some (stamp t fmt v)
      | none => m.get k := by
  unfold addOrigin
  induction o with
  | nil => exact fun m => rfl
  | cons p o ih =>
    intro m
    obtain ⟨a, b⟩ := p
    unfold UniqueKeys at ho ih
    rw [List.map_cons, List.nodup_cons] at ho
    rw [List.foldl_cons, ih ho.2]
    by_cases h : k = a
    · subst h
      rw [(lookup_none_iff o k).mpr ho.1]
      simp only [List.lookup, beq_self_eq_true]
      rw [get_set, if_pos rfl]
    · simp only [List.lookup, show (k == a) = false by simpa using h]
      cases o.lookup k with
      | some v => rfl
      | none => simp only; rw [get_set, if_neg h]

theorem lookup_of_mem (d : Dict) (h : UniqueKeys d) (k : String) (v : Val) (hm : (k, v) ∈ d) : d.lookup k = some v := by
  induction d with
  | nil => simp at hm
  | cons p d ih =>
    obtain ⟨a, b⟩ := p
    unfold UniqueKeys at h ih
    rw [List.map_cons, List.nodup_cons] at h
    rcases List.mem_cons.mp hm with h2 | h2
    · cases h2; simp [List.lookup]
    · have : k ≠ a := by
        rintro rfl
        exact h.1 (List.mem_map.mpr ⟨_, h2, rfl⟩)
      simp only [List.lookup, show (k == a) = false by simpa using this]
      exact ih h.2 h2

theorem keys_setAttrs (parse : String → Option Fl) (d : Dict) :
    ∀ a, setAttrs parse d = .ok a → a.map Prod.fst = d.map Prod.fst := by
  induction d with
  | nil => intro a h; cases h; rfl
  | cons p d ih =>
    obtain ⟨k, v⟩ := p
    intro a h
    unfold setAttrs at h
    split at h
    · cases h
    · cases h
    · rename_i w d' _ hd
      cases h
      rw [List.map_cons, List.map_cons, ih d' hd]

/-- An origin that the constructor makes from some event. -/
def IsOrigin (parse : String → Option Fl) (o : Dict) : Prop := ∃ ev, (construct parse ev).1 = .ok o

/-- A dictionary with all attributes of an origin gives an origin again; all entries are attributes and the dictionary does not change. -/
theorem construct_again (parse : String → Option Fl) (o m : Dict) (ho : IsOrigin parse o) (hu : UniqueKeys m)
    (hm : ∀ k v, o.lookup k = some v → m.lookup k = some v) :
    ∃ o', construct parse m = (.ok o', m) ∧ UniqueKeys o' ∧ ∀ k, o'.lookup k = m.lookup k := by
  obtain ⟨ev, hev⟩ := ho
  have hok := (C70_construct_partial parse ev).2.1.mp ⟨o, hev⟩
  obtain ⟨hk, hid, hlat, hlon, -, -⟩ := hok
  obtain ⟨me, r, -, hmr, hmech, hr1, hr2, hrest⟩ := (C70_construct_partial parse ev).2.2 o hev
  have hsame : ∀ k, k ≠ "mech" → k ≠ "type" → k ≠ "rake" → ∀ v, ev.lookup k = some v → m.lookup k = some v := by
    intro k h1 h2 h3 v hv
    exact hm k v (by rw [hrest k h1 h2 h3]; exact hv)
  obtain ⟨x, hx⟩ : ∃ x, o.lookup "rake" = some (.num x) := by
    cases h : ev.lookup "rake" with
    | none => exact ⟨_, hr1 h⟩
    | some v => obtain ⟨x, -, hx⟩ := hr2 v h; exact ⟨x, hx⟩
  have hmm := hm _ _ hmech
  have hmx := hm _ _ hx
  have hne : me ≠ "" := by
    rintro rfl
    simp [mechRake] at hmr
  have hMO : MechOf m me := by
    unfold MechOf
    rw [hmm]
    exact Or.inl ⟨rfl, hne⟩
  have hpass : ∀ k lim, k ≠ "mech" → k ≠ "type" → k ≠ "rake" → Passes parse ev k lim → Passes parse m k lim := by
    rintro k lim h1 h2 h3 ⟨v, y, hv, hrest'⟩
    exact ⟨v, y, hsame k h1 h2 h3 v hv, hrest'⟩
  have hex : ∃ a, (construct parse m).1 = .ok a := by
    rw [(C70_construct_partial parse m).2.1]
    refine ⟨?_, ?_, hpass _ _ (by decide) (by decide) (by decide) hlat, hpass _ _ (by decide) (by decide) (by decide) hlon,
      ⟨me, r, hMO, hmr⟩, ?_⟩
    · intro k hk'
      obtain ⟨v, hv⟩ := Option.ne_none_iff_exists'.mp (hk k hk')
      have : k ≠ "mech" ∧ k ≠ "type" ∧ k ≠ "rake" := by
        simp only [originKeys, List.mem_cons, List.not_mem_nil, or_false] at hk'
        rcases hk' with rfl | rfl | rfl | rfl | rfl | rfl | rfl | rfl | rfl <;> decide
      rw [hsame k this.1 this.2.1 this.2.2 v hv]
      simp
    · rcases hid with h | ⟨s, h⟩
      · exact Or.inl (hsame _ (by decide) (by decide) (by decide) _ h)
      · exact Or.inr ⟨s, hsame _ (by decide) (by decide) (by decide) _ h⟩
    · intro v hv
      have := lookup_of_mem m hu _ _ hv
      rw [hmx] at this
      cases this
      exact ⟨x, Or.inl rfl⟩
  obtain ⟨o', ho'⟩ := hex
  obtain ⟨me', r', hMO', -, h1, h2, h3, h4⟩ := (C70_construct_partial parse m).2.2 o' ho'
  have hme : me' = me := by
    unfold MechOf at hMO'
    rw [hmm] at hMO'
    rcases hMO' with ⟨h, -⟩ | ⟨h, -⟩
    · simpa using h.symm
    · exact absurd (by simpa using h) hne
  subst hme
  have harg : (construct parse m).2 = m := by
    have hmt : moveType m = m := by
      unfold moveType Dict.get
      rw [hmm]
    have hfm : fillMech (moveType m) = m := by
      rw [hmt]
      unfold fillMech Dict.get
      rw [hmm]
      simp [hne]
    unfold construct
    simp only [hfm]
    repeat' split
    all_goals rfl
  have htype : UniqueKeys o' ∧ o'.lookup "type" = m.lookup "type" := by
    have hmt : moveType m = m := by
      unfold moveType Dict.get
      rw [hmm]
    have hfm : fillMech (moveType m) = m := by
      rw [hmt]
      unfold fillMech Dict.get
      rw [hmm]
      simp [hne]
    unfold construct at ho'
    simp only [hfm] at ho'
    repeat' split at ho'
    all_goals first
      | (exfalso; simp at ho'; done)
      | skip
    all_goals
      rename_i attrs hattrs
      simp only [Except.ok.injEq] at ho'
      rw [← ho']
      have e1 := get_addRake attrs ‹Option ℚ› "type" (by decide)
      have e2 := ((setAttrs_ok parse m).2 attrs hattrs).1 "type" (by decide)
      have e3 := keys_setAttrs parse m attrs hattrs
      have e4 : attrs.has "rake" = true := by
        obtain ⟨y, -, hy⟩ := ((setAttrs_ok parse m).2 attrs hattrs).2.2 _ hmx
        unfold Dict.get at hy
        unfold Dict.has
        rw [hy]
        rfl
      unfold Dict.get at e1 e2
      rw [e1, e2]
      refine ⟨?_, rfl⟩
      unfold addRake UniqueKeys
      rw [if_pos e4, e3]
      exact hu
  refine ⟨o', Prod.ext ho' harg, htype.1, fun k => ?_⟩
  by_cases k1 : k = "mech"
  · subst k1; rw [h1, hmm]
  by_cases k2 : k = "type"
  · subst k2; exact htype.2
  by_cases k3 : k = "rake"
  · subst k3
    obtain ⟨y, hy, hy'⟩ := h3 _ hmx
    rcases hy with hy | ⟨s, hy, -⟩
    · rw [hy', hmx, hy]
    · cases hy
  exact h4 k k1 k2 k3

/-- How times are written and read: every `HistoricTime` is a `datetime`, and the first format reads the time `t` back from its text. This holds of the times
from the year 1000 on (C194). -/
structure TimesReadBack (hist date : ℕ → Bool) (fmt : ℕ → String) (strp : String → Option ℕ) (t : ℕ) : Prop where
  sub : ∀ n, hist n = true → date n = true
  back : strp (fmt t) = some t

/-- An origin whose time is `t`, of the class `HistoricTime`, and whose other attributes are strings, numbers or `None`. -/
structure PlainOrigin (parse : String → Option Fl) (hist : ℕ → Bool) (o : Dict) (t : ℕ) : Prop where
  made : IsOrigin parse o
  unique : UniqueKeys o
  time : o.lookup "time" = some (.other t)
  hist : hist t = true
  plain : ∀ k n, o.lookup k = some (.other n) → k = "time"

/-- What the three constructors have in common, and what reading it gives. -/
theorem read_metadata (parse : String → Option Fl) (hist date : ℕ → Bool) (fmt : ℕ → String) (strp strpAlt : String → Option ℕ)
    (o m0 : Dict) (t : ℕ) (ht : TimesReadBack hist date fmt strp t) (ho : PlainOrigin parse hist o t) (hu : UniqueKeys m0)
    (htime : m0.lookup "time" = some (.str (fmt t)))
    (hm : ∀ k, k ≠ "time" → ∀ v, o.lookup k = some v → m0.lookup k = some v) :
    ∃ o', readTime strp strpAlt m0 = .ok (m0.set "time" (.other t)) ∧
      construct parse (m0.set "time" (.other t)) = (.ok o', m0.set "time" (.other t)) ∧
      UniqueKeys o' ∧ (∀ k, o'.lookup k = (m0.set "time" (.other t)).lookup k) ∧
      (∀ k v, o.lookup k = some v → o'.lookup k = some v) ∧
      ∀ k, k ≠ "time" → o'.lookup k = m0.lookup k := by
  have hset : ∀ k, (m0.set "time" (.other t)).lookup k = if k = "time" then some (.other t) else m0.lookup k := by
    intro k
    exact get_set m0 "time" k _
  have hall : ∀ k v, o.lookup k = some v → (m0.set "time" (.other t)).lookup k = some v := by
    intro k v hv
    rw [hset]
    split_ifs with h
    · subst h; rw [ho.time] at hv; exact hv
    · exact hm k h v hv
  obtain ⟨o', h1, h2, h3⟩ := construct_again parse o (m0.set "time" (.other t)) ho.made (unique_set _ _ _ hu) hall
  refine ⟨o', ?_, h1, h2, h3, fun k v hv => by rw [h3, hall k v hv], fun k hk => by rw [h3, hset, if_neg hk]⟩
  unfold readTime Dict.get
  rw [htime]
  simp only [ht.back]

/-- The metadata written for what was read. -/
theorem write_again (isTime : ℕ → Bool) (fmt : ℕ → String) (o' m0 base : Dict) (t : ℕ) (hu : UniqueKeys o')
    (hist : isTime t = true) (htime : m0.lookup "time" = some (.str (fmt t))) (hj : ∀ k n, m0.lookup k ≠ some (.other n))
    (hs : ∀ k, o'.lookup k = (m0.set "time" (.other t)).lookup k) (k : String) :
    (addOrigin isTime fmt o' base).get k = match m0.lookup k with
      | some v => some v
      | none => base.get k := by
  rw [get_addOrigin isTime fmt o' hu k base, hs, show (m0.set "time" (.other t)).lookup k = _ from get_set m0 "time" k _]
  by_cases h : k = "time"
  · subst h
    rw [if_pos rfl, htime]
    simp [stamp, hist]
  · rw [if_neg h]
    show (match m0.lookup k with | some v => some (stamp isTime fmt v) | none => base.get k) = _
    cases hv : m0.lookup k with
    | none => rfl
    | some v =>
      cases v with
      | other n => exact absurd hv (hj k n)
      | _ => rfl

/-- The dictionary `d` of rupture `r` gives a rupture of the same class with the same geometry and the same metadata, whose origin has all
attributes of the origin of `r`, and no others but what is in the metadata. -/
def ReadBack (r r' : Rup) : Prop :=
  r'.kind = r.kind ∧ r'.geom = r.geom ∧ r'.geojson.geom = r.geojson.geom ∧
  (∀ k, r'.geojson.metadata.lookup k = r.geojson.metadata.lookup k) ∧
  (∀ k v, r.origin.lookup k = some v → r'.origin.lookup k = some v) ∧
  ∀ k, k ≠ "time" → r'.origin.lookup k = r.geojson.metadata.lookup k

section
variable (parse : String → Option Fl) (hist date : ℕ → Bool) (fmt : ℕ → String) (strp strpAlt : String → Option ℕ)

/-- The metadata that a constructor writes. -/
theorem written (isTime : ℕ → Bool) (o base : Dict) (t : ℕ) (ho : PlainOrigin parse hist o t) (hb : JsonDict base)
    (hist' : isTime t = true) :
    UniqueKeys (addOrigin isTime fmt o base) ∧ (addOrigin isTime fmt o base).lookup "time" = some (.str (fmt t)) ∧
    (∀ k n, (addOrigin isTime fmt o base).lookup k ≠ some (.other n)) ∧
    (∀ k, k ≠ "time" → ∀ v, o.lookup k = some v → (addOrigin isTime fmt o base).lookup k = some v) ∧
    ∀ k, o.lookup k = none → (addOrigin isTime fmt o base).lookup k = base.lookup k := by
  have hg : ∀ k, (addOrigin isTime fmt o base).lookup k = _ := fun k => get_addOrigin isTime fmt o ho.unique k base
  refine ⟨unique_addOrigin _ _ _ _ hb.1, ?_, ?_, ?_, ?_⟩
  · rw [hg, ho.time]; simp [stamp, hist']
  · intro k n
    rw [hg]
    cases hv : o.lookup k with
    | none => exact hb.2 k n
    | some v =>
      cases v with
      | other i =>
        have := ho.plain k i hv
        subst this
        rw [ho.time] at hv
        cases hv
        simp [stamp, hist']
      | _ => simp [stamp]
  · intro k hk v hv
    rw [hg, hv]
    cases v with
    | other i => exact absurd (ho.plain k i hv) hk
    | _ => rfl
  · intro k hk
    rw [hg, hk]
    rfl

/-- **C168** (partial). The dictionary of a `PointRupture` is read back: a `PointRupture` with the same metadata and origin. What is missing:
the reference, see `C168_point_reference_violated`. -/
theorem C168_point_partial (o : Dict) (t : ℕ) (ht : TimesReadBack hist date fmt strp t) (ho : PlainOrigin parse hist o t) (ref : String) :
    ∃ r', ruptureFromDict parse hist date fmt strp strpAlt (pointRup hist fmt o ref).geojson = .ok r' ∧
      ReadBack (pointRup hist fmt o ref) r' ∧ r'.reference = some (.str "Origin") := by
  obtain ⟨w1, w2, w3, w4, w5⟩ := written parse hist fmt hist o [("reference", .str ref)] t ho
    ⟨by simp [UniqueKeys], by intro k n; simp only [List.lookup]; split <;> simp⟩ ho.hist
  obtain ⟨o', a1, a2, a3, a4, a5, a6⟩ := read_metadata parse hist date fmt strp strpAlt o _ t ht ho w1 w2 w4
  refine ⟨pointRup hist fmt o', ?_, ⟨rfl, rfl, rfl, ?_, a5, a6⟩, rfl⟩
  · simp only [ruptureFromDict, pointRup] at a1 a2 ⊢
    rw [a1]
    simp only [a2]
  · intro k
    have := write_again hist fmt o' _ [("reference", .str "Origin")] t a3 ho.hist w2 w3 a4 k
    refine this.trans ?_
    show _ = (addOrigin hist fmt o [("reference", .str ref)]).lookup k
    cases hv : (addOrigin hist fmt o [("reference", .str ref)]).lookup k with
    | some v => rfl
    | none =>
      have hk : k ≠ "reference" := by
        rintro rfl
        have := get_addOrigin hist fmt o ho.unique "reference" [("reference", .str ref)]
        unfold Dict.get at this
        rw [hv] at this
        revert this
        cases o.lookup "reference" <;> simp [List.lookup]
      simp [Dict.get, List.lookup, beq_eq_false_iff_ne.mpr hk]

/-- **C168**. The dictionary of a `QuadRupture` is read back with its reference when neither the dictionary that it was made from nor its origin
has the key `mesh_dx`. -/
theorem C168_quad_partial (o : Dict) (t : ℕ) (ht : TimesReadBack hist date fmt strp t) (ho : PlainOrigin parse hist o t) (d : RDict)
    (ps : List (List Vert)) (hg : d.geom = .multiPolygon ps)
    (hd : JsonDict d.metadata) (hdx : d.metadata.lookup "mesh_dx" = none) (hox : o.lookup "mesh_dx" = none) (r : Rup)
    (hr : quadRup date fmt d o = .ok r) :
    ∃ r', ruptureFromDict parse hist date fmt strp strpAlt r.geojson = .ok r' ∧ ReadBack r r' ∧ r'.reference = r.reference := by
  have hdt := ht.sub t ho.hist
  obtain ⟨w1, w2, w3, w4, w5⟩ := written parse hist fmt date o d.metadata t ho hd hdt
  obtain ⟨o', a1, a2, a3, a4, a5, a6⟩ := read_metadata parse hist date fmt strp strpAlt o _ t ht ho w1 w2 w4
  have hback := write_again date fmt o' _ ((addOrigin date fmt o d.metadata).set "time" (.other t)) t a3 hdt w2 w3 a4
  have hmeta : ∀ k, (addOrigin date fmt o' ((addOrigin date fmt o d.metadata).set "time" (.other t))).get k =
      (addOrigin date fmt o d.metadata).lookup k := by
    intro k
    rw [hback k]
    cases hv : (addOrigin date fmt o d.metadata).lookup k with
    | some v => rfl
    | none =>
      simp only
      rw [get_set, if_neg (by rintro rfl; rw [w2] at hv; cases hv)]
      exact hv
  unfold quadRup at hr
  simp only at hr
  cases href : (addOrigin date fmt o d.metadata).get "reference" with
  | none => rw [href] at hr; cases hr
  | some v =>
    rw [href] at hr
    cases hr
    refine ⟨⟨.quad, d.geom, o', some v, ⟨addOrigin date fmt o' ((addOrigin date fmt o d.metadata).set "time" (.other t)), d.geom⟩⟩,
      ?_, ⟨rfl, rfl, rfl, hmeta, a5, a6⟩, rfl⟩
    have hnone : ((addOrigin date fmt o d.metadata).set "time" (.other t)).get "mesh_dx" = none := by
      rw [get_set, if_neg (by decide)]
      exact (w5 _ hox).trans hdx
    have hr' := hmeta "reference"
    simp only [ruptureFromDict, a1, a2, hg, hnone, quadRup]
    rw [hr', show (addOrigin date fmt o d.metadata).lookup "reference" = some v from href]

/-- **C168**. The dictionary of an `EdgeRupture` is read back with its reference when the origin has no attribute `reference`, or the same. -/
theorem C168_edge_partial (o : Dict) (t : ℕ) (ht : TimesReadBack hist date fmt strp t) (ho : PlainOrigin parse hist o t) (d : RDict)
    (ps : List (List Vert)) (hg : d.geom = .multiPolygon ps)
    (hd : JsonDict d.metadata) (dx : Val) (hdx : ∀ n, dx ≠ .other n) (hox : o.lookup "mesh_dx" = none ∨ o.lookup "mesh_dx" = some dx) (r : Rup)
    (hr : edgeRup hist fmt d o dx = .ok r) :
    ∃ r', ruptureFromDict parse hist date fmt strp strpAlt r.geojson = .ok r' ∧ ReadBack r r' ∧
      (o.lookup "reference" = none ∨ o.lookup "reference" = d.metadata.lookup "reference" → r'.reference = r.reference) ∧
      ∀ v, o.lookup "reference" = some v → r'.reference = some v := by
  obtain ⟨w1, w2, w3, w4, w5⟩ := written parse hist fmt hist o d.metadata t ho hd ho.hist
  generalize hm : addOrigin hist fmt o d.metadata = m at *
  have hget : ∀ k, (m.set "mesh_dx" dx).lookup k = if k = "mesh_dx" then some dx else m.lookup k := fun k => get_set m _ k _
  have v2 : (m.set "mesh_dx" dx).lookup "time" = some (.str (fmt t)) := by rw [hget, if_neg (by decide)]; exact w2
  have v3 : ∀ k n, (m.set "mesh_dx" dx).lookup k ≠ some (.other n) := by
    intro k n
    rw [hget]
    split_ifs
    · simpa using hdx n
    · exact w3 k n
  have v4 : ∀ k, k ≠ "time" → ∀ v, o.lookup k = some v → (m.set "mesh_dx" dx).lookup k = some v := by
    intro k hk v hv
    rw [hget]
    split_ifs with h
    · subst h
      rcases hox with h | h <;> rw [hv] at h
      · cases h
      · exact h.symm
    · exact w4 k hk v hv
  obtain ⟨o', a1, a2, a3, a4, a5, a6⟩ := read_metadata parse hist date fmt strp strpAlt o _ t ht ho (unique_set _ _ dx w1) v2 v4
  have hback := write_again hist fmt o' _ ((m.set "mesh_dx" dx).set "time" (.other t)) t a3 ho.hist v2 v3 a4
  have hmeta : ∀ k, (addOrigin hist fmt o' ((m.set "mesh_dx" dx).set "time" (.other t))).get k = (m.set "mesh_dx" dx).lookup k := by
    intro k
    rw [hback k]
    cases hv : (m.set "mesh_dx" dx).lookup k with
    | some v => rfl
    | none =>
      simp only
      rw [get_set, if_neg (by rintro rfl; rw [v2] at hv; cases hv)]
      exact hv
  unfold edgeRup at hr
  cases href : d.metadata.get "reference" with
  | none => rw [href] at hr; cases hr
  | some v =>
    rw [href] at hr
    simp only [hm] at hr
    cases hr
    have hdx' : ((m.set "mesh_dx" dx).set "time" (.other t)).get "mesh_dx" = some dx := by
      rw [get_set, if_neg (by decide), get_set, if_pos rfl]
    have href' : ((m.set "mesh_dx" dx).set "time" (.other t)).get "reference" = m.lookup "reference" := by
      rw [get_set, if_neg (by decide), get_set, if_neg (by decide)]
      rfl
    obtain ⟨u, hu⟩ : ∃ u, m.lookup "reference" = some u := by
      cases h : o.lookup "reference" with
      | none => exact ⟨v, (w5 _ h).trans href⟩
      | some u => exact ⟨u, w4 _ (by decide) u h⟩
    refine ⟨⟨.edge, d.geom, o', some u, ⟨(addOrigin hist fmt o' ((m.set "mesh_dx" dx).set "time" (.other t))).set "mesh_dx" dx, d.geom⟩⟩,
      ?_, ⟨rfl, rfl, rfl, ?_, a5, a6⟩, ?_, ?_⟩
    · simp only [ruptureFromDict, a1, a2, hg, hdx', edgeRup, href', hu]
    · intro k
      have := get_set (addOrigin hist fmt o' ((m.set "mesh_dx" dx).set "time" (.other t))) "mesh_dx" k dx
      refine this.trans ?_
      rw [hmeta]
      show _ = (m.set "mesh_dx" dx).lookup k
      rw [hget]
      split_ifs <;> rfl
    · intro h
      show some u = some v
      rw [← hu]
      rcases h with h | h
      · exact (w5 _ h).trans href
      · rw [show d.metadata.lookup "reference" = some v from href] at h
        exact w4 _ (by decide) v h
    · intro w hw
      show some u = some w
      rw [← hu]
      exact w4 _ (by decide) w hw

/-- **C168**: a rupture that is read back has the same rupture context. -/
theorem C168_context (o : Dict) (t : ℕ) (ho : PlainOrigin parse hist o t) (shape : Geom → Option Val → ℚ × ℚ × ℚ × ℚ)
    (r r' : Rup) (hr : r.origin = o) (h : ReadBack r r') :
    context shape r' = context shape r ∧ (context shape r).rake ≠ none ∧ (context shape r).mag ≠ none ∧
    (context shape r).lat ≠ none ∧ (context shape r).lon ≠ none ∧ (context shape r).depth ≠ none := by
  obtain ⟨h1, h2, -, h3, h4, -⟩ := h
  subst hr
  obtain ⟨ev, hev⟩ := ho.made
  have hk := ((C70_construct_partial parse ev).2.1.mp ⟨_, hev⟩).1
  obtain ⟨_, _, -, -, -, hr1, hr2, hrest⟩ := (C70_construct_partial parse ev).2.2 _ hev
  have hs : ∀ k ∈ ["mag", "rake", "lat", "lon", "depth"], ∃ v, r.origin.lookup k = some v := by
    intro k hk'
    simp only [List.mem_cons, List.not_mem_nil, or_false] at hk'
    rcases hk' with rfl | rfl | rfl | rfl | rfl
    · rw [hrest _ (by decide) (by decide) (by decide)]
      exact Option.ne_none_iff_exists'.mp (hk _ (by simp [originKeys]))
    · cases h : ev.lookup "rake" with
      | none => exact ⟨_, hr1 h⟩
      | some v => obtain ⟨x, -, hx⟩ := hr2 v h; exact ⟨_, hx⟩
    all_goals
      rw [hrest _ (by decide) (by decide) (by decide)]
      exact Option.ne_none_iff_exists'.mp (hk _ (by simp [originKeys]))
  have he : ∀ k ∈ ["mag", "rake", "lat", "lon", "depth"], r'.origin.get k = r.origin.get k ∧ r.origin.get k ≠ none := by
    intro k hk'
    obtain ⟨v, hv⟩ := hs k hk'
    unfold Dict.get
    rw [hv, h4 k v hv]
    simp
  have hm : r'.geojson.metadata.get "mesh_dx" = r.geojson.metadata.get "mesh_dx" := h3 _
  simp only [List.mem_cons, List.not_mem_nil, or_false, forall_eq_or_imp, forall_eq] at he
  obtain ⟨e1, e2, e3, e4, e5⟩ := he
  refine ⟨?_, e2.2, e1.2, e3.2, e4.2, e5.2⟩
  unfold context
  rw [h1, h2, hm, e1.1, e2.1, e3.1, e4.1, e5.1]

/-- **C168** is violated for the reference of a `PointRupture`: every reference but `Origin` is lost. -/
theorem C168_point_reference_violated (o : Dict) (t : ℕ) (ht : TimesReadBack hist date fmt strp t) (ho : PlainOrigin parse hist o t)
    (ref : String) (href : ref ≠ "Origin") :
    ∃ r', ruptureFromDict parse hist date fmt strp strpAlt (pointRup hist fmt o ref).geojson = .ok r' ∧
      r'.reference ≠ (pointRup hist fmt o ref).reference := by
  obtain ⟨r', h1, -, h2⟩ := C168_point_partial parse hist date fmt strp strpAlt o t ht ho ref
  refine ⟨r', h1, ?_⟩
  rw [h2]
  simpa [pointRup] using fun h : "Origin" = ref => href h.symm

/-- **C168** is violated for an `EdgeRupture` whose origin has another reference: it is read back with the reference of the origin. -/
theorem C168_edge_reference_violated (o : Dict) (t : ℕ) (ht : TimesReadBack hist date fmt strp t) (ho : PlainOrigin parse hist o t)
    (d : RDict) (ps : List (List Vert)) (hg : d.geom = .multiPolygon ps) (hd : JsonDict d.metadata) (dx : Val) (hdx : ∀ n, dx ≠ .other n)
    (hox : o.lookup "mesh_dx" = none ∨ o.lookup "mesh_dx" = some dx) (u v : Val) (hu : d.metadata.lookup "reference" = some u)
    (hv : o.lookup "reference" = some v) (hne : u ≠ v) :
    ∃ r r', edgeRup hist fmt d o dx = .ok r ∧ ruptureFromDict parse hist date fmt strp strpAlt r.geojson = .ok r' ∧
      r.reference = some u ∧ r'.reference = some v ∧ r'.reference ≠ r.reference := by
  have hr : ∃ r, edgeRup hist fmt d o dx = .ok r ∧ r.reference = some u := by
    unfold edgeRup
    rw [show d.metadata.get "reference" = some u from hu]
    exact ⟨_, rfl, rfl⟩
  obtain ⟨r, hr, hru⟩ := hr
  obtain ⟨r', h1, -, -, h2⟩ := C168_edge_partial parse hist date fmt strp strpAlt o t ht ho d ps hg hd dx hdx hox r hr
  exact ⟨r, r', hr, h1, hru, h2 v hv, by rw [h2 v hv, hru]; simpa using fun h => hne h.symm⟩

/-- **C168** is violated for the class of a `QuadRupture` whose origin was read from the dictionary of an `EdgeRupture`: it is read back as an
`EdgeRupture`. -/
theorem C168_quad_class_violated (o : Dict) (t : ℕ) (ht : TimesReadBack hist date fmt strp t) (ho : PlainOrigin parse hist o t)
    (d : RDict) (ps : List (List Vert)) (hg : d.geom = .multiPolygon ps) (hd : JsonDict d.metadata)
    (hox : o.lookup "mesh_dx" ≠ none) (r : Rup) (hr : quadRup date fmt d o = .ok r) :
    r.kind = .quad ∧ ∃ r', ruptureFromDict parse hist date fmt strp strpAlt r.geojson = .ok r' ∧ r'.kind = .edge := by
  have hdt := ht.sub t ho.hist
  obtain ⟨w1, w2, w3, w4, w5⟩ := written parse hist fmt date o d.metadata t ho hd hdt
  obtain ⟨o', a1, a2, a3, a4, a5, a6⟩ := read_metadata parse hist date fmt strp strpAlt o _ t ht ho w1 w2 w4
  obtain ⟨dx, hdx⟩ := Option.ne_none_iff_exists'.mp hox
  unfold quadRup at hr
  simp only at hr
  cases href : (addOrigin date fmt o d.metadata).get "reference" with
  | none => rw [href] at hr; cases hr
  | some v =>
    rw [href] at hr
    cases hr
    refine ⟨rfl, ?_⟩
    have h1 : ((addOrigin date fmt o d.metadata).set "time" (.other t)).get "mesh_dx" = some dx := by
      rw [get_set, if_neg (by decide)]
      exact w4 _ (by decide) _ hdx
    have h2 : ((addOrigin date fmt o d.metadata).set "time" (.other t)).get "reference" = some v := by
      rw [get_set, if_neg (by decide)]
      exact href
    simp only [ruptureFromDict, a1, a2, hg, h1, edgeRup, h2]
    exact ⟨_, rfl, rfl⟩

/-- **C168** is violated for a `PointRupture` whose origin has a time that is a `datetime` but no `HistoricTime`: the time is not written as text
and the dictionary cannot be read. -/
theorem C168_time_violated (o : Dict) (t : ℕ) (hu : UniqueKeys o) (htime : o.lookup "time" = some (.other t)) (hn : hist t = false)
    (ref : String) :
    (pointRup hist fmt o ref).geojson.metadata.lookup "time" = some (.other t) ∧
    ruptureFromDict parse hist date fmt strp strpAlt (pointRup hist fmt o ref).geojson = .error .type := by
  have h : (addOrigin hist fmt o [("reference", .str ref)]).get "time" = some (.other t) := by
    rw [get_addOrigin hist fmt o hu, htime]
    simp [stamp, hn]
  refine ⟨h, ?_⟩
  simp only [ruptureFromDict, pointRup, readTime, h]

end

/-- An origin made from an event. -/
def sampleOrigin (more : Dict) : Dict :=
  [("id", .str "us1"), ("netid", .str "us"), ("network", .str ""), ("lat", .num (.fin 35)), ("lon", .str "-120.5"),
   ("depth", .num (.fin 5)), ("locstring", .str "x"), ("mag", .num (.fin 6)), ("time", .other 0)] ++ more ++
  [("mech", .str "NM"), ("rake", .num (.fin (-90)))]

theorem mem_of_lookup (d : Dict) (k : String) (v : Val) (h : d.lookup k = some v) : (k, v) ∈ d := by
  induction d with
  | nil => cases h
  | cons p d ih =>
    obtain ⟨a, b⟩ := p
    by_cases hk : k = a
    · subst hk
      simp only [List.lookup, beq_self_eq_true, Option.some.injEq] at h
      subst h
      exact List.mem_cons_self
    · simp only [List.lookup, show (k == a) = false by simpa using hk] at h
      exact List.mem_cons_of_mem _ (ih h)

theorem sample_plain (more : Dict) (h : (construct sampleParse (sampleOrigin more)).1.toOption = some (sampleOrigin more))
    (hu : UniqueKeys (sampleOrigin more)) (hm : ∀ p ∈ more, ∀ n, p.2 ≠ .other n) :
    PlainOrigin sampleParse (fun _ => true) (sampleOrigin more) 0 := by
  refine ⟨⟨sampleOrigin more, ?_⟩, hu, by rfl, rfl, ?_⟩
  · obtain ⟨a, ha⟩ := ok_of_toOption (e := (construct sampleParse (sampleOrigin more)).1) (by rw [h]; rfl)
    rw [ha] at h ⊢
    simpa [Except.toOption] using h
  · intro k n hk
    have hmem := mem_of_lookup _ _ _ hk
    simp only [sampleOrigin, List.mem_append, List.mem_cons, Prod.mk.injEq, reduceCtorEq, and_false, false_or, or_false,
      List.not_mem_nil] at hmem
    rcases hmem with ⟨h, -⟩ | h
    · exact h
    · exact absurd rfl (hm _ h n)

/-- Times written as digits are read back. -/
theorem sample_times : TimesReadBack (fun _ => true) (fun _ => true) (fun n => String.ofList (List.replicate n 'x')) (fun s => some s.length) 0 :=
  ⟨fun _ _ => rfl, rfl⟩

/-- The hypotheses are met by a plain origin, by one that was read from an edge rupture, and by one with a reference. -/
example : PlainOrigin sampleParse (fun _ => true) (sampleOrigin []) 0 ∧
    PlainOrigin sampleParse (fun _ => true) (sampleOrigin [("mesh_dx", .num (.fin 1))]) 0 ∧
    PlainOrigin sampleParse (fun _ => true) (sampleOrigin [("reference", .str "y")]) 0 :=
  ⟨sample_plain _ (by decide +kernel) (by unfold UniqueKeys; decide +kernel) (by simp),
   sample_plain _ (by decide +kernel) (by unfold UniqueKeys; decide +kernel) (by simp),
   sample_plain _ (by decide +kernel) (by unfold UniqueKeys; decide +kernel) (by simp)⟩

/-- Quadrilaterals with a reference can be built, and they are read back. -/
example : ∃ r r', quadRup (fun _ => true) (fun n => String.ofList (List.replicate n 'x')) ⟨[("reference", .str "z")], .multiPolygon []⟩ (sampleOrigin []) = .ok r ∧
    ruptureFromDict sampleParse (fun _ => true) (fun _ => true) (fun n => String.ofList (List.replicate n 'x')) (fun s => some s.length)
      (fun _ => none) r.geojson = .ok r' ∧ r'.kind = .quad ∧ r'.reference = some (.str "z") := by
  have hp : PlainOrigin sampleParse (fun _ => true) (sampleOrigin []) 0 :=
    sample_plain _ (by decide +kernel) (by unfold UniqueKeys; decide +kernel) (by simp)
  obtain ⟨r', h1, h2, h3⟩ := C168_quad_partial sampleParse (fun _ => true) (fun _ => true) _ _ (fun _ => none) _ 0 sample_times hp
    ⟨[("reference", .str "z")], .multiPolygon []⟩ [] rfl
    ⟨by simp [UniqueKeys], by intro k n; simp only [List.lookup]; split <;> simp⟩ (by rfl) (by rfl) _ rfl
  exact ⟨_, r', rfl, h1, h2.1, h3⟩

/-! ### C169 -/

theorem get_update (p ev : Dict) (hp : UniqueKeys p) (k : String) :
    (update ev p).get k = match p.lookup k with
      | some v => some v
      | none => ev.get k := by
  have := get_addOrigin (fun _ => false) (fun _ => "") p hp k ev
  have e : addOrigin (fun _ => false) (fun _ => "") p ev = update ev p := by
    unfold addOrigin update
    congr 1
    funext m q
    cases q with
    | mk a b => cases b <;> simp [stamp]
  rw [e] at this
  rw [this]
  cases p.lookup k with
  | none => rfl
  | some v => cases v <;> simp [stamp]

/-- **C169** (partial). Without a moment file, the origin of an event file and a source file is the origin of a dictionary in which each key has
the value of the source file, if it is there, and else that of the event file; in particular an attribute other than mechanism and rake. -/
theorem C169_source_partial (parse : String → Option Fl) (event params : Dict) (hp : UniqueKeys params) :
    ∃ ev : Dict, (∀ k, ev.lookup k = match params.lookup k with
        | some v => some v
        | none => event.lookup k) ∧
      (∀ o, originFromFile parse event (some params) false = .ok o ↔ (construct parse ev).1 = .ok o) ∧
      ∀ o, originFromFile parse event (some params) false = .ok o → ∀ k, k ≠ "mech" → k ≠ "type" → k ≠ "rake" →
        o.lookup k = match params.lookup k with
          | some v => some v
          | none => event.lookup k := by
  have h1 : ∀ o, originFromFile parse event (some params) false = .ok o ↔ (construct parse (update event params)).1 = .ok o := by
    intro o
    unfold originFromFile
    simp only [Bool.false_eq_true, if_false]
    cases (construct parse (update event params)).1 <;> simp
  refine ⟨update event params, get_update params event hp, h1, ?_⟩
  intro o ho k k1 k2 k3
  obtain ⟨_, _, _, _, _, _, _, h⟩ := (C70_construct_partial parse _).2.2 o ((h1 o).mp ho)
  rw [h k k1 k2 k3]
  exact get_update params event hp k

/-- **C169** is violated with a moment file: no origin can be made, whatever the files contain. -/
theorem C169_moment_violated (parse : String → Option Fl) (event : Dict) (source : Option Dict) :
    originFromFile parse event source true = .error .name := by
  unfold originFromFile
  simp

/-- **C169** is violated for the mechanism: a source file that gives `type`, as the older files do, does not change the mechanism of an event file
that gives `mech`. -/
theorem C169_type_violated (parse : String → Option Fl) (event params : Dict) (hp : UniqueKeys params) (m s : String) (hm : m ≠ "")
    (he : event.lookup "mech" = some (.str m)) (_hs : params.lookup "type" = some (.str s)) (hn : params.lookup "mech" = none) (o : Dict)
    (ho : originFromFile parse event (some params) false = .ok o) : o.lookup "mech" = some (.str m) := by
  obtain ⟨ev, h1, h2, -⟩ := C169_source_partial parse event params hp
  obtain ⟨m', r, hmo, hr, hmech, -⟩ := (C70_construct_partial parse ev).2.2 o ((h2 o).mp ho)
  have h3 := h1 "mech"
  rw [hn, he] at h3
  unfold MechOf at hmo
  rw [h3] at hmo
  rcases hmo with ⟨h, -⟩ | ⟨h, -⟩
  · rw [hmech, ← h]
  · exact absurd (by simpa using h) hm

/-- A source file that gives the depth: the origin has it. -/
example : ((originFromFile sampleParse (sampleOrigin []) (some [("depth", .num (.fin 8)), ("type", .str "RS")]) false).toOption.map
    fun o => (o.lookup "depth", o.lookup "mech")) = some (some (.num (.fin 8)), some (.str "NM")) := by decide +kernel

end Verif.Props
