import Verif.Props.ShakeMap
import Verif.Props.RuptureOutput

/-!
# C182: the documents of a ShakeMap container over all histories
-/

namespace Verif.Props
open Verif.Hdf Verif.ShakeMap Verif.Spec

section slots
variable {J A : Type}

/-- What the slots hold after a call: specification. A document that cannot be written empties its slot, and so does something that is no
dictionary in the slot of the rupture; in the slot of the stations it changes nothing. -/
def slotsAfter (s : String → Option J) : OutOp J A → String → Option J
  | .setConfig v => Function.update s "config" v.json
  | .setRuptureDict v => Function.update s "rupture" (if v.isDict then v.json else none)
  | .setStationDict v => if v.isDict then Function.update s "stations_dict" v.json else s
  | .setVersionHistory v => Function.update s "version_history" v.json
  | .setMetadata v => Function.update s "info.json" v.json
  | _ => s

/-- What the slots of a new container hold after a history of calls: specification. -/
def slotsOf (ops : List (OutOp J A)) : String → Option J := ops.foldl slotsAfter fun _ => none

attribute [local irreducible] setData makeGroup dropData lookup

/-- Where a document is. -/
abbrev slotPath (n : String) : List String := ["dictionaries", n]

/-- The file holds these documents. -/
def HoldsSlots (t : Hdf.Tree (Cell J A)) (s : String → Option J) : Prop :=
  ∀ n ∈ slotNames, lookup t (slotPath n) = (s n).map fun j => .data (.json j)

theorem setDataType_slot (t : Hdf.Tree (Cell J A)) (d : DType) {n : String} (hn : n ∈ slotNames) :
    lookup (setDataType t d).1 (slotPath n) = lookup t (slotPath n) := by
  have hne : n ≠ "file_data_type" := by rintro rfl; revert hn; simp [slotNames]
  unfold setDataType
  rcases getDataType t with e | (_ | d')
  · rfl
  · refine setData_other t .dict (by simp) type_plain _ ?_ ?_ <;> simp [path, base, typeSlot, hne, hne.symm]
  · simp only
    split_ifs <;> rfl

theorem setIMTArray_slot (t : Hdf.Tree (Cell J A)) {c i x : String} (hc : PlainName c) (hi : PlainName i) (hx : PlainName x) (a : ArrayArg A)
    (n : String) : lookup (setIMTArray t c i x a).1 (slotPath n) = lookup t (slotPath n) := by
  unfold setIMTArray
  refine setData_other t .array (imtGroup_plain hc hi) hx _ ?_ ?_ <;> simp [path, base]

theorem setIMTGrids_slot (t : Hdf.Tree (Cell J A)) {c i : String} (hc : PlainName c) (hi : PlainName i) (m s : ArrayArg A)
    {n : String} (hn : n ∈ slotNames) : lookup (setIMTGrids t i m s c).1 (slotPath n) = lookup t (slotPath n) := by
  have pm : PlainName "mean" := by simp [PlainName]
  have ps : PlainName "std" := by simp [PlainName]
  have core : lookup (andThen (setDataType t .grid) fun t =>
      andThen (setIMTArray t c i "mean" m) fun t => setIMTArray t c i "std" s).1 (slotPath n) = lookup t (slotPath n) := by
    refine andThen_keeps (P := fun t' => lookup t' (slotPath n) = lookup t (slotPath n)) (setDataType_slot t _ hn) fun _ => ?_
    refine andThen_keeps (P := fun t' => lookup t' (slotPath n) = lookup t (slotPath n))
      ((setIMTArray_slot _ hc hi pm m n).trans (setDataType_slot t _ hn)) fun _ => ?_
    rw [setIMTArray_slot _ hc hi ps, setIMTArray_slot _ hc hi pm, setDataType_slot t _ hn]
  unfold setIMTGrids
  rcases getDataType t with e | (_ | (_ | _))
  · rfl
  · exact core
  · rfl
  · exact core

theorem setIMTArrays_slot (t : Hdf.Tree (Cell J A)) {c i : String} (hc : PlainName c) (hi : PlainName i) (p : Points A)
    {n : String} (hn : n ∈ slotNames) : lookup (setIMTArrays t i p c).1 (slotPath n) = lookup t (slotPath n) := by
  have core : lookup (andThen (setDataType t .points) fun t =>
      if p.lons.shape ≠ p.lats.shape ∨ p.lons.shape ≠ p.ids.shape ∨ p.lons.shape ≠ p.mean.shape ∨
          p.lons.shape ≠ p.std.shape then (t, .error .valueError)
      else
        andThen (setIMTArray t c i "lons" p.lons) fun t =>
        andThen (setIMTArray t c i "lats" p.lats) fun t =>
        andThen (setIMTArray t c i "ids" p.ids) fun t =>
        andThen (setIMTArray t c i "mean" p.mean) fun t =>
        setIMTArray t c i "std" p.std).1 (slotPath n) = lookup t (slotPath n) := by
    have k : ∀ {x : String}, PlainName x → ∀ (a : ArrayArg A) (t' : Hdf.Tree (Cell J A)), lookup t' (slotPath n) = lookup t (slotPath n) →
        lookup (setIMTArray t' c i x a).1 (slotPath n) = lookup t (slotPath n) :=
      fun hx a t' h => (setIMTArray_slot t' hc hi hx a n).trans h
    refine andThen_keeps (P := fun t' => lookup t' (slotPath n) = lookup t (slotPath n)) (setDataType_slot t _ hn) fun _ => ?_
    split_ifs
    · exact setDataType_slot t _ hn
    have s0 := setDataType_slot t .points hn
    have s1 := k (x := "lons") (by simp [PlainName]) p.lons _ s0
    refine andThen_keeps (P := fun t' => lookup t' (slotPath n) = lookup t (slotPath n)) s1 fun _ => ?_
    have s2 := k (x := "lats") (by simp [PlainName]) p.lats _ s1
    refine andThen_keeps (P := fun t' => lookup t' (slotPath n) = lookup t (slotPath n)) s2 fun _ => ?_
    have s3 := k (x := "ids") (by simp [PlainName]) p.ids _ s2
    refine andThen_keeps (P := fun t' => lookup t' (slotPath n) = lookup t (slotPath n)) s3 fun _ => ?_
    have s4 := k (x := "mean") (by simp [PlainName]) p.mean _ s3
    refine andThen_keeps (P := fun t' => lookup t' (slotPath n) = lookup t (slotPath n)) s4 fun _ => ?_
    exact k (x := "std") (by simp [PlainName]) p.std _ s4
  unfold setIMTArrays
  rcases getDataType t with e | (_ | (_ | _))
  · rfl
  · exact core
  · exact core
  · rfl

theorem dropIMT_slot (t : Hdf.Tree (Cell J A)) {i : String} (hi : PlainName i) (n : String) :
    lookup (dropIMT t i).1 (slotPath n) = lookup t (slotPath n) := by
  unfold dropIMT
  rcases lookup t ["arrays", "imts"] with _ | _
  · rfl
  · simp only
    have : ∀ (cs : List String) (t1 : Hdf.Tree (Cell J A)),
        lookup (cs.foldl (fun t c => eraseAt t (resolve ["arrays", "imts", c] i)) t1) (slotPath n) = lookup t1 (slotPath n) := by
      intro cs
      induction cs with
      | nil => intro t1; rfl
      | cons c cs ih =>
        intro t1
        rw [List.foldl_cons, ih, show resolve ["arrays", "imts", c] i = ["arrays", "imts", c, i] by rw [resolve_plain hi]; rfl]
        refine lookup_eraseAt_other t1 ?_ ?_ <;> simp
    exact this _ t

theorem slot_ready {t : Hdf.Tree (Cell J A)} (h : OutInv t) {n : String} (hn : n ∈ slotNames) : SlotReady t n :=
  ⟨h.ordered, h.dicts, fun k hk => absurd hk (h.noGroup n hn k)⟩

theorem setSlot_holds {t : Hdf.Tree (Cell J A)} (h : OutInv t) {s : String → Option J} (hs : HoldsSlots t s) {n : String} (hn : n ∈ slotNames)
    (v : PyVal J) : HoldsSlots (setSlot t n v).1 (Function.update s n v.json) := by
  obtain ⟨h1, h2, -, h4, -⟩ := setSlot_spec (slot_ready h hn) (slot_plain hn) v
  intro m hm
  by_cases hmn : m = n
  · subst hmn
    rw [Function.update_self]
    cases hj : v.json with
    | none => exact (h2 hj).2
    | some j => exact value_eq_some.1 (h1 j hj).2
  · rw [Function.update_of_ne hmn, h4 _ (by simp [hmn]) (by simp [Ne.symm hmn])]
    exact hs m hm

theorem perform_holds {t : Hdf.Tree (Cell J A)} (h : OutInv t) {s : String → Option J} (hs : HoldsSlots t s) (op : OutOp J A) (hp : PlainOut op) :
    HoldsSlots (perform t op).1 (slotsAfter s op) := by
  cases op with
  | setDataType d => exact fun n hn => (setDataType_slot t d hn).trans (hs n hn)
  | setIMTGrids i m s' c => exact fun n hn => (setIMTGrids_slot t hp.2 hp.1 m s' hn).trans (hs n hn)
  | setIMTArrays i p c => exact fun n hn => (setIMTArrays_slot t hp.2 hp.1 p hn).trans (hs n hn)
  | dropIMT i => exact fun n hn => (dropIMT_slot t hp n).trans (hs n hn)
  | setConfig v => exact setSlot_holds h hs (by simp [slotNames]) v
  | setVersionHistory v => exact setSlot_holds h hs (by simp [slotNames]) v
  | setMetadata v => exact setSlot_holds h hs (by simp [slotNames]) v
  | setStationDict v =>
    show HoldsSlots (ShakeMap.setStationDict t v).1 (if v.isDict then Function.update s "stations_dict" v.json else s)
    unfold ShakeMap.setStationDict
    cases hd : v.isDict
    · exact hs
    · exact setSlot_holds h hs (by simp [slotNames]) v
  | setRuptureDict v =>
    show HoldsSlots (ShakeMap.setRuptureDict t v).1 (Function.update s "rupture" (if v.isDict then v.json else none))
    cases hd : v.isDict
    · have hr := slot_ready h (n := "rupture") (by simp [slotNames])
      obtain ⟨d1, d2, d3, d4, d5⟩ := dropIfListed_spec hr rupture_plain
      have e : ShakeMap.setRuptureDict t v = ((dropIfListed t "rupture").1, .error .typeError) := by
        unfold ShakeMap.setRuptureDict
        rw [andThen_ok d1]; simp [hd]
      rw [e]
      intro m hm
      by_cases hmn : m = "rupture"
      · subst hmn
        rw [Function.update_self]
        exact d2
      · rw [Function.update_of_ne hmn, d5 _ (by simp [hmn]) (by simp [Ne.symm hmn])]
        exact hs m hm
    · rw [setRuptureDict_dict t v hd]
      exact setSlot_holds h hs (by simp [slotNames]) v

theorem fileAfter_holds (ops : List (OutOp J A)) (hp : ∀ op ∈ ops, PlainOut op) : HoldsSlots (fileAfter .nil ops) (slotsOf ops) := by
  have : ∀ (t : Hdf.Tree (Cell J A)) (s : String → Option J), OutInv t → HoldsSlots t s →
      HoldsSlots (fileAfter t ops) (ops.foldl slotsAfter s) := by
    induction ops with
    | nil => exact fun t s _ hs => hs
    | cons op ops ih =>
      intro t s h hs
      exact ih (fun o ho => hp o (by simp [ho])) _ _ (perform_inv h op (hp op (by simp))).1 (perform_holds h hs op (hp op (by simp)))
  exact this .nil _ inv_empty fun n _ => by simp

/-- **C182** (partial). After every history of calls on a new container the getters return what the slots hold, each setter changes its own slot only,
and the calls for ground motion data change none. Missing: the documented error of `getVersionHistory`. -/
theorem C182_documents_partial (ops : List (OutOp J A)) (hp : ∀ op ∈ ops, PlainOut op) :
    (∀ n ∈ ["config", "rupture", "stations_dict"], getSlot (fileAfter .nil ops) n = match slotsOf ops n with
      | some j => .ok (.json j)
      | none => .error .attributeError) ∧
    (getVersionHistory (fileAfter .nil ops) = .ok ((slotsOf ops "version_history").map .json)) ∧
    getMetadata (fileAfter .nil ops) = match slotsOf ops "info.json" with
      | some j => .ok (.json j)
      | none => .error .lookupError := by
  have hh := fileAfter_holds ops hp
  have ho := (fileAfter_inv inv_empty ops hp).1.ordered
  have hl : ∀ n ∈ slotNames, (n ∈ listData (fileAfter .nil ops) .dict ↔ (slotsOf ops n).isSome) ∧
      ∀ j, slotsOf ops n = some j → getData (fileAfter .nil ops) .dict [] n = .ok (.json j) := by
    intro n hn
    have hx := hh n hn
    have e := listed_iff ho .dict (slot_plain hn)
    rw [show path .dict [] n = slotPath n from rfl, hx] at e
    constructor
    · rw [e]
      cases slotsOf ops n <;> simp
    · intro j hj
      refine (getData_iff _ .dict (by simp) (slot_plain hn) _).2 (value_eq_some.2 ?_)
      rw [show path .dict [] n = slotPath n from rfl, hx, hj]
      rfl
  have hg : ∀ n ∈ slotNames, getSlot (fileAfter .nil ops) n = match slotsOf ops n with
      | some j => .ok (.json j)
      | none => .error .attributeError := by
    intro n hn
    obtain ⟨h1, h2⟩ := hl n hn
    unfold getSlot
    cases hj : slotsOf ops n with
    | none => rw [if_neg (by rw [h1, hj]; simp)]
    | some j => rw [if_pos (by rw [h1, hj]; simp), h2 j hj]
  refine ⟨fun n hn => hg n (by simp only [List.mem_cons, List.not_mem_nil, or_false] at hn; rcases hn with rfl | rfl | rfl <;> simp [slotNames]),
    ?_, ?_⟩
  · obtain ⟨h1, h2⟩ := hl "version_history" (by simp [slotNames])
    unfold getVersionHistory
    cases hj : slotsOf ops "version_history" with
    | none => rw [if_neg (by rw [h1, hj]; simp)]; rfl
    | some j => rw [if_pos (by rw [h1, hj]; simp), h2 j hj]; rfl
  · obtain ⟨h1, h2⟩ := hl "info.json" (by simp [slotNames])
    unfold getMetadata
    cases hj : slotsOf ops "info.json" with
    | none => rw [if_neg (by rw [h1, hj]; simp)]
    | some j => rw [if_pos (by rw [h1, hj]; simp), h2 j hj]

/-- **C182**. After every history, a setter succeeds exactly when its document can be written and is a dictionary where that is asked for, and fails
with TypeError otherwise. -/
theorem C182_setters (ops : List (OutOp J A)) (hp : ∀ op ∈ ops, PlainOut op) (v : PyVal J) :
    (∀ op ∈ [OutOp.setConfig v, .setVersionHistory v, .setMetadata v],
      (perform (fileAfter (.nil : Hdf.Tree (Cell J A)) ops) op).2 = if v.json.isSome then .ok () else .error .typeError) ∧
    ∀ op ∈ [OutOp.setRuptureDict v, .setStationDict v],
      (perform (fileAfter (.nil : Hdf.Tree (Cell J A)) ops) op).2 = if v.json.isSome ∧ v.isDict then .ok () else .error .typeError := by
  have hI := (fileAfter_inv inv_empty ops hp).1
  have hs : ∀ n ∈ slotNames, (setSlot (fileAfter (.nil : Hdf.Tree (Cell J A)) ops) n v).2 = if v.json.isSome then .ok () else .error .typeError := by
    intro n hn
    obtain ⟨h1, h2, -⟩ := setSlot_spec (slot_ready hI hn) (slot_plain hn) v
    cases hj : v.json with
    | none => rw [(h2 hj).1]; rfl
    | some j => rw [(h1 j hj).1]; rfl
  constructor
  · intro op hop
    simp only [List.mem_cons, List.not_mem_nil, or_false] at hop
    rcases hop with rfl | rfl | rfl <;> exact hs _ (by simp [slotNames])
  · intro op hop
    simp only [List.mem_cons, List.not_mem_nil, or_false] at hop
    rcases hop with rfl | rfl
    · show (ShakeMap.setRuptureDict _ v).2 = _
      cases hd : v.isDict
      · rw [(C36_rupture_violated _ (slot_ready hI (by simp [slotNames])) v hd).1]
        simp
      · rw [setRuptureDict_dict _ v hd, hs _ (by simp [slotNames])]
        simp
    · show (ShakeMap.setStationDict _ v).2 = _
      unfold ShakeMap.setStationDict
      cases hd : v.isDict
      · simp
      · simp only [Bool.true_eq_false, if_false]
        rw [hs _ (by simp [slotNames])]
        simp

/-- **C182** is violated for the history of versions: where none was ever stored, no AttributeError is raised as documented; an empty
dictionary is returned. -/
theorem C182_history_violated (ops : List (OutOp J A)) (hp : ∀ op ∈ ops, PlainOut op) (h : ∀ v, .setVersionHistory v ∉ ops) :
    getVersionHistory (fileAfter .nil ops) = .ok none := by
  rw [(C182_documents_partial ops hp).2.1]
  have : ∀ s : String → Option J, (ops.foldl slotsAfter s) "version_history" = s "version_history" := by
    clear hp
    induction ops with
    | nil => exact fun s => rfl
    | cons op ops ih =>
      intro s
      rw [List.foldl_cons, ih fun v hv => h v (by simp [hv])]
      cases op with
      | setVersionHistory v => exact absurd (by simp) (h v)
      | setStationDict v =>
        simp only [slotsAfter]
        split_ifs
        · rw [Function.update_of_ne (by decide)]
        · rfl
      | _ => rfl
  unfold slotsOf
  rw [this]
  rfl

end slots

section ruptures
open Verif.Json Verif.Origin Verif.Factory Verif.RupDict
variable {A : Type} (parse : String → Option Fl) (hist date : ℕ → Bool) (fmt : ℕ → String) (strp strpAlt : String → Option ℕ)

/-- The slot of the rupture is not touched by calls for other documents. -/
theorem rupture_kept {J : Type} (more : List (OutOp J A)) (h : ∀ v, .setRuptureDict v ∉ more) (s : String → Option J) :
    (more.foldl slotsAfter s) "rupture" = s "rupture" := by
  induction more generalizing s with
  | nil => rfl
  | cons op ops ih =>
    rw [List.foldl_cons, ih fun v hv => h v (by simp [hv])]
    cases op with
    | setRuptureDict v => exact absurd (by simp) (h v)
    | setStationDict v =>
      simp only [slotsAfter]
      split_ifs
      · rw [Function.update_of_ne (by decide)]
      · rfl
    | _ => rfl

/-- **C182** (partial). A rupture without times left in its dictionary that is stored in a container, whatever was done with the container before and
whatever is done with the rest of it afterwards, is returned as the dictionary of the rupture. Missing: dictionaries with times. -/
theorem C182_rupture_partial {fl : Floats Fl} (hfl : FloatsOk fl) (ops more : List (OutOp Text A)) (hp : ∀ op ∈ ops ++ more, PlainOut op)
    (hm : ∀ v, .setRuptureDict v ∉ more) (r : Rup) (hu : UniqueKeys r.geojson.metadata) (h : NoTimes r) :
    ∃ t, getSlot (fileAfter .nil (ops ++ .setRuptureDict ⟨true, dumps fl (document r)⟩ :: more)) "rupture" = .ok (.json t) ∧
      (loads fl t).bind readDocument = some r.geojson := by
  have hpl := document_plain hu h
  obtain ⟨t, ht⟩ := writable_dumps fl _ (plain_writable hpl)
  refine ⟨t, ?_, ?_⟩
  · rw [(C182_documents_partial _ ?_).1 "rupture" (by simp)]
    · have : slotsOf (ops ++ .setRuptureDict ⟨true, dumps fl (document r)⟩ :: more) "rupture" = some t := by
        unfold slotsOf
        rw [List.foldl_append, List.foldl_cons, rupture_kept more hm]
        simp only [slotsAfter, if_true]
        rw [Function.update_self, ht]
      rw [this]
    · intro op hop
      simp only [List.mem_append, List.mem_cons] at hop hp
      rcases hop with hop | rfl | hop
      · exact hp op (Or.inl hop)
      · trivial
      · exact hp op (Or.inr hop)
  · have := (C180_same_partial hfl (document r)).2 hpl
    rw [ht, Option.bind_some] at this
    rw [this]
    exact readDocument_document h

/-- **C182** (partial). A `QuadRupture` that is stored in a container comes back from it as a rupture of the same class with the same geometry, metadata,
origin and reference, under the conditions of `C168_quad_partial`. -/
theorem C182_quad_partial {fl : Floats Fl} (hfl : FloatsOk fl) (ops more : List (OutOp Text A)) (hp : ∀ op ∈ ops ++ more, PlainOut op)
    (hm : ∀ v, .setRuptureDict v ∉ more) (o : Dict) (t : ℕ) (ht : TimesReadBack hist date fmt strp t)
    (ho : PlainOrigin parse hist o t) (d : RDict) (ps : List (List Vert)) (hg : d.geom = .multiPolygon ps) (hd : JsonDict d.metadata)
    (hdx : d.metadata.lookup "mesh_dx" = none) (hox : o.lookup "mesh_dx" = none) (r : Rup) (hr : quadRup date fmt d o = .ok r) :
    ∃ x e r', getSlot (fileAfter .nil (ops ++ .setRuptureDict ⟨true, dumps fl (document r)⟩ :: more)) "rupture" = .ok (.json x) ∧
      (loads fl x).bind readDocument = some e ∧
      ruptureFromDict parse hist date fmt strp strpAlt e = .ok r' ∧ ReadBack r r' ∧ r'.reference = r.reference := by
  obtain ⟨h1, -⟩ := C181_quad_partial parse hist date fmt strp strpAlt hfl o t ht ho d ps hg hd hdx hox r hr none
  obtain ⟨r', h4, h5⟩ := C168_quad_partial parse hist date fmt strp strpAlt o t ht ho d ps hg hd hdx hox r hr
  have hu : UniqueKeys r.geojson.metadata := by
    unfold quadRup at hr
    simp only at hr
    cases href : (addOrigin date fmt o d.metadata).get "reference" with
    | none => rw [href] at hr; cases hr
    | some v =>
      rw [href] at hr
      cases hr
      exact unique_addOrigin _ _ _ _ hd.1
  obtain ⟨x, h2, h3⟩ := C182_rupture_partial hfl ops more hp hm r hu ((C181_complete hfl none r hu).1.1 h1)
  exact ⟨x, _, r', h2, h3, h4, h5⟩

/-- **C182** is violated for a rupture with a time in its dictionary, as in `C168_time_violated`: it is refused with TypeError, and the rupture that the
container held before is gone. -/
theorem C182_time_violated {fl : Floats Fl} (hfl : FloatsOk fl) (ops : List (OutOp Text A)) (hp : ∀ op ∈ ops, PlainOut op) (r : Rup)
    (h : ¬ NoTimes r) :
    (perform (fileAfter .nil ops) (.setRuptureDict ⟨true, dumps fl (document r)⟩)).2 = .error .typeError ∧
    getSlot (fileAfter .nil (ops ++ [.setRuptureDict ⟨true, dumps fl (document r)⟩])) "rupture" = .error .attributeError := by
  have hd : dumps fl (document r) = none := (C180_returned hfl _).2 fun hs => h (document_storable hs)
  constructor
  · rw [(C182_setters ops hp ⟨true, dumps fl (document r)⟩).2 _ (by simp), hd]
    simp
  · rw [(C182_documents_partial _ ?_).1 "rupture" (by simp)]
    · have : slotsOf (ops ++ [OutOp.setRuptureDict (A := A) ⟨true, dumps fl (document r)⟩]) "rupture" = none := by
        unfold slotsOf
        rw [List.foldl_append, List.foldl_cons, List.foldl_nil]
        simp only [slotsAfter, if_true]
        rw [Function.update_self, hd]
      rw [this]
    · intro op hop
      simp only [List.mem_append, List.mem_singleton] at hop
      rcases hop with hop | rfl
      · exact hp op hop
      · trivial

end ruptures

/-! ### Cases that meet the hypotheses -/

/-- A history with calls of all kinds. -/
def slotHistory : List (OutOp ℕ ℕ) :=
  [.setConfig ⟨true, some 1⟩, .setIMTGrids "PGA" (arr 3 1) (arr 3 2) "rotd50", .setRuptureDict ⟨true, some 2⟩, .setConfig ⟨false, some 3⟩,
   .setStationDict ⟨false, some 4⟩, .dropIMT "PGA", .setMetadata ⟨true, some 5⟩, .setMetadata ⟨true, none⟩]

example : (∀ op ∈ slotHistory, PlainOut op) ∧ slotsOf slotHistory "config" = some 3 ∧ slotsOf slotHistory "rupture" = some 2 ∧
    slotsOf slotHistory "stations_dict" = none ∧ slotsOf slotHistory "info.json" = none := by
  refine ⟨?_, by decide, by decide, by decide, by decide⟩
  simp [slotHistory, PlainOut, PlainName]

example : getSlot (fileAfter .nil slotHistory) "config" = .ok (.json 3) ∧ getSlot (fileAfter .nil slotHistory) "rupture" = .ok (.json 2) ∧
    getSlot (fileAfter .nil slotHistory) "stations_dict" = .error .attributeError ∧
    getMetadata (fileAfter .nil slotHistory) = .error .lookupError ∧ getVersionHistory (fileAfter .nil slotHistory) = .ok none := by
  decide +kernel

end Verif.Props
