import Verif.Props.Groups

/-! # ShakeMap containers: C36, C37, C38, C87 -/

namespace Verif.Props
open Verif.Hdf Verif.ShakeMap Verif.Spec

variable {B J A : Type}

theorem joined_slash {p : List String} (h : 2 ≤ p.length) : '/' ∈ (joined p).toList := by
  match p, h with
  | a :: b :: p, _ =>
    rw [joined_cons a (by simp)]
    simp

/-- A plain name is listed at top level exactly when it names a data set or an empty group. -/
theorem listed_iff {t : Tree B} (ht : Ordered t) (k : ShakeMap.Kind) {n : String}
    (hn : PlainName n) :
    n ∈ listData t k ↔ (∃ v, lookup t (path k [] n) = some (.data v)) ∨
      lookup t (path k [] n) = some (.dir .nil) := by
  have ep : path k [] n = [base k, n] := rfl
  rw [ep, lookup_cons]
  unfold listData
  rw [lookup_singleton]
  rcases hf : find t (base k) with _ | (v | kids)
  · simp
  · simp [below]
  · simp only [Option.bind_some, below]
    rw [mem_groupPaths kids (ordered_find ht hf)]
    constructor
    · rintro ⟨p, ⟨h1, h2⟩, rfl⟩
      match p, h1 with
      | [s], _ => rw [joined_single]; exact h2
      | a :: b :: p, _ => exact absurd (joined_slash (p := a :: b :: p) (by simp)) hn.1
    · intro h
      exact ⟨[n], ⟨by simp, h⟩, (joined_single n).symm⟩

attribute [local irreducible] setData makeGroup dropData lookup

theorem setData_other (t : Tree B) (k : ShakeMap.Kind) {gs : List String} {n : String}
    (hg : ∀ g ∈ gs, PlainName g) (hn : PlainName n) (v : Option B) {q : List String}
    (h1 : ¬ path k gs n <+: q) (h2 : ¬ q <+: path k gs n) :
    lookup (setData t k gs n v).1 q = lookup t q := by
  have h3 : ¬ q <+: base k :: gs := fun h => h2 (h.trans ⟨[n], rfl⟩)
  rcases setData_plain t k hg hn v with ⟨e, _, hgr⟩ | ⟨_, b, t1, _, _, hgr, _, hp⟩
  · exact hgr.other q h3
  · rw [lookup_putAt_other hp h1 h2, hgr.other q h3]

/-- The group of dictionaries can hold a dictionary called `n`: nothing else is in the way. -/
def SlotReady (t : Tree B) (n : String) : Prop :=
  Ordered t ∧ Hdf.value t ["dictionaries"] = none ∧
    ∀ k, lookup t ["dictionaries", n] = some (.dir k) → k = .nil

theorem dropIfListed_spec {t : Tree B} {n : String} (hr : SlotReady t n) (hn : PlainName n) :
    (dropIfListed t n).2 = .ok () ∧ lookup (dropIfListed t n).1 ["dictionaries", n] = none ∧
    Ordered (dropIfListed t n).1 ∧
    (∀ q, q ≠ ["dictionaries", n] → Hdf.value (dropIfListed t n).1 q = Hdf.value t q) ∧
    (∀ q, ¬ q <+: ["dictionaries", n] → ¬ ["dictionaries", n] <+: q →
      lookup (dropIfListed t n).1 q = lookup t q) := by
  obtain ⟨ho, hd, hk⟩ := hr
  have ep : path .dict [] n = ["dictionaries", n] := rfl
  have hnil : ∀ g ∈ ([] : List String), PlainName g := by simp
  unfold dropIfListed
  by_cases hl : n ∈ listData t .dict
  · rw [if_pos hl]
    have hsome : (lookup t ["dictionaries", n]).isSome := by
      rcases (listed_iff ho .dict hn).1 hl with ⟨v, h⟩ | h <;> (rw [ep] at h; simp [h])
    rcases dropData_plain t .dict hnil hn with ⟨h1, _⟩ | ⟨_, h2⟩
    · rw [ep] at h1; rw [h1] at hsome; simp at hsome
    · rw [h2, ep]
      have hb := fun r => lookup_eraseAt_below t (p := ["dictionaries", n]) (by simp) r
      refine ⟨rfl, by simpa using hb [], ordered_eraseAt _ _ ho, ?_, ?_⟩
      · intro q hq
        rw [value_eraseAt t (by simp)]
        by_cases hpre : ["dictionaries", n] <+: q
        · rw [if_pos hpre]
          obtain ⟨r, rfl⟩ := hpre
          have hr : r ≠ [] := by rintro rfl; simp at hq
          rw [Hdf.value, lookup_append]
          rcases hx : lookup t ["dictionaries", n] with _ | (v | k)
          · simp
          · simp [below, hr]
          · rw [hk k hx]; simp [below, hr]
        · rw [if_neg hpre]
      · intro q h3 h4
        exact lookup_eraseAt_other t h4 h3
  · rw [if_neg hl]
    refine ⟨rfl, ?_, ho, fun _ _ => rfl, fun _ _ _ => rfl⟩
    rcases hx : lookup t ["dictionaries", n] with _ | (v | k)
    · rfl
    · exact absurd ((listed_iff ho .dict hn).2 (Or.inl ⟨v, hx⟩)) hl
    · exact absurd ((listed_iff ho .dict hn).2 (Or.inr (by rw [ep, hx, hk k hx]))) hl

/-- Storing a document in a slot that was just emptied. -/
theorem setFree_spec {t : Tree (Cell J A)} {n : String} (hn : PlainName n)
    (hd : Hdf.value t ["dictionaries"] = none) (hfree : lookup t ["dictionaries", n] = none)
    (v : Option (Cell J A)) :
    (v = none → (setData t .dict [] n v).2 = .error .typeError) ∧
    (∀ b, v = some b → (setData t .dict [] n v).2 = .ok ()) := by
  constructor
  · rintro rfl
    have hnil : ∀ g ∈ ([] : List String), PlainName g := by simp
    obtain ⟨h1, h2, h3, h4⟩ := makeGroup_plain t (base_plain .dict) hnil
    have hok := h4 (by simp)
    have hs := h3 hok
    unfold setData
    rcases hm : makeGroup t (base .dict) [] with ⟨t1, r⟩
    rw [hm] at h1 hok hs
    simp only at h1 hok hs
    subst hok
    simp only
    rcases hl : lookup t1 [base .dict] with _ | (w | kids)
    · rw [hl] at hs; simp at hs
    · have := h1.value [base .dict]
      rw [value_of_lookup hl] at this
      rw [show base .dict = "dictionaries" from rfl, hd] at this
      simp at this
    · simp
  · rintro b rfl
    exact setData_succeeds t .dict (by simp) hn b (by
      intro i hi
      simpa [base] using hd) hfree

theorem setSlot_spec {t : Tree (Cell J A)} {n : String} (hr : SlotReady t n) (hn : PlainName n)
    (v : PyVal J) :
    (∀ j, v.json = some j → (setSlot t n v).2 = .ok () ∧
      Hdf.value (setSlot t n v).1 ["dictionaries", n] = some (.json j)) ∧
    (v.json = none → (setSlot t n v).2 = .error .typeError ∧
      lookup (setSlot t n v).1 ["dictionaries", n] = none) ∧
    (∀ q, q ≠ ["dictionaries", n] → Hdf.value (setSlot t n v).1 q = Hdf.value t q) ∧
    (∀ q, ¬ q <+: ["dictionaries", n] → ¬ ["dictionaries", n] <+: q →
      lookup (setSlot t n v).1 q = lookup t q) ∧ Ordered (setSlot t n v).1 := by
  have hnil : ∀ g ∈ ([] : List String), PlainName g := by simp
  have ep : path .dict [] n = ["dictionaries", n] := rfl
  obtain ⟨d1, d2, d3, d4, d5⟩ := dropIfListed_spec hr hn
  have e : setSlot t n v = setData (dropIfListed t n).1 .dict [] n (v.json.map .json) := by
    unfold setSlot andThen
    rcases hx : dropIfListed t n with ⟨t1, r⟩
    rw [hx] at d1; simp only at d1; subst d1; rfl
  have hd : Hdf.value (dropIfListed t n).1 ["dictionaries"] = none := by
    rw [d4 _ (by simp)]; exact hr.2.1
  obtain ⟨f1, f2⟩ := setFree_spec hn hd d2 (v.json.map .json)
  rw [e]
  refine ⟨?_, ?_, ?_, ?_, ordered_setData _ _ hnil hn _ d3⟩
  · intro j hj
    have hok := f2 (.json j) (by simp [hj])
    refine ⟨hok, ?_⟩
    rw [value_setData _ _ hnil hn, if_pos ⟨hok, ep.symm⟩, hj, Option.map_some]
  · intro hj
    have herr := f1 (by simp [hj])
    refine ⟨herr, ?_⟩
    rcases setData_plain (dropIfListed t n).1 .dict hnil hn (v.json.map .json) with
      ⟨_, _, hgr⟩ | ⟨hok, _⟩
    · rw [hgr.other _ (by simp [base]), d2]
    · rw [hok] at herr; simp at herr
  · intro q hq
    rw [value_setData _ _ hnil hn, if_neg (fun h => hq h.2), d4 q hq]
  · intro q h1 h2
    rw [setData_other _ .dict hnil hn _ (by rw [ep]; exact h2) (by rw [ep]; exact h1), d5 q h1 h2]

/-- The slots of `ShakeMapContainerBase` and of the metadata. -/
def slotNames : List String := ["config", "rupture", "stations_dict", "version_history", "info.json"]

theorem slot_plain {n : String} (h : n ∈ slotNames) : PlainName n := by
  simp only [slotNames, List.mem_cons, List.not_mem_nil, or_false] at h
  rcases h with rfl | rfl | rfl | rfl | rfl <;> simp [PlainName]

theorem getSlot_of_value {t : Tree B} (ho : Ordered t) {n : String} (hn : PlainName n) {b : B}
    (hv : Hdf.value t ["dictionaries", n] = some b) : getSlot t n = .ok b := by
  have hl : n ∈ listData t .dict := (listed_iff ho .dict hn).2 (Or.inl ⟨b, value_eq_some.1 hv⟩)
  rw [getSlot, if_pos hl]
  exact (getData_iff t .dict (by simp) hn b).2 hv

theorem getSlot_of_none {t : Tree B} (ho : Ordered t) {n : String} (hn : PlainName n)
    (hv : lookup t ["dictionaries", n] = none) : getSlot t n = .error .attributeError := by
  have hl : n ∉ listData t .dict := by
    intro h
    rcases (listed_iff ho .dict hn).1 h with ⟨v, h⟩ | h <;>
      (rw [show path .dict [] n = ["dictionaries", n] from rfl, hv] at h; simp at h)
  rw [getSlot, if_neg hl]

/-- **C36** (partial). `setConfig`, `setVersionHistory` and `setMetadata` replace the stored value:
whatever was there, a value JSON can hold is stored, get returns it, and every other data set of the
file is unchanged. Missing: rejected values, see the violations. -/
theorem C36_replace_partial (t : Tree (Cell J A)) (n : String) (hs : n ∈ slotNames)
    (hr : SlotReady t n) (v : PyVal J) (j : J) (hj : v.json = some j) :
    (setSlot t n v).2 = .ok () ∧ getSlot (setSlot t n v).1 n = .ok (.json j) ∧
    ∀ q, q ≠ ["dictionaries", n] → Hdf.value (setSlot t n v).1 q = Hdf.value t q := by
  obtain ⟨h1, _, h3, _, h5⟩ := setSlot_spec hr (slot_plain hs) v
  exact ⟨(h1 j hj).1, getSlot_of_value h5 (slot_plain hs) (h1 j hj).2, h3⟩

theorem rupture_plain : PlainName "rupture" := slot_plain (by simp [slotNames])

theorem setRuptureDict_dict (t : Tree (Cell J A)) (v : PyVal J) (hd : v.isDict = true) :
    setRuptureDict t v = setSlot t "rupture" v := by
  unfold setRuptureDict setSlot
  simp [hd]

/-- **C36** (partial). `setRuptureDict` replaces the stored value by a dictionary JSON can hold. -/
theorem C36_rupture_replace_partial (t : Tree (Cell J A)) (hr : SlotReady t "rupture")
    (v : PyVal J) (hd : v.isDict = true) (j : J) (hj : v.json = some j) :
    (setRuptureDict t v).2 = .ok () ∧ getSlot (setRuptureDict t v).1 "rupture" = .ok (.json j) ∧
    ∀ q, q ≠ ["dictionaries", "rupture"] →
      Hdf.value (setRuptureDict t v).1 q = Hdf.value t q := by
  rw [setRuptureDict_dict t v hd]
  exact C36_replace_partial t "rupture" (by simp [slotNames]) hr v j hj

/-- **C36** (partial). `setStationDict` replaces the stored value by a dictionary JSON can hold, and
rejects anything that is not a dictionary with `TypeError`, leaving the file as it was. -/
theorem C36_station_partial (t : Tree (Cell J A)) (hr : SlotReady t "stations_dict")
    (v : PyVal J) :
    (v.isDict = false → setStationDict t v = (t, .error .typeError)) ∧
    (v.isDict = true → ∀ j, v.json = some j →
      (setStationDict t v).2 = .ok () ∧
      getSlot (setStationDict t v).1 "stations_dict" = .ok (.json j) ∧
      ∀ q, q ≠ ["dictionaries", "stations_dict"] →
        Hdf.value (setStationDict t v).1 q = Hdf.value t q) := by
  constructor
  · intro h; simp [setStationDict, h]
  · intro h j hj
    have e : setStationDict t v = setSlot t "stations_dict" v := by simp [setStationDict, h]
    rw [e]
    exact C36_replace_partial t "stations_dict" (by simp [slotNames]) hr v j hj

/-- **C36** fails: `setRuptureDict` with anything that is not a dictionary raises `TypeError`, and
the rupture stored before is gone, whatever it was. -/
theorem C36_rupture_violated (t : Tree (Cell J A)) (hr : SlotReady t "rupture") (v : PyVal J)
    (hd : v.isDict = false) :
    (setRuptureDict t v).2 = .error .typeError ∧
    getSlot (setRuptureDict t v).1 "rupture" = .error .attributeError := by
  obtain ⟨d1, d2, d3, _⟩ := dropIfListed_spec hr rupture_plain
  have e : setRuptureDict t v = ((dropIfListed t "rupture").1, .error .typeError) := by
    unfold setRuptureDict andThen
    rcases hx : dropIfListed t "rupture" with ⟨t1, r⟩
    rw [hx] at d1; simp only at d1; subst d1; simp [hd]
  rw [e]
  exact ⟨rfl, getSlot_of_none d3 rupture_plain d2⟩

/-- **C36** fails: every one of the setters, given a value JSON cannot hold, raises `TypeError` and
loses the value stored before. -/
theorem C36_unserialisable_violated (t : Tree (Cell J A)) (n : String) (hs : n ∈ slotNames)
    (hr : SlotReady t n) (v : PyVal J) (hj : v.json = none) :
    (setSlot t n v).2 = .error .typeError ∧
    getSlot (setSlot t n v).1 n = .error .attributeError := by
  obtain ⟨_, h2, _, _, h5⟩ := setSlot_spec hr (slot_plain hs) v
  exact ⟨(h2 hj).1, getSlot_of_none h5 (slot_plain hs) (h2 hj).2⟩

/-- A container with a stored rupture. -/
def withRupture : Tree (Cell ℕ ℕ) := (setRuptureDict .nil ⟨true, some 5⟩).1

theorem withRupture_ready : SlotReady withRupture "rupture" := by
  have hr : SlotReady (B := Cell ℕ ℕ) .nil "rupture" :=
    ⟨trivial, by simp [Hdf.value], by intro k hk; simp at hk⟩
  have := setSlot_spec hr rupture_plain (⟨true, some 5⟩ : PyVal ℕ)
  unfold withRupture
  rw [setRuptureDict_dict _ _ rfl]
  refine ⟨this.2.2.2.2, ?_, ?_⟩
  · rw [this.2.2.1 _ (by simp)]; simp [Hdf.value]
  · intro k hk
    have := value_eq_some.1 (this.1 5 rfl).2
    rw [this] at hk; simp at hk

example : getSlot withRupture "rupture" = .ok (.json 5) ∧
    (setRuptureDict withRupture ⟨false, some 6⟩).2 = .error .typeError ∧
    getSlot (setRuptureDict withRupture ⟨false, some 6⟩).1 "rupture" =
      .error .attributeError := by decide +kernel

/-! ### C37 -/

/-- The calls of the output container that change the file. -/
inductive OutOp (J A : Type) where
  | setDataType (d : DType)
  | setIMTGrids (imt : String) (mean std : ArrayArg A) (component : String)
  | setIMTArrays (imt : String) (p : Points A) (component : String)
  | dropIMT (imt : String)
  | setConfig (v : PyVal J)
  | setRuptureDict (v : PyVal J)
  | setStationDict (v : PyVal J)
  | setVersionHistory (v : PyVal J)
  | setMetadata (v : PyVal J)

/-- One call; a call that raises leaves whatever it has done so far. -/
def perform (t : Tree (Cell J A)) : OutOp J A → Tree (Cell J A) × Except ShakeMap.Err Unit
  | .setDataType d => ShakeMap.setDataType t d
  | .setIMTGrids i m s c => ShakeMap.setIMTGrids t i m s c
  | .setIMTArrays i p c => ShakeMap.setIMTArrays t i p c
  | .dropIMT i => ShakeMap.dropIMT t i
  | .setConfig v => setSlot t "config" v
  | .setRuptureDict v => ShakeMap.setRuptureDict t v
  | .setStationDict v => ShakeMap.setStationDict t v
  | .setVersionHistory v => setSlot t "version_history" v
  | .setMetadata v => setSlot t "info.json" v

/-- The file after a history of calls. -/
def fileAfter (t : Tree (Cell J A)) (ops : List (OutOp J A)) : Tree (Cell J A) :=
  ops.foldl (fun t op => (perform t op).1) t

/-- IMT and component names are plain. -/
def PlainOut : OutOp J A → Prop
  | .setIMTGrids i _ _ c => PlainName i ∧ PlainName c
  | .setIMTArrays i _ c => PlainName i ∧ PlainName c
  | .dropIMT i => PlainName i
  | _ => True

/-- Where the arrays of an IMT are. -/
def imtPath (c i x : String) : List String := ["arrays", "imts", c, i, x]

/-- Where the data type is. -/
def typePath : List String := ["dictionaries", "file_data_type"]

/-- Coordinates that only point data have. -/
def coordNames : List String := ["lons", "lats", "ids"]

/-- Names of the value arrays. -/
def valueNames : List String := ["mean", "std"]

/-- The invariant of the output container. -/
structure OutInv (t : Tree (Cell J A)) : Prop where
  ordered : Ordered t
  dicts : Hdf.value t ["dictionaries"] = none
  noGroup : ∀ n ∈ slotNames, ∀ k, lookup t ["dictionaries", n] ≠ some (.dir k)
  typ : lookup t typePath = none ∨ ∃ d, lookup t typePath = some (.data (.dtype d))
  arrays : ∀ q b, Hdf.value t ("arrays" :: q) = some b → ∃ c i x d, q = ["imts", c, i, x] ∧
    lookup t typePath = some (.data (.dtype d)) ∧
    (d = .grid → x ∈ valueNames) ∧
    (d = .points → x ∈ valueNames → ∀ y ∈ coordNames, Hdf.value t (imtPath c i y) ≠ none) ∧
    (d = .points → x ∈ valueNames ∨ x ∈ coordNames)

theorem type_plain : PlainName typeSlot := by simp [typeSlot, PlainName]

theorem OutInv.getType {t : Tree (Cell J A)} (h : OutInv t) :
    (getDataType t = .ok none ↔ lookup t typePath = none) ∧
    (∀ d, getDataType t = .ok (some d) ↔ lookup t typePath = some (.data (.dtype d))) := by
  have ep : path .dict [] typeSlot = typePath := rfl
  have hl := listed_iff h.ordered .dict type_plain
  rw [ep] at hl
  unfold getDataType
  rcases h.typ with hx | ⟨d, hx⟩
  · have : typeSlot ∉ listData t .dict := by rw [hl, hx]; simp
    simp [this, hx]
  · have h1 : typeSlot ∈ listData t .dict := by rw [hl, hx]; simp
    have h2 : getData t .dict [] typeSlot = .ok (.dtype d) := by
      rw [getData_iff t .dict (by simp) type_plain, ep]; simp [Hdf.value, hx]
    simp [h1, h2, hx]

/-- What a call may do to the data type: nothing once it is set. -/
def TypeKept (t t' : Tree (Cell J A)) : Prop :=
  ∀ d, lookup t typePath = some (.data (.dtype d)) → lookup t' typePath = some (.data (.dtype d))

theorem setDataType_inv {t : Tree (Cell J A)} (h : OutInv t) (d : DType) :
    OutInv (setDataType t d).1 ∧ TypeKept t (setDataType t d).1 ∧
    ((setDataType t d).2 = .ok () →
      lookup (setDataType t d).1 typePath = some (.data (.dtype d))) ∧
    (∀ q, q ≠ typePath → Hdf.value (setDataType t d).1 q = Hdf.value t q) := by
  have hnil : ∀ g ∈ ([] : List String), PlainName g := by simp
  have ep : path .dict [] typeSlot = typePath := rfl
  unfold setDataType
  rcases h.typ with hx | ⟨d', hx⟩
  · rw [h.getType.1.2 hx]
    simp only
    have hok : (setData t .dict [] typeSlot (some (Cell.dtype d))).2 = .ok () :=
      setData_succeeds t .dict hnil type_plain _ (by intro i hi; simpa [base] using h.dicts) hx
    have hv := fun q => value_setData t .dict hnil type_plain (some (Cell.dtype d)) q
    have hnew : lookup (setData t .dict [] typeSlot (some (Cell.dtype d))).1 typePath =
        some (.data (.dtype d)) := by
      rw [← value_eq_some, hv, if_pos ⟨hok, ep.symm⟩]
    have hsame : ∀ q, q ≠ typePath →
        Hdf.value (setData t .dict [] typeSlot (some (Cell.dtype d))).1 q = Hdf.value t q := by
      intro q hq; rw [hv, if_neg (fun hc => hq (hc.2.trans ep))]
    refine ⟨⟨ordered_setData _ _ hnil type_plain _ h.ordered, ?_, ?_, Or.inr ⟨d, hnew⟩, ?_⟩,
      ?_, fun _ => hnew, hsame⟩
    · rw [hsame _ (by simp [typePath])]; exact h.dicts
    · intro n hn k
      have hne : n ≠ "file_data_type" := by
        rintro rfl; revert hn; simp [slotNames]
      rw [setData_other t .dict hnil type_plain]
      · exact h.noGroup n hn k
      · simp [path, base, typeSlot, hne.symm]
      · simp [path, base, typeSlot, hne]
    · intro q b hb
      rw [hsame _ (by simp [typePath])] at hb
      obtain ⟨c, i, x, d', _, hx', _⟩ := h.arrays q b hb
      rw [hx] at hx'; simp at hx'
    · intro d' hd'; rw [hx] at hd'; simp at hd'
  · rw [(h.getType.2 d').2 hx]
    simp only
    by_cases hd : d' = d
    · subst hd
      rw [if_neg (fun hc => hc rfl)]
      exact ⟨h, fun _ h => h, fun _ => hx, fun _ _ => rfl⟩
    · rw [if_pos hd]
      exact ⟨h, fun _ h => h, fun e => by simp at e, fun _ _ => rfl⟩

theorem imtGroup_plain {c i : String} (hc : PlainName c) (hi : PlainName i) :
    ∀ g ∈ imtGroup c i, PlainName g := by
  intro g hg
  simp only [imtGroup, List.mem_cons, List.not_mem_nil, or_false] at hg
  rcases hg with rfl | rfl | rfl
  exacts [by simp [PlainName], hc, hi]

theorem imtPath_eq (c i x : String) : path .array (imtGroup c i) x = imtPath c i x := rfl

theorem setIMTArray_inv {t : Tree (Cell J A)} (h : OutInv t) {c i x : String} (hc : PlainName c)
    (hi : PlainName i) (hx : PlainName x) (a : ArrayArg A) {d : DType}
    (hd : lookup t typePath = some (.data (.dtype d))) (hgrid : d = .grid → x ∈ valueNames)
    (hpts : d = .points → x ∈ valueNames → ∀ y ∈ coordNames, Hdf.value t (imtPath c i y) ≠ none)
    (hpts' : d = .points → x ∈ valueNames ∨ x ∈ coordNames) :
    OutInv (setIMTArray t c i x a).1 ∧ TypeKept t (setIMTArray t c i x a).1 ∧
    (∀ q, Hdf.value t q ≠ none → Hdf.value (setIMTArray t c i x a).1 q = Hdf.value t q) ∧
    ((setIMTArray t c i x a).2 = .ok () → ∃ s, a.stored = some s ∧
      Hdf.value (setIMTArray t c i x a).1 (imtPath c i x) = some (.array s)) := by
  have hg := imtGroup_plain hc hi
  unfold setIMTArray
  have hv := fun q => value_setData t .array hg hx (a.stored.map (Cell.array (J := J))) q
  have hty : lookup (setData t .array (imtGroup c i) x (a.stored.map Cell.array)).1 typePath =
      lookup t typePath := by
    refine setData_other t .array hg hx _ ?_ ?_ <;> simp [path, base, typePath]
  have hkeep : ∀ q, Hdf.value t q ≠ none →
      Hdf.value (setData t .array (imtGroup c i) x (a.stored.map Cell.array)).1 q =
        Hdf.value t q := by
    intro q hq
    rcases setData_plain t .array hg hx (a.stored.map (Cell.array (J := J))) with
      ⟨e, h1, h2⟩ | ⟨h1, b, t1, _, hf, _⟩
    · exact h2.value q
    · rw [hv]
      by_cases hqp : q = path .array (imtGroup c i) x
      · subst hqp
        simp [Hdf.value, hf] at hq
      · rw [if_neg (fun e => hqp e.2)]
  refine ⟨⟨ordered_setData _ _ hg hx _ h.ordered, ?_, ?_, ?_, ?_⟩, ?_, hkeep, ?_⟩
  · rw [hv, if_neg (by simp [path, base])]; exact h.dicts
  · intro n hn k
    rw [setData_other t .array hg hx]
    · exact h.noGroup n hn k
    · simp [path, base]
    · simp [path, base]
  · rw [hty]; exact h.typ
  · intro q b hb
    rw [hty]
    rw [hv] at hb
    by_cases hqp : (setData t .array (imtGroup c i) x (a.stored.map Cell.array)).2 = .ok () ∧
        ("arrays" :: q : List String) = path .array (imtGroup c i) x
    · obtain ⟨_, hq⟩ := hqp
      rw [imtPath_eq] at hq
      have hq' : q = ["imts", c, i, x] := by simpa [imtPath] using hq
      refine ⟨c, i, x, d, hq', hd, hgrid, ?_, hpts'⟩
      intro e1 e2 y hy
      rw [hkeep _ (hpts e1 e2 y hy)]
      exact hpts e1 e2 y hy
    · rw [if_neg hqp] at hb
      obtain ⟨c', i', x', d', g1, g2, g3, g4, g5⟩ := h.arrays q b hb
      refine ⟨c', i', x', d', g1, g2, g3, ?_, g5⟩
      intro e1 e2 y hy
      rw [hkeep _ (g4 e1 e2 y hy)]
      exact g4 e1 e2 y hy
  · intro d' hd'; rw [hty]; exact hd'
  · intro hok
    rcases hs : a.stored with _ | s
    · rw [hs] at hok
      rcases setData_plain t .array hg hx (none : Option (Cell J A)) with
        ⟨e, h1, _⟩ | ⟨_, b, _, hb, _⟩
      · simp only [Option.map_none] at hok; rw [h1] at hok; simp at hok
      · simp at hb
    · refine ⟨s, rfl, ?_⟩
      rw [← hs]
      rw [← imtPath_eq, hv, if_pos ⟨hok, rfl⟩, hs, Option.map_some]

theorem andThen_ok {α : Type} {r : Tree B × Except ShakeMap.Err Unit} (h : r.2 = .ok ())
    (f : Tree B → Tree B × Except ShakeMap.Err α) : andThen r f = f r.1 := by
  rcases r with ⟨t, e | u⟩
  · simp at h
  · rfl

theorem andThen_error {α : Type} {r : Tree B × Except ShakeMap.Err Unit} {e : ShakeMap.Err}
    (h : r.2 = .error e) (f : Tree B → Tree B × Except ShakeMap.Err α) :
    andThen r f = (r.1, .error e) := by
  rcases r with ⟨t, e' | u⟩
  · simp only [Except.error.injEq] at h; subst h; rfl
  · simp at h

theorem ok_or_error (r : Except ShakeMap.Err Unit) : r = .ok () ∨ ∃ e, r = .error e := by
  rcases r with e | u
  · exact Or.inr ⟨e, rfl⟩
  · exact Or.inl rfl

/-- A property of the file that a sequence of steps keeps. -/
theorem andThen_keeps {P : Tree B → Prop} {r : Tree B × Except ShakeMap.Err Unit}
    {f : Tree B → Tree B × Except ShakeMap.Err Unit} (h1 : P r.1)
    (h2 : r.2 = .ok () → P (f r.1).1) : P (andThen r f).1 := by
  rcases ok_or_error r.2 with h | ⟨e, h⟩
  · rw [andThen_ok h]; exact h2 h
  · rw [andThen_error h]; exact h1

theorem setIMTGrids_inv {t : Tree (Cell J A)} (h : OutInv t) {i c : String} (hi : PlainName i)
    (hc : PlainName c) (m s : ArrayArg A) :
    OutInv (setIMTGrids t i m s c).1 ∧ TypeKept t (setIMTGrids t i m s c).1 := by
  have pm : PlainName "mean" := by simp [PlainName]
  have ps : PlainName "std" := by simp [PlainName]
  have core : OutInv (andThen (setDataType t .grid) fun t =>
      andThen (setIMTArray t c i "mean" m) fun t => setIMTArray t c i "std" s).1 ∧
      TypeKept t (andThen (setDataType t .grid) fun t =>
      andThen (setIMTArray t c i "mean" m) fun t => setIMTArray t c i "std" s).1 := by
    obtain ⟨a1, a2, a3, _⟩ := setDataType_inv h .grid
    refine andThen_keeps (P := fun t' => OutInv t' ∧ TypeKept t t') ⟨a1, a2⟩ ?_
    intro hok
    have ht := a3 hok
    have gr : ∀ {x : String}, x ∈ valueNames → PlainName x → ∀ (a : ArrayArg A)
        {t1 : Tree (Cell J A)}, OutInv t1 → lookup t1 typePath = some (.data (.dtype .grid)) →
        OutInv (setIMTArray t1 c i x a).1 ∧ TypeKept t1 (setIMTArray t1 c i x a).1 := by
      intro x hx hp a t1 hI hT
      have := setIMTArray_inv hI hc hi hp a hT (fun _ => hx) (fun e => by simp at e)
        (fun e => by simp at e)
      exact ⟨this.1, this.2.1⟩
    have b := gr (by simp [valueNames]) pm m a1 ht
    refine andThen_keeps (P := fun t' => OutInv t' ∧ TypeKept t t')
      ⟨b.1, fun d hd => b.2 d (a2 d hd)⟩ ?_
    intro _
    have b' := gr (by simp [valueNames]) ps s b.1 (b.2 _ ht)
    exact ⟨b'.1, fun d hd => b'.2 d (b.2 d (a2 d hd))⟩
  unfold setIMTGrids
  rcases h.typ with hx | ⟨d, hx⟩
  · rw [h.getType.1.2 hx]; exact core
  · rw [(h.getType.2 d).2 hx]
    cases d with
    | points => exact ⟨h, fun _ h => h⟩
    | grid => exact core

theorem setIMTArrays_inv {t : Tree (Cell J A)} (h : OutInv t) {i c : String} (hi : PlainName i)
    (hc : PlainName c) (p : Points A) :
    OutInv (setIMTArrays t i p c).1 ∧ TypeKept t (setIMTArrays t i p c).1 := by
  have pl : ∀ x ∈ valueNames ++ coordNames, PlainName x := by
    simp [valueNames, coordNames, PlainName]
  unfold setIMTArrays
  have core : ∀ f : Tree (Cell J A) → Tree (Cell J A) × Except ShakeMap.Err Unit,
      (∀ t1, OutInv t1 → lookup t1 typePath = some (.data (.dtype .points)) →
        OutInv (f t1).1 ∧ TypeKept t1 (f t1).1) →
      OutInv (andThen (setDataType t .points) f).1 ∧
        TypeKept t (andThen (setDataType t .points) f).1 := by
    intro f hf
    obtain ⟨a1, a2, a3, _⟩ := setDataType_inv h .points
    refine andThen_keeps (P := fun t' => OutInv t' ∧ TypeKept t t') ⟨a1, a2⟩ ?_
    intro hok
    obtain ⟨b1, b2⟩ := hf _ a1 (a3 hok)
    exact ⟨b1, fun d hd => b2 d (a2 d hd)⟩
  have body : ∀ t1 : Tree (Cell J A), OutInv t1 →
      lookup t1 typePath = some (.data (.dtype .points)) →
      OutInv (if p.lons.shape ≠ p.lats.shape ∨ p.lons.shape ≠ p.ids.shape ∨
          p.lons.shape ≠ p.mean.shape ∨ p.lons.shape ≠ p.std.shape then (t1, .error .valueError)
        else
        andThen (setIMTArray t1 c i "lons" p.lons) fun t =>
        andThen (setIMTArray t c i "lats" p.lats) fun t =>
        andThen (setIMTArray t c i "ids" p.ids) fun t =>
        andThen (setIMTArray t c i "mean" p.mean) fun t =>
        setIMTArray t c i "std" p.std).1 ∧
      TypeKept t1 (if p.lons.shape ≠ p.lats.shape ∨ p.lons.shape ≠ p.ids.shape ∨
          p.lons.shape ≠ p.mean.shape ∨ p.lons.shape ≠ p.std.shape then (t1, .error .valueError)
        else
        andThen (setIMTArray t1 c i "lons" p.lons) fun t =>
        andThen (setIMTArray t c i "lats" p.lats) fun t =>
        andThen (setIMTArray t c i "ids" p.ids) fun t =>
        andThen (setIMTArray t c i "mean" p.mean) fun t =>
        setIMTArray t c i "std" p.std).1 := by
    intro t1 h1 ht1
    by_cases hsh : p.lons.shape ≠ p.lats.shape ∨ p.lons.shape ≠ p.ids.shape ∨
          p.lons.shape ≠ p.mean.shape ∨ p.lons.shape ≠ p.std.shape
    · rw [if_pos hsh]; exact ⟨h1, fun _ h => h⟩
    · rw [if_neg hsh]
      -- one step, keeping everything that is stored
      have stp : ∀ {x : String} (a : ArrayArg A) {t2 : Tree (Cell J A)}, OutInv t2 →
          TypeKept t1 t2 → x ∈ valueNames ++ coordNames →
          (x ∈ valueNames → ∀ y ∈ coordNames, Hdf.value t2 (imtPath c i y) ≠ none) →
          (OutInv (setIMTArray t2 c i x a).1 ∧ TypeKept t1 (setIMTArray t2 c i x a).1) ∧
          (∀ y, Hdf.value t2 (imtPath c i y) ≠ none →
            Hdf.value (setIMTArray t2 c i x a).1 (imtPath c i y) ≠ none) ∧
          ((setIMTArray t2 c i x a).2 = .ok () →
            Hdf.value (setIMTArray t2 c i x a).1 (imtPath c i x) ≠ none) := by
        intro x a t2 hI hT hx hco
        obtain ⟨r1, r2, r3, r4⟩ := setIMTArray_inv hI hc hi (pl x hx) a (hT _ ht1)
          (fun e => by simp at e) (fun _ => hco) (fun _ => List.mem_append.1 hx)
        refine ⟨⟨r1, fun d hd => r2 d (hT d hd)⟩, fun y hy => ?_, fun hok => ?_⟩
        · rw [r3 _ hy]; exact hy
        · obtain ⟨s, _, hs⟩ := r4 hok; rw [hs]; simp
      have s1 := stp (x := "lons") p.lons h1 (fun _ h => h) (by simp [valueNames, coordNames])
        (by simp [valueNames])
      refine andThen_keeps (P := fun t' => OutInv t' ∧ TypeKept t1 t') s1.1 ?_
      intro ok1
      have s2 := stp (x := "lats") p.lats s1.1.1 s1.1.2 (by simp [valueNames, coordNames])
        (by simp [valueNames])
      refine andThen_keeps (P := fun t' => OutInv t' ∧ TypeKept t1 t') s2.1 ?_
      intro ok2
      have s3 := stp (x := "ids") p.ids s2.1.1 s2.1.2 (by simp [valueNames, coordNames])
        (by simp [valueNames])
      refine andThen_keeps (P := fun t' => OutInv t' ∧ TypeKept t1 t') s3.1 ?_
      intro ok3
      have hco : ∀ y ∈ coordNames, Hdf.value (setIMTArray (setIMTArray (setIMTArray t1 c i "lons"
          p.lons).1 c i "lats" p.lats).1 c i "ids" p.ids).1 (imtPath c i y) ≠ none := by
        intro y hy
        simp only [coordNames, List.mem_cons, List.not_mem_nil, or_false] at hy
        rcases hy with rfl | rfl | rfl
        · exact s3.2.1 _ (s2.2.1 _ (s1.2.2 ok1))
        · exact s3.2.1 _ (s2.2.2 ok2)
        · exact s3.2.2 ok3
      have s4 := stp (x := "mean") p.mean s3.1.1 s3.1.2 (by simp [valueNames]) (fun _ => hco)
      refine andThen_keeps (P := fun t' => OutInv t' ∧ TypeKept t1 t') s4.1 ?_
      intro ok4
      exact (stp (x := "std") p.std s4.1.1 s4.1.2 (by simp [valueNames])
        (fun _ y hy => s4.2.1 y (hco y hy))).1
  rcases h.typ with hx | ⟨d, hx⟩
  · rw [h.getType.1.2 hx]; exact core _ body
  · rw [(h.getType.2 d).2 hx]
    cases d with
    | grid => exact ⟨h, fun _ h => h⟩
    | points => exact core _ body

theorem setSlot_inv {t : Tree (Cell J A)} (h : OutInv t) {n : String} (hn : n ∈ slotNames)
    (v : PyVal J) : OutInv (setSlot t n v).1 ∧ TypeKept t (setSlot t n v).1 := by
  have hr : SlotReady t n := ⟨h.ordered, h.dicts, fun k hk => absurd hk (h.noGroup n hn k)⟩
  obtain ⟨h1, h2, h3, h4, h5⟩ := setSlot_spec hr (slot_plain hn) v
  have hne : n ≠ "file_data_type" := by rintro rfl; revert hn; simp [slotNames]
  have hty : lookup (setSlot t n v).1 typePath = lookup t typePath := by
    refine h4 _ ?_ ?_ <;> simp [typePath, hne, hne.symm]
  refine ⟨⟨h5, ?_, ?_, ?_, ?_⟩, fun d hd => by rw [hty]; exact hd⟩
  · rw [h3 _ (by simp)]; exact h.dicts
  · intro n' hn' k
    by_cases he : n' = n
    · subst he
      rcases hj : v.json with _ | j
      · rw [(h2 hj).2]; simp
      · rw [value_eq_some.1 (h1 j hj).2]; simp
    · rw [h4]
      · exact h.noGroup n' hn' k
      · simp [he]
      · simp [Ne.symm he]
  · rw [hty]; exact h.typ
  · intro q b hb
    rw [h3 _ (by simp)] at hb
    obtain ⟨c, i, x, d, g1, g2, g3, g4, g5⟩ := h.arrays q b hb
    refine ⟨c, i, x, d, g1, by rw [hty]; exact g2, g3, ?_, g5⟩
    intro e1 e2 y hy
    rw [h3 _ (by simp [imtPath])]
    exact g4 e1 e2 y hy

theorem erase_inv {t : Tree (Cell J A)} (h : OutInv t) (c i : String) :
    OutInv (eraseAt t ["arrays", "imts", c, i]) ∧
      TypeKept t (eraseAt t ["arrays", "imts", c, i]) := by
  have hl : ∀ q, q.head? = some "dictionaries" →
      lookup (eraseAt t ["arrays", "imts", c, i]) q = lookup t q := by
    intro q hq
    cases q with
    | nil => simp at hq
    | cons a q =>
      simp only [List.head?_cons, Option.some.injEq] at hq
      subst hq
      refine lookup_eraseAt_other t ?_ ?_ <;> simp
  refine ⟨⟨ordered_eraseAt _ _ h.ordered, ?_, ?_, ?_, ?_⟩, ?_⟩
  · rw [Hdf.value, hl _ rfl]; exact h.dicts
  · intro n hn k; rw [hl _ rfl]; exact h.noGroup n hn k
  · rw [hl _ rfl]; exact h.typ
  · intro q b hb
    rw [value_eraseAt t (by simp)] at hb
    split_ifs at hb with hp
    obtain ⟨c', i', x, d, g1, g2, g3, g4, g5⟩ := h.arrays q b hb
    refine ⟨c', i', x, d, g1, by rw [hl _ rfl]; exact g2, g3, ?_, g5⟩
    intro e1 e2 y hy
    rw [value_eraseAt t (by simp), if_neg]
    · exact g4 e1 e2 y hy
    · intro hp'
      apply hp
      subst g1
      simpa [imtPath] using hp'
  · intro d hd; rw [hl _ rfl]; exact hd

theorem dropIMT_inv {t : Tree (Cell J A)} (h : OutInv t) {i : String} (hi : PlainName i) :
    OutInv (dropIMT t i).1 ∧ TypeKept t (dropIMT t i).1 := by
  unfold dropIMT
  rcases lookup t ["arrays", "imts"] with _ | _
  · exact ⟨h, fun _ h => h⟩
  · simp only
    have : ∀ (cs : List String) (t1 : Tree (Cell J A)), OutInv t1 → TypeKept t t1 →
        OutInv (cs.foldl (fun t c => eraseAt t (resolve ["arrays", "imts", c] i)) t1) ∧
        TypeKept t (cs.foldl (fun t c => eraseAt t (resolve ["arrays", "imts", c] i)) t1) := by
      intro cs
      induction cs with
      | nil => intro t1 h1 h2; exact ⟨h1, h2⟩
      | cons c cs ih =>
        intro t1 h1 h2
        rw [List.foldl_cons]
        have e : resolve ["arrays", "imts", c] i = ["arrays", "imts", c, i] := by
          rw [resolve_plain hi]; rfl
        rw [e]
        obtain ⟨k1, k2⟩ := erase_inv h1 c i
        exact ih _ k1 fun d hd => k2 d (h2 d hd)
    exact this _ t h fun _ h => h

theorem perform_inv {t : Tree (Cell J A)} (h : OutInv t) (op : OutOp J A) (hp : PlainOut op) :
    OutInv (perform t op).1 ∧ TypeKept t (perform t op).1 := by
  cases op with
  | setDataType d => exact ⟨(setDataType_inv h d).1, (setDataType_inv h d).2.1⟩
  | setIMTGrids i m s c => exact setIMTGrids_inv h hp.1 hp.2 m s
  | setIMTArrays i p c => exact setIMTArrays_inv h hp.1 hp.2 p
  | dropIMT i => exact dropIMT_inv h hp
  | setConfig v => exact setSlot_inv h (by simp [slotNames]) v
  | setVersionHistory v => exact setSlot_inv h (by simp [slotNames]) v
  | setMetadata v => exact setSlot_inv h (by simp [slotNames]) v
  | setStationDict v =>
    show OutInv (ShakeMap.setStationDict t v).1 ∧ TypeKept t (ShakeMap.setStationDict t v).1
    unfold ShakeMap.setStationDict
    split_ifs
    · exact ⟨h, fun _ h => h⟩
    · exact setSlot_inv h (by simp [slotNames]) v
  | setRuptureDict v =>
    show OutInv (ShakeMap.setRuptureDict t v).1 ∧ TypeKept t (ShakeMap.setRuptureDict t v).1
    rcases hd : v.isDict with _ | _
    · -- the same file as after a document JSON cannot hold, up to the empty group
      have hr : SlotReady t "rupture" := ⟨h.ordered, h.dicts, fun k hk =>
        absurd hk (h.noGroup "rupture" (by simp [slotNames]) k)⟩
      obtain ⟨d1, d2, d3, d4, d5⟩ := dropIfListed_spec hr rupture_plain
      have e : ShakeMap.setRuptureDict t v =
          ((dropIfListed t "rupture").1, .error .typeError) := by
        unfold ShakeMap.setRuptureDict
        rw [andThen_ok d1]; simp [hd]
      rw [e]
      have hty : lookup (dropIfListed t "rupture").1 typePath = lookup t typePath := by
        refine d5 _ ?_ ?_ <;> simp [typePath]
      refine ⟨⟨d3, ?_, ?_, ?_, ?_⟩, fun d hd => by rw [hty]; exact hd⟩
      · rw [d4 _ (by simp)]; exact h.dicts
      · intro n' hn' k
        by_cases he : n' = "rupture"
        · subst he; rw [d2]; simp
        · rw [d5]
          · exact h.noGroup n' hn' k
          · simp [he]
          · simp [Ne.symm he]
      · rw [hty]; exact h.typ
      · intro q b hb
        rw [d4 _ (by simp)] at hb
        obtain ⟨c, i, x, d, g1, g2, g3, g4, g5⟩ := h.arrays q b hb
        refine ⟨c, i, x, d, g1, by rw [hty]; exact g2, g3, ?_, g5⟩
        intro e1 e2 y hy
        rw [d4 _ (by simp [imtPath])]
        exact g4 e1 e2 y hy
    · rw [setRuptureDict_dict t v hd]
      exact setSlot_inv h (by simp [slotNames]) v

theorem inv_empty : OutInv (.nil : Tree (Cell J A)) where
  ordered := trivial
  dicts := by simp [Hdf.value]
  noGroup := by intro n _ k; simp
  typ := Or.inl (by simp [typePath])
  arrays := by intro q b hb; simp [Hdf.value] at hb

theorem fileAfter_inv {t : Tree (Cell J A)} (h : OutInv t) (ops : List (OutOp J A))
    (hp : ∀ op ∈ ops, PlainOut op) : OutInv (fileAfter t ops) ∧ TypeKept t (fileAfter t ops) := by
  induction ops generalizing t with
  | nil => exact ⟨h, fun _ h => h⟩
  | cons op ops ih =>
    obtain ⟨h1, h2⟩ := perform_inv h op (hp op (by simp))
    obtain ⟨h3, h4⟩ := ih h1 fun o ho => hp o (by simp [ho])
    exact ⟨h3, fun d hd => h4 d (h2 d hd)⟩

/-- The file holds point data for an IMT: there are coordinates. -/
def HoldsPoints (t : Tree (Cell J A)) (c i : String) : Prop :=
  ∃ x, (x = "lons" ∨ x = "lats" ∨ x = "ids") ∧
    Hdf.value t ["arrays", "imts", c, i, x] ≠ none

/-- The file holds grid data for an IMT: there are values without coordinates. -/
def HoldsGrid (t : Tree (Cell J A)) (c i : String) : Prop :=
  (∃ x, (x = "mean" ∨ x = "std") ∧ Hdf.value t ["arrays", "imts", c, i, x] ≠ none) ∧
    ¬ HoldsPoints t c i

/-- **C37**. After every history of calls on a new output container, including calls that failed half
way: the file does not hold grid data for one IMT and point data for another (or the same); what it
holds is what the data type says; and a data type, once set, stays through every further history. -/
theorem C37_never_mixed (ops more : List (OutOp J A)) (hp : ∀ op ∈ ops ++ more, PlainOut op) :
    let t := fileAfter .nil ops
    (¬ ((∃ c i, HoldsGrid t c i) ∧ ∃ c i, HoldsPoints t c i)) ∧
    (∀ c i, HoldsGrid t c i → getDataType t = .ok (some .grid)) ∧
    (∀ c i, HoldsPoints t c i → getDataType t = .ok (some .points)) ∧
    (∀ d, getDataType t = .ok (some d) → getDataType (fileAfter t more) = .ok (some d)) := by
  intro t
  obtain ⟨hI, _⟩ := fileAfter_inv inv_empty ops fun op ho => hp op (by simp [ho])
  obtain ⟨hI2, hK⟩ := fileAfter_inv hI more fun op ho => hp op (by simp [ho])
  have hG : ∀ c i, HoldsGrid t c i → getDataType t = .ok (some .grid) := by
    rintro c i ⟨⟨x, hx, hv⟩, hno⟩
    obtain ⟨b, hb⟩ := Option.ne_none_iff_exists'.1 hv
    obtain ⟨c', i', x', d, g1, g2, g3, g4, g5⟩ := hI.arrays _ b hb
    simp only [List.cons.injEq, true_and, and_true] at g1
    obtain ⟨rfl, rfl, rfl⟩ := g1
    cases d with
    | grid => exact (hI.getType.2 _).2 g2
    | points =>
      exfalso
      exact hno ⟨"lons", Or.inl rfl, g4 rfl (by simpa [valueNames] using hx) "lons"
        (by simp [coordNames])⟩
  have hP : ∀ c i, HoldsPoints t c i → getDataType t = .ok (some .points) := by
    rintro c i ⟨x, hx, hv⟩
    obtain ⟨b, hb⟩ := Option.ne_none_iff_exists'.1 hv
    obtain ⟨c', i', x', d, g1, g2, g3, g4, g5⟩ := hI.arrays _ b hb
    simp only [List.cons.injEq, true_and, and_true] at g1
    obtain ⟨rfl, rfl, rfl⟩ := g1
    cases d with
    | points => exact (hI.getType.2 _).2 g2
    | grid =>
      exfalso
      have := g3 rfl
      simp only [valueNames, List.mem_cons, List.not_mem_nil, or_false] at this
      rcases hx with rfl | rfl | rfl <;> simp at this
  refine ⟨?_, hG, hP, ?_⟩
  · rintro ⟨⟨c, i, h1⟩, c', i', h2⟩
    have := (hG c i h1).symm.trans (hP c' i' h2)
    simp at this
  · intro d hd
    exact (hI2.getType.2 d).2 (hK d ((hI.getType.2 d).1 hd))

/-- An array argument that can be stored. -/
def arr (n : ℕ) (a : ℕ) : ArrayArg ℕ := ⟨[n], some a⟩

/-- Point data of one shape. -/
def pts (n : ℕ) : Points ℕ := ⟨arr n 1, arr n 2, arr n 3, arr n 4, arr n 5⟩

/-- A history with successful, rejected and half-done calls. -/
def sampleOps : List (OutOp ℕ ℕ) :=
  [.setConfig ⟨true, some 1⟩, .setIMTArrays "PGA" (pts 3) "rotd50",
   .setIMTGrids "PGV" (arr 3 8) (arr 3 9) "rotd50",
   .setIMTArrays "SA" { pts 3 with ids := ⟨[3], none⟩ } "rotd50"]

example : ∀ op ∈ sampleOps, PlainOut op := by
  simp [sampleOps, PlainOut, PlainName]

example : getDataType (fileAfter .nil sampleOps) = .ok (some .points) ∧
    getIMTArrays (fileAfter .nil sampleOps) "PGA" "rotd50" =
      .ok [.array 1, .array 2, .array 3, .array 4, .array 5] ∧
    getIMTGrids (fileAfter .nil sampleOps) "PGA" "rotd50" = .error .typeError := by
  decide +kernel

/-! ### C38 -/

/-- The five arrays do not all have the shape of the first. -/
def ShapesDiffer (p : Points A) : Prop :=
  ¬ (p.lats.shape = p.lons.shape ∧ p.ids.shape = p.lons.shape ∧ p.mean.shape = p.lons.shape ∧
    p.std.shape = p.lons.shape)

/-- **C38** (partial). In a container that already has a data type, `setIMTArrays` with arrays of
different shapes fails and changes nothing. Missing: a container without a data type. -/
theorem C38_unchanged_partial (t : Tree (Cell J A)) (d : DType) (i c : String) (p : Points A)
    (ht : getDataType t = .ok (some d)) (hs : ShapesDiffer p) :
    (setIMTArrays t i p c).1 = t ∧ ((setIMTArrays t i p c).2 = .error .valueError ∨
      (d = .grid ∧ (setIMTArrays t i p c).2 = .error .typeError)) := by
  have hs' : p.lons.shape ≠ p.lats.shape ∨ p.lons.shape ≠ p.ids.shape ∨
      p.lons.shape ≠ p.mean.shape ∨ p.lons.shape ≠ p.std.shape := by
    by_contra hc
    simp only [not_or, not_not] at hc
    exact hs ⟨hc.1.symm, hc.2.1.symm, hc.2.2.1.symm, hc.2.2.2.symm⟩
  unfold setIMTArrays
  rw [ht]
  cases d with
  | grid => simp
  | points =>
    simp only
    have e : setDataType t .points = (t, .ok ()) := by
      unfold setDataType; rw [ht]; simp
    rw [e, andThen_ok rfl]
    simp only [if_pos hs']
    simp

/-- **C38** fails in a new container: the call is rejected, but the container has become a points
container and refuses grids from then on. -/
theorem C38_new_container_violated :
    let t : Tree (Cell ℕ ℕ) := .nil
    let r := setIMTArrays t "PGA" { pts 3 with std := arr 4 5 } "rotd50"
    getDataType t = .ok none ∧ (setIMTGrids t "PGA" (arr 3 1) (arr 3 2) "rotd50").2 = .ok () ∧
    r.2 = .error .valueError ∧ getDataType r.1 = .ok (some .points) ∧
    (setIMTGrids r.1 "PGA" (arr 3 1) (arr 3 2) "rotd50").2 = .error .typeError := by
  decide +kernel

/-- A call that fails while storing (here: ids h5py cannot store) leaves the first arrays behind, and
the corrected call then fails too. -/
theorem C38_retry_fails_violated :
    let r := setIMTArrays (J := ℕ) .nil "PGA" { pts 3 with ids := ⟨[3], none⟩ } "rotd50"
    r.2 = .error .typeError ∧
    (setIMTArrays r.1 "PGA" (pts 3) "rotd50").2 = .error .lookupError := by
  decide +kernel

example : ShapesDiffer { pts 3 with std := arr 4 5 } := by simp [ShapesDiffer, pts, arr]

/-! ### C87 -/

/-- **C87**. In every reachable container, `setIMTGrids` that succeeds makes `getIMTGrids` return
exactly the two stored arrays, and does not change what any other array entry holds. -/
theorem C87_grids_roundtrip (ops : List (OutOp J A)) (hp : ∀ op ∈ ops, PlainOut op)
    (i c : String) (hi : PlainName i) (hc : PlainName c) (m s : ArrayArg A)
    (hok : (setIMTGrids (fileAfter .nil ops) i m s c).2 = .ok ()) :
    ∃ m' s', m.stored = some m' ∧ s.stored = some s' ∧
      getIMTGrids (setIMTGrids (fileAfter .nil ops) i m s c).1 i c =
        .ok (.array m', .array s') ∧
      ∀ c' i' x, (c', i') ≠ (c, i) →
        Hdf.value (setIMTGrids (fileAfter .nil ops) i m s c).1 (imtPath c' i' x) =
          Hdf.value (fileAfter .nil ops) (imtPath c' i' x) := by
  obtain ⟨hI, _⟩ := fileAfter_inv (inv_empty (J := J) (A := A)) ops hp
  generalize fileAfter .nil ops = t at hI hok
  have pm : PlainName "mean" := by simp [PlainName]
  have ps : PlainName "std" := by simp [PlainName]
  have hg := imtGroup_plain hc hi
  have e : setIMTGrids t i m s c = andThen (setDataType t .grid) fun t =>
      andThen (setIMTArray t c i "mean" m) fun t => setIMTArray t c i "std" s := by
    unfold setIMTGrids at hok ⊢
    rcases hI.typ with hx | ⟨d, hx⟩
    · rw [hI.getType.1.2 hx]
    · rw [(hI.getType.2 d).2 hx] at hok ⊢
      cases d with
      | points => simp at hok
      | grid => rfl
  obtain ⟨a1, a2, a3, a4⟩ := setDataType_inv hI .grid
  rcases ok_or_error (setDataType t .grid).2 with k1 | ⟨e1, k1⟩
  swap
  · rw [e, andThen_error k1] at hok; simp at hok
  have ht := a3 k1
  rw [andThen_ok k1] at e
  have b := setIMTArray_inv a1 hc hi pm m ht (fun _ => by simp [valueNames])
    (fun e => by simp at e) (fun e => by simp at e)
  rcases ok_or_error (setIMTArray (setDataType t .grid).1 c i "mean" m).2 with k2 | ⟨e2, k2⟩
  swap
  · rw [e, andThen_error k2] at hok; simp at hok
  rw [andThen_ok k2] at e
  have b' := setIMTArray_inv b.1 hc hi ps s (b.2.1 _ ht) (fun _ => by simp [valueNames])
    (fun e => by simp at e) (fun e => by simp at e)
  rw [e] at hok ⊢
  obtain ⟨m', hm1, hm2⟩ := b.2.2.2 k2
  obtain ⟨s', hs1, hs2⟩ := b'.2.2.2 hok
  refine ⟨m', s', hm1, hs1, ?_, ?_⟩
  · unfold getIMTGrids
    rw [(b'.1.getType.2 .grid).2 (b'.2.1 _ (b.2.1 _ ht))]
    simp only
    rw [(getData_iff _ .array hg pm (.array m')).2, (getData_iff _ .array hg ps (.array s')).2 hs2]
    · rfl
    · rw [imtPath_eq, b'.2.2.1 _ (by rw [hm2]; simp), hm2]
  · intro c' i' x hne
    have hp1 : ∀ y : String, imtPath c' i' x ≠ path .array (imtGroup c i) y := by
      intro y hy
      rw [imtPath_eq] at hy
      simp only [imtPath, List.cons.injEq, true_and, and_true] at hy
      exact hne (by rw [hy.1, hy.2.1])
    unfold setIMTArray
    rw [value_setData _ _ hg ps, if_neg (fun h => hp1 _ h.2), value_setData _ _ hg pm,
      if_neg (fun h => hp1 _ h.2), a4 _ (by simp [imtPath, typePath])]

theorem andThen_split {r : Tree B × Except ShakeMap.Err Unit}
    {f : Tree B → Tree B × Except ShakeMap.Err Unit} (h : (andThen r f).2 = .ok ()) :
    r.2 = .ok () ∧ (f r.1).2 = .ok () ∧ andThen r f = f r.1 := by
  rcases ok_or_error r.2 with k | ⟨e, k⟩
  · rw [andThen_ok k] at h ⊢; exact ⟨k, h, rfl⟩
  · rw [andThen_error k] at h; simp at h

/-- Storing one array, whatever the file holds. -/
theorem setIMTArray_ok {t : Tree (Cell J A)} {c i x : String} (hc : PlainName c)
    (hi : PlainName i) (hx : PlainName x) (a : ArrayArg A)
    (hok : (setIMTArray t c i x a).2 = .ok ()) :
    (∃ s, a.stored = some s ∧
      Hdf.value (setIMTArray t c i x a).1 (imtPath c i x) = some (.array s)) ∧
    (∀ q, q ≠ imtPath c i x → Hdf.value (setIMTArray t c i x a).1 q = Hdf.value t q) := by
  have hg := imtGroup_plain hc hi
  unfold setIMTArray at hok ⊢
  have hv := fun q => value_setData t .array hg hx (a.stored.map (Cell.array (J := J))) q
  constructor
  · obtain ⟨b, hb, _⟩ := C34_get_after_set t .array _ x hg hx _ hok
    obtain ⟨s, hs, _⟩ := Option.map_eq_some_iff.1 hb
    refine ⟨s, hs, ?_⟩
    rw [← imtPath_eq, hv, if_pos ⟨hok, rfl⟩, hs, Option.map_some]
  · intro q hq
    rw [hv, if_neg (fun e => hq e.2)]

/-- **C87**. In every reachable container, `setIMTArrays` that succeeds was given five arrays of one
shape; afterwards `getIMTArrays` returns exactly these five, each under its own name, and every
other IMT entry is unchanged. -/
theorem C87_points_roundtrip (ops : List (OutOp J A)) (hp : ∀ op ∈ ops, PlainOut op)
    (i c : String) (hi : PlainName i) (hc : PlainName c) (p : Points A)
    (hok : (setIMTArrays (fileAfter .nil ops) i p c).2 = .ok ()) :
    ¬ ShapesDiffer p ∧
    ∃ lo la id m s, p.lons.stored = some lo ∧ p.lats.stored = some la ∧ p.ids.stored = some id ∧
      p.mean.stored = some m ∧ p.std.stored = some s ∧
      getIMTArrays (setIMTArrays (fileAfter .nil ops) i p c).1 i c =
        .ok [.array lo, .array la, .array id, .array m, .array s] ∧
      ∀ c' i' x, (c', i') ≠ (c, i) →
        Hdf.value (setIMTArrays (fileAfter .nil ops) i p c).1 (imtPath c' i' x) =
          Hdf.value (fileAfter .nil ops) (imtPath c' i' x) := by
  obtain ⟨hI, _⟩ := fileAfter_inv (inv_empty (J := J) (A := A)) ops hp
  generalize fileAfter .nil ops = t at hI hok
  have hg := imtGroup_plain hc hi
  have pl : ∀ x ∈ valueNames ++ coordNames, PlainName x := by
    simp [valueNames, coordNames, PlainName]
  have plo := pl "lons" (by simp [coordNames, valueNames])
  have pla := pl "lats" (by simp [coordNames, valueNames])
  have pid := pl "ids" (by simp [coordNames, valueNames])
  have pm := pl "mean" (by simp [coordNames, valueNames])
  have ps := pl "std" (by simp [coordNames, valueNames])
  have hI2 := (setIMTArrays_inv hI hi hc p)
  obtain ⟨a1, a2, a3, a4⟩ := setDataType_inv hI .points
  have e : setIMTArrays t i p c = andThen (setDataType t .points) fun t =>
      if p.lons.shape ≠ p.lats.shape ∨ p.lons.shape ≠ p.ids.shape ∨
        p.lons.shape ≠ p.mean.shape ∨ p.lons.shape ≠ p.std.shape then (t, .error .valueError)
      else
        andThen (setIMTArray t c i "lons" p.lons) fun t =>
        andThen (setIMTArray t c i "lats" p.lats) fun t =>
        andThen (setIMTArray t c i "ids" p.ids) fun t =>
        andThen (setIMTArray t c i "mean" p.mean) fun t =>
        setIMTArray t c i "std" p.std := by
    unfold setIMTArrays at hok ⊢
    rcases hI.typ with hx | ⟨d, hx⟩
    · rw [hI.getType.1.2 hx]
    · rw [(hI.getType.2 d).2 hx] at hok ⊢
      cases d with
      | points => rfl
      | grid => simp at hok
  rw [e] at hok
  obtain ⟨k0, k1, e0⟩ := andThen_split hok
  have ht := a3 k0
  rw [e0] at e
  clear e0 hok
  by_cases hsh : p.lons.shape ≠ p.lats.shape ∨ p.lons.shape ≠ p.ids.shape ∨
      p.lons.shape ≠ p.mean.shape ∨ p.lons.shape ≠ p.std.shape
  · rw [if_pos hsh] at k1; simp at k1
  rw [if_neg hsh] at k1 e
  obtain ⟨o1, k2, e1⟩ := andThen_split k1
  rw [e1] at e
  obtain ⟨o2, k3, e2⟩ := andThen_split k2
  rw [e2] at e
  obtain ⟨o3, k4, e3⟩ := andThen_split k3
  rw [e3] at e
  obtain ⟨o4, o5, e4⟩ := andThen_split k4
  rw [e4] at e
  obtain ⟨⟨lo, l1, l2⟩, v1⟩ := setIMTArray_ok hc hi plo _ o1
  obtain ⟨⟨la, l3, l4⟩, v2⟩ := setIMTArray_ok hc hi pla _ o2
  obtain ⟨⟨id, l5, l6⟩, v3⟩ := setIMTArray_ok hc hi pid _ o3
  obtain ⟨⟨m, l7, l8⟩, v4⟩ := setIMTArray_ok hc hi pm _ o4
  obtain ⟨⟨s, l9, l10⟩, v5⟩ := setIMTArray_ok hc hi ps _ o5
  refine ⟨?_, lo, la, id, m, s, l1, l3, l5, l7, l9, ?_, ?_⟩
  · simp only [ne_eq, not_or, not_not] at hsh
    exact fun hd => hd ⟨hsh.1.symm, hsh.2.1.symm, hsh.2.2.1.symm, hsh.2.2.2.symm⟩
  · have hty : getDataType (setIMTArrays t i p c).1 = .ok (some .points) := by
      refine (hI2.1.getType.2 .points).2 ?_
      obtain ⟨c', i', x', d, g1, g2, g3, g4, g5⟩ := hI2.1.arrays ["imts", c, i, "lons"]
        (.array lo) (by
          rw [e]
          have := l2
          rw [← v2 _ (by simp [imtPath]), ← v3 _ (by simp [imtPath]),
            ← v4 _ (by simp [imtPath]), ← v5 _ (by simp [imtPath])] at this
          exact this)
      cases d with
      | points => exact g2
      | grid =>
        have := g3 rfl
        simp only [List.cons.injEq, true_and, and_true] at g1
        rw [← g1.2.2] at this
        simp [valueNames] at this
    unfold getIMTArrays
    rw [hty]
    simp only [List.mapM_cons, List.mapM_nil]
    rw [e]
    rw [(getData_iff _ .array hg plo (.array lo)).2, (getData_iff _ .array hg pla (.array la)).2,
      (getData_iff _ .array hg pid (.array id)).2, (getData_iff _ .array hg pm (.array m)).2,
      (getData_iff _ .array hg ps (.array s)).2]
    · rfl
    · exact l10
    · rw [imtPath_eq, v5 _ (by simp [imtPath])]; exact l8
    · rw [imtPath_eq, v5 _ (by simp [imtPath]), v4 _ (by simp [imtPath])]; exact l6
    · rw [imtPath_eq, v5 _ (by simp [imtPath]), v4 _ (by simp [imtPath]),
        v3 _ (by simp [imtPath])]; exact l4
    · rw [imtPath_eq, v5 _ (by simp [imtPath]), v4 _ (by simp [imtPath]),
        v3 _ (by simp [imtPath]), v2 _ (by simp [imtPath])]; exact l2
  · intro c' i' x hne
    have hp1 : ∀ y : String, imtPath c' i' x ≠ imtPath c i y := by
      intro y hy
      simp only [imtPath, List.cons.injEq, true_and, and_true] at hy
      exact hne (by rw [hy.1, hy.2.1])
    rw [e, v5 _ (hp1 _), v4 _ (hp1 _), v3 _ (hp1 _), v2 _ (hp1 _), v1 _ (hp1 _),
      a4 _ (by simp [imtPath, typePath])]

theorem getComponents_iff (t : Tree B) (c : String) (k : Tree B)
    (h : lookup t ["arrays", "imts"] = some (.dir k)) :
    c ∈ getComponents t ↔ (lookup t ["arrays", "imts", c]).isSome := by
  rw [show ["arrays", "imts", c] = ["arrays", "imts"] ++ [c] from rfl, lookup_append, h]
  simp only [getComponents, h, mem_keys_iff, Option.bind_some]
  rw [below, lookup_singleton]

/-- **C87**. `dropIMT` removes the IMT from every component and nothing else; afterwards no
component lists it. -/
theorem C87_drop (t : Tree B) (i : String) (hi : PlainName i)
    (hok : (dropIMT t i).2 = .ok ()) :
    (∀ c q, Hdf.value (dropIMT t i).1 (["arrays", "imts", c, i] ++ q) = none) ∧
    (∀ q, (∀ c, ¬ ["arrays", "imts", c, i] <+: q) →
      Hdf.value (dropIMT t i).1 q = Hdf.value t q) ∧
    getComponentsOf (dropIMT t i).1 i = [] := by
  have e : ∀ c, resolve ["arrays", "imts", c] i = ["arrays", "imts", c, i] := by
    intro c; rw [resolve_plain hi]; rfl
  -- what deleting a list of components does
  have fold : ∀ (cs : List String) (t1 : Tree B),
      (∀ (_ : String) (q : List String), Hdf.value (cs.foldl (fun t c => eraseAt t (resolve ["arrays", "imts", c] i)) t1) q =
        if ∃ c ∈ cs, ["arrays", "imts", c, i] <+: q then none else Hdf.value t1 q) ∧
      (∀ c, (lookup (cs.foldl (fun t c => eraseAt t (resolve ["arrays", "imts", c] i)) t1)
        ["arrays", "imts", c, i]).isSome →
        c ∉ cs ∧ (lookup t1 ["arrays", "imts", c, i]).isSome) := by
    intro cs
    induction cs with
    | nil => intro t1; simp
    | cons c0 cs ih =>
      intro t1
      rw [List.foldl_cons, e]
      obtain ⟨i1, i2⟩ := ih (eraseAt t1 ["arrays", "imts", c0, i])
      constructor
      · intro c q
        rw [i1 c q, value_eraseAt t1 (by simp)]
        by_cases h1 : ∃ c ∈ cs, ["arrays", "imts", c, i] <+: q
        · rw [if_pos h1, if_pos]
          obtain ⟨c, hc, h⟩ := h1
          exact ⟨c, by simp [hc], h⟩
        · rw [if_neg h1]
          by_cases h2 : ["arrays", "imts", c0, i] <+: q
          · rw [if_pos h2, if_pos ⟨c0, by simp, h2⟩]
          · rw [if_neg h2, if_neg]
            rintro ⟨c, hc, h⟩
            rcases List.mem_cons.1 hc with rfl | hc
            exacts [h2 h, h1 ⟨c, hc, h⟩]
      · intro c hc
        obtain ⟨j1, j2⟩ := i2 c hc
        by_cases h0 : c = c0
        · subst h0
          have := lookup_eraseAt_below t1 (p := ["arrays", "imts", c, i]) (by simp) []
          rw [List.append_nil] at this
          rw [this] at j2; simp at j2
        · rw [lookup_eraseAt_other] at j2
          · exact ⟨by simp [h0, j1], j2⟩
          · simp [Ne.symm h0]
          · simp [h0]
  unfold dropIMT at hok ⊢
  rcases hl : lookup t ["arrays", "imts"] with _ | x
  · rw [hl] at hok; simp at hok
  simp only
  obtain ⟨f1, f2⟩ := fold (getComponentsOf t i) t
  have hcomp : ∀ c, (lookup t ["arrays", "imts", c, i]).isSome → c ∈ getComponentsOf t i := by
    intro c hc
    rcases x with v | k
    · rw [show ["arrays", "imts", c, i] = ["arrays", "imts"] ++ [c, i] from rfl, lookup_append,
        hl] at hc
      simp [below] at hc
    · unfold getComponentsOf
      rw [List.mem_filter, contains_plain hi]
      refine ⟨?_, hc⟩
      rw [getComponents_iff t c k hl]
      by_contra hno
      have := lookup_none_of_prefix (t := t) (p := ["arrays", "imts", c])
        (q := ["arrays", "imts", c, i]) (by simpa using hno) ⟨[i], rfl⟩
      rw [this] at hc; simp at hc
  refine ⟨?_, ?_, ?_⟩
  · intro c q
    rw [f1 c]
    split_ifs with h
    · rfl
    · by_contra hv
      have hs : (lookup t ["arrays", "imts", c, i]).isSome := by
        by_contra hno
        have := lookup_none_of_prefix (t := t) (p := ["arrays", "imts", c, i])
          (q := ["arrays", "imts", c, i] ++ q) (by simpa using hno) ⟨q, rfl⟩
        rw [Hdf.value, this] at hv
        exact hv rfl
      exact h ⟨c, hcomp c hs, ⟨q, rfl⟩⟩
  · intro q hq
    rw [f1 i q, if_neg]
    rintro ⟨c, _, h⟩
    exact hq c h
  · rw [getComponentsOf, List.filter_eq_nil_iff]
    intro c _ hcon
    rw [contains_plain hi] at hcon
    obtain ⟨h1, h2⟩ := f2 c hcon
    exact h1 (hcomp c h2)

/-- **C87**. A component lists exactly the names in its group, and the components of an IMT are
exactly the components whose group has it. -/
theorem C87_listings (t : Tree B) (k : Tree B) (hk : lookup t ["arrays", "imts"] = some (.dir k))
    (i : String) (hi : PlainName i) :
    (∀ c, c ∈ getComponentsOf t i ↔ (lookup t ["arrays", "imts", c, i]).isSome) ∧
    (∀ c ks, getIMTs t c = .ok ks → ∀ j, j ∈ ks ↔ (lookup t ["arrays", "imts", c, j]).isSome) := by
  constructor
  · intro c
    unfold getComponentsOf
    rw [List.mem_filter, contains_plain hi, getComponents_iff t c k hk]
    constructor
    · exact fun h => h.2
    · intro h
      refine ⟨?_, h⟩
      by_contra hno
      have := lookup_none_of_prefix (t := t) (p := ["arrays", "imts", c])
        (q := ["arrays", "imts", c, i]) (by simpa using hno) ⟨[i], rfl⟩
      rw [this] at h; simp at h
  · intro c ks h j
    unfold getIMTs componentKeys at h
    rw [hk] at h
    rcases hl : lookup t ["arrays", "imts", c] with _ | (v | kids)
    · rw [hl] at h; simp at h
    · rw [hl] at h; simp at h
    · rw [hl] at h
      simp only [Except.ok.injEq] at h
      subst h
      rw [show ["arrays", "imts", c, j] = ["arrays", "imts", c] ++ [j] from rfl, lookup_append, hl,
        mem_keys_iff]
      simp only [Option.bind_some]
      rw [below, lookup_singleton]

/-- A grid container with two IMTs. -/
def gridFile : Tree (Cell ℕ ℕ) :=
  fileAfter .nil [.setIMTGrids "PGA" (arr 3 1) (arr 3 2) "rotd50",
    .setIMTGrids "PGV" (arr 3 3) (arr 3 4) "rotd50", .setIMTGrids "PGA" (arr 3 5) (arr 3 6) "Larger"]

example : getIMTGrids gridFile "PGA" "rotd50" = .ok (.array 1, .array 2) ∧
    getAllIMTs gridFile = ["Larger/PGA", "rotd50/PGA", "rotd50/PGV"] ∧
    (dropIMT gridFile "PGA").2 = .ok () ∧
    getAllIMTs (dropIMT gridFile "PGA").1 = ["rotd50/PGV"] ∧
    getComponents (dropIMT gridFile "PGA").1 = ["Larger", "rotd50"] := by decide +kernel

end Verif.Props
