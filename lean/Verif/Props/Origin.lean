import Verif.Model.Origin
import Mathlib.Tactic.Linarith
import Mathlib.Tactic.NormNum
import Mathlib.Tactic.Push
import Mathlib.Tactic.Ring

/-!
# Origins: C69, C70, C115
-/

namespace Verif.Props
open Verif.Origin

/-! ### C69: mechanism -/

/-- The table in the documentation of `setMechanism`: mechanism, rake, dip. -/
def mechTable : List (String × ℚ × ℚ) := [("RS", 90, 40), ("NM", -90, 50), ("SS", 0, 90), ("ALL", 45, 90)]

theorem mechDefaults_iff (m : String) (r d : ℚ) : mechDefaults m = some (r, d) ↔ (m, r, d) ∈ mechTable := by
  unfold mechDefaults mechTable
  constructor
  · intro h
    split at h <;> simp at h <;> obtain ⟨rfl, rfl⟩ := h <;> simp
  · intro h
    simp only [List.mem_cons, Prod.mk.injEq, List.not_mem_nil, or_false] at h
    rcases h with ⟨rfl, rfl, rfl⟩ | ⟨rfl, rfl, rfl⟩ | ⟨rfl, rfl, rfl⟩ | ⟨rfl, rfl, rfl⟩ <;> rfl

/-- A requested angle is a number and not `nan` or infinite. -/
def Finite (x : Option Fl) : Prop := ∀ v, x = some v → ∃ q, v = .fin q

theorem turnRake_fin (q : ℚ) :
    (∃ r, turnRake (.fin q) = .fin r ∧ (-540 ≤ q → q ≤ 540 → -180 ≤ r ∧ r ≤ 180 ∧ ∃ n : ℤ, r = q + 360 * n) ∧
      (¬ (-540 ≤ q ∧ q ≤ 540) → r < -180 ∨ 180 < r) ∧ (-180 ≤ q → q ≤ 180 → r = q)) := by
  unfold turnRake
  by_cases h1 : q < -180
  · by_cases h2 : 180 < q + 360
    · linarith
    · refine ⟨q + 360, by simp [Fl.lt, Fl.gt, Fl.plus, h1, h2], ?_, ?_, ?_⟩
      · intro a b; exact ⟨by linarith, by linarith, 1, by push_cast; ring⟩
      · intro h; left; by_contra hc; exact h ⟨by linarith, by linarith⟩
      · intro a; linarith
  · by_cases h2 : 180 < q
    · refine ⟨q - 360, by simp [Fl.lt, Fl.gt, Fl.plus, h1, h2, sub_eq_add_neg], ?_, ?_, ?_⟩
      · intro a b; exact ⟨by linarith, by linarith, -1, by push_cast; ring⟩
      · intro h; right; by_contra hc; exact h ⟨by linarith, by linarith⟩
      · intro a b; linarith
    · refine ⟨q, by simp [Fl.lt, Fl.gt, h1, h2], ?_, ?_, ?_⟩
      · intro a b; exact ⟨by linarith, by linarith, 0, by simp⟩
      · intro h; exact absurd ⟨by linarith, by linarith⟩ h
      · intro _ _; rfl

/-- **C69** (partial). For angles that are numbers: `setMechanism` succeeds exactly when the mechanism is in the table,
the dip, if any, is in `[0, 90]` and the rake, if any, is in `[-540, 540]`. If it raises, the origin is as before.
If it succeeds, the mechanism is the requested one, the dip and rake are the ones requested or those of the table;
the rake is moved by full turns to `[-180, 180]`, and is not moved if it is there. What is missing: `nan`, see
below. -/
theorem C69_set_mechanism_partial (o : Mechanism) (mech : Option String) (rake dip : Option Fl)
    (hr : Finite rake) (hd : Finite dip) :
    ((setMechanism o mech rake dip).1 = true → (setMechanism o mech rake dip).2 = o) ∧
    ((setMechanism o mech rake dip).1 = false ↔
      (∃ m r d, mech = some m ∧ (m, r, d) ∈ mechTable) ∧ (∀ q, dip = some (.fin q) → 0 ≤ q ∧ q ≤ 90) ∧
      (∀ q, rake = some (.fin q) → -540 ≤ q ∧ q ≤ 540)) ∧
    ((setMechanism o mech rake dip).1 = false →
      ∃ m r0 d0 r d, (m, r0, d0) ∈ mechTable ∧ mech = some m ∧
        (setMechanism o mech rake dip).2 = ⟨m, .fin r, some (.fin d)⟩ ∧
        0 ≤ d ∧ d ≤ 90 ∧ -180 ≤ r ∧ r ≤ 180 ∧
        (dip = none → d = d0) ∧ (∀ q, dip = some (.fin q) → d = q) ∧
        (rake = none → r = r0) ∧
        (∀ q, rake = some (.fin q) → (∃ n : ℤ, r = q + 360 * n) ∧ (-180 ≤ q → q ≤ 180 → r = q))) := by
  cases mech with
  | none => simp [setMechanism]
  | some m =>
  cases hm : mechDefaults m with
  | none =>
    have hno : ¬ ∃ r d, (m, r, d) ∈ mechTable := by
      rintro ⟨r, d, h⟩
      rw [← mechDefaults_iff, hm] at h
      simp at h
    refine ⟨by simp [setMechanism, hm], ?_, by simp [setMechanism, hm]⟩
    simp only [setMechanism, Option.bind_some, hm, Option.map_none, Bool.true_eq_false, false_iff]
    rintro ⟨⟨m', r, d, h1, h2⟩, -⟩
    cases h1
    exact hno ⟨r, d, h2⟩
  | some rd =>
    obtain ⟨r0, d0⟩ := rd
    have htab := (mechDefaults_iff m r0 d0).mp hm
    have hrange : 0 ≤ d0 ∧ d0 ≤ 90 ∧ -180 ≤ r0 ∧ r0 ≤ 180 := by
      simp only [mechTable, List.mem_cons, Prod.mk.injEq, List.not_mem_nil, or_false] at htab
      rcases htab with ⟨-, rfl, rfl⟩ | ⟨-, rfl, rfl⟩ | ⟨-, rfl, rfl⟩ | ⟨-, rfl, rfl⟩ <;> norm_num
    have hex : ∃ m' r d, some m = some m' ∧ (m', r, d) ∈ mechTable := ⟨m, r0, d0, rfl, htab⟩
    -- the second half, for an accepted dip
    have key : ∀ dq : ℚ, 0 ≤ dq → dq ≤ 90 →
        ((setMechanism.setRake rake o m r0 (.fin dq)).1 = true →
          (setMechanism.setRake rake o m r0 (.fin dq)).2 = o) ∧
        ((setMechanism.setRake rake o m r0 (.fin dq)).1 = false ↔
          ∀ q, rake = some (.fin q) → -540 ≤ q ∧ q ≤ 540) ∧
        ((setMechanism.setRake rake o m r0 (.fin dq)).1 = false →
          ∃ r, (setMechanism.setRake rake o m r0 (.fin dq)).2 = ⟨m, .fin r, some (.fin dq)⟩ ∧ -180 ≤ r ∧ r ≤ 180 ∧
            (rake = none → r = r0) ∧
            (∀ q, rake = some (.fin q) → (∃ n : ℤ, r = q + 360 * n) ∧ (-180 ≤ q → q ≤ 180 → r = q))) := by
      intro dq h0 h1
      cases rake with
      | none =>
        refine ⟨by simp [setMechanism.setRake], by simp [setMechanism.setRake], ?_⟩
        intro _
        exact ⟨r0, rfl, hrange.2.2.1, hrange.2.2.2, fun _ => rfl, by simp⟩
      | some v =>
        obtain ⟨q, rfl⟩ := hr v rfl
        obtain ⟨r, e, a, b, c⟩ := turnRake_fin q
        unfold setMechanism.setRake
        simp only [e]
        by_cases hq : -540 ≤ q ∧ q ≤ 540
        · obtain ⟨a1, a2, a3⟩ := a hq.1 hq.2
          rw [if_neg (by simpa [Fl.lt, Fl.gt] using ⟨a1, a2⟩)]
          refine ⟨by simp, ?_, ?_⟩
          · simp only [true_iff]
            intro q' h'
            cases h'
            exact hq
          · intro _
            refine ⟨r, rfl, a1, a2, by simp, ?_⟩
            intro q' h'
            cases h'
            exact ⟨a3, c⟩
        · rw [if_pos (by simpa [Fl.lt, Fl.gt] using b hq)]
          refine ⟨fun _ => rfl, ?_, by simp⟩
          simp only [Bool.true_eq_false, false_iff]
          intro h
          exact hq (h q rfl)
    cases dip with
    | none =>
      have hs : setMechanism o (some m) rake none = setMechanism.setRake rake o m r0 (.fin d0) := by
        simp [setMechanism, hm]
      rw [hs]
      obtain ⟨k1, k2, k3⟩ := key d0 hrange.1 hrange.2.1
      refine ⟨k1, ?_, ?_⟩
      · rw [k2]
        constructor
        · intro h; exact ⟨hex, by simp, h⟩
        · intro h; exact h.2.2
      · intro h
        obtain ⟨r, e, a, b, c, d⟩ := k3 h
        exact ⟨m, r0, d0, r, d0, htab, rfl, e, hrange.1, hrange.2.1, a, b, fun _ => rfl, by simp, c, d⟩
    | some v =>
      obtain ⟨dq, rfl⟩ := hd v rfl
      by_cases hdq : 0 ≤ dq ∧ dq ≤ 90
      · have hs : setMechanism o (some m) rake (some (.fin dq)) = setMechanism.setRake rake o m r0 (.fin dq) := by
          simp only [setMechanism, Option.bind_some, hm, Option.map_some]
          rw [if_neg (by simpa [Fl.lt, Fl.gt] using hdq)]
        rw [hs]
        obtain ⟨k1, k2, k3⟩ := key dq hdq.1 hdq.2
        refine ⟨k1, ?_, ?_⟩
        · rw [k2]
          constructor
          · intro h
            refine ⟨hex, ?_, h⟩
            intro q hq
            cases hq
            exact hdq
          · intro h; exact h.2.2
        · intro h
          obtain ⟨r, e, a, b, c, d⟩ := k3 h
          refine ⟨m, r0, d0, r, dq, htab, rfl, e, hdq.1, hdq.2, a, b, by simp, ?_, c, d⟩
          intro q hq
          cases hq
          rfl
      · have hs : setMechanism o (some m) rake (some (.fin dq)) = (true, o) := by
          simp only [setMechanism, Option.bind_some, hm, Option.map_some]
          rw [if_pos]
          by_contra h
          apply hdq
          simpa [Fl.lt, Fl.gt] using h
        rw [hs]
        refine ⟨fun _ => rfl, ?_, by simp⟩
        simp only [Bool.true_eq_false, false_iff]
        rintro ⟨-, h, -⟩
        exact hdq (h dq rfl)

/-- A reverse mechanism with a rake of 270 degrees. -/
example : setMechanism ⟨"ALL", .fin 0, none⟩ (some "RS") (some (.fin 270)) none =
    (false, ⟨"RS", .fin (-90), some (.fin 40)⟩) := by decide +kernel

/-- **C69** violated: a dip and a rake that are `nan` are accepted and stored for every mechanism of the table. -/
theorem C69_nan_violated (o : Mechanism) (m : String) (r d : ℚ) (h : (m, r, d) ∈ mechTable) :
    setMechanism o (some m) (some .nan) (some .nan) = (false, ⟨m, .nan, some .nan⟩) := by
  rw [← mechDefaults_iff] at h
  simp only [setMechanism, Option.bind_some, h, Option.map_some]
  rfl

/-! ### Dictionaries -/

theorem get_set (d : Dict) (k k' : String) (v : Val) :
    (d.set k v).get k' = if k' = k then some v else d.get k' := by
  induction d with
  | nil =>
    unfold Dict.set Dict.get
    by_cases h : k' = k
    · simp [List.lookup, h]
    · simp [List.lookup, h, beq_eq_false_iff_ne.mpr h]
  | cons p d ih =>
    obtain ⟨a, b⟩ := p
    unfold Dict.set
    split_ifs with h h2 h2
    · subst h; subst h2; simp [Dict.get, List.lookup]
    · subst h; simp [Dict.get, List.lookup, beq_eq_false_iff_ne.mpr h2]
    · rw [if_pos h2] at ih
      subst h2
      simp only [Dict.get, List.lookup] at ih ⊢
      rw [show (k' == a) = false by simpa using fun e => h e.symm]
      exact ih
    · rw [if_neg h2] at ih
      simp only [Dict.get, List.lookup] at ih ⊢
      rw [ih]

theorem get_del (d : Dict) (k k' : String) : (d.del k).get k' = if k' = k then none else d.get k' := by
  induction d with
  | nil => simp [Dict.del, Dict.get]
  | cons p d ih =>
    obtain ⟨a, b⟩ := p
    unfold Dict.del Dict.get at *
    by_cases h : a = k
    · subst h
      rw [List.filter_cons_of_neg (by simp), ih]
      split_ifs with h2
      · rfl
      · simp [List.lookup, beq_eq_false_iff_ne.mpr h2]
    · rw [List.filter_cons_of_pos (by simpa using h)]
      simp only [List.lookup]
      by_cases h2 : k' = a
      · subst h2; simp [h]
      · rw [show (k' == a) = false by simpa using h2]
        exact ih

theorem mem_set (d : Dict) (k k' : String) (v w : Val) (h : k' ≠ k) : (k', w) ∈ d.set k v ↔ (k', w) ∈ d := by
  induction d with
  | nil => simp [Dict.set, h]
  | cons p d ih =>
    obtain ⟨a, b⟩ := p
    unfold Dict.set
    split_ifs with h2
    · subst h2; simp [h]
    · rw [List.mem_cons, List.mem_cons, ih]

theorem mem_del (d : Dict) (k k' : String) (w : Val) (h : k' ≠ k) : (k', w) ∈ d.del k ↔ (k', w) ∈ d := by
  unfold Dict.del
  rw [List.mem_filter]
  simp [h]

/-! ### C70: constructor -/

/-- `float` gives `x` for the value. -/
def FloatOf (parse : String → Option Fl) (v : Val) (x : Fl) : Prop :=
  v = .num x ∨ ∃ s, v = .str s ∧ parse s = some x

theorem toFloat_iff (parse : String → Option Fl) (v : Val) (x : Fl) : toFloat parse v = .ok x ↔ FloatOf parse v x := by
  unfold FloatOf
  cases v with
  | null => simp [toFloat]
  | str s =>
    simp only [toFloat]
    cases hp : parse s <;> simp [hp]
  | num y => simp [toFloat]
  | other n => simp [toFloat]

/-- `m` is the mechanism that an event dictionary asks for: the value of `mech` or, without `mech`, that of `type`; `ALL`
when the value is empty or there is none. -/
def MechOf (ev : Dict) (m : String) : Prop :=
  match ev.lookup "mech", ev.lookup "type" with
  | some v, _ => v = .str m ∧ m ≠ "" ∨ v = .str "" ∧ m = "ALL"
  | none, some v => v = .str m ∧ m ≠ "" ∨ v = .str "" ∧ m = "ALL"
  | none, none => m = "ALL"

/-- The rake that goes with a mechanism. -/
def mechRake : List (String × ℚ) := [("SS", 0), ("NM", -90), ("RS", 90), ("ALL", 0)]

/-- A coordinate passes the checks: it is not known to be out of range. -/
def Passes (parse : String → Option Fl) (ev : Dict) (k : String) (limit : ℚ) : Prop :=
  ∃ v x, ev.lookup k = some v ∧ FloatOf parse v x ∧
    (x = .nan ∨ ∃ q, x = .fin q ∧ -limit ≤ q ∧ q ≤ limit)

theorem checkCoord_iff (parse : String → Option Fl) (ev : Dict) (k : String) (limit : ℚ) :
    checkCoord parse ev k limit = .ok () ↔ Passes parse ev k limit := by
  unfold checkCoord Passes Dict.get
  cases hv : ev.lookup k with
  | none => simp
  | some v =>
    simp only [Option.some.injEq]
    cases hf : toFloat parse v with
    | error e =>
      simp only [reduceCtorEq, false_iff]
      rintro ⟨v', x, rfl, h, -⟩
      rw [← toFloat_iff, hf] at h
      simp at h
    | ok x =>
      have hx := (toFloat_iff parse v x).mp hf
      simp only
      constructor
      · intro h
        refine ⟨v, x, rfl, hx, ?_⟩
        split_ifs at h with hc
        cases x with
        | fin q => right; refine ⟨q, rfl, ?_⟩; simpa [Fl.gt, Fl.lt, and_comm] using hc
        | inf => simp [Fl.gt] at hc
        | ninf => simp [Fl.lt] at hc
        | nan => left; rfl
      · rintro ⟨v', y, rfl, hy, hr⟩
        have hxy : x = y := by
          rw [← toFloat_iff, hf] at hy
          simpa using hy
        subst hxy
        rw [if_neg]
        rcases hr with rfl | ⟨q, rfl, h1, h2⟩
        · simp [Fl.gt, Fl.lt]
        · simp [Fl.gt, Fl.lt, h1, h2]

theorem checkCoord_key (parse : String → Option Fl) (ev : Dict) (k : String) (limit : ℚ)
    (h : (ev.lookup k).isSome) : checkCoord parse ev k limit ≠ .error .key := by
  unfold checkCoord Dict.get
  obtain ⟨v, hv⟩ := Option.isSome_iff_exists.mp h
  rw [hv]
  simp only
  cases v with
  | null => simp [toFloat]
  | str s =>
    simp only [toFloat]
    cases parse s with
    | none => simp
    | some x => simp only; split_ifs <;> simp
  | num x => simp only [toFloat]; split_ifs <;> simp
  | other n => simp [toFloat]

theorem mech_event (ev : Dict) (m : String) :
    (fillMech (moveType ev)).get "mech" = some (.str m) ↔ MechOf ev m := by
  have hm : (moveType ev).get "mech" = match ev.lookup "mech", ev.lookup "type" with
      | some v, _ => some v
      | none, some v => some v
      | none, none => none := by
    unfold moveType Dict.get
    cases h1 : ev.lookup "mech" with
    | some v => cases ev.lookup "type" <;> simp [h1]
    | none =>
      cases h2 : ev.lookup "type" with
      | none => simp [h1]
      | some v =>
        simp only
        have := get_del (ev.set "mech" v) "type" "mech"
        rw [if_neg (by decide), get_set, if_pos rfl] at this
        exact this
  have key : ∀ v : Val, (if v = .str "" then some (Val.str "ALL") else some v) = some (.str m) ↔
      (v = .str m ∧ m ≠ "" ∨ v = .str "" ∧ m = "ALL") := by
    intro v
    split_ifs with h
    · subst h
      simp only [Option.some.injEq, Val.str.injEq]
      constructor
      · intro h; right; exact ⟨trivial, h.symm⟩
      · rintro (⟨h1, h2⟩ | ⟨-, h⟩)
        · exact absurd h1.symm h2
        · exact h.symm
    · simp only [Option.some.injEq]
      constructor
      · rintro rfl
        left
        refine ⟨rfl, ?_⟩
        rintro rfl
        exact h rfl
      · rintro (⟨h1, -⟩ | ⟨h1, -⟩)
        · exact h1
        · exact absurd h1 h
  have hfill : (fillMech (moveType ev)).get "mech" = match (moveType ev).get "mech" with
      | some v => if v = .str "" then some (.str "ALL") else some v
      | none => some (.str "ALL") := by
    unfold fillMech
    cases h : (moveType ev).get "mech" with
    | none => simp only [get_set, if_true]
    | some v =>
      simp only
      split_ifs with h2
      · rw [get_set, if_pos rfl]
      · exact h
  rw [hfill, hm]
  unfold MechOf
  cases h1 : ev.lookup "mech" with
  | some v => simp only; exact key v
  | none =>
    cases h2 : ev.lookup "type" with
    | some v => simp only; exact key v
    | none => simp [eq_comm]

theorem get_event (ev : Dict) (k : String) (h1 : k ≠ "mech") (h2 : k ≠ "type") :
    (fillMech (moveType ev)).get k = ev.get k := by
  have hm : (moveType ev).get k = ev.get k := by
    unfold moveType
    split
    · rw [get_del, if_neg h2, get_set, if_neg h1]
    · rfl
  unfold fillMech
  split
  · split_ifs
    · rw [get_set, if_neg h1, hm]
    · exact hm
  · rw [get_set, if_neg h1, hm]

theorem mem_event (ev : Dict) (k : String) (v : Val) (h1 : k ≠ "mech") (h2 : k ≠ "type") :
    (k, v) ∈ fillMech (moveType ev) ↔ (k, v) ∈ ev := by
  have hm : (k, v) ∈ moveType ev ↔ (k, v) ∈ ev := by
    unfold moveType
    split
    · rw [mem_del _ _ _ _ h2, mem_set _ _ _ _ _ h1]
    · rfl
  unfold fillMech
  split
  · split_ifs
    · rw [mem_set _ _ _ _ _ h1, hm]
    · exact hm
  · rw [mem_set _ _ _ _ _ h1, hm]

theorem setAttrs_ok (parse : String → Option Fl) (d : Dict) :
    ((∃ a, setAttrs parse d = .ok a) ↔ ∀ v, ("rake", v) ∈ d → ∃ x, FloatOf parse v x) ∧
    ∀ a, setAttrs parse d = .ok a →
      (∀ k, k ≠ "rake" → a.get k = d.get k) ∧
      (d.get "rake" = none → a.get "rake" = none) ∧
      (∀ v, d.get "rake" = some v → ∃ x, FloatOf parse v x ∧ a.get "rake" = some (.num x)) := by
  induction d with
  | nil => simp [setAttrs, Dict.get]
  | cons p d ih =>
    obtain ⟨k, v⟩ := p
    obtain ⟨ih1, ih2⟩ := ih
    by_cases hk : k = "rake"
    · subst hk
      cases hf : toFloat parse v with
      | error e =>
        have hs : setAttrs parse (("rake", v) :: d) = .error e := by
          simp [setAttrs, hf, Except.map]
        rw [hs]
        refine ⟨?_, by simp⟩
        simp only [reduceCtorEq, exists_false, false_iff]
        intro h
        obtain ⟨x, hx⟩ := h v (by simp)
        rw [← toFloat_iff, hf] at hx
        simp at hx
      | ok x =>
        have hx := (toFloat_iff parse v x).mp hf
        cases hd : setAttrs parse d with
        | error e =>
          have hs : setAttrs parse (("rake", v) :: d) = .error e := by
            simp [setAttrs, hf, Except.map, hd]
          rw [hs]
          refine ⟨?_, by simp⟩
          rw [hd] at ih1
          simp only [reduceCtorEq, exists_false, false_iff] at ih1 ⊢
          intro h
          exact ih1 (fun w hw => h w (by simp [hw]))
        | ok a =>
          have hs : setAttrs parse (("rake", v) :: d) = .ok (("rake", .num x) :: a) := by
            simp [setAttrs, hf, Except.map, hd]
          rw [hs]
          rw [hd] at ih1
          obtain ⟨j1, j2, j3⟩ := ih2 a hd
          refine ⟨?_, ?_⟩
          · simp only [Except.ok.injEq, exists_eq', true_iff] at ih1 ⊢
            intro w hw
            rcases List.mem_cons.mp hw with h | h
            · cases h; exact ⟨x, hx⟩
            · exact ih1 w h
          · intro b hb
            cases hb
            refine ⟨?_, ?_, ?_⟩
            · intro k hk
              simp only [Dict.get, List.lookup]
              rw [show (k == "rake") = false by simpa using hk]
              exact j1 k hk
            · simp [Dict.get, List.lookup]
            · intro w hw
              simp only [Dict.get, List.lookup, beq_self_eq_true, Option.some.injEq] at hw
              subst hw
              exact ⟨x, hx, by simp [Dict.get, List.lookup]⟩
    · cases hd : setAttrs parse d with
      | error e =>
        have hs : setAttrs parse ((k, v) :: d) = .error e := by
          simp [setAttrs, hk, hd]
        rw [hs]
        refine ⟨?_, by simp⟩
        rw [hd] at ih1
        simp only [reduceCtorEq, exists_false, false_iff] at ih1 ⊢
        intro h
        exact ih1 (fun w hw => h w (by simp [hw]))
      | ok a =>
        have hs : setAttrs parse ((k, v) :: d) = .ok ((k, v) :: a) := by
          simp [setAttrs, hk, hd]
        rw [hs]
        rw [hd] at ih1
        obtain ⟨j1, j2, j3⟩ := ih2 a hd
        have hne : ("rake" == k) = false := by simpa using fun h => hk h.symm
        refine ⟨?_, ?_⟩
        · simp only [Except.ok.injEq, exists_eq', true_iff] at ih1 ⊢
          intro w hw
          rcases List.mem_cons.mp hw with h | h
          · simp only [Prod.mk.injEq] at h; exact absurd h.1.symm hk
          · exact ih1 w h
        · intro b hb
          cases hb
          refine ⟨?_, ?_, ?_⟩
          · intro k' hk'
            have := j1 k' hk'
            simp only [Dict.get, List.lookup] at this ⊢
            rw [this]
          · intro h
            simp only [Dict.get, List.lookup, hne] at h ⊢
            exact j2 h
          · intro w hw
            simp only [Dict.get, List.lookup, hne] at hw ⊢
            exact j3 w hw

theorem rakeDict_iff (m : String) (r : ℚ) :
    (∃ d, rakeDict m = some d ∧ d.getD 0 = r) ↔ (m, r) ∈ mechRake := by
  unfold rakeDict mechRake
  constructor
  · rintro ⟨d, h, rfl⟩
    split at h <;> simp at h <;> subst h <;> simp
  · intro h
    simp only [List.mem_cons, Prod.mk.injEq, List.not_mem_nil, or_false] at h
    rcases h with ⟨rfl, rfl⟩ | ⟨rfl, rfl⟩ | ⟨rfl, rfl⟩ | ⟨rfl, rfl⟩ <;> simp

theorem get_addRake (a : Dict) (d : Option ℚ) (k : String) (hk : k ≠ "rake") : (addRake a d).get k = a.get k := by
  unfold addRake
  split_ifs
  · rfl
  · unfold Dict.get
    rw [List.lookup_append]
    simp [List.lookup, beq_eq_false_iff_ne.mpr hk]

/-- The required keys, from the documentation of `Origin`. -/
def originKeys : List String := ["id", "netid", "network", "lat", "lon", "depth", "locstring", "mag", "time"]

/-- **C70** (partial). The constructor of `Origin` raises `KeyError` exactly when a required key is missing. It succeeds
exactly when the required keys are there, the id is a string or `None`, the latitude and longitude are numbers that are
not out of range, the mechanism is known, and the rake, if any, is a number. An origin has the mechanism that
the dictionary asks for; its rake is the one in the dictionary or the one that goes with the mechanism; all other keys are
as in the dictionary, but for `type` if it is used as mechanism. What is missing: coordinates that are `nan` are accepted,
see below. -/
theorem C70_construct_partial (parse : String → Option Fl) (ev : Dict) :
    ((construct parse ev).1 = .error .key ↔ ∃ k ∈ originKeys, ev.lookup k = none) ∧
    ((∃ a, (construct parse ev).1 = .ok a) ↔
      (∀ k ∈ originKeys, ev.lookup k ≠ none) ∧
      (ev.lookup "id" = some .null ∨ ∃ s, ev.lookup "id" = some (.str s)) ∧
      Passes parse ev "lat" 90 ∧ Passes parse ev "lon" 180 ∧
      (∃ m r, MechOf ev m ∧ (m, r) ∈ mechRake) ∧
      ∀ v, ("rake", v) ∈ ev → ∃ x, FloatOf parse v x) ∧
    ∀ a, (construct parse ev).1 = .ok a →
      ∃ m r, MechOf ev m ∧ (m, r) ∈ mechRake ∧ a.lookup "mech" = some (.str m) ∧
        (ev.lookup "rake" = none → a.lookup "rake" = some (.num (.fin r))) ∧
        (∀ v, ev.lookup "rake" = some v → ∃ x, FloatOf parse v x ∧ a.lookup "rake" = some (.num x)) ∧
        ∀ k, k ≠ "mech" → k ≠ "type" → k ≠ "rake" → a.lookup k = ev.lookup k := by
  have hreq : (requiredKeys.any fun k => !ev.has k) = true ↔ ∃ k ∈ originKeys, ev.lookup k = none := by
    rw [List.any_eq_true]
    simp [Dict.has, requiredKeys, originKeys]
  by_cases hmiss : ∃ k ∈ originKeys, ev.lookup k = none
  · have hc : construct parse ev = (.error .key, ev) := by
      unfold construct
      rw [if_pos (hreq.mpr hmiss)]
    rw [hc]
    refine ⟨by simpa using hmiss, ?_, by simp⟩
    simp only [reduceCtorEq, exists_false, false_iff]
    rintro ⟨h, -⟩
    obtain ⟨k, hk, hn⟩ := hmiss
    exact h k hk hn
  have hall : ∀ k ∈ originKeys, ev.lookup k ≠ none := fun k hk hn => hmiss ⟨k, hk, hn⟩
  have hsome : ∀ k ∈ originKeys, (ev.lookup k).isSome := fun k hk => Option.isSome_iff_ne_none.mpr (hall k hk)
  by_cases hid : ev.lookup "id" = some .null ∨ ∃ s, ev.lookup "id" = some (.str s)
  swap
  · have hc : construct parse ev = (.error .type, ev) := by
      unfold construct
      rw [if_neg (by rw [hreq]; exact hmiss)]
      unfold Dict.get
      cases h : ev.lookup "id" with
      | none => exact absurd h (hall "id" (by simp [originKeys]))
      | some v =>
        cases v with
        | null => exact absurd (Or.inl h) hid
        | str s => exact absurd (Or.inr ⟨s, h⟩) hid
        | num x => rfl
        | other n => rfl
    rw [hc]
    refine ⟨by simp only [Except.error.injEq, reduceCtorEq, false_iff]; exact hmiss, ?_, by simp⟩
    simp only [reduceCtorEq, exists_false, false_iff]
    rintro ⟨-, h, -⟩
    exact hid h
  have hc : construct parse ev =
      match checkCoord parse ev "lat" 90 with
      | .error e => (.error e, ev)
      | .ok _ =>
        match checkCoord parse ev "lon" 180 with
        | .error e => (.error e, ev)
        | .ok _ =>
          match (fillMech (moveType ev)).get "mech" with
          | some (.str m) =>
            match rakeDict m with
            | none => (.error .value, fillMech (moveType ev))
            | some default =>
              match setAttrs parse (fillMech (moveType ev)) with
              | .error e => (.error e, fillMech (moveType ev))
              | .ok attrs => (.ok (addRake attrs default), fillMech (moveType ev))
          | _ => (.error .value, fillMech (moveType ev)) := by
    unfold construct
    rw [if_neg (by rw [hreq]; exact hmiss)]
    rcases hid with h | ⟨s, h⟩
    · unfold Dict.get
      rw [h]
      rfl
    · unfold Dict.get
      rw [h]
      rfl
  cases hlat : checkCoord parse ev "lat" 90 with
  | error e =>
    have hc' : construct parse ev = (.error e, ev) := by rw [hc, hlat]
    rw [hc']
    refine ⟨?_, ?_, by simp⟩
    · simp only [Except.error.injEq]
      constructor
      · rintro rfl
        exact absurd hlat (checkCoord_key _ _ _ _ (hsome "lat" (by simp [originKeys])))
      · intro h; exact absurd h hmiss
    · simp only [reduceCtorEq, exists_false, false_iff]
      rintro ⟨-, -, h, -⟩
      rw [← checkCoord_iff, hlat] at h
      simp at h
  | ok u =>
  cases hlon : checkCoord parse ev "lon" 180 with
  | error e =>
    have hc' : construct parse ev = (.error e, ev) := by rw [hc, hlat, hlon]
    rw [hc']
    refine ⟨?_, ?_, by simp⟩
    · simp only [Except.error.injEq]
      constructor
      · rintro rfl
        exact absurd hlon (checkCoord_key _ _ _ _ (hsome "lon" (by simp [originKeys])))
      · intro h; exact absurd h hmiss
    · simp only [reduceCtorEq, exists_false, false_iff]
      rintro ⟨-, -, -, h, -⟩
      rw [← checkCoord_iff, hlon] at h
      simp at h
  | ok u' =>
  have hplat := (checkCoord_iff parse ev "lat" 90).mp hlat
  have hplon := (checkCoord_iff parse ev "lon" 180).mp hlon
  -- a failure after the checks of the coordinates, other than for a key
  have hfail : ∀ e d, e ≠ Err.key → construct parse ev = (.error e, d) →
      (¬ ((∃ m r, MechOf ev m ∧ (m, r) ∈ mechRake) ∧ ∀ v, ("rake", v) ∈ ev → ∃ x, FloatOf parse v x)) →
      ((construct parse ev).1 = .error .key ↔ ∃ k ∈ originKeys, ev.lookup k = none) ∧
      ((∃ a, (construct parse ev).1 = .ok a) ↔
        (∀ k ∈ originKeys, ev.lookup k ≠ none) ∧
        (ev.lookup "id" = some .null ∨ ∃ s, ev.lookup "id" = some (.str s)) ∧
        Passes parse ev "lat" 90 ∧ Passes parse ev "lon" 180 ∧
        (∃ m r, MechOf ev m ∧ (m, r) ∈ mechRake) ∧
        ∀ v, ("rake", v) ∈ ev → ∃ x, FloatOf parse v x) ∧
      ∀ a, (construct parse ev).1 = .ok a →
        ∃ m r, MechOf ev m ∧ (m, r) ∈ mechRake ∧ a.lookup "mech" = some (.str m) ∧
          (ev.lookup "rake" = none → a.lookup "rake" = some (.num (.fin r))) ∧
          (∀ v, ev.lookup "rake" = some v → ∃ x, FloatOf parse v x ∧ a.lookup "rake" = some (.num x)) ∧
          ∀ k, k ≠ "mech" → k ≠ "type" → k ≠ "rake" → a.lookup k = ev.lookup k := by
    intro e d he hcd hno
    rw [hcd]
    refine ⟨?_, ?_, by simp⟩
    · simp only [Except.error.injEq]
      exact ⟨fun h => absurd h he, fun h => absurd h hmiss⟩
    · simp only [reduceCtorEq, exists_false, false_iff]
      rintro ⟨-, -, -, -, h⟩
      exact hno h
  rw [hlat, hlon] at hc
  simp only at hc
  -- the mechanism
  have hval : (∀ m, (fillMech (moveType ev)).get "mech" ≠ some (.str m)) ∨
      ∃ m, (fillMech (moveType ev)).get "mech" = some (.str m) := by
    by_cases h : ∃ m, (fillMech (moveType ev)).get "mech" = some (.str m)
    · exact Or.inr h
    · left; push Not at h; exact h
  rcases hval with hnot | ⟨m, hm⟩
  · refine hfail .value (fillMech (moveType ev)) (by simp) ?_ ?_
    · rw [hc]
      cases h : (fillMech (moveType ev)).get "mech" with
      | none => rfl
      | some v =>
        cases v with
        | str m => exact absurd h (hnot m)
        | null => rfl
        | num x => rfl
        | other n => rfl
    · rintro ⟨⟨m, r, h, -⟩, -⟩
      exact hnot m ((mech_event ev m).mpr h)
  have hmo := (mech_event ev m).mp hm
  rw [hm] at hc
  simp only at hc
  have huniq : ∀ m', MechOf ev m' → m' = m := by
    intro m' h'
    have := (mech_event ev m').mpr h'
    rw [hm] at this
    simpa using this.symm
  cases hrd : rakeDict m with
  | none =>
    rw [hrd] at hc
    refine hfail .value (fillMech (moveType ev)) (by simp) hc ?_
    rintro ⟨⟨m', r, h, h'⟩, -⟩
    rw [huniq m' h, ← rakeDict_iff, hrd] at h'
    simp at h'
  | some default =>
    have hmr : (m, default.getD 0) ∈ mechRake := (rakeDict_iff _ _).mp ⟨default, hrd, rfl⟩
    rw [hrd] at hc
    simp only at hc
    obtain ⟨s1, s2⟩ := setAttrs_ok parse (fillMech (moveType ev))
    have hmem : (∀ v, ("rake", v) ∈ fillMech (moveType ev) → ∃ x, FloatOf parse v x) ↔
        ∀ v, ("rake", v) ∈ ev → ∃ x, FloatOf parse v x := by
      constructor
      · intro h v hv; exact h v ((mem_event ev "rake" v (by decide) (by decide)).mpr hv)
      · intro h v hv; exact h v ((mem_event ev "rake" v (by decide) (by decide)).mp hv)
    rw [hmem] at s1
    cases hsa : setAttrs parse (fillMech (moveType ev)) with
    | error e =>
      rw [hsa] at hc s1
      have hne : e ≠ .key := by
        have : ∀ d : Dict, setAttrs parse d ≠ .error .key := by
          intro d
          induction d with
          | nil => simp [setAttrs]
          | cons p d ih =>
            obtain ⟨k, v⟩ := p
            unfold setAttrs
            have hf : (toFloat parse v).map Val.num ≠ .error .key := by
              cases v with
              | null => simp [toFloat, Except.map]
              | str s => simp only [toFloat]; cases parse s <;> simp [Except.map]
              | num x => simp [toFloat, Except.map]
              | other n => simp [toFloat, Except.map]
            split_ifs with hk
            · cases h : (toFloat parse v).map Val.num with
              | error e =>
                simp only
                intro h'
                cases h'
                exact hf h
              | ok w =>
                cases h2 : setAttrs parse d with
                | error e =>
                  simp only
                  intro h'
                  cases h'
                  exact ih h2
                | ok d' => simp
            · cases h2 : setAttrs parse d with
              | error e =>
                simp only
                intro h'
                cases h'
                exact ih h2
              | ok d' => simp
        rintro rfl
        exact this _ hsa
      refine hfail e (fillMech (moveType ev)) hne hc ?_
      rintro ⟨-, h⟩
      obtain ⟨a, ha⟩ := s1.mpr h
      simp at ha
    | ok attrs =>
      rw [hsa] at hc s1
      obtain ⟨g1, g2, g3⟩ := s2 attrs hsa
      rw [hc]
      refine ⟨?_, ?_, ?_⟩
      · simp only [reduceCtorEq, false_iff]; exact hmiss
      · simp only [Except.ok.injEq, exists_eq', true_iff]
        exact ⟨hall, hid, hplat, hplon, ⟨m, _, hmo, hmr⟩, s1.mp ⟨attrs, rfl⟩⟩
      · intro a ha
        simp only [Except.ok.injEq] at ha
        subst ha
        refine ⟨m, default.getD 0, hmo, hmr, ?_, ?_, ?_, ?_⟩
        · have := get_addRake attrs default "mech" (by decide)
          rw [g1 "mech" (by decide), hm] at this
          exact this
        · intro hn
          have h1 := get_event ev "rake" (by decide) (by decide)
          rw [show ev.get "rake" = none from hn] at h1
          have h2 := g2 h1
          unfold addRake
          rw [if_neg (by unfold Dict.has; rw [show attrs.lookup "rake" = none from h2]; simp)]
          rw [List.lookup_append, show attrs.lookup "rake" = none from h2]
          simp [List.lookup]
        · intro v hv
          have h1 := get_event ev "rake" (by decide) (by decide)
          rw [show ev.get "rake" = some v from hv] at h1
          obtain ⟨x, hx, hx'⟩ := g3 v h1
          refine ⟨x, hx, ?_⟩
          unfold addRake
          rw [if_pos (by unfold Dict.has; rw [show attrs.lookup "rake" = _ from hx']; simp)]
          exact hx'
        · intro k k1 k2 k3
          have := get_addRake attrs default k k3
          rw [g1 k k3, get_event ev k k1 k2] at this
          exact this

/-- An event dictionary. -/
def sampleEvent (lat : Fl) : Dict :=
  [("id", .str "us1"), ("netid", .str "us"), ("network", .str ""), ("lat", .num lat), ("lon", .str "-120.5"),
   ("depth", .num (.fin 5)), ("locstring", .str "x"), ("mag", .num (.fin 6)), ("time", .other 0), ("type", .str "NM")]

/-- A parser that knows one number. -/
def sampleParse (s : String) : Option Fl := if s = "-120.5" then some (.fin (-241 / 2)) else none

/-- A constructed origin: the mechanism is the one in `type` and the rake that of a normal fault. -/
example : (construct sampleParse (sampleEvent (.fin 35))).1.toOption = some
    [("id", .str "us1"), ("netid", .str "us"), ("network", .str ""), ("lat", .num (.fin 35)), ("lon", .str "-120.5"),
     ("depth", .num (.fin 5)), ("locstring", .str "x"), ("mag", .num (.fin 6)), ("time", .other 0), ("mech", .str "NM"),
     ("rake", .num (.fin (-90)))] := by decide +kernel

/-- **C70** violated: a latitude or longitude that is `nan` is accepted whenever a latitude of 0 is. -/
theorem C70_nan_violated (parse : String → Option Fl) (ev : Dict) (k : String) (hk : k = "lat" ∨ k = "lon")
    (h : ∃ a, (construct parse (ev.set k (.num (.fin 0)))).1 = .ok a) :
    ∃ a, (construct parse (ev.set k (.num .nan))).1 = .ok a ∧ a.lookup k = some (.num .nan) := by
  have hl : ∀ (v : Val) (k' : String), k' ≠ k → (ev.set k v).lookup k' = ev.lookup k' := by
    intro v k' hne
    have := get_set ev k k' v
    rw [if_neg hne] at this
    exact this
  have hself : ∀ v : Val, (ev.set k v).lookup k = some v := by
    intro v
    have := get_set ev k k v
    rw [if_pos rfl] at this
    exact this
  have hkm : k ≠ "mech" ∧ k ≠ "type" ∧ k ≠ "rake" ∧ k ≠ "id" := by
    rcases hk with rfl | rfl <;> decide
  obtain ⟨h1, h3, h4, h5, h6⟩ := (C70_construct_partial parse _).2.1.mp h
  have hok : ∃ a, (construct parse (ev.set k (.num .nan))).1 = .ok a := by
    rw [(C70_construct_partial parse _).2.1]
    refine ⟨?_, ?_, ?_, ?_, ?_, ?_⟩
    · intro k' hk'
      by_cases e : k' = k
      · subst e; rw [hself]; simp
      · rw [hl _ _ e, ← hl (.num (.fin 0)) _ e]; exact h1 k' hk'
    · rw [hl _ _ hkm.2.2.2.symm] at h3 ⊢
      exact h3
    · by_cases e : "lat" = k
      · refine ⟨.num .nan, .nan, ?_, Or.inl rfl, Or.inl rfl⟩
        rw [e, hself]
      · unfold Passes at h4 ⊢
        rw [hl _ _ e] at h4 ⊢
        exact h4
    · by_cases e : "lon" = k
      · refine ⟨.num .nan, .nan, ?_, Or.inl rfl, Or.inl rfl⟩
        rw [e, hself]
      · unfold Passes at h5 ⊢
        rw [hl _ _ e] at h5 ⊢
        exact h5
    · obtain ⟨⟨m, r, a, b⟩, -⟩ := h6
      refine ⟨m, r, ?_, b⟩
      unfold MechOf at a ⊢
      rw [hl _ _ hkm.1.symm, hl _ _ hkm.2.1.symm] at a ⊢
      exact a
    · intro v hv
      rw [mem_set _ _ _ _ _ hkm.2.2.1.symm] at hv
      exact h6.2 v (by rw [mem_set _ _ _ _ _ hkm.2.2.1.symm]; exact hv)
  obtain ⟨a, ha⟩ := hok
  refine ⟨a, ha, ?_⟩
  obtain ⟨m, r, -, -, -, -, -, hrest⟩ := (C70_construct_partial parse _).2.2 a ha
  rw [hrest k hkm.1 hkm.2.1 hkm.2.2.1, hself]

theorem ok_of_toOption {α : Type} {e : Except Err α} (h : e.toOption.isSome) : ∃ a, e = .ok a := by
  cases e with
  | error e => simp [Except.toOption] at h
  | ok a => exact ⟨a, rfl⟩

/-- The hypothesis of `C70_nan_violated`. -/
example : ∃ a, (construct sampleParse ((sampleEvent (.fin 35)).set "lat" (.num (.fin 0)))).1 = .ok a :=
  ok_of_toOption (by decide +kernel)

/-! ### C115: the dictionary of the caller -/

/-- **C115** (partial). The constructor leaves the dictionary of the caller as it is when it names a mechanism that is not
empty. -/
theorem C115_argument_partial (parse : String → Option Fl) (ev : Dict) (v : Val) (h : ev.lookup "mech" = some v)
    (hv : v ≠ .str "") : (construct parse ev).2 = ev := by
  have hm : fillMech (moveType ev) = ev := by
    have : moveType ev = ev := by
      unfold moveType Dict.get
      rw [h]
    rw [this]
    unfold fillMech Dict.get
    rw [h]
    simp only
    rw [if_neg hv]
  unfold construct
  simp only [hm]
  split_ifs
  · rfl
  · split <;> try rfl
    split <;> try rfl
    split <;> try rfl
    split <;> try rfl
    split <;> try rfl
    split <;> rfl

/-- **C115** violated: a dictionary with `type` and without `mech`, from which an origin is made, loses the key `type`. -/
theorem C115_argument_violated (parse : String → Option Fl) (ev : Dict) (v : Val) (h : ev.lookup "mech" = none)
    (ht : ev.lookup "type" = some v) (a : Dict) (ha : (construct parse ev).1 = .ok a) :
    (construct parse ev).2.lookup "type" = none ∧ (construct parse ev).2 ≠ ev := by
  have hkey : (construct parse ev).2 = fillMech (moveType ev) := by
    revert ha
    unfold construct
    simp only
    split_ifs
    · simp
    · split <;> try simp
      split <;> try simp
      split <;> try simp
      split <;> try simp
      split <;> try simp
      split <;> simp
  have hn : (construct parse ev).2.lookup "type" = none := by
    rw [hkey]
    have hm : (moveType ev).get "type" = none := by
      unfold moveType Dict.get
      rw [h, ht]
      simp only
      have := get_del (ev.set "mech" v) "type" "type"
      rw [if_pos rfl] at this
      exact this
    show (fillMech (moveType ev)).get "type" = none
    unfold fillMech
    split
    · split_ifs
      · rw [get_set, if_neg (by decide), hm]
      · exact hm
    · rw [get_set, if_neg (by decide), hm]
  refine ⟨hn, ?_⟩
  intro e
  rw [e, ht] at hn
  simp at hn

/-- Such a dictionary. -/
example : (sampleEvent (.fin 35)).lookup "mech" = none ∧ (sampleEvent (.fin 35)).lookup "type" = some (.str "NM") ∧
    ∃ a, (construct sampleParse (sampleEvent (.fin 35))).1 = .ok a := ⟨rfl, rfl, ok_of_toOption (by decide +kernel)⟩

end Verif.Props
