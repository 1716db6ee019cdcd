import Verif.Model.ShakeMap
import Verif.Lemmas.Hdf
import Verif.Spec.Maps
import Verif.Props.Container

/-! Facts about groups and data sets in the ShakeMap container model. -/

namespace Verif.ShakeMap
open Verif.Hdf Verif.Spec Verif.Props

variable {B : Type}

theorem base_plain (k : Kind) : PlainName (base k) := by
  cases k <;> simp [base, PlainName]

theorem putAt_exists {t : Tree B} {p : List String} (e : Entry B) {k : Tree B} (s : String)
    (h : lookup t p = some (.dir k)) : ∃ t', putAt t (p ++ [s]) e = some t' := by
  induction p generalizing t with
  | nil => exact ⟨put s e t, by simp [putAt]⟩
  | cons a p ih =>
    rw [lookup_cons] at h
    rcases hf : find t a with _ | (v | k')
    · simp [hf] at h
    · by_cases hp : p = [] <;> simp [hf, below, hp] at h
    · obtain ⟨t', ht'⟩ := ih (by simpa [hf, below] using h : lookup k' p = some (.dir k))
      rw [List.cons_append, putAt, if_neg (by simp), hf]
      simp [ht']

/-- What making a group may do: nothing changes except that empty groups appear on the way. -/
structure Grown (t t' : Tree B) (p : List String) : Prop where
  value : ∀ q, value t' q = value t q
  other : ∀ q, ¬ q <+: p → lookup t' q = lookup t q
  kept : ∀ q, (lookup t q).isSome → (lookup t' q).isSome
  ordered : Ordered t → Ordered t'
  slashless : (∀ s ∈ p, '/' ∉ s.toList) → Slashless t → Slashless t'

theorem Grown.refl (t : Tree B) (p : List String) : Grown t t p :=
  ⟨fun _ => rfl, fun _ _ => rfl, fun _ h => h, fun h => h, fun _ h => h⟩

theorem Grown.trans {t1 t2 t3 : Tree B} {p1 p2 p : List String} (h1 : Grown t1 t2 p1)
    (h2 : Grown t2 t3 p2) (hp1 : p1 <+: p) (hp2 : p2 <+: p) : Grown t1 t3 p :=
  ⟨fun q => (h2.value q).trans (h1.value q),
   fun q hq => (h2.other q fun h => hq (h.trans hp2)).trans (h1.other q fun h => hq (h.trans hp1)),
   fun q hq => h2.kept q (h1.kept q hq), fun h => h2.ordered (h1.ordered h),
   fun hs h => h2.slashless (fun s m => hs s (hp2.subset m))
     (h1.slashless (fun s m => hs s (hp1.subset m)) h)⟩

theorem grown_putAt_dir {t t' : Tree B} {p : List String}
    (h : putAt t p (.dir .nil) = some t') (hfree : lookup t p = none) : Grown t t' p := by
  have hother : ∀ q, ¬ q <+: p → lookup t' q = lookup t q := by
    intro q hq
    by_cases h1 : p <+: q
    · have hn := lookup_none_of_prefix hfree h1
      obtain ⟨r, rfl⟩ := h1
      have hr : r ≠ [] := by rintro rfl; simp at hq
      rw [lookup_putAt_below h r, hn]; simp [below, hr]
    · exact lookup_putAt_other h h1 hq
  refine ⟨value_putAt_dir h hfree, hother, ?_, fun ho => ordered_putAt ho (e := .dir .nil) trivial h,
    fun hs ht => slashless_putAt ht (e := .dir .nil) trivial hs h⟩
  intro q hq
  by_cases hp : q <+: p
  · by_cases he : q = p
    · subst he; rw [hfree] at hq; simp at hq
    · obtain ⟨⟨k, g⟩, _⟩ := lookup_putAt_above h hp he
      simp [g]
  · rw [hother q hp]; exact hq

theorem makeStep_plain (t : Tree B) (cur : List String) {gg : String} (hg : PlainName gg) :
    (∃ t', makeStep t cur gg = (t', .ok (cur ++ [gg])) ∧ Grown t t' (cur ++ [gg]) ∧
      (lookup t' (cur ++ [gg])).isSome ∧
      (lookup t (cur ++ [gg]) = none → lookup t' (cur ++ [gg]) = some (.dir .nil))) ∧
        (∃ k, lookup t cur = some (.dir k)) ∨
    makeStep t cur gg = (t, .error .notGroup) ∧ ∀ k, lookup t cur ≠ some (.dir k) := by
  unfold makeStep
  rcases hl : lookup t cur with _ | (v | k)
  · right; simp
  · right; simp
  · left
    refine ⟨?_, k, rfl⟩
    simp only [contains_plain hg, resolve_plain hg]
    by_cases hc : (lookup t (cur ++ [gg])).isSome
    · refine ⟨t, by simp [hc], Grown.refl _ _, hc, ?_⟩
      intro e; rw [e] at hc; simp at hc
    · have hfree : lookup t (cur ++ [gg]) = none := by simpa using hc
      obtain ⟨t', ht'⟩ := putAt_exists (.dir .nil) gg hl
      have := lookup_putAt_below ht' []
      simp only [List.append_nil, below_nil] at this
      refine ⟨t', by simp [hfree, ht'], grown_putAt_dir ht' hfree, ?_, fun _ => this⟩
      simp [this]

/-- `_makeGroup` below an existing path. -/
theorem makeSteps_plain (t : Tree B) (cur : List String) {gs : List String}
    (hg : ∀ g ∈ gs, PlainName g) :
    Grown t (makeSteps t cur gs).1 (cur ++ gs) ∧
    ((∃ e, (makeSteps t cur gs).2 = .error e) ∨ (makeSteps t cur gs).2 = .ok (cur ++ gs)) ∧
    ((lookup t cur).isSome → (makeSteps t cur gs).2 = .ok (cur ++ gs) →
      (lookup (makeSteps t cur gs).1 (cur ++ gs)).isSome) ∧
    ((∃ k, lookup t cur = some (.dir k)) →
      (∀ i, i < gs.length → Hdf.value t (cur ++ gs.take i) = none) →
      (makeSteps t cur gs).2 = .ok (cur ++ gs)) := by
  induction gs generalizing t cur with
  | nil => simp [makeSteps, Grown.refl]
  | cons g gs ih =>
    have hgs : ∀ x ∈ gs, PlainName x := fun x hx => hg x (by simp [hx])
    rcases makeStep_plain t cur (hg g (by simp)) with ⟨⟨t', h1, h2, h3, h5⟩, h4⟩ | ⟨h1, h2⟩
    · have e : makeSteps t cur (g :: gs) = makeSteps t' (cur ++ [g]) gs := by
        rw [makeSteps, h1]
      have i := ih t' (cur ++ [g]) hgs
      have ea : cur ++ [g] ++ gs = cur ++ g :: gs := by simp
      rw [ea] at i
      rw [e]
      refine ⟨h2.trans i.1 ?_ (List.prefix_refl _), i.2.1, fun _ => i.2.2.1 h3, ?_⟩
      · exact ⟨gs, by simp⟩
      · intro _ hv
        rcases hgs' : gs with _ | ⟨g', gs'⟩
        · simp [makeSteps]
        · rw [← hgs']
          refine i.2.2.2 ?_ ?_
          · have := hv 1 (by simp [hgs'])
            simp only [List.take_succ_cons, List.take_zero] at this
            rw [← h2.value] at this
            rcases hl : lookup t' (cur ++ [g]) with _ | (v | k)
            · rw [hl] at h3; simp at h3
            · rw [value_of_lookup hl] at this; simp at this
            · exact ⟨k, rfl⟩
          · intro i hi
            rw [h2.value]
            have := hv (i + 1) (by simpa using hi)
            simpa using this
    · have e : makeSteps t cur (g :: gs) = (t, .error .notGroup) := by
        rw [makeSteps, h1]
      rw [e]
      refine ⟨Grown.refl _ _, Or.inl ⟨_, rfl⟩, ?_, ?_⟩
      · intro _ h; simp at h
      · rintro ⟨k, hk⟩; exact absurd hk (h2 k)

theorem makeGroup_plain (t : Tree B) {b : String} (hb : PlainName b) {gs : List String}
    (hg : ∀ g ∈ gs, PlainName g) :
    Grown t (makeGroup t b gs).1 (b :: gs) ∧
    ((∃ e, (makeGroup t b gs).2 = .error e) ∨ (makeGroup t b gs).2 = .ok (b :: gs)) ∧
    ((makeGroup t b gs).2 = .ok (b :: gs) → (lookup (makeGroup t b gs).1 (b :: gs)).isSome) ∧
    ((∀ i, i < gs.length → Hdf.value t (b :: gs.take i) = none) →
      (makeGroup t b gs).2 = .ok (b :: gs)) := by
  have e : makeGroup t b gs = makeSteps t [] (b :: gs) := by
    rw [makeGroup, makeSteps]
  have i := makeSteps_plain t [] (gs := b :: gs)
    (by intro x hx; rcases List.mem_cons.1 hx with rfl | hx; exacts [hb, hg x hx])
  rw [e]
  refine ⟨i.1, i.2.1, i.2.2.1 (by simp [lookup_nil]), ?_⟩
  intro hv
  refine i.2.2.2 ⟨t, lookup_nil t⟩ ?_
  intro j hj
  cases j with
  | zero => simp [Hdf.value, lookup_nil]
  | succ j => simpa using hv j (by simpa using hj)

theorem getSteps_plain (t : Tree B) (cur : List String) {gs : List String}
    (hg : ∀ g ∈ gs, PlainName g) (hc : (lookup t cur).isSome) :
    ((lookup t (cur ++ gs)).isSome → getSteps t cur gs = .ok (cur ++ gs)) ∧
    (lookup t (cur ++ gs) = none → getSteps t cur gs = .error .lookupError ∨
      getSteps t cur gs = .error .notGroup) := by
  induction gs generalizing cur with
  | nil =>
    refine ⟨by simp [getSteps], ?_⟩
    intro h; simp only [List.append_nil] at h; rw [h] at hc; simp at hc
  | cons g gs ih =>
    have hgp := hg g (by simp)
    have hgs : ∀ x ∈ gs, PlainName x := fun x hx => hg x (by simp [hx])
    rw [getSteps]
    rcases hl : lookup t cur with _ | (v | k)
    · rw [hl] at hc; simp at hc
    · have : lookup t (cur ++ g :: gs) = none := by
        rw [lookup_append, hl]; simp [below]
      simp [this]
    · simp only [contains_plain hgp, resolve_plain hgp]
      have ea : cur ++ [g] ++ gs = cur ++ g :: gs := by simp
      by_cases hs : (lookup t (cur ++ [g])).isSome
      · rw [if_pos hs, ← ea]
        exact ih (cur ++ [g]) hgs hs
      · rw [if_neg hs]
        have hn : lookup t (cur ++ g :: gs) = none := by
          rw [← ea]
          exact lookup_none_of_prefix (by simpa using hs) ⟨gs, rfl⟩
        simp [hn]

theorem getGroup_plain (t : Tree B) {b : String} (hb : PlainName b) {gs : List String}
    (hg : ∀ g ∈ gs, PlainName g) :
    ((lookup t (b :: gs)).isSome → getGroup t b gs = .ok (b :: gs)) ∧
    (lookup t (b :: gs) = none → getGroup t b gs = .error .lookupError ∨
      getGroup t b gs = .error .notGroup) := by
  have := getSteps_plain t [] (gs := b :: gs)
    (by intro x hx; rcases List.mem_cons.1 hx with rfl | hx; exacts [hb, hg x hx])
    (by simp [lookup_nil])
  simpa [getGroup] using this

/-- The path of an entry. -/
def path (k : Kind) (gs : List String) (n : String) : List String := base k :: (gs ++ [n])

/-- Reading succeeds exactly when there is a data set at the path. -/
theorem getData_iff (t : Tree B) (k : Kind) {gs : List String} {n : String}
    (hg : ∀ g ∈ gs, PlainName g) (hn : PlainName n) (b : B) :
    getData t k gs n = .ok b ↔ Hdf.value t (path k gs n) = some b := by
  have ep : path k gs n = (base k :: gs) ++ [n] := rfl
  unfold getData
  rcases hl : lookup t (base k :: gs) with _ | e
  · have hv : lookup t (path k gs n) = none := by
      rw [ep, lookup_append, hl]; rfl
    rcases (getGroup_plain t (base_plain k) hg).2 hl with h | h <;> simp [h, Hdf.value, hv]
  · rw [(getGroup_plain t (base_plain k) hg).1 (by simp [hl])]
    simp only [hl]
    rcases e with v | kids
    · have hv : lookup t (path k gs n) = none := by
        rw [ep, lookup_append, hl]; simp [below]
      simp [Hdf.value, hv]
    · simp only [contains_plain hn, resolve_plain hn, ← ep]
      rcases hp : lookup t (path k gs n) with _ | (w | k2) <;> simp [Hdf.value, hp]

/-- All that `setData` does, for plain names. -/
theorem setData_plain (t : Tree B) (k : Kind) {gs : List String} {n : String}
    (hg : ∀ g ∈ gs, PlainName g) (hn : PlainName n) (v : Option B) :
    (∃ e, (setData t k gs n v).2 = .error e ∧ Grown t (setData t k gs n v).1 (base k :: gs)) ∨
    ((setData t k gs n v).2 = .ok () ∧ ∃ b t1, v = some b ∧ lookup t (path k gs n) = none ∧
      Grown t t1 (base k :: gs) ∧ lookup t1 (path k gs n) = none ∧
      putAt t1 (path k gs n) (.data b) = some (setData t k gs n v).1) := by
  have ep : path k gs n = (base k :: gs) ++ [n] := rfl
  obtain ⟨h1, h2, h3, _⟩ := makeGroup_plain t (base_plain k) hg
  unfold setData
  rcases hm : makeGroup t (base k) gs with ⟨t1, _ | g⟩
  · left; rw [hm] at h1; exact ⟨_, rfl, h1⟩
  · rw [hm] at h1 h2 h3
    have hg' : g = base k :: gs := by
      rcases h2 with ⟨e, h⟩ | h
      · simp at h
      · simpa using h
    subst hg'
    simp only at h1 h3 ⊢
    rcases hl : lookup t1 (base k :: gs) with _ | (w | kids)
    · left; exact ⟨_, rfl, h1⟩
    · left; exact ⟨_, rfl, h1⟩
    · simp only [contains_plain hn, resolve_plain hn]
      rw [← ep]
      by_cases hc : k = .array ∧ (lookup t1 (path k gs n)).isSome
      · left; rw [if_pos hc]; exact ⟨_, rfl, h1⟩
      · rw [if_neg hc]
        rcases v with _ | b
        · left; exact ⟨_, rfl, h1⟩
        · by_cases hs : (lookup t1 (path k gs n)).isSome
          · left; simp only [hs, if_true]; exact ⟨_, rfl, h1⟩
          · simp only [hs, Bool.false_eq_true, if_false]
            obtain ⟨t', ht'⟩ := putAt_exists (.data b) n hl
            rw [← ep] at ht'
            right
            rw [ht']
            refine ⟨rfl, b, t1, rfl, ?_, h1, by simpa using hs, ht'⟩
            rcases hx : lookup t (path k gs n) with _ | x
            · rfl
            · have := h1.kept (path k gs n) (by simp [hx])
              exact absurd this hs

/-- When `setData` succeeds. -/
theorem setData_succeeds (t : Tree B) (k : Kind) {gs : List String} {n : String}
    (hg : ∀ g ∈ gs, PlainName g) (hn : PlainName n) (b : B)
    (hgroups : ∀ i, i ≤ gs.length → Hdf.value t (base k :: gs.take i) = none)
    (hfree : lookup t (path k gs n) = none) : (setData t k gs n (some b)).2 = .ok () := by
  have ep : path k gs n = (base k :: gs) ++ [n] := rfl
  obtain ⟨h1, h2, h3, h4⟩ := makeGroup_plain t (base_plain k) hg
  have hok := h4 fun i hi => hgroups i (le_of_lt hi)
  have hsome := h3 hok
  unfold setData
  rcases hm : makeGroup t (base k) gs with ⟨t1, r⟩
  rw [hm] at h1 hok hsome
  simp only at h1 hok hsome
  subst hok
  have hv := h1.value (base k :: gs)
  rw [show Hdf.value t (base k :: gs) = none by simpa using hgroups gs.length le_rfl] at hv
  simp only
  have hfree1 : lookup t1 (path k gs n) = none := by
    rw [h1.other _ (by rw [ep]; intro h; have := h.length_le; simp at this), hfree]
  rcases hl : lookup t1 (base k :: gs) with _ | (w | kids)
  · rw [hl] at hsome; simp at hsome
  · rw [value_of_lookup hl] at hv; simp at hv
  · simp only [contains_plain hn, resolve_plain hn]
    rw [← ep]
    obtain ⟨t', ht'⟩ := putAt_exists (.data b) n hl
    rw [← ep] at ht'
    simp [hfree1, ht']

/-- The data sets after `setData`. -/
theorem value_setData (t : Tree B) (k : Kind) {gs : List String} {n : String}
    (hg : ∀ g ∈ gs, PlainName g) (hn : PlainName n) (v : Option B) (q : List String) :
    Hdf.value (setData t k gs n v).1 q =
      if (setData t k gs n v).2 = .ok () ∧ q = path k gs n then v else Hdf.value t q := by
  rcases setData_plain t k hg hn v with ⟨e, h1, h2⟩ | ⟨h1, b, t1, hv, hf, hgr, hf1, hp⟩
  · rw [h1, if_neg (by simp), h2.value]
  · rw [h1, value_putAt_data hp hf1 q, hv]
    by_cases hq : q = path k gs n
    · rw [if_pos hq, if_pos ⟨rfl, hq⟩]
    · rw [if_neg hq, if_neg (fun h => hq h.2), hgr.value]

theorem ordered_setData (t : Tree B) (k : Kind) {gs : List String} {n : String}
    (hg : ∀ g ∈ gs, PlainName g) (hn : PlainName n) (v : Option B) (ho : Ordered t) :
    Ordered (setData t k gs n v).1 := by
  rcases setData_plain t k hg hn v with ⟨e, h1, h2⟩ | ⟨h1, b, t1, hv, hf, hgr, hf1, hp⟩
  · exact h2.ordered ho
  · exact ordered_putAt (hgr.ordered ho) (e := .data b) trivial hp

/-- All that `dropData` does, for plain names. -/
theorem dropData_plain (t : Tree B) (k : Kind) {gs : List String} {n : String}
    (hg : ∀ g ∈ gs, PlainName g) (hn : PlainName n) :
    (lookup t (path k gs n) = none ∧ ((dropData t k gs n).2 = .error .lookupError ∨
        (dropData t k gs n).2 = .error .keyError ∨ (dropData t k gs n).2 = .error .notGroup) ∧
      (dropData t k gs n).1 = t) ∨
    ((lookup t (path k gs n)).isSome ∧
      dropData t k gs n = (eraseAt t (path k gs n), .ok ())) := by
  have ep : path k gs n = (base k :: gs) ++ [n] := rfl
  unfold dropData
  rcases hl : lookup t (base k :: gs) with _ | e
  · left
    have hv : lookup t (path k gs n) = none := by
      rw [ep, lookup_append, hl]; rfl
    refine ⟨hv, ?_⟩
    rcases (getGroup_plain t (base_plain k) hg).2 hl with h | h <;> simp [h]
  · rw [(getGroup_plain t (base_plain k) hg).1 (by simp [hl])]
    simp only [hl]
    rcases e with v | kids
    · left
      have hv : lookup t (path k gs n) = none := by
        rw [ep, lookup_append, hl]; simp [below]
      simp [hv]
    · simp only [contains_plain hn, resolve_plain hn, ← ep]
      rcases hp : lookup t (path k gs n) with _ | x
      · left
        refine ⟨rfl, ?_⟩
        cases k <;> simp
      · right
        simp [path]

end Verif.ShakeMap
