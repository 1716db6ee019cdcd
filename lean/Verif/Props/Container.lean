import Verif.Spec.Maps
import Verif.Lemmas.Hdf

/-! # HDFContainer: C32, C33 -/

namespace Verif.Props
open Verif.Hdf Verif.Container Verif.Spec

variable {V B : Type}

theorem parts_plain {n : String} (h : PlainName n) : parts n = [n] := by
  obtain ⟨h1, h2, h3⟩ := h
  have e1 : n.toList ≠ [] := by
    intro e; exact h2 (by rw [← String.toList_inj]; simpa using e)
  have e2 : n.toList ≠ ['.'] := by
    intro e; exact h3 (by rw [← String.toList_inj]; simpa using e)
  unfold parts
  rw [splitSlash_plain _ h1]
  simp [e1, e2]

theorem resolve_plain {n : String} (h : PlainName n) (g : List String) :
    resolve g n = g ++ [n] := by
  have hh : n.toList.head? ≠ some '/' := fun e => h.1 (List.mem_of_head? e)
  rw [resolve, if_neg hh, parts_plain h]

theorem contains_plain {n : String} (h : PlainName n) (t : Tree B) (g : List String) :
    contains t g n = (lookup t (g ++ [n])).isSome := by
  rw [contains, resolve_plain h]; simp [h.2.1]

theorem groupName_inj {k k' : Kind} (h : groupName k = groupName k') : k = k' := by
  cases k <;> cases k' <;> first | rfl | (exfalso; revert h; decide)

/-- How the file represents the maps. -/
def Rel (c : Codec V B) (t : Tree B) (m : Maps V) : Prop :=
  Ordered t ∧ ∀ k : Kind,
    (find t (groupName k) = none ∧ ∀ n, m k n = none) ∨
    ∃ kids, find t (groupName k) = some (.dir kids) ∧
      ∀ n, (find kids n = none ∧ m k n = none) ∨
        ∃ b, find kids n = some (.data b) ∧ m k n = some (c.dec k b)

/-- What a value reads back as. -/
def stored (c : Codec V B) (k : Kind) (v : V) : Option V := (c.enc k v).map (c.dec k)

theorem lookup_pair (t : Tree B) (s n : String) :
    lookup t ([s] ++ [n]) = (find t s).bind (fun e => below e [n]) := by
  rw [List.singleton_append, lookup_cons]

theorem below_dir_single (kids : Tree B) (n : String) : below (.dir kids) [n] = find kids n := by
  rw [below, lookup_singleton]

theorem putAt_pair {t : Tree B} {s n : String} {kids : Tree B} (e : Entry B)
    (h : find t s = some (.dir kids)) :
    putAt t ([s] ++ [n]) e = some (put s (.dir (put n e kids)) t) := by
  rw [List.singleton_append, putAt, if_neg (by simp), h]
  simp [putAt]

theorem eraseAt_pair {t : Tree B} {s n : String} {kids : Tree B}
    (h : find t s = some (.dir kids)) :
    eraseAt t ([s] ++ [n]) = put s (.dir (erase n kids)) t := by
  rw [List.singleton_append, eraseAt, if_neg (by simp), h]
  simp [eraseAt]

/-- Making the group of a kind keeps the representation. -/
theorem rel_mkgroup {c : Codec V B} {t : Tree B} {m : Maps V} (h : Rel c t m) (k : Kind) :
    ∃ kids, find (withGroup t (groupName k)) (groupName k) = some (.dir kids) ∧
    Rel c (withGroup t (groupName k)) m := by
  unfold withGroup
  rw [lookup_singleton]
  rcases h.2 k with ⟨h1, h2⟩ | ⟨kids, h1, h2⟩
  · rw [h1]
    refine ⟨.nil, by simp [find_put], ordered_put _ _ _ h.1 trivial, ?_⟩
    intro k'
    by_cases hk : k' = k
    · subst hk
      exact Or.inr ⟨.nil, by simp [find_put], fun n => Or.inl ⟨rfl, h2 n⟩⟩
    · have hne : groupName k' ≠ groupName k := fun e => hk (groupName_inj e)
      simpa [find_put, hne] using h.2 k'
  · rw [h1]
    exact ⟨kids, h1, h⟩

theorem set_rel {c : Codec V B} {t : Tree B} {m : Maps V} (h : Rel c t m) (k : Kind)
    {n : String} (hn : PlainName n) (v : V) :
    Shows (stored c) m (.set k n v) (.ofUnit (set c t k n v).2) ∧
      Rel c (set c t k n v).1 (next (stored c) m (.set k n v)) := by
  obtain ⟨kids, hk, hR⟩ := rel_mkgroup h k
  unfold Container.set
  simp only
  generalize (withGroup t (groupName k)) = t1 at hk hR ⊢
  rcases henc : c.enc k v with _ | b
  · simp only
    refine ⟨⟨fun _ => rfl, ?_, ?_⟩, ?_⟩
    · intro hne; simp [stored, henc] at hne
    · intro hne; simp [stored, henc] at hne
    · have : next (stored c) m (.set k n v) = m := by
        funext k' n'
        simp only [next, stored, henc, Option.map_none]
        by_cases hc : k' = k ∧ n' = n ∧ m k n = none
        · obtain ⟨rfl, rfl, e⟩ := hc; simp [e]
        · rw [if_neg hc]
      rw [this]; exact hR
  · simp only [resolve_plain hn, lookup_pair, hk, Option.bind_some, below_dir_single,
      putAt_pair _ hk]
    have hst : stored c k v = some (c.dec k b) := by simp [stored, henc]
    rcases hR.2 k with ⟨g1, _⟩ | ⟨kids', g1, g2⟩
    · rw [hk] at g1; simp at g1
    · rw [hk] at g1
      simp only [Option.some.injEq, Entry.dir.injEq] at g1
      subst g1
      rcases g2 n with ⟨f1, f2⟩ | ⟨b', f1, f2⟩
      · rw [f1]
        simp only [Option.isSome_none, Bool.false_eq_true, if_false]
        refine ⟨⟨?_, fun _ _ => rfl, ?_⟩, ?_, ?_⟩
        · simp [hst]
        · intro _ e; exact absurd f2 e
        · exact ordered_put _ _ _ hR.1 (ordered_put _ _ _ (ordered_find hR.1 hk) trivial)
        · intro k'
          by_cases hkk : k' = k
          · subst hkk
            refine Or.inr ⟨_, by simp [find_put]; rfl, fun n' => ?_⟩
            by_cases hnn : n' = n
            · subst hnn
              right; exact ⟨b, by simp [find_put], by simp [next, f2, hst]⟩
            · simpa [next, find_put, hnn] using g2 n'
          · have hne : groupName k' ≠ groupName k := fun e => hkk (groupName_inj e)
            simpa [find_put, hne, next, hkk] using hR.2 k'
      · rw [f1]
        simp only [Option.isSome_some, if_true]
        refine ⟨⟨?_, ?_, fun _ _ => rfl⟩, ?_⟩
        · simp [hst]
        · intro _ e; rw [f2] at e; simp at e
        · have : next (stored c) m (.set k n v) = m := by
            funext k' n'
            simp [next, f2]
          rw [this]; exact hR

theorem get_rel {c : Codec V B} {t : Tree B} {m : Maps V} (h : Rel c t m) (k : Kind)
    {n : String} (hn : PlainName n) :
    Shows (stored c) m (.get k n) (.ofValue (get c t k n)) := by
  unfold Container.get
  rw [lookup_singleton]
  simp only [contains_plain hn, resolve_plain hn, lookup_pair]
  rcases h.2 k with ⟨h1, h2⟩ | ⟨kids, h1, h2⟩
  · rw [h1]
    exact ⟨by simp [h2], fun _ => Or.inr rfl⟩
  · simp only [h1, Option.bind_some, below_dir_single]
    rcases h2 n with ⟨f1, f2⟩ | ⟨b, f1, f2⟩
    · rw [f1]; exact ⟨by simp [f2], fun _ => Or.inl rfl⟩
    · rw [f1]
      refine ⟨?_, by simp [f2]⟩
      intro v hv
      rw [f2] at hv
      simp only [Option.some.injEq] at hv
      subst hv; rfl

theorem drop_rel {c : Codec V B} {t : Tree B} {m : Maps V} (h : Rel c t m) (k : Kind)
    {n : String} (hn : PlainName n) :
    Shows (stored c) m (.drop k n) (.ofUnit (drop t k n).2) ∧
      Rel c (drop t k n).1 (next (stored c) m (.drop k n)) := by
  have hsame : m k n = none → next (stored c) m (.drop k n) = m := by
    intro e; funext k' n'
    simp only [next]
    by_cases hc : k' = k ∧ n' = n
    · obtain ⟨rfl, rfl⟩ := hc; simp [e]
    · rw [if_neg hc]
  unfold Container.drop
  rw [lookup_singleton]
  simp only [contains_plain hn, resolve_plain hn, lookup_pair]
  rcases h.2 k with ⟨h1, h2⟩ | ⟨kids, h1, h2⟩
  · rw [h1]
    exact ⟨⟨by simp [h2], fun _ => Or.inr rfl⟩, by rw [hsame (h2 n)]; exact h⟩
  · simp only [h1, Option.bind_some, below_dir_single]
    rcases h2 n with ⟨f1, f2⟩ | ⟨b, f1, f2⟩
    · rw [f1]
      exact ⟨⟨by simp [f2], fun _ => Or.inl rfl⟩, by rw [hsame f2]; exact h⟩
    · rw [f1]
      simp only [Option.isSome_some, Bool.true_eq_false, if_false, List.append_eq_nil_iff,
        List.cons_ne_nil, and_self, eraseAt_pair h1]
      refine ⟨⟨fun _ => rfl, by simp [f2]⟩, ?_, ?_⟩
      · exact ordered_put _ _ _ h.1 (ordered_erase _ _ (ordered_find h.1 h1))
      · intro k'
        by_cases hkk : k' = k
        · subst hkk
          refine Or.inr ⟨_, by simp [find_put]; rfl, fun n' => ?_⟩
          by_cases hnn : n' = n
          · subst hnn
            left; exact ⟨by simp [find_erase], by simp [next]⟩
          · simpa [next, find_erase, hnn] using h2 n'
        · have hne : groupName k' ≠ groupName k := fun e => hkk (groupName_inj e)
          simpa [find_put, hne, next, hkk] using h.2 k'

theorem list_rel {c : Codec V B} {t : Tree B} {m : Maps V} (h : Rel c t m) (k : Kind) :
    Shows (stored c) m (.list k) (.names (list t k)) := by
  refine ⟨list t k, rfl, ?_⟩
  unfold Container.list
  rw [lookup_singleton]
  rcases h.2 k with ⟨h1, h2⟩ | ⟨kids, h1, h2⟩
  · rw [h1]; simp [h2]
  · rw [h1]
    refine ⟨keys_sorted (ordered_find h.1 h1), fun n => ?_⟩
    simp only [mem_keys_iff]
    rcases h2 n with ⟨f1, f2⟩ | ⟨b, f1, f2⟩ <;> simp [f1, f2]

theorem step_rel {c : Codec V B} {t : Tree B} {m : Maps V} (h : Rel c t m) (op : Op V)
    (hop : PlainOp op) :
    Shows (stored c) m op (step c t op).2 ∧ Rel c (step c t op).1 (next (stored c) m op) := by
  cases op with
  | set k n v => exact set_rel h k hop v
  | get k n => exact ⟨get_rel h k hop, h⟩
  | drop k n => exact drop_rel h k hop
  | list k => exact ⟨list_rel h k, h⟩

theorem run_rel {c : Codec V B} {t : Tree B} {m : Maps V} (h : Rel c t m) (ops : List (Op V))
    (hops : ∀ op ∈ ops, PlainOp op) : Agrees (stored c) m ops (run c t ops) := by
  induction ops generalizing t m with
  | nil => rfl
  | cons op ops ih =>
    obtain ⟨h1, h2⟩ := step_rel h op (hops op (by simp))
    exact ⟨_, _, rfl, h1, ih h2 fun o ho => hops o (by simp [ho])⟩

theorem rel_empty (c : Codec V B) : Rel c .nil Maps.empty :=
  ⟨trivial, fun _ => Or.inl ⟨rfl, fun _ => rfl⟩⟩

/-- **C32** (partial). Every history of calls with plain names on a new container shows exactly what
five independent write-once maps show. Missing: names that are paths, see the two violations. -/
theorem C32_five_maps_partial (c : Codec V B) (ops : List (Op V)) (hops : ∀ op ∈ ops, PlainOp op) :
    Agrees (fun k v => (c.enc k v).map (c.dec k)) Maps.empty ops (run c .nil ops) :=
  run_rel (rel_empty c) ops hops

/-- A codec that stores every value unchanged. -/
def plainCodec : Codec ℕ ℕ := ⟨fun _ v => some v, fun _ b => b⟩

example : run plainCodec .nil [.set .dict "b" 1, .set .list "b" 2, .set .dict "a" 3,
    .set .dict "a" 4, .get .dict "a", .drop .dict "b", .get .dict "b", .list .dict, .list .list,
    .get .array "a"] =
    [.done, .done, .done, .error .exists, .value 3, .done, .error .lookupError, .names ["a"],
     .names ["b"], .error .keyError] := by decide +kernel

example : ∀ op ∈ ([.set .dict "b" 1, .drop .dict "b", .list .list] : List (Op ℕ)), PlainOp op := by
  simp [PlainOp, PlainName]

/-- **C32** fails for a name with a slash: the stored name is not listed, its first part is. -/
theorem C32_slash_listing_violated :
    run plainCodec .nil [.set .dict "a/b" 1, .get .dict "a/b", .list .dict] =
      [.done, .value 1, .names ["a"]] := by decide +kernel

/-- **C32** fails for a name that starts with a slash: dropping a dictionary deletes a string. -/
theorem C32_kinds_independent_violated :
    run plainCodec .nil [.set .string "s" 1, .set .dict "d" 2, .drop .dict "/strings/s",
      .get .string "s"] = [.done, .done, .done, .error .lookupError] := by decide +kernel

/-- **C33**. In every state, get and drop of a name with no entry raise a lookup error (`KeyError`
is a subclass of `LookupError`; it appears exactly when nothing of the kind was ever stored), and
drop changes nothing. -/
theorem C33_missing (c : Codec V B) (t : Tree B) (k : Kind) (n : String) (hn : PlainName n)
    (hfree : lookup t [groupName k, n] = none) :
    (get c t k n = .error .lookupError ∨ get c t k n = .error .keyError) ∧
    (get c t k n = .error .keyError ↔ lookup t [groupName k] = none) ∧
    ((drop t k n).2 = .error .lookupError ∨ (drop t k n).2 = .error .keyError) ∧
    ((drop t k n).2 = .error .keyError ↔ lookup t [groupName k] = none) ∧
    (drop t k n).1 = t := by
  have hc : contains t [groupName k] n = false := by
    rw [contains_plain hn]; simp [hfree]
  unfold Container.get Container.drop
  rcases h : lookup t [groupName k] with _ | e <;> simp [hc]

/-- The state reached by a history. -/
def after (c : Codec V B) (t : Tree B) : List (Op V) → Tree B
  | [] => t
  | op :: ops => after c (step c t op).1 ops

theorem after_rel {c : Codec V B} {t : Tree B} {m : Maps V} (h : Rel c t m) (ops : List (Op V))
    (hops : ∀ op ∈ ops, PlainOp op) :
    ∃ m', Rel c (after c t ops) m' := by
  induction ops generalizing t m with
  | nil => exact ⟨m, h⟩
  | cons op ops ih =>
    exact ih (step_rel h op (hops op (by simp))).2 fun o ho => hops o (by simp [ho])

/-- **C33**, over histories: a get that does not return a value raises a lookup error, a drop that
does not succeed raises a lookup error; no other failure of get or drop is reachable. -/
theorem C33_only_lookup_errors (c : Codec V B) (ops : List (Op V)) (hops : ∀ op ∈ ops, PlainOp op)
    (k : Kind) (n : String) (hn : PlainName n) :
    (∀ e, get c (after c .nil ops) k n = .error e → e = .lookupError ∨ e = .keyError) ∧
    (∀ e, (drop (after c .nil ops) k n).2 = .error e → e = .lookupError ∨ e = .keyError) := by
  obtain ⟨m, hR⟩ := after_rel (rel_empty c) ops hops
  have h1 := get_rel hR k hn
  have h2 := (drop_rel hR k hn).1
  constructor
  · intro e he
    rw [he] at h1
    rcases hm : m k n with _ | v
    · simpa [Out.ofValue] using h1.2 hm
    · simpa [Out.ofValue] using h1.1 v hm
  · intro e he
    rw [he] at h2
    rcases hm : m k n with _ | v
    · simpa [Out.ofUnit] using h2.2 hm
    · simpa [Out.ofUnit] using h2.1 (by simp [hm])

example : PlainName "station list" ∧ lookup (α := ℕ) (.dir "lists" (.data "x" 1 .nil) .nil)
    [groupName .list, "station list"] = none := by
  refine ⟨by simp [PlainName], rfl⟩

end Verif.Props
