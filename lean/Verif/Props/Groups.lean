import Verif.Lemmas.ShakeMap
import Mathlib.Data.List.Nodup

/-! # Grouped containers: C34, C35 -/

namespace Verif.Props
open Verif.Hdf Verif.ShakeMap Verif.Spec

variable {B : Type}

theorem path_inj {k k' : ShakeMap.Kind} {gs gs' : List String} {n n' : String} :
    path k gs n = path k' gs' n' ↔ k = k' ∧ gs = gs' ∧ n = n' := by
  constructor
  · intro h
    obtain ⟨h1, h2⟩ := List.cons.inj h
    obtain ⟨h3, h4⟩ := List.append_inj' h2 rfl
    refine ⟨?_, h3, by simpa using h4⟩
    cases k <;> cases k' <;> first | rfl | (exfalso; revert h1; decide)
  · rintro ⟨rfl, rfl, rfl⟩; rfl

/-- **C34**. Whatever is in the file: after a set that succeeds, get with the same groups and name
returns the value. -/
theorem C34_get_after_set (t : Tree B) (k : ShakeMap.Kind) (gs : List String) (n : String)
    (hg : ∀ g ∈ gs, PlainName g) (hn : PlainName n) (v : Option B)
    (hok : (setData t k gs n v).2 = .ok ()) :
    ∃ b, v = some b ∧ getData (setData t k gs n v).1 k gs n = .ok b := by
  rcases setData_plain t k hg hn v with ⟨e, h1, _⟩ | ⟨_, b, _, hv, _⟩
  · rw [h1] at hok; simp at hok
  · refine ⟨b, hv, ?_⟩
    rw [getData_iff _ _ hg hn, value_setData t k hg hn, if_pos ⟨hok, rfl⟩, hv]

/-- **C34**. A set with a value that can be written succeeds whenever nothing has the name and no
data set stands where a group is needed. -/
theorem C34_set_succeeds (t : Tree B) (k : ShakeMap.Kind) (gs : List String) (n : String)
    (hg : ∀ g ∈ gs, PlainName g) (hn : PlainName n) (b : B)
    (hgroups : ∀ i, i ≤ gs.length → Hdf.value t (base k :: gs.take i) = none)
    (hfree : lookup t (base k :: (gs ++ [n])) = none) :
    (setData t k gs n (some b)).2 = .ok () :=
  setData_succeeds t k hg hn b hgroups hfree

/-- **C34**. A set, successful or not, changes no other entry of any kind. -/
theorem C34_set_untouched (t : Tree B) (k k' : ShakeMap.Kind) (gs gs' : List String)
    (n n' : String) (hg : ∀ g ∈ gs, PlainName g) (hn : PlainName n) (hg' : ∀ g ∈ gs', PlainName g)
    (hn' : PlainName n') (v : Option B) (hne : (k, gs, n) ≠ (k', gs', n')) (b : B) :
    getData (setData t k gs n v).1 k' gs' n' = .ok b ↔ getData t k' gs' n' = .ok b := by
  rw [getData_iff _ _ hg' hn', getData_iff _ _ hg' hn', value_setData t k hg hn, if_neg]
  rintro ⟨-, h⟩
  obtain ⟨rfl, rfl, rfl⟩ := path_inj.1 h
  exact hne rfl

/-- **C34**. A set of a name in use fails and keeps the stored value. -/
theorem C34_set_twice (t : Tree B) (k : ShakeMap.Kind) (gs : List String) (n : String)
    (hg : ∀ g ∈ gs, PlainName g) (hn : PlainName n) (v : Option B) (b : B)
    (hold : getData t k gs n = .ok b) :
    (∃ e, (setData t k gs n v).2 = .error e) ∧ getData (setData t k gs n v).1 k gs n = .ok b := by
  have hv := (getData_iff t k hg hn b).1 hold
  rcases setData_plain t k hg hn v with ⟨e, h1, h2⟩ | ⟨_, b', _, _, hf, _⟩
  · refine ⟨⟨e, h1⟩, ?_⟩
    rw [getData_iff _ _ hg hn, h2.value, hv]
  · rw [value_eq_some.1 hv] at hf; simp at hf

/-- **C34**. After a drop that succeeds the entry is gone; entries that are not below the dropped
name are unchanged. A drop that fails changes nothing. -/
theorem C34_drop (t : Tree B) (k : ShakeMap.Kind) (gs : List String) (n : String)
    (hg : ∀ g ∈ gs, PlainName g) (hn : PlainName n) :
    ((dropData t k gs n).2 = .ok () →
      (∀ b, getData (dropData t k gs n).1 k gs n ≠ .ok b) ∧
      ∀ (k' : ShakeMap.Kind) (gs' : List String) (n' : String), (∀ g ∈ gs', PlainName g) →
        PlainName n' → ¬ (k = k' ∧ gs ++ [n] <+: gs' ++ [n']) → ∀ b,
        (getData (dropData t k gs n).1 k' gs' n' = .ok b ↔ getData t k' gs' n' = .ok b)) ∧
    ((dropData t k gs n).2 ≠ .ok () → (dropData t k gs n).1 = t) ∧
    (∀ b, getData t k gs n = .ok b → (dropData t k gs n).2 = .ok ()) := by
  have hne : path k gs n ≠ [] := by simp [path]
  rcases dropData_plain t k hg hn with ⟨h1, h2, h3⟩ | ⟨h1, h2⟩
  · refine ⟨?_, fun _ => h3, ?_⟩
    · intro h; rcases h2 with h2 | h2 | h2 <;> rw [h2] at h <;> simp at h
    · intro b hb
      rw [getData_iff _ _ hg hn, value_eq_some, h1] at hb; simp at hb
  · rw [h2]
    refine ⟨fun _ => ⟨?_, ?_⟩, fun h => absurd rfl h, fun _ _ => rfl⟩
    · intro b
      rw [Ne, getData_iff _ _ hg hn, value_eraseAt t hne, if_pos (List.prefix_refl _)]
      simp
    · intro k' gs' n' hg' hn' hnp b
      rw [getData_iff _ _ hg' hn', getData_iff _ _ hg' hn', value_eraseAt t hne, if_neg]
      intro hp
      apply hnp
      obtain ⟨h3, h4⟩ := List.cons_prefix_cons.1 hp
      refine ⟨?_, h4⟩
      cases k <;> cases k' <;> first | rfl | (exfalso; revert h3; decide)

/-- **C34**, missing entries: get raises `LookupError` when every group on the way exists. -/
theorem C34_get_missing (t : Tree B) (k : ShakeMap.Kind) (gs : List String) (n : String)
    (hg : ∀ g ∈ gs, PlainName g) (hn : PlainName n) (kids : Tree B)
    (hgrp : lookup t (base k :: gs) = some (.dir kids))
    (hfree : lookup t (base k :: (gs ++ [n])) = none) :
    getData t k gs n = .error .lookupError := by
  unfold getData
  rw [(getGroup_plain t (base_plain k) hg).1 (by simp [hgrp])]
  simp only [hgrp, contains_plain hn]
  rw [show base k :: gs ++ [n] = base k :: (gs ++ [n]) from rfl, hfree]
  simp

/-- A file with two arrays in nested groups. -/
def sampleFile : Tree ℕ :=
  (setData (setData .nil .array ["imts", "rotd50"] "PGA" (some 7)).1 .array ["vs30"] "x"
    (some 8)).1

example : (setData sampleFile .array ["imts", "rotd50"] "PGV" (some 9)).2 = .ok () ∧
    getData sampleFile .array ["imts", "rotd50"] "PGA" = .ok 7 ∧
    (dropData sampleFile .array ["imts", "rotd50"] "PGA").2 = .ok () ∧
    getData sampleFile .array ["imts", "rotd50"] "SA" = .error .lookupError := by
  decide +kernel

example : ∀ g ∈ ["imts", "rotd50"], PlainName g := by simp [PlainName]

/-! ### C35 -/

/-- The path as the caller sees it: parts joined with slashes. -/
def joined (p : List String) : String := "/".intercalate p

theorem joined_single (s : String) : joined [s] = s := by simp [joined]

theorem joined_cons (s : String) {p : List String} (hp : p ≠ []) :
    joined (s :: p) = s ++ "/" ++ joined p := by
  cases p with
  | nil => exact absurd rfl hp
  | cons a p => simp [joined, String.intercalate_cons_cons, String.append_assoc]

theorem groupPaths_eq_nil {t : Tree B} : groupPaths t = [] ↔ t = .nil := by
  cases t with
  | nil => simp [groupPaths]
  | data n v r => simp [groupPaths]
  | dir n k r =>
    rw [groupPaths]
    rcases h : groupPaths k with _ | ⟨p, ps⟩ <;> simp [entryPaths]

/-- What is listed for one group entry. -/
theorem mem_dir_paths (n : String) (k : Tree B) (s : String) :
    s ∈ entryPaths n (groupPaths k) ↔
    (k = .nil ∧ s = n) ∨ ∃ p ∈ groupPaths k, s = n ++ "/" ++ p := by
  rcases h : groupPaths k with _ | ⟨p, ps⟩
  · have := groupPaths_eq_nil.1 h
    simp [this, entryPaths]
  · have : k ≠ .nil := fun e => by rw [groupPaths_eq_nil.2 e] at h; simp at h
    simp [this, entryPaths, eq_comm]

/-- A stored entry, or a group with nothing in it. -/
def Leaf (t : Tree B) (p : List String) : Prop :=
  p ≠ [] ∧ ((∃ v, lookup t p = some (.data v)) ∨ lookup t p = some (.dir .nil))

theorem not_mem_keys_of_lt {n : String} {r : Tree B} (h : ∀ m ∈ keys r, n < m) : n ∉ keys r :=
  fun hm => lt_irrefl _ (h n hm)

theorem leaf_data (n : String) (v : B) (r : Tree B) (p : List String) (hr : n ∉ keys r) :
    Leaf (.data n v r) p ↔ p = [n] ∨ Leaf r p := by
  cases p with
  | nil => simp [Leaf]
  | cons a p =>
    by_cases ha : a = n
    · subst ha
      have : find r a = none := by
        rw [mem_keys_iff] at hr; simpa using hr
      by_cases hp : p = []
      · simp [Leaf, lookup_cons, find, below, hp]
      · simp [Leaf, lookup_cons, find, below, hp, this]
    · simp [Leaf, lookup_cons, find, ha]

theorem leaf_dir (n : String) (k r : Tree B) (p : List String) (hr : n ∉ keys r) :
    Leaf (.dir n k r) p ↔ (p = [n] ∧ k = .nil) ∨ (∃ q, p = n :: q ∧ Leaf k q) ∨ Leaf r p := by
  cases p with
  | nil => simp [Leaf]
  | cons a p =>
    by_cases ha : a = n
    · subst ha
      have : find r a = none := by
        rw [mem_keys_iff] at hr; simpa using hr
      by_cases hp : p = []
      · subst hp
        simp [Leaf, lookup_cons, find, this]
      · simp [Leaf, lookup_cons, find, below, hp, this]
    · simp [Leaf, lookup_cons, find, ha]

/-- The listing, exactly: the stored entries and the empty groups. -/
theorem mem_groupPaths (t : Tree B) (ht : Ordered t) (s : String) :
    s ∈ groupPaths t ↔ ∃ p, Leaf t p ∧ s = joined p := by
  induction t generalizing s with
  | nil =>
    simp only [groupPaths, List.not_mem_nil, false_iff]
    rintro ⟨p, ⟨h1, h2⟩, -⟩
    rw [lookup_emptyTree p h1] at h2; simp at h2
  | data n v r ih =>
    have hr := not_mem_keys_of_lt ht.1
    rw [groupPaths, List.mem_cons, ih ht.2]
    constructor
    · rintro (rfl | ⟨p, h1, h2⟩)
      · exact ⟨[s], (leaf_data s v r _ hr).2 (Or.inl rfl), (joined_single s).symm⟩
      · exact ⟨p, (leaf_data n v r _ hr).2 (Or.inr h1), h2⟩
    · rintro ⟨p, h1, h2⟩
      rcases (leaf_data n v r _ hr).1 h1 with rfl | h1
      · exact Or.inl (h2.trans (joined_single n))
      · exact Or.inr ⟨p, h1, h2⟩
  | dir n k r ihk ihr =>
    have hr := not_mem_keys_of_lt ht.1
    rw [groupPaths, List.mem_append, mem_dir_paths, ihr ht.2.2]
    constructor
    · rintro ((⟨rfl, rfl⟩ | ⟨q, hq, rfl⟩) | ⟨p, h1, h2⟩)
      · exact ⟨[s], (leaf_dir s _ r _ hr).2 (Or.inl ⟨rfl, rfl⟩), (joined_single s).symm⟩
      · obtain ⟨p, h1, h2⟩ := (ihk ht.2.1 q).1 hq
        exact ⟨n :: p, (leaf_dir n k r _ hr).2 (Or.inr (Or.inl ⟨p, rfl, h1⟩)), by
          rw [joined_cons n h1.1, h2]⟩
      · exact ⟨p, (leaf_dir n k r _ hr).2 (Or.inr (Or.inr h1)), h2⟩
    · rintro ⟨p, h1, h2⟩
      rcases (leaf_dir n k r _ hr).1 h1 with ⟨rfl, rfl⟩ | ⟨q, rfl, h3⟩ | h3
      · exact Or.inl (Or.inl ⟨rfl, h2.trans (joined_single n)⟩)
      · exact Or.inl (Or.inr ⟨joined q, (ihk ht.2.1 _).2 ⟨q, h3, rfl⟩, by
          rw [h2, joined_cons n h3.1]⟩)
      · exact Or.inr ⟨p, h3, h2⟩

theorem slashless_keys {t : Tree B} (h : Slashless t) : ∀ n ∈ keys t, '/' ∉ n.toList := by
  induction t with
  | nil => simp [keys]
  | data n v r ih =>
    intro m hm; rcases List.mem_cons.1 hm with rfl | hm
    exacts [h.1, ih h.2 m hm]
  | dir n k r _ ih =>
    intro m hm; rcases List.mem_cons.1 hm with rfl | hm
    exacts [h.1, ih h.2.2 m hm]

/-- The first part of a joined path can be read off. -/
theorem head_inj {a b : List Char} {x y : List Char} (ha : '/' ∉ a) (hb : '/' ∉ b)
    (hx : x = [] ∨ x.head? = some '/') (hy : y = [] ∨ y.head? = some '/')
    (h : a ++ x = b ++ y) : a = b ∧ x = y := by
  induction a generalizing b with
  | nil =>
    cases b with
    | nil => exact ⟨rfl, by simpa using h⟩
    | cons c b =>
      simp only [List.nil_append, List.cons_append] at h
      rcases hx with rfl | hx
      · simp at h
      · rw [h] at hx; simp at hx; subst hx; simp at hb
  | cons c a ih =>
    cases b with
    | nil =>
      simp only [List.nil_append, List.cons_append] at h
      rcases hy with rfl | hy
      · simp at h
      · rw [← h] at hy; simp at hy; subst hy; simp at ha
    | cons d b =>
      simp only [List.cons_append, List.cons.injEq] at h
      obtain ⟨rfl, h⟩ := h
      obtain ⟨h1, h2⟩ := ih (fun e => ha (List.mem_cons_of_mem _ e))
        (fun e => hb (List.mem_cons_of_mem _ e)) h
      exact ⟨by rw [h1], h2⟩

/-- The name an item of a listing starts with. -/
theorem paths_start (t : Tree B) (s : String) (h : s ∈ groupPaths t) :
    ∃ n ∈ keys t, ∃ x : List Char, s.toList = n.toList ++ x ∧ (x = [] ∨ x.head? = some '/') := by
  induction t with
  | nil => simp [groupPaths] at h
  | data n v r ih =>
    rw [groupPaths, List.mem_cons] at h
    rcases h with rfl | h
    · exact ⟨s, by simp [keys], [], by simp, Or.inl rfl⟩
    · obtain ⟨m, hm, x, h1, h2⟩ := ih h
      exact ⟨m, by simp [keys, hm], x, h1, h2⟩
  | dir n k r _ ih =>
    rw [groupPaths, List.mem_append, mem_dir_paths] at h
    rcases h with (⟨_, rfl⟩ | ⟨p, _, rfl⟩) | h
    · exact ⟨s, by simp [keys], [], by simp, Or.inl rfl⟩
    · exact ⟨n, by simp [keys], '/' :: p.toList, by simp, Or.inr rfl⟩
    · obtain ⟨m, hm, x, h1, h2⟩ := ih h
      exact ⟨m, by simp [keys, hm], x, h1, h2⟩

theorem groupPaths_nodup (t : Tree B) (ht : Ordered t) (hs : Slashless t) :
    (groupPaths t).Nodup := by
  induction t with
  | nil => simp [groupPaths]
  | data n v r ih =>
    rw [groupPaths, List.nodup_cons]
    refine ⟨?_, ih ht.2 hs.2⟩
    intro hm
    obtain ⟨m, hm1, x, h1, h2⟩ := paths_start r n hm
    have := head_inj hs.1 (slashless_keys hs.2 m hm1) (Or.inl rfl) h2 (by simpa using h1)
    have e : n = m := String.toList_inj.1 this.1
    exact not_mem_keys_of_lt ht.1 (e ▸ hm1)
  | dir n k r ihk ihr =>
    rw [groupPaths, List.nodup_append]
    refine ⟨?_, ihr ht.2.2 hs.2.2, ?_⟩
    · rcases h : groupPaths k with _ | ⟨p, ps⟩
      · simp [entryPaths]
      · rw [entryPaths, ← h]
        · refine List.Nodup.map ?_ (ihk ht.2.1 hs.2.1)
          intro a b hab
          have := congrArg String.toList hab
          simp only [String.toList_append, List.append_assoc, List.append_cancel_left_eq] at this
          exact String.toList_inj.1 this
        · simp
    · intro a ha b hb hab
      subst hab
      obtain ⟨m, hm1, x, h1, h2⟩ := paths_start r a hb
      have hst : ∃ y : List Char, a.toList = n.toList ++ y ∧ (y = [] ∨ y.head? = some '/') := by
        rcases (mem_dir_paths n k a).1 ha with ⟨_, rfl⟩ | ⟨p, _, rfl⟩
        · exact ⟨[], by simp, Or.inl rfl⟩
        · exact ⟨'/' :: p.toList, by simp, Or.inr rfl⟩
      obtain ⟨y, h3, h4⟩ := hst
      have := head_inj hs.1 (slashless_keys hs.2.2 m hm1) h4 h2 (h3.symm.trans h1)
      have e : n = m := String.toList_inj.1 this.1
      exact not_mem_keys_of_lt ht.1 (e ▸ hm1)

/-- **C35** (partial). When no group below is empty, the listing holds each stored entry exactly
once and nothing else. Missing: empty groups, which are listed as entries, see the violation. -/
theorem C35_listing_partial (t : Tree B) (ht : Ordered t) (hs : Slashless t)
    (hne : ∀ p, p ≠ [] → lookup t p ≠ some (.dir .nil)) :
    (groupPaths t).Nodup ∧
    ∀ s, s ∈ groupPaths t ↔ ∃ p v, lookup t p = some (.data v) ∧ s = joined p := by
  refine ⟨groupPaths_nodup t ht hs, fun s => ?_⟩
  rw [mem_groupPaths t ht]
  constructor
  · rintro ⟨p, ⟨h1, ⟨v, h2⟩ | h2⟩, rfl⟩
    · exact ⟨p, v, h2, rfl⟩
    · exact absurd h2 (hne p h1)
  · rintro ⟨p, v, h1, rfl⟩
    refine ⟨p, ⟨?_, Or.inl ⟨v, h1⟩⟩, rfl⟩
    rintro rfl
    rw [lookup_nil] at h1; simp at h1

/-- Files made from the empty file by sets that succeed. -/
inductive Built : Tree B → Prop
  | empty : Built .nil
  | set {t : Tree B} (k : ShakeMap.Kind) (gs : List String) (n : String) (v : Option B) :
      Built t → (∀ g ∈ gs, PlainName g) → PlainName n → (setData t k gs n v).2 = .ok () →
      Built (setData t k gs n v).1

theorem built_good {t : Tree B} (h : Built t) :
    Ordered t ∧ Slashless t ∧ ∀ p, p ≠ [] → lookup t p ≠ some (.dir .nil) := by
  induction h with
  | empty => exact ⟨trivial, trivial, fun p hp => by simp [hp]⟩
  | @set t k gs n v ht hg hn hok ih =>
    obtain ⟨i1, i2, i3⟩ := ih
    rcases setData_plain t k hg hn v with ⟨e, h1, _⟩ | ⟨_, b, t1, _, _, hgr, hf1, hp⟩
    · rw [h1] at hok; simp at hok
    · have hsl : ∀ s ∈ path k gs n, '/' ∉ s.toList := by
        intro s hs
        simp only [path, List.mem_cons, List.mem_append, List.not_mem_nil, or_false] at hs
        rcases hs with rfl | hs | rfl
        exacts [(base_plain k).1, (hg s hs).1, hn.1]
      have hsl' : ∀ s ∈ base k :: gs, '/' ∉ s.toList := fun s hs => hsl s (by
        simp only [path, List.mem_cons, List.mem_append] at hs ⊢; tauto)
      refine ⟨ordered_setData t k hg hn v i1,
        slashless_putAt (hgr.slashless hsl' i2) (e := .data b) trivial hsl hp, ?_⟩
      intro p hpne
      by_cases hpre : p <+: path k gs n
      · obtain ⟨r, hr⟩ := hpre
        have hb := lookup_putAt_below hp []
        simp only [List.append_nil, below_nil] at hb
        intro hnil
        rw [← hr, lookup_append, hnil] at hb
        by_cases hr0 : r = [] <;> simp [below, hr0, lookup_nil] at hb
      · by_cases hpost : path k gs n <+: p
        · obtain ⟨r, rfl⟩ := hpost
          rw [lookup_putAt_below hp r]
          by_cases hr0 : r = [] <;> simp [below, hr0]
        · rw [lookup_putAt_other hp hpost hpre, hgr.other]
          · exact i3 p hpne
          · intro hx; exact hpre (hx.trans ⟨[n], by simp [path]⟩)

/-- **C35**, over histories without drops: in every file made by successful sets, the listing of a
kind holds exactly the entries that can be read back, each once. -/
theorem C35_listing_built {t : Tree B} (h : Built t) (k : ShakeMap.Kind) :
    (listData t k).Nodup ∧
    ∀ s, s ∈ listData t k ↔ ∃ p b, s = joined p ∧ Hdf.value t (base k :: p) = some b := by
  obtain ⟨h1, h2, h3⟩ := built_good h
  unfold listData
  rw [lookup_singleton]
  rcases hf : find t (base k) with _ | (v | kids)
  · simp [Hdf.value, lookup_cons, hf]
  · exfalso
    clear h1 h2 h3
    induction h with
    | empty => simp [find] at hf
    | @set t k' gs n v' ht hg hn hok ih =>
      have hv : Hdf.value (setData t k' gs n v').1 [base k] = some v := by
        simp [Hdf.value, lookup_singleton, hf]
      rw [value_setData t k' hg hn] at hv
      split_ifs at hv with hc
      · simp [path] at hc
      · rw [value_eq_some, lookup_singleton] at hv
        exact ih hv
  · have := C35_listing_partial kids (ordered_find h1 hf) (slashless_find h2 hf) (by
      intro p hp e
      refine h3 (base k :: p) (by simp) ?_
      rw [lookup_cons, hf]; exact e)
    refine ⟨this.1, fun s => (this.2 s).trans ?_⟩
    constructor
    · rintro ⟨p, b, h1, h2⟩
      exact ⟨p, b, h2, by rw [value_eq_some, lookup_cons, hf]; exact h1⟩
    · rintro ⟨p, b, h1, h2⟩
      refine ⟨p, b, ?_, h1⟩
      rw [value_eq_some, lookup_cons, hf] at h2; exact h2

example : Built sampleFile :=
  .set _ _ _ _ (.set _ _ _ _ .empty (by simp [PlainName]) (by simp [PlainName])
    (by decide +kernel)) (by simp [PlainName]) (by simp [PlainName]) (by decide +kernel)

/-- **C35**, for every tree: what the listing holds is exactly the stored entries and the empty
groups, each once. -/
theorem C35_listing_exact (t : Tree B) (ht : Ordered t) (hs : Slashless t) :
    (groupPaths t).Nodup ∧
    ∀ s, s ∈ groupPaths t ↔ ∃ p, p ≠ [] ∧ s = joined p ∧
      ((∃ v, lookup t p = some (.data v)) ∨ lookup t p = some (.dir .nil)) := by
  refine ⟨groupPaths_nodup t ht hs, fun s => ?_⟩
  rw [mem_groupPaths t ht]
  constructor
  · rintro ⟨p, ⟨h1, h2⟩, h3⟩; exact ⟨p, h1, h3, h2⟩
  · rintro ⟨p, h1, h3, h2⟩; exact ⟨p, ⟨h1, h2⟩, h3⟩

example : groupPaths sampleFile = ["arrays/imts/rotd50/PGA", "arrays/vs30/x"] := by decide +kernel

/-- **C35** fails: after the only array of a group is dropped, the empty group is listed as if it
were an array, and reading it fails. -/
theorem C35_empty_group_violated :
    let t := (setData (B := ℕ) .nil .array ["g"] "x" (some 1)).1
    let t' := (dropData t .array ["g"] "x").1
    listData t .array = ["g/x"] ∧ listData t' .array = ["g"] ∧
    getData t' .array [] "g" = .error .notDataset := by decide +kernel

/-- **C35** fails in another way: a set that is rejected because the value cannot be serialised
leaves an empty group that is listed. -/
theorem C35_rejected_set_violated :
    let r := setData (B := ℕ) .nil .dict ["g"] "x" none
    r.2 = .error .typeError ∧ listData r.1 .dict = ["g"] := by decide +kernel

end Verif.Props
