import Verif.Model.Hdf
import Mathlib.Data.List.Basic
import Mathlib.Tactic.Common

/-! Reading back after the primitive changes of the HDF model. -/

namespace Verif.Hdf

variable {α : Type}

@[simp] theorem find_cons (s s' : String) (e : Entry α) (t : Tree α) :
    find (cons s e t) s' = if s' = s then some e else find t s' := by
  cases e <;> simp [cons, find]

theorem find_put (s s' : String) (e : Entry α) (t : Tree α) :
    find (put s e t) s' = if s' = s then some e else find t s' := by
  induction t with
  | nil => simp [put]
  | data n v r ih =>
    by_cases h1 : s = n
    · subst h1; simp only [put, if_true, find_cons, find]
      split_ifs <;> rfl
    · by_cases h2 : s < n
      · simp [put, h1, h2]
      · simp only [put, h1, h2, if_false, find, ih]
        by_cases h3 : s' = n
        · have : s' ≠ s := fun h => h1 (h.symm.trans h3)
          rw [if_pos h3, if_neg this, if_pos h3]
        · rw [if_neg h3, if_neg h3]
  | dir n k r _ ih =>
    by_cases h1 : s = n
    · subst h1; simp only [put, if_true, find_cons, find]
      split_ifs <;> rfl
    · by_cases h2 : s < n
      · simp [put, h1, h2]
      · simp only [put, h1, h2, if_false, find, ih]
        by_cases h3 : s' = n
        · have : s' ≠ s := fun h => h1 (h.symm.trans h3)
          rw [if_pos h3, if_neg this, if_pos h3]
        · rw [if_neg h3, if_neg h3]

theorem find_erase (s s' : String) (t : Tree α) :
    find (erase s t) s' = if s' = s then none else find t s' := by
  induction t with
  | nil => simp [erase, find]
  | data n v r ih =>
    by_cases h1 : s = n
    · subst h1; simp only [erase, if_true, ih, find]
      split_ifs <;> rfl
    · simp only [erase, h1, if_false, find, ih]
      by_cases h3 : s' = n
      · have : s' ≠ s := fun h => h1 (h.symm.trans h3)
        rw [if_pos h3, if_neg this, if_pos h3]
      · rw [if_neg h3, if_neg h3]
  | dir n k r _ ih =>
    by_cases h1 : s = n
    · subst h1; simp only [erase, if_true, ih, find]
      split_ifs <;> rfl
    · simp only [erase, h1, if_false, find, ih]
      by_cases h3 : s' = n
      · have : s' ≠ s := fun h => h1 (h.symm.trans h3)
        rw [if_pos h3, if_neg this, if_pos h3]
      · rw [if_neg h3, if_neg h3]

/-- What stands below an entry. -/
def below : Entry α → List String → Option (Entry α)
  | .data v, p => if p = [] then some (.data v) else none
  | .dir k, p => lookup k p

@[simp] theorem below_nil (e : Entry α) : below e [] = some e := by
  cases e <;> simp [below, lookup]

theorem lookup_cons (t : Tree α) (s : String) (p : List String) :
    lookup t (s :: p) = (find t s).bind (below · p) := by
  rw [lookup]
  rcases find t s with _ | (v | k) <;> simp [below]

theorem lookup_nil (t : Tree α) : lookup t [] = some (.dir t) := by rw [lookup]

@[simp] theorem lookup_emptyTree (p : List String) (h : p ≠ []) :
    lookup (Tree.nil : Tree α) p = none := by
  cases p with
  | nil => exact absurd rfl h
  | cons s p => simp [lookup_cons, find]

theorem lookup_append (t : Tree α) (p q : List String) :
    lookup t (p ++ q) = (lookup t p).bind (below · q) := by
  induction p generalizing t with
  | nil => simp [lookup_nil, below]
  | cons s p ih =>
    rw [List.cons_append, lookup_cons, lookup_cons]
    rcases find t s with _ | (v | k)
    · simp
    · by_cases hp : p = [] <;> by_cases hq : q = [] <;> simp [below, hp, hq]
    · simp [below, ih]

theorem lookup_singleton (t : Tree α) (s : String) : lookup t [s] = find t s := by
  rw [lookup_cons]; rcases find t s with _ | e <;> simp

/-- Putting an entry at a path, then looking below that path. -/
theorem lookup_putAt_below {t t' : Tree α} {p : List String} {e : Entry α}
    (h : putAt t p e = some t') (r : List String) : lookup t' (p ++ r) = below e r := by
  induction p generalizing t t' with
  | nil => simp [putAt] at h
  | cons s p ih =>
    rw [putAt] at h
    by_cases hp : p = []
    · subst hp
      simp only [if_true, Option.some.injEq] at h
      subst h
      simp [lookup_cons, find_put]
    · rw [if_neg hp] at h
      rcases hf : find t s with _ | (v | k)
      · rw [hf] at h
        obtain ⟨k', hk', rfl⟩ := Option.map_eq_some_iff.1 h
        simp [lookup_cons, find_put, below, ih hk']
      · rw [hf] at h; simp at h
      · rw [hf] at h
        obtain ⟨k', hk', rfl⟩ := Option.map_eq_some_iff.1 h
        simp [lookup_cons, find_put, below, ih hk']

/-- Putting an entry at a path changes nothing at paths that are neither above nor below it. -/
theorem lookup_putAt_other {t t' : Tree α} {p q : List String} {e : Entry α}
    (h : putAt t p e = some t') (h1 : ¬ p <+: q) (h2 : ¬ q <+: p) :
    lookup t' q = lookup t q := by
  induction p generalizing t t' q with
  | nil => simp at h1
  | cons s p ih =>
    cases q with
    | nil => simp at h2
    | cons s' q =>
      rw [putAt] at h
      by_cases hs : s' = s
      · subst hs
        have h1' : ¬ p <+: q := fun h => h1 (by simpa using h)
        have h2' : ¬ q <+: p := fun h => h2 (by simpa using h)
        have hp : p ≠ [] := by rintro rfl; simp at h1'
        have hq : q ≠ [] := by rintro rfl; simp at h2'
        rw [if_neg hp] at h
        rcases hf : find t s' with _ | (v | k)
        · rw [hf] at h
          obtain ⟨k', hk', rfl⟩ := Option.map_eq_some_iff.1 h
          rw [lookup_cons, lookup_cons, find_put, hf]
          simp [below, ih hk' h1' h2', hq]
        · rw [hf] at h; simp at h
        · rw [hf] at h
          obtain ⟨k', hk', rfl⟩ := Option.map_eq_some_iff.1 h
          rw [lookup_cons, lookup_cons, find_put, hf]
          simp [below, ih hk' h1' h2']
      · by_cases hp : p = []
        · subst hp
          simp only [if_true, Option.some.injEq] at h
          subst h
          simp [lookup_cons, find_put, hs]
        · rw [if_neg hp] at h
          rcases hf : find t s with _ | (v | k)
          · rw [hf] at h
            obtain ⟨k', hk', rfl⟩ := Option.map_eq_some_iff.1 h
            simp [lookup_cons, find_put, hs]
          · rw [hf] at h; simp at h
          · rw [hf] at h
            obtain ⟨k', hk', rfl⟩ := Option.map_eq_some_iff.1 h
            simp [lookup_cons, find_put, hs]

/-- Above the path there are groups afterwards, and what was there before was not a data set. -/
theorem lookup_putAt_above {t t' : Tree α} {p q : List String} {e : Entry α}
    (h : putAt t p e = some t') (h2 : q <+: p) (hne : q ≠ p) :
    (∃ k, lookup t' q = some (.dir k)) ∧ (∀ v, lookup t q ≠ some (.data v)) := by
  induction p generalizing t t' q with
  | nil => simp at h2; exact absurd h2 hne
  | cons s p ih =>
    cases q with
    | nil => exact ⟨⟨t', lookup_nil t'⟩, by simp [lookup_nil]⟩
    | cons s' q =>
      obtain ⟨rfl, h2'⟩ := List.cons_prefix_cons.1 h2
      have hne' : q ≠ p := fun h => hne (by rw [h])
      have hp : p ≠ [] := by rintro rfl; simp at h2'; exact hne' h2'
      rw [putAt, if_neg hp] at h
      rcases hf : find t s' with _ | (v | k)
      · rw [hf] at h
        obtain ⟨k', hk', rfl⟩ := Option.map_eq_some_iff.1 h
        obtain ⟨⟨k2, g1⟩, g2⟩ := ih hk' h2' hne'
        refine ⟨⟨k2, ?_⟩, ?_⟩
        · simp [lookup_cons, find_put, below, g1]
        · simp [lookup_cons, hf]
      · rw [hf] at h; simp at h
      · rw [hf] at h
        obtain ⟨k', hk', rfl⟩ := Option.map_eq_some_iff.1 h
        obtain ⟨⟨k2, g1⟩, g2⟩ := ih hk' h2' hne'
        refine ⟨⟨k2, ?_⟩, ?_⟩
        · simp [lookup_cons, find_put, below, g1]
        · simpa [lookup_cons, hf, below] using g2

/-- Below a path where there is nothing, there is nothing. -/
theorem lookup_none_of_prefix {t : Tree α} {p q : List String} (h : lookup t p = none)
    (hq : p <+: q) : lookup t q = none := by
  obtain ⟨r, rfl⟩ := hq
  rw [lookup_append, h]; rfl

theorem value_of_lookup {t : Tree α} {p : List String} {v : α} (h : lookup t p = some (.data v)) :
    value t p = some v := by simp [value, h]

theorem value_eq_some {t : Tree α} {p : List String} {v : α} :
    value t p = some v ↔ lookup t p = some (.data v) := by
  unfold value
  rcases h : lookup t p with _ | (w | k) <;> simp

/-- The data sets after creating a data set at a free path. -/
theorem value_putAt_data {t t' : Tree α} {p : List String} {v : α}
    (h : putAt t p (.data v) = some t') (hfree : lookup t p = none) (q : List String) :
    value t' q = if q = p then some v else value t q := by
  by_cases hq : q = p
  · subst hq
    have := lookup_putAt_below h []
    simp only [List.append_nil, below_nil] at this
    rw [if_pos rfl, value_of_lookup this]
  · rw [if_neg hq]
    by_cases h1 : p <+: q
    · have hn := lookup_none_of_prefix hfree h1
      obtain ⟨r, rfl⟩ := h1
      have := lookup_putAt_below h r
      have hr : r ≠ [] := by rintro rfl; simp at hq
      simp [value, this, hn, below, hr]
    · by_cases h2 : q <+: p
      · obtain ⟨⟨k, g1⟩, g2⟩ := lookup_putAt_above h h2 hq
        rw [value, g1]
        unfold value
        rcases hl : lookup t q with _ | (w | k)
        · rfl
        · exact absurd hl (g2 w)
        · rfl
      · rw [value, lookup_putAt_other h h1 h2]; rfl

/-- Creating an empty group at a free path changes no data set. -/
theorem value_putAt_dir {t t' : Tree α} {p : List String}
    (h : putAt t p (.dir .nil) = some t') (hfree : lookup t p = none) (q : List String) :
    value t' q = value t q := by
  by_cases h1 : p <+: q
  · have hn := lookup_none_of_prefix hfree h1
    obtain ⟨r, rfl⟩ := h1
    have := lookup_putAt_below h r
    by_cases hr : r = []
    · rw [value, value, this, hn, hr]; simp [below, lookup_nil]
    · simp [value, this, hn, below, hr]
  · by_cases hq : q = p
    · exact absurd (hq ▸ List.prefix_refl _) h1
    · by_cases h2 : q <+: p
      · obtain ⟨⟨k, g1⟩, g2⟩ := lookup_putAt_above h h2 hq
        rw [value, g1]
        unfold value
        rcases hl : lookup t q with _ | (w | k)
        · rfl
        · exact absurd hl (g2 w)
        · rfl
      · rw [value, lookup_putAt_other h h1 h2]; rfl

/-- After deleting a path there is nothing at or below it. -/
theorem lookup_eraseAt_below (t : Tree α) {p : List String} (hp : p ≠ []) (r : List String) :
    lookup (eraseAt t p) (p ++ r) = none := by
  induction p generalizing t with
  | nil => exact absurd rfl hp
  | cons s p ih =>
    rw [eraseAt]
    by_cases hp' : p = []
    · subst hp'; simp [lookup_cons, find_erase]
    · rw [if_neg hp']
      rcases hf : find t s with _ | (v | k)
      · simp [lookup_cons, hf]
      · simp [lookup_cons, hf, below, hp']
      · simp [lookup_cons, find_put, below, ih _ hp']

/-- Deleting a path changes nothing at paths that are neither above nor below it. -/
theorem lookup_eraseAt_other (t : Tree α) {p q : List String} (h1 : ¬ p <+: q) (h2 : ¬ q <+: p) :
    lookup (eraseAt t p) q = lookup t q := by
  induction p generalizing t q with
  | nil => simp at h1
  | cons s p ih =>
    cases q with
    | nil => simp at h2
    | cons s' q =>
      rw [eraseAt]
      by_cases hs : s' = s
      · subst hs
        have h1' : ¬ p <+: q := fun h => h1 (by simpa using h)
        have h2' : ¬ q <+: p := fun h => h2 (by simpa using h)
        have hp : p ≠ [] := by rintro rfl; simp at h1'
        rw [if_neg hp]
        rcases hf : find t s' with _ | (v | k)
        · rfl
        · rfl
        · simp [lookup_cons, find_put, hf, below, ih _ h1' h2']
      · by_cases hp : p = []
        · simp [hp, lookup_cons, find_erase, hs]
        · rw [if_neg hp]
          rcases hf : find t s with _ | (v | k)
          · rfl
          · rfl
          · simp [lookup_cons, find_put, hs]

/-- Above a deleted path, groups stay groups. -/
theorem lookup_eraseAt_above (t : Tree α) {p q : List String} (h2 : q <+: p) (hne : q ≠ p) :
    value (eraseAt t p) q = value t q ∧
      ((lookup (eraseAt t p) q).isSome = (lookup t q).isSome) := by
  induction p generalizing t q with
  | nil => simp at h2; exact absurd h2 hne
  | cons s p ih =>
    cases q with
    | nil => simp [value, lookup_nil]
    | cons s' q =>
      obtain ⟨rfl, h2'⟩ := List.cons_prefix_cons.1 h2
      have hne' : q ≠ p := fun h => hne (by rw [h])
      have hp : p ≠ [] := by rintro rfl; simp at h2'; exact hne' h2'
      rw [eraseAt, if_neg hp]
      rcases hf : find t s' with _ | (v | k)
      · simp
      · simp
      · have := ih k h2' hne'
        simp only [value, lookup_cons, find_put, if_true, hf, Option.bind_some, below]
        exact this

/-- The data sets after deleting a path. -/
theorem value_eraseAt (t : Tree α) {p : List String} (hp : p ≠ []) (q : List String) :
    value (eraseAt t p) q = if p <+: q then none else value t q := by
  by_cases h1 : p <+: q
  · rw [if_pos h1]
    obtain ⟨r, rfl⟩ := h1
    simp [value, lookup_eraseAt_below t hp r]
  · rw [if_neg h1]
    by_cases h2 : q <+: p
    · exact (lookup_eraseAt_above t h2 (by rintro rfl; exact h1 (List.prefix_refl _))).1
    · rw [value, lookup_eraseAt_other t h1 h2]; rfl

/-! ### Names in order -/

/-- Entries stand in strictly increasing name order, at every level. -/
def Ordered : Tree α → Prop
  | .nil => True
  | .data n _ r => (∀ m ∈ keys r, n < m) ∧ Ordered r
  | .dir n k r => (∀ m ∈ keys r, n < m) ∧ Ordered k ∧ Ordered r

/-- The same for one entry. -/
def Entry.Ordered : Entry α → Prop
  | .data _ => True
  | .dir k => Hdf.Ordered k

theorem keys_cons (s : String) (e : Entry α) (t : Tree α) : keys (cons s e t) = s :: keys t := by
  cases e <;> rfl

theorem ordered_cons (s : String) (e : Entry α) (t : Tree α) :
    Ordered (cons s e t) ↔ (∀ m ∈ keys t, s < m) ∧ e.Ordered ∧ Ordered t := by
  cases e <;> simp [cons, Ordered, Entry.Ordered]

theorem mem_keys_put (s : String) (e : Entry α) (t : Tree α) (m : String) :
    m ∈ keys (put s e t) ↔ m = s ∨ m ∈ keys t := by
  induction t with
  | nil => simp [put, keys_cons, keys]
  | data n v r ih =>
    by_cases h1 : s = n
    · subst h1; simp [put, keys_cons, keys]
    · by_cases h2 : s < n
      · simp [put, h1, h2, keys_cons, keys]
      · simp only [put, h1, h2, if_false, keys, List.mem_cons, ih]; tauto
  | dir n k r _ ih =>
    by_cases h1 : s = n
    · subst h1; simp [put, keys_cons, keys]
    · by_cases h2 : s < n
      · simp [put, h1, h2, keys_cons, keys]
      · simp only [put, h1, h2, if_false, keys, List.mem_cons, ih]; tauto

theorem mem_keys_erase (s : String) (t : Tree α) (m : String) :
    m ∈ keys (erase s t) ↔ m ≠ s ∧ m ∈ keys t := by
  induction t with
  | nil => simp [erase, keys]
  | data n v r ih =>
    by_cases h1 : s = n
    · subst h1; simp only [erase, if_true, ih, keys, List.mem_cons]; tauto
    · simp only [erase, h1, if_false, keys, List.mem_cons, ih]
      constructor
      · rintro (rfl | h)
        · exact ⟨fun h => h1 h.symm, Or.inl rfl⟩
        · exact ⟨h.1, Or.inr h.2⟩
      · rintro ⟨h, rfl | h'⟩
        · exact Or.inl rfl
        · exact Or.inr ⟨h, h'⟩
  | dir n k r _ ih =>
    by_cases h1 : s = n
    · subst h1; simp only [erase, if_true, ih, keys, List.mem_cons]; tauto
    · simp only [erase, h1, if_false, keys, List.mem_cons, ih]
      constructor
      · rintro (rfl | h)
        · exact ⟨fun h => h1 h.symm, Or.inl rfl⟩
        · exact ⟨h.1, Or.inr h.2⟩
      · rintro ⟨h, rfl | h'⟩
        · exact Or.inl rfl
        · exact Or.inr ⟨h, h'⟩

theorem mem_keys_iff (t : Tree α) (s : String) : s ∈ keys t ↔ (find t s).isSome := by
  induction t with
  | nil => simp [keys, find]
  | data n v r ih => by_cases h : s = n <;> simp [keys, find, h, ih]
  | dir n k r _ ih => by_cases h : s = n <;> simp [keys, find, h, ih]

theorem ordered_put (s : String) (e : Entry α) (t : Tree α) (ht : Ordered t) (he : e.Ordered) :
    Ordered (put s e t) := by
  induction t with
  | nil => rw [put, ordered_cons]; simp [keys, Ordered, he]
  | data n v r ih =>
    obtain ⟨h1, h2⟩ := ht
    by_cases hs : s = n
    · subst hs; simp only [put, if_true, ordered_cons]; exact ⟨h1, he, h2⟩
    · by_cases hlt : s < n
      · simp only [put, hs, hlt, if_false, if_true, ordered_cons]
        refine ⟨?_, he, h1, h2⟩
        intro m hm
        rcases List.mem_cons.1 hm with rfl | hm
        · exact hlt
        · exact lt_trans hlt (h1 m hm)
      · simp only [put, hs, hlt, if_false]
        refine ⟨?_, ih h2⟩
        intro m hm
        rcases (mem_keys_put s e r m).1 hm with rfl | hm
        · exact lt_of_le_of_ne (not_lt.1 hlt) (fun h => hs h.symm)
        · exact h1 m hm
  | dir n k r _ ih =>
    obtain ⟨h1, hk, h2⟩ := ht
    by_cases hs : s = n
    · subst hs; simp only [put, if_true, ordered_cons]; exact ⟨h1, he, h2⟩
    · by_cases hlt : s < n
      · simp only [put, hs, hlt, if_false, if_true, ordered_cons]
        refine ⟨?_, he, h1, hk, h2⟩
        intro m hm
        rcases List.mem_cons.1 hm with rfl | hm
        · exact hlt
        · exact lt_trans hlt (h1 m hm)
      · simp only [put, hs, hlt, if_false]
        refine ⟨?_, hk, ih h2⟩
        intro m hm
        rcases (mem_keys_put s e r m).1 hm with rfl | hm
        · exact lt_of_le_of_ne (not_lt.1 hlt) (fun h => hs h.symm)
        · exact h1 m hm

theorem ordered_erase (s : String) (t : Tree α) (ht : Ordered t) : Ordered (erase s t) := by
  induction t with
  | nil => exact ht
  | data n v r ih =>
    obtain ⟨h1, h2⟩ := ht
    by_cases hs : s = n
    · simp only [erase, hs, if_true]; exact hs ▸ ih h2
    · simp only [erase, hs, if_false]
      exact ⟨fun m hm => h1 m ((mem_keys_erase s r m).1 hm).2, ih h2⟩
  | dir n k r _ ih =>
    obtain ⟨h1, hk, h2⟩ := ht
    by_cases hs : s = n
    · simp only [erase, hs, if_true]; exact hs ▸ ih h2
    · simp only [erase, hs, if_false]
      exact ⟨fun m hm => h1 m ((mem_keys_erase s r m).1 hm).2, hk, ih h2⟩

theorem ordered_find {t : Tree α} (ht : Ordered t) {s : String} {k : Tree α}
    (h : find t s = some (.dir k)) : Ordered k := by
  induction t with
  | nil => simp [find] at h
  | data n v r ih =>
    by_cases hs : s = n
    · simp [find, hs] at h
    · exact ih ht.2 (by simpa [find, hs] using h)
  | dir n k' r _ ih =>
    by_cases hs : s = n
    · simp only [find, hs, if_true, Option.some.injEq, Entry.dir.injEq] at h
      exact h ▸ ht.2.1
    · exact ih ht.2.2 (by simpa [find, hs] using h)

theorem ordered_lookup {t : Tree α} (ht : Ordered t) {p : List String} {k : Tree α}
    (h : lookup t p = some (.dir k)) : Ordered k := by
  induction p generalizing t with
  | nil => rw [lookup_nil] at h; simp at h; exact h ▸ ht
  | cons s p ih =>
    rw [lookup_cons] at h
    rcases hf : find t s with _ | (v | k')
    · simp [hf] at h
    · by_cases hp : p = [] <;> simp [hf, below, hp] at h
    · exact ih (ordered_find ht hf) (by simpa [hf, below] using h)

theorem ordered_putAt {t t' : Tree α} {p : List String} {e : Entry α} (ht : Ordered t)
    (he : e.Ordered) (h : putAt t p e = some t') : Ordered t' := by
  induction p generalizing t t' with
  | nil => simp [putAt] at h
  | cons s p ih =>
    rw [putAt] at h
    by_cases hp : p = []
    · simp only [hp, if_true, Option.some.injEq] at h
      exact h ▸ ordered_put s e t ht he
    · rw [if_neg hp] at h
      rcases hf : find t s with _ | (v | k)
      · rw [hf] at h
        obtain ⟨k', hk', rfl⟩ := Option.map_eq_some_iff.1 h
        exact ordered_put s _ t ht (ih (t := .nil) trivial hk')
      · rw [hf] at h; simp at h
      · rw [hf] at h
        obtain ⟨k', hk', rfl⟩ := Option.map_eq_some_iff.1 h
        exact ordered_put s _ t ht (ih (ordered_find ht hf) hk')

theorem ordered_eraseAt (t : Tree α) (p : List String) (ht : Ordered t) :
    Ordered (eraseAt t p) := by
  induction p generalizing t with
  | nil => rw [eraseAt]; exact ht
  | cons s p ih =>
    rw [eraseAt]
    by_cases hp : p = []
    · rw [if_pos hp]; exact ordered_erase s t ht
    · rw [if_neg hp]
      rcases hf : find t s with _ | (v | k)
      · exact ht
      · exact ht
      · exact ordered_put s _ t ht (ih k (ordered_find ht hf))

theorem keys_sorted {t : Tree α} (ht : Ordered t) : (keys t).Pairwise (· < ·) := by
  induction t with
  | nil => exact List.Pairwise.nil
  | data n v r ih => exact List.Pairwise.cons ht.1 (ih ht.2)
  | dir n k r _ ih => exact List.Pairwise.cons ht.1 (ih ht.2.2)

/-- Names without slashes, at every level. -/
def Slashless : Tree B → Prop
  | .nil => True
  | .data n _ r => '/' ∉ n.toList ∧ Slashless r
  | .dir n k r => '/' ∉ n.toList ∧ Slashless k ∧ Slashless r

/-- The same for one entry. -/
def Entry.Slashless : Entry α → Prop
  | .data _ => True
  | .dir k => Hdf.Slashless k

theorem slashless_cons (s : String) (e : Entry α) (t : Tree α) :
    Slashless (cons s e t) ↔ '/' ∉ s.toList ∧ e.Slashless ∧ Slashless t := by
  cases e <;> simp [cons, Slashless, Entry.Slashless]

theorem slashless_put {s : String} {e : Entry α} {t : Tree α} (hs : '/' ∉ s.toList)
    (he : e.Slashless) (ht : Slashless t) : Slashless (put s e t) := by
  induction t with
  | nil => rw [put, slashless_cons]; exact ⟨hs, he, trivial⟩
  | data n v r ih =>
    by_cases h1 : s = n
    · subst h1; simp only [put, if_true, slashless_cons]; exact ⟨hs, he, ht.2⟩
    · by_cases h2 : s < n
      · simp only [put, h1, h2, if_false, if_true, slashless_cons]; exact ⟨hs, he, ht⟩
      · simp only [put, h1, h2, if_false]; exact ⟨ht.1, ih ht.2⟩
  | dir n k r _ ih =>
    by_cases h1 : s = n
    · subst h1; simp only [put, if_true, slashless_cons]; exact ⟨hs, he, ht.2.2⟩
    · by_cases h2 : s < n
      · simp only [put, h1, h2, if_false, if_true, slashless_cons]; exact ⟨hs, he, ht⟩
      · simp only [put, h1, h2, if_false]; exact ⟨ht.1, ht.2.1, ih ht.2.2⟩

theorem slashless_find {t : Tree α} (ht : Slashless t) {s : String} {k : Tree α}
    (h : find t s = some (.dir k)) : Slashless k := by
  induction t with
  | nil => simp [find] at h
  | data n v r ih =>
    by_cases hs : s = n
    · simp [find, hs] at h
    · exact ih ht.2 (by simpa [find, hs] using h)
  | dir n k' r _ ih =>
    by_cases hs : s = n
    · simp only [find, hs, if_true, Option.some.injEq, Entry.dir.injEq] at h
      exact h ▸ ht.2.1
    · exact ih ht.2.2 (by simpa [find, hs] using h)

theorem slashless_putAt {t t' : Tree α} {p : List String} {e : Entry α} (ht : Slashless t)
    (he : e.Slashless) (hp : ∀ s ∈ p, '/' ∉ s.toList) (h : putAt t p e = some t') :
    Slashless t' := by
  induction p generalizing t t' with
  | nil => simp [putAt] at h
  | cons s p ih =>
    have hs := hp s (by simp)
    have hp' : ∀ x ∈ p, '/' ∉ x.toList := fun x hx => hp x (by simp [hx])
    rw [putAt] at h
    by_cases hnil : p = []
    · simp only [hnil, if_true, Option.some.injEq] at h
      exact h ▸ slashless_put hs he ht
    · rw [if_neg hnil] at h
      rcases hf : find t s with _ | (v | k)
      · rw [hf] at h
        obtain ⟨k', hk', rfl⟩ := Option.map_eq_some_iff.1 h
        exact slashless_put hs (ih (t := .nil) trivial hp' hk') ht
      · rw [hf] at h; simp at h
      · rw [hf] at h
        obtain ⟨k', hk', rfl⟩ := Option.map_eq_some_iff.1 h
        exact slashless_put hs (ih (slashless_find ht hf) hp' hk') ht

/-! ### Plain names -/

theorem splitSlash_plain (cs : List Char) (h : '/' ∉ cs) : splitSlash cs = [cs] := by
  induction cs with
  | nil => rfl
  | cons c cs ih =>
    have h1 : c ≠ '/' := fun e => h (by simp [e])
    have h2 : '/' ∉ cs := fun e => h (List.mem_cons_of_mem _ e)
    rw [splitSlash, if_neg h1, ih h2]

end Verif.Hdf
