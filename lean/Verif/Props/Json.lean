import Verif.Lemmas.Json
import Verif.Props.Container

/-!
# C180: dictionaries and lists in a container come back as they were stored
-/

namespace Verif.Props
open Verif.Json Verif.Spec

section json
variable {F : Type}

mutual
theorem writable_dumps (fl : Floats F) (v : Val F) (h : Storable v) : ∃ t, dumps fl v = some t := by
  match v, h with
  | .none, _ => exact ⟨_, by rw [dumps]⟩
  | .bool true, _ => exact ⟨_, by rw [dumps]⟩
  | .bool false, _ => exact ⟨_, by rw [dumps]⟩
  | .int i, _ => exact ⟨_, by rw [dumps]⟩
  | .float f, _ => exact ⟨_, by rw [dumps]⟩
  | .str s, _ => exact ⟨_, by rw [dumps]⟩
  | .list xs, .list h =>
    obtain ⟨ts, hts⟩ := writable_items fl xs h
    exact ⟨_, by rw [dumps, hts, Option.map_some]⟩
  | .tuple xs, .tuple h =>
    obtain ⟨ts, hts⟩ := writable_items fl xs h
    exact ⟨_, by rw [dumps, hts, Option.map_some]⟩
  | .dict ps, .dict hk h =>
    obtain ⟨ts, hts⟩ := writable_members fl ps hk h
    exact ⟨_, by rw [dumps, hts, Option.map_some]⟩
theorem writable_items (fl : Floats F) (xs : List (Val F)) (h : ∀ x ∈ xs, Storable x) : ∃ ts, dumpsItems fl xs = some ts := by
  match xs, h with
  | [], _ => exact ⟨_, by rw [dumpsItems]⟩
  | x :: xs, h =>
    obtain ⟨t, ht⟩ := writable_dumps fl x (h x (by simp))
    obtain ⟨ts, hts⟩ := writable_items fl xs fun y hy => h y (by simp [hy])
    exact ⟨t :: ts, by rw [dumpsItems, ht, hts]; rfl⟩
theorem writable_members (fl : Floats F) (ps : List (Key F × Val F)) (hk : ∀ p ∈ ps, p.1 ≠ .other)
    (h : ∀ p ∈ ps, Storable p.2) : ∃ ts, dumpsMembers fl ps = some ts := by
  match ps, hk, h with
  | [], _, _ => exact ⟨_, by rw [dumpsMembers]⟩
  | (k, x) :: ps, hk, h =>
    obtain ⟨t, ht⟩ := writable_dumps fl x (h (k, x) (by simp))
    obtain ⟨ts, hts⟩ := writable_members fl ps (fun y hy => hk y (by simp [hy])) fun y hy => h y (by simp [hy])
    obtain ⟨kt, hkt⟩ : ∃ kt, keyText fl k = some kt := by
      have := hk (k, x) (by simp)
      cases k with
      | other => exact absurd rfl this
      | bool b => cases b <;> exact ⟨_, rfl⟩
      | _ => exact ⟨_, rfl⟩
    exact ⟨_, by rw [dumpsMembers, hkt, ht, hts]; rfl⟩
end

mutual
theorem dumps_writable {fl : Floats F} (v : Val F) {t : Text} (h : dumps fl v = some t) : Storable v := by
  match v, h with
  | .none, _ => exact .none
  | .bool b, _ => exact .bool b
  | .int i, _ => exact .int i
  | .float f, _ => exact .float f
  | .str s, _ => exact .str s
  | .list xs, h =>
    rw [dumps] at h
    obtain ⟨ts, h1, -⟩ := Option.map_eq_some_iff.1 h
    exact .list (items_writable xs h1)
  | .tuple xs, h =>
    rw [dumps] at h
    obtain ⟨ts, h1, -⟩ := Option.map_eq_some_iff.1 h
    exact .tuple (items_writable xs h1)
  | .dict ps, h =>
    rw [dumps] at h
    obtain ⟨ts, h1, -⟩ := Option.map_eq_some_iff.1 h
    have := members_writable ps h1
    exact .dict (fun p hp => (this p hp).1) fun p hp => (this p hp).2
  | .other, h => rw [dumps] at h; cases h
theorem items_writable {fl : Floats F} (xs : List (Val F)) {ts : List Text} (h : dumpsItems fl xs = some ts) :
    ∀ x ∈ xs, Storable x := by
  match xs, h with
  | [], _ => simp
  | x :: xs, h =>
    obtain ⟨t, us, h1, h2, -⟩ := items_cons h
    have hx := dumps_writable x h1
    have hxs := items_writable xs h2
    intro y hy
    rcases List.mem_cons.1 hy with rfl | hy
    · exact hx
    · exact hxs y hy
theorem members_writable {fl : Floats F} (ps : List (Key F × Val F)) {ts : List Text} (h : dumpsMembers fl ps = some ts) :
    ∀ p ∈ ps, p.1 ≠ .other ∧ Storable p.2 := by
  match ps, h with
  | [], _ => simp
  | (k, x) :: ps, h =>
    obtain ⟨kt, t, us, h0, h1, h2, -⟩ := members_cons h
    have hx := dumps_writable x h1
    have hps := members_writable ps h2
    intro y hy
    rcases List.mem_cons.1 hy with rfl | hy
    · refine ⟨fun e => ?_, hx⟩
      rw [show k = Key.other from e] at h0
      cases h0
    · exact hps y hy
end

mutual
theorem returned_plain (fl : Floats F) (v : Val F) (h : Storable v) : PlainVal (returned fl v) := by
  match v, h with
  | .none, _ => rw [returned] <;> first | exact .none | simp
  | .bool b, _ => rw [returned] <;> first | exact .bool b | simp
  | .int i, _ => rw [returned] <;> first | exact .int i | simp
  | .float f, _ => rw [returned] <;> first | exact .float f | simp
  | .str s, _ => rw [returned] <;> first | exact .str s | simp
  | .list xs, .list h => rw [returned]; exact .list (returned_plainItems fl xs h)
  | .tuple xs, .tuple h => rw [returned]; exact .list (returned_plainItems fl xs h)
  | .dict ps, .dict _ h =>
    rw [returned]
    refine .dict ?_ fun p hp => returned_plainMembers fl ps h p (merged_mem hp)
    rw [merged_keys]
    exact nodup_firsts _
theorem returned_plainItems (fl : Floats F) (xs : List (Val F)) (h : ∀ x ∈ xs, Storable x) :
    ∀ x ∈ returnedItems fl xs, PlainVal x := by
  match xs, h with
  | [], _ => rw [returnedItems]; simp
  | x :: xs, h =>
    have hx := returned_plain fl x (h x (by simp))
    have hxs := returned_plainItems fl xs fun y hy => h y (by simp [hy])
    rw [returnedItems]
    intro y hy
    rcases List.mem_cons.1 hy with rfl | hy
    · exact hx
    · exact hxs y hy
theorem returned_plainMembers (fl : Floats F) (ps : List (Key F × Val F)) (h : ∀ p ∈ ps, Storable p.2) :
    ∀ p ∈ returnedMembers fl ps, PlainVal p.2 := by
  match ps, h with
  | [], _ => rw [returnedMembers]; simp
  | (k, x) :: ps, h =>
    have hx := returned_plain fl x (h (k, x) (by simp))
    have hps := returned_plainMembers fl ps fun y hy => h y (by simp [hy])
    rw [returnedMembers]
    intro y hy
    rcases List.mem_cons.1 hy with rfl | hy
    · exact hx
    · exact hps y hy
end

theorem returnedItems_eq (fl : Floats F) (xs : List (Val F)) : returnedItems fl xs = xs.map (returned fl) := by
  induction xs with
  | nil => rw [returnedItems]; rfl
  | cons x xs ih => rw [returnedItems, ih]; rfl

theorem returnedMembers_eq (fl : Floats F) (ps : List (Key F × Val F)) :
    returnedMembers fl ps = ps.map fun p => (keyName fl p.1, returned fl p.2) := by
  induction ps with
  | nil => rw [returnedMembers]; rfl
  | cons x xs ih => obtain ⟨k, x⟩ := x; rw [returnedMembers, ih]; rfl

theorem plain_returned (fl : Floats F) {v : Val F} (h : PlainVal v) : returned fl v = v := by
  induction h with
  | list h ih =>
    rw [returned, returnedItems_eq]
    congr 1
    rename_i xs
    conv_rhs => rw [← List.map_id xs]
    exact List.map_congr_left ih
  | dict hk h ih =>
    rename_i ps
    rw [returned, returnedMembers_eq, List.map_map]
    have e : ps.map ((fun p : Key F × Val F => (keyName fl p.1, returned fl p.2)) ∘ fun p => (Key.str p.1, p.2)) = ps := by
      conv_rhs => rw [← List.map_id ps]
      refine List.map_congr_left fun p hp => ?_
      show (p.1, returned fl p.2) = p
      rw [ih p hp]
    rw [e, merged_nodup hk]
  | _ => rw [returned] <;> simp

theorem plain_writable {v : Val F} (h : PlainVal v) : Storable v := by
  induction h with
  | none => exact .none
  | bool b => exact .bool b
  | int i => exact .int i
  | float f => exact .float f
  | str s => exact .str s
  | list h ih => exact .list ih
  | dict hk h ih =>
    refine .dict ?_ ?_
    · intro p hp
      obtain ⟨q, -, rfl⟩ := List.mem_map.1 hp
      simp
    · intro p hp
      obtain ⟨q, hq, rfl⟩ := List.mem_map.1 hp
      exact ih q hq

/-- **C180** (partial). Every value of texts, numbers, truth values, None, lists and dictionaries with texts as keys comes
back from the file exactly as it was, and these are the only values that do. Missing: tuples, other keys, and the other
types that the documentation names, see the violations. -/
theorem C180_same_partial {fl : Floats F} (hfl : FloatsOk fl) (v : Val F) :
    (dumps fl v).bind (loads fl) = some v ↔ PlainVal v := by
  constructor
  · intro h
    obtain ⟨t, ht, hl⟩ := Option.bind_eq_some_iff.1 h
    rw [loads_dumps hfl ht, Option.some.injEq] at hl
    rw [← hl]
    exact returned_plain fl v (dumps_writable v ht)
  · intro h
    obtain ⟨t, ht⟩ := writable_dumps fl v (plain_writable h)
    rw [ht, Option.bind_some, loads_dumps hfl ht, plain_returned fl h]

/-- **C180**. Every value without arrays, bytes, times and so on can be stored, and what comes back is the value with
tuples made lists, keys made texts and keys with the same text merged; any other value raises an error. -/
theorem C180_returned {fl : Floats F} (hfl : FloatsOk fl) (v : Val F) :
    (Storable v → (dumps fl v).bind (loads fl) = some (returned fl v)) ∧ (¬ Storable v → dumps fl v = none) := by
  constructor
  · intro h
    obtain ⟨t, ht⟩ := writable_dumps fl v h
    rw [ht, Option.bind_some, loads_dumps hfl ht]
  · intro h
    cases hd : dumps fl v with
    | none => rfl
    | some t => exact absurd (dumps_writable v hd) h

/-- **C180**. What comes back is stable: stored once more it comes back as it is. -/
theorem C180_twice {fl : Floats F} (hfl : FloatsOk fl) {v w : Val F} (h : (dumps fl v).bind (loads fl) = some w) :
    (dumps fl w).bind (loads fl) = some w := by
  obtain ⟨t, ht, hl⟩ := Option.bind_eq_some_iff.1 h
  rw [loads_dumps hfl ht, Option.some.injEq] at hl
  exact (C180_same_partial hfl w).2 (hl ▸ returned_plain fl v (dumps_writable v ht))

/-- A list, a tuple or a dictionary. -/
def IsCollection : Val F → Prop
  | .list _ | .tuple _ | .dict _ => True
  | _ => False

theorem scan_collection {fl : Floats F} (hfl : FloatsOk fl) {v : Val F} (hv : IsCollection v) {t : Text} {n : ℕ} (rest : Text)
    (h : dumps fl v = some t) (hn : t.length < n) : scan fl n (t ++ rest) = some (returned fl v, rest) := by
  match v, h with
  | .list xs, h =>
    rw [dumps] at h
    obtain ⟨ts, h1, rfl⟩ := Option.map_eq_some_iff.1 h
    rw [returned]
    exact scan_list hfl xs h1 hn
  | .tuple xs, h =>
    rw [dumps] at h
    obtain ⟨ts, h1, rfl⟩ := Option.map_eq_some_iff.1 h
    rw [returned]
    exact scan_list hfl xs h1 hn
  | .dict [], h =>
    rw [dumps] at h
    obtain ⟨ts, h1, rfl⟩ := Option.map_eq_some_iff.1 h
    obtain ⟨n, rfl⟩ : ∃ m, n = m + 1 := ⟨n - 1, by omega⟩
    rw [List.cons_append, List.cons_append, scan, if_neg (by decide), if_pos rfl, returned]
    rw [dumpsMembers] at h1; cases h1
    rw [if_pos (by rfl), returnedMembers]
    rfl
  | .dict ((k, x) :: ps), h =>
    rw [dumps] at h
    obtain ⟨ts, h1, rfl⟩ := Option.map_eq_some_iff.1 h
    obtain ⟨n, rfl⟩ : ∃ m, n = m + 1 := ⟨n - 1, by omega⟩
    rw [List.cons_append, List.cons_append, scan, if_neg (by decide), if_pos rfl, returned]
    obtain ⟨s, hc⟩ := commas_firstMember h1
    rw [hc, List.append_assoc, List.cons_append, skip_cons (by decide), if_neg (by simp)]
    rw [← List.cons_append, ← hc]
    rw [List.singleton_append, scanMembers_dumps hfl k x ps h1 (by simp at hn; omega), ← fromPairs_eq]
    rfl

theorem dropWhile_nil (s : Text) : s.dropWhile white = [] ↔ ∀ c ∈ s, white c = true := by
  induction s with
  | nil => simp
  | cons c s ih =>
    rw [List.dropWhile_cons]
    by_cases h : white c = true
    · rw [if_pos h, ih]
      simp [h]
    · rw [if_neg h]
      simp [h]

/-- **C180**. A stored text with anything but white space added at its end is refused, and added white space does not matter. -/
theorem C180_trailing {fl : Floats F} (hfl : FloatsOk fl) {v : Val F} (hv : IsCollection v) {t : Text} (h : dumps fl v = some t) (rest : Text) :
    ((∃ c ∈ rest, c ∉ [' ', '\t', '\n', '\r']) → loads fl (t ++ rest) = none) ∧
    ((∀ c ∈ rest, c ∈ [' ', '\t', '\n', '\r']) → loads fl (t ++ rest) = some (returned fl v)) := by
  obtain ⟨c, s, hc, hw, -⟩ := dumps_first hfl h
  have e : skip (t ++ rest) = t ++ rest := by rw [hc, List.cons_append, skip_cons hw]
  have h1 := scan_collection hfl hv (n := (t ++ rest).length + 1) rest h (by simp; omega)
  have hwhite : ∀ c, white c = true ↔ c ∈ [' ', '\t', '\n', '\r'] := by
    intro c
    unfold white
    simp [or_assoc]
  unfold loads
  rw [e, h1]
  constructor
  · rintro ⟨c, hc1, hc2⟩
    have : skip rest ≠ [] := by
      unfold skip
      intro h0
      have := (dropWhile_nil rest).1 h0 c hc1
      exact hc2 ((hwhite c).1 this)
    simp [this]
  · intro hr
    have : skip rest = [] := (dropWhile_nil rest).2 fun c hc => (hwhite c).2 (hr c hc)
    simp [this]

open Classical in
/-- **C180**. Every history of calls with plain names on a new container shows exactly what five write-once maps show in
which a value that can be stored stands as it comes back, and any other value is refused. -/
theorem C180_histories {fl : Floats F} (hfl : FloatsOk fl) (ops : List (Container.Op (Val F)))
    (hops : ∀ op ∈ ops, PlainOp op) :
    Agrees (fun _ v => if Storable v then some (returned fl v) else none) Maps.empty ops
      (Container.run (codec fl) .nil ops) := by
  have e : (fun (_ : Container.Kind) v => if Storable v then some (returned fl v) else none) =
      fun k v => ((codec fl).enc k v).map ((codec fl).dec k) := by
    funext k v
    show _ = (dumps fl v).map fun t => (loads fl t).getD .none
    split
    · rename_i h
      obtain ⟨t, ht⟩ := writable_dumps fl v h
      rw [ht, Option.map_some, loads_dumps hfl ht]
      rfl
    · rename_i h
      rw [(C180_returned hfl v).2 h]
      rfl
  rw [e]
  exact C32_five_maps_partial (codec fl) ops hops

/-! ### Characters -/

/-- A character that can be printed in seven bits. -/
def Printable (c : Char) : Prop := 32 ≤ c.toNat ∧ c.toNat ≤ 126

theorem hexDigit_printable (n : ℕ) : Printable (hexDigit n) := by
  by_cases h : n < 16
  · unfold Printable; interval_cases n <;> decide
  · have : hexDigit n = '0' := by
      unfold hexDigit
      rw [List.getD_eq_getElem?_getD, List.getElem?_eq_none (by simp; omega)]
      rfl
    rw [this]; unfold Printable; decide

theorem escape_printable (c : Char) : ∀ d ∈ escapeChar c, Printable d := by
  have hb : Printable '\\' := by unfold Printable; decide
  have hu : Printable 'u' := by unfold Printable; decide
  have hh : ∀ n, ∀ d ∈ hex4 n, Printable d := by
    intro n d hd
    simp only [hex4, List.mem_cons, List.not_mem_nil, or_false] at hd
    rcases hd with rfl | rfl | rfl | rfl <;> exact hexDigit_printable _
  intro d hd
  unfold escapeChar at hd
  split_ifs at hd with _ _ _ _ _ _ _ h
  all_goals simp only [List.mem_cons, List.mem_append, List.cons_append, List.not_mem_nil, or_false] at hd
  all_goals first
    | (obtain rfl := hd; exact h)
    | (rcases hd with rfl | rfl <;> (unfold Printable; decide))
    | (rcases hd with rfl | rfl | hd
       · exact hb
       · exact hu
       · exact hh _ _ hd)
    | (rcases hd with rfl | rfl | hd | rfl | rfl | hd
       · exact hb
       · exact hu
       · exact hh _ _ hd
       · exact hb
       · exact hu
       · exact hh _ _ hd)

theorem quoted_printable (s : Text) : ∀ d ∈ quoted s, Printable d := by
  intro d hd
  have hq : Printable '"' := by unfold Printable; decide
  simp only [quoted, List.cons_append, List.mem_cons, List.mem_append, List.mem_flatMap, List.not_mem_nil, or_false] at hd
  rcases hd with rfl | ⟨c, -, hd⟩ | rfl
  · exact hq
  · exact escape_printable c d hd
  · exact hq

theorem digit_printable {c : Char} (h : c.isDigit = true) : Printable c := by
  simp only [Char.isDigit, Bool.and_eq_true, decide_eq_true_eq] at h
  unfold Printable
  have h1 : 48 ≤ c.toNat := h.1
  have h2 : c.toNat ≤ 57 := h.2
  omega

theorem int_printable (i : ℤ) : ∀ d ∈ intText i, Printable d := by
  intro d hd
  unfold intText at hd
  rcases List.mem_append.1 hd with hd | hd
  · split_ifs at hd <;> simp at hd
    subst hd; unfold Printable; decide
  · exact digit_printable ((toDigits_digits i.natAbs).1.2 d hd)

theorem float_printable {fl : Floats F} (hfl : FloatsOk fl) (f : F) : ∀ d ∈ fl.text f, Printable d := by
  rcases (hfl f).2 with h | ⟨sign, i, fr, e, ht, hs, hi, -, hf, he, -⟩
  · simp only [List.mem_cons, List.not_mem_nil, or_false] at h
    unfold Printable
    rcases h with h | h | h <;> rw [h] <;> decide
  · intro d hd
    rw [ht] at hd
    simp only [List.mem_append] at hd
    rcases hd with ((hd | hd) | hd) | hd
    · rcases hs with rfl | rfl
      · simp at hd
      · simp only [List.mem_cons, List.not_mem_nil, or_false] at hd
        subst hd; unfold Printable; decide
    · exact digit_printable (hi.2 d hd)
    · rcases hf with rfl | ⟨x, rfl, hx⟩
      · simp at hd
      · rcases List.mem_cons.1 hd with rfl | hd
        · unfold Printable; decide
        · exact digit_printable (hx.2 d hd)
    · rcases he with rfl | ⟨s, x, rfl, hs, hx⟩
      · simp at hd
      · simp only [List.cons_append, List.mem_cons, List.mem_append] at hd
        rcases hd with rfl | hd | hd
        · unfold Printable; decide
        · rcases hs with rfl | rfl | rfl
          · simp at hd
          all_goals
            simp only [List.mem_cons, List.not_mem_nil, or_false] at hd
            subst hd; unfold Printable; decide
        · exact digit_printable (hx.2 d hd)

theorem commas_printable {ts : List Text} (h : ∀ t ∈ ts, ∀ d ∈ t, Printable d) : ∀ d ∈ commas ts, Printable d := by
  induction ts with
  | nil => simp [commas]
  | cons t ts ih =>
    have ih := ih fun u hu => h u (by simp [hu])
    cases ts with
    | nil => exact h t (by simp)
    | cons u ts =>
      intro d hd
      rw [commas] at hd
      simp only [List.mem_append, List.mem_cons] at hd
      rcases hd with hd | rfl | rfl | hd
      · exact h t (by simp) d hd
      · unfold Printable; decide
      · unfold Printable; decide
      · exact ih d hd

mutual
theorem dumps_printable {fl : Floats F} (hfl : FloatsOk fl) (v : Val F) {t : Text} (h : dumps fl v = some t) :
    ∀ d ∈ t, Printable d := by
  match v, h with
  | .none, h => rw [dumps] at h; cases h; unfold Printable; decide
  | .bool true, h => rw [dumps] at h; cases h; unfold Printable; decide
  | .bool false, h => rw [dumps] at h; cases h; unfold Printable; decide
  | .int i, h => rw [dumps] at h; cases h; exact int_printable i
  | .float f, h => rw [dumps] at h; cases h; exact float_printable hfl f
  | .str s, h => rw [dumps] at h; cases h; exact quoted_printable s
  | .list xs, h =>
    rw [dumps] at h
    obtain ⟨ts, h1, rfl⟩ := Option.map_eq_some_iff.1 h
    have hi := commas_printable (items_printable hfl xs h1)
    intro d hd
    simp only [List.cons_append, List.mem_cons, List.mem_append, List.not_mem_nil, or_false] at hd
    rcases hd with rfl | hd | rfl
    · unfold Printable; decide
    · exact hi d hd
    · unfold Printable; decide
  | .tuple xs, h =>
    rw [dumps] at h
    obtain ⟨ts, h1, rfl⟩ := Option.map_eq_some_iff.1 h
    have hi := commas_printable (items_printable hfl xs h1)
    intro d hd
    simp only [List.cons_append, List.mem_cons, List.mem_append, List.not_mem_nil, or_false] at hd
    rcases hd with rfl | hd | rfl
    · unfold Printable; decide
    · exact hi d hd
    · unfold Printable; decide
  | .dict ps, h =>
    rw [dumps] at h
    obtain ⟨ts, h1, rfl⟩ := Option.map_eq_some_iff.1 h
    have hi := commas_printable (members_printable hfl ps h1)
    intro d hd
    simp only [List.cons_append, List.mem_cons, List.mem_append, List.not_mem_nil, or_false] at hd
    rcases hd with rfl | hd | rfl
    · unfold Printable; decide
    · exact hi d hd
    · unfold Printable; decide
  | .other, h => rw [dumps] at h; cases h
theorem items_printable {fl : Floats F} (hfl : FloatsOk fl) (xs : List (Val F)) {ts : List Text}
    (h : dumpsItems fl xs = some ts) : ∀ t ∈ ts, ∀ d ∈ t, Printable d := by
  match xs, h with
  | [], h => rw [dumpsItems] at h; cases h; simp
  | x :: xs, h =>
    obtain ⟨t, us, h1, h2, rfl⟩ := items_cons h
    have hx := dumps_printable hfl x h1
    have hxs := items_printable hfl xs h2
    intro y hy
    rcases List.mem_cons.1 hy with rfl | hy
    · exact hx
    · exact hxs y hy
theorem members_printable {fl : Floats F} (hfl : FloatsOk fl) (ps : List (Key F × Val F)) {ts : List Text}
    (h : dumpsMembers fl ps = some ts) : ∀ t ∈ ts, ∀ d ∈ t, Printable d := by
  match ps, h with
  | [], h => rw [dumpsMembers] at h; cases h; simp
  | (k, x) :: ps, h =>
    obtain ⟨kt, t, us, h0, h1, h2, rfl⟩ := members_cons h
    have hx := dumps_printable hfl x h1
    have hps := members_printable hfl ps h2
    intro y hy
    rcases List.mem_cons.1 hy with rfl | hy
    · intro d hd
      simp only [List.mem_append, List.mem_cons] at hd
      rcases hd with hd | rfl | rfl | hd
      · exact quoted_printable kt d hd
      · unfold Printable; decide
      · unfold Printable; decide
      · exact hx d hd
    · exact hps y hy
end

/-- **C180**. Whatever the value, all characters in the file can be printed in seven bits, so that the bytes are the
characters, none of them is zero, and no line ends inside. -/
theorem C180_ascii {fl : Floats F} (hfl : FloatsOk fl) {v : Val F} {t : Text} (h : dumps fl v = some t) :
    ∀ c ∈ t, 32 ≤ c.toNat ∧ c.toNat ≤ 126 :=
  dumps_printable hfl v h

/-! ### What does not come back -/

/-- **C180** is violated for tuples: whatever is in it, a tuple that can be stored comes back as a list. -/
theorem C180_tuple_violated {fl : Floats F} (hfl : FloatsOk fl) (xs : List (Val F)) (h : ∀ x ∈ xs, Storable x) :
    ∃ ys : List (Val F), ys.length = xs.length ∧ (dumps fl (.tuple xs)).bind (loads fl) = some (.list ys) := by
  refine ⟨xs.map (returned fl), by simp, ?_⟩
  rw [(C180_returned hfl _).1 (.tuple h), returned, returnedItems_eq]

/-- **C180** is violated for keys that are no texts: the number comes back as a text, for every number and value. -/
theorem C180_key_violated {fl : Floats F} (hfl : FloatsOk fl) (i : ℤ) (s : Text) :
    (dumps fl (.dict [(.int i, .str s)])).bind (loads fl) = some (.dict [(.str (toString i).toList, .str s)]) := by
  have hw : Storable (.dict [(.int i, .str s)] : Val F) :=
    .dict (by simp) (by intro p hp; simp only [List.mem_singleton] at hp; subst hp; exact .str s)
  rw [(C180_returned hfl _).1 hw, returned, returnedMembers_eq]
  have e : returned fl (.str s) = .str s := plain_returned fl (.str s)
  simp [e, merged, firsts, keyName]

/-- **C180** is violated for a number and its text as keys of one dictionary: one of the two values is lost. -/
theorem C180_merged_violated {fl : Floats F} (hfl : FloatsOk fl) (i : ℤ) (a b : Text) :
    (dumps fl (.dict [(.int i, .str a), (.str (toString i).toList, .str b)])).bind (loads fl) =
      some (.dict [(.str (toString i).toList, .str b)]) := by
  have hw : Storable (.dict [(.int i, .str a), (.str (toString i).toList, .str b)] : Val F) := by
    refine .dict (by simp) ?_
    intro p hp
    simp only [List.mem_cons, List.not_mem_nil, or_false] at hp
    rcases hp with rfl | rfl
    · exact .str a
    · exact .str b
  rw [(C180_returned hfl _).1 hw, returned, returnedMembers_eq]
  have e : ∀ s, returned fl (.str s) = .str s := fun s => plain_returned fl (.str s)
  simp [e, merged, firsts, keyName]

/-- **C180** is violated for arrays, bytes and times, which the documentation allows as elements: a dictionary with one of
them cannot be stored, whatever else it holds. -/
theorem C180_types_violated {fl : Floats F} (hfl : FloatsOk fl) (k : Key F) (ps qs : List (Key F × Val F)) :
    dumps fl (.dict (ps ++ (k, .other) :: qs)) = none := by
  refine (C180_returned hfl _).2 fun h => ?_
  cases h with
  | dict _ h => cases h (k, .other) (by simp)

/-! ### Cases that meet the hypotheses -/

/-- Halves of odd numbers: 2 is written `2.5`. -/
def halves : Floats ℕ := ⟨fun n => Nat.toDigits 10 n ++ ".5".toList, fun t => digitsValue (t.takeWhile Char.isDigit)⟩

theorem halves_ok : FloatsOk halves := by
  intro n
  obtain ⟨h1, h2⟩ := toDigits_digits n
  refine ⟨?_, Or.inr ⟨[], Nat.toDigits 10 n, ".5".toList, [], ?_, Or.inl rfl, h1, h2, Or.inr ⟨['5'], rfl, by simp, by decide⟩,
    Or.inl rfl, Or.inl (by decide)⟩⟩
  · show digitsValue ((Nat.toDigits 10 n ++ ".5".toList).takeWhile Char.isDigit) = n
    rw [(takeWhile_digits h1.2 (rest := ".5".toList) (by intro c hc; cases hc; rfl)).1, digitsValue_toDigits]
  · simp [halves]

/-- A dictionary with all kinds of values in it. -/
def jsonSample : Val ℕ := .dict
  [(.str "id".toList, .str "a\"b\\c\né".toList), (.str "n".toList, .int (-10)), (.str "".toList, .float 12),
   (.str "x".toList, .list [.none, .bool true, .list [], .dict [], .dict [(.str "𝕏".toList, .int 0)]])]

example : (dumps halves jsonSample) = some
    ("{\"id\": \"a\\\"b\\\\c\\n\\u00e9\", \"n\": -10, \"\": 12.5, \"x\": [null, true, [], {}, {\"\\ud835\\udd4f\": 0}]}").toList := by
  decide +kernel

example : IsCollection jsonSample ∧ ∃ c ∈ " x".toList, c ∉ [' ', '\t', '\n', '\r'] := ⟨trivial, 'x', by decide, by decide⟩

example : PlainVal jsonSample := by
  refine (C180_same_partial halves_ok _).1 ?_
  rw [Option.bind_eq_some_iff]
  obtain ⟨t, ht⟩ := writable_dumps halves jsonSample (by
    refine .dict (by simp) ?_
    intro p hp
    simp only [List.mem_cons, List.not_mem_nil, or_false] at hp
    rcases hp with rfl | rfl | rfl | rfl
    · exact .str _
    · exact .int _
    · exact .float _
    · refine .list ?_
      intro x hx
      simp only [List.mem_cons, List.not_mem_nil, or_false] at hx
      rcases hx with rfl | rfl | rfl | rfl | rfl
      · exact .none
      · exact .bool _
      · exact .list (by simp)
      · exact .dict (by simp) (by simp)
      · exact .dict (by simp) (by intro p hp; simp only [List.mem_singleton] at hp; subst hp; exact .int _))
  refine ⟨t, ht, ?_⟩
  rw [loads_dumps halves_ok ht]
  rfl

example : (dumps halves (.dict [(.int 1, .tuple [.int 2]), (.bool true, .none), (.str "1".toList, .int 3)])) =
    some "{\"1\": [2], \"true\": null, \"1\": 3}".toList := by decide +kernel

example : returned halves (.dict [(.int 1, .tuple [.int 2]), (.bool true, .none), (.str "1".toList, .int 3)]) =
    .dict [(.str "1".toList, .int 3), (.str "true".toList, .none)] := by rfl

end json

end Verif.Props
