import Verif.Spec.Mail
import Mathlib.Algebra.Order.BigOperators.Group.List
import Mathlib.Tactic.Linarith

/-!
# E-mail sender: C49-C51, C88-C90
-/

namespace Verif.Props
open Verif.Fs Verif.Email Verif.Spec

/-! ### Batches -/

theorem slice_nat {α : Type} (xs : List α) (i j : ℕ) (hi : i ≤ xs.length) (hj : j ≤ xs.length) :
    slice xs (i : ℤ) (j : ℤ) = (xs.take j).drop i := by
  unfold slice slicePos
  rw [if_neg (by omega), if_neg (by omega)]
  simp [hi, hj]

/-- What the loop returns, for batches of at least one recipient. -/
theorem loop_spec {rs : List Address} {m : ℤ} (hm : 2 ≤ m) {p : Address} {fuel : ℕ} {i : ℕ}
    (hi : i ≤ rs.length) {bs : List (Address × List Address)}
    (h : loop rs m p fuel (i : ℤ) = some bs) :
    (bs.map Prod.snd).flatten = rs.drop i ∧
    ∀ b ∈ bs, b.1 = p ∧ b.2 ≠ [] ∧ 1 + (b.2.length : ℤ) ≤ m := by
  induction fuel generalizing i bs with
  | zero => exact absurd h (by simp [loop])
  | succ fuel ih =>
    rw [loop] at h
    unfold Email.round at h
    by_cases hlt : (i : ℤ) < rs.length
    · rw [if_pos hlt] at h
      simp only [Option.map_eq_some_iff] at h
      obtain ⟨rest, hrest, rfl⟩ := h
      obtain ⟨j, hj⟩ : ∃ j : ℕ, (j : ℤ) = min (rs.length : ℤ) ((i : ℤ) + (m - 1)) :=
        ⟨(min (rs.length : ℤ) ((i : ℤ) + (m - 1))).toNat, Int.toNat_of_nonneg (by omega)⟩
      rw [← hj] at hrest ⊢
      have hjn : j ≤ rs.length := by omega
      obtain ⟨h1, h2⟩ := ih hjn hrest
      have hij : i < j := by omega
      rw [slice_nat rs i j hi hjn]
      constructor
      · rw [List.map_cons, List.flatten_cons, h1]
        conv_rhs => rw [← List.take_append_drop j rs]
        rw [List.drop_append_of_le_length (by simp; omega)]
      · intro b hb
        rcases List.mem_cons.1 hb with rfl | hb
        · refine ⟨rfl, ?_, ?_⟩
          · intro h0
            have := congrArg List.length h0
            simp only [List.length_drop, List.length_take, List.length_nil] at this
            omega
          · simp only [List.length_drop, List.length_take]
            omega
        · exact h2 b hb
    · rw [if_neg hlt] at h
      simp only [Option.some.injEq] at h
      subst h
      have : i = rs.length := by omega
      simp [this]

/-- The loop ends for batches of at least one recipient. -/
theorem loop_ends {rs : List Address} {m : ℤ} (hm : 2 ≤ m) (p : Address) {i : ℕ} (hi : i ≤ rs.length) :
    ∃ fuel bs, loop rs m p fuel (i : ℤ) = some bs := by
  induction hn : rs.length - i using Nat.strong_induction_on generalizing i with
  | _ n ih =>
    by_cases hlt : (i : ℤ) < rs.length
    · obtain ⟨j, hj⟩ : ∃ j : ℕ, (j : ℤ) = min (rs.length : ℤ) ((i : ℤ) + (m - 1)) :=
        ⟨(min (rs.length : ℤ) ((i : ℤ) + (m - 1))).toNat, Int.toNat_of_nonneg (by omega)⟩
      obtain ⟨fuel, bs, h⟩ := ih (rs.length - j) (by omega) (i := j) (by omega) rfl
      refine ⟨fuel + 1, (p, slice rs (i : ℤ) (j : ℤ)) :: bs, ?_⟩
      rw [loop]
      unfold Email.round
      rw [if_pos hlt, ← hj]
      simp [h]
    · refine ⟨1, [], ?_⟩
      rw [loop]
      unfold Email.round
      rw [if_neg hlt]

/-- The loop never ends for empty or negative batches. -/
theorem loop_diverges {rs : List Address} (hrs : rs ≠ []) {m : ℤ} (hm : m ≤ 1) (p : Address)
    (fuel : ℕ) {i : ℤ} (hi : i ≤ 0) : loop rs m p fuel i = none := by
  have hpos : 0 < rs.length := List.length_pos_iff.2 hrs
  induction fuel generalizing i with
  | zero => rfl
  | succ fuel ih =>
    rw [loop]
    unfold Email.round
    rw [if_pos (by omega)]
    simp only [Option.map_eq_none_iff]
    apply ih
    omega

/-! ### C50 -/

/-- **C50**, what holds: splitting ends exactly when `max_bcc` is 0 or at least 2, or there are no
recipients. The full statement, that it always ends, is false: see `C50_one_violated`. -/
theorem C50_termination_partial (rs : List Address) (m : ℤ) (p : Address) :
    (∃ bs, Splits rs m p bs) ↔ m = 0 ∨ 2 ≤ m ∨ rs = [] := by
  unfold Splits Email.split
  by_cases h0 : m = 0
  · simp [h0]
  · simp only [h0, if_false, false_or]
    by_cases h2 : 2 ≤ m
    · simp only [h2, true_or, iff_true]
      obtain ⟨fuel, bs, h⟩ := loop_ends h2 p (rs := rs) (i := 0) (by omega)
      exact ⟨bs, fuel, by simpa using h⟩
    · simp only [h2, false_or]
      constructor
      · rintro ⟨bs, fuel, h⟩
        by_contra hne
        rw [loop_diverges hne (by omega) p fuel (le_refl 0)] at h
        exact absurd h (by simp)
      · rintro rfl
        refine ⟨[], 1, ?_⟩
        simp [loop, Email.round]

/-- **C50** violated: with `max_bcc = 1`, or a negative value, and at least one recipient, splitting
never ends. -/
theorem C50_one_violated {rs : List Address} (hrs : rs ≠ []) {m : ℤ} (hm : m = 1 ∨ m < 0)
    (p : Address) : ¬ ∃ bs, Splits rs m p bs := by
  rw [C50_termination_partial]
  rintro (h | h | h)
  · omega
  · omega
  · exact hrs h

/-! ### C49 -/

/-- **C49.** Whenever splitting ends, every recipient is in exactly one batch, in order, a message has
at most `max_bcc` addresses with the primary one (one if `max_bcc` is 0), and no batch is empty. -/
theorem C49_partition {rs : List Address} {m : ℤ} {p : Address} {bs : List (Address × List Address)}
    (h : Splits rs m p bs) :
    (m = 0 → (∀ b ∈ bs, b.2 = []) ∧ bs.map Prod.fst = rs) ∧
    (m ≠ 0 → (bs.map Prod.snd).flatten = rs ∧
      ∀ b ∈ bs, b.1 = p ∧ b.2 ≠ [] ∧ 1 + (b.2.length : ℤ) ≤ m) := by
  constructor
  · rintro rfl
    obtain ⟨fuel, h⟩ := h
    simp only [Email.split, if_true, Option.some.injEq] at h
    subst h
    refine ⟨?_, ?_⟩
    · intro b hb
      obtain ⟨r, _, rfl⟩ := List.mem_map.1 hb
      rfl
    · rw [List.map_map]
      exact List.map_id' rs
  · intro h0
    by_cases hrs : rs = []
    · subst hrs
      obtain ⟨fuel, h⟩ := h
      simp only [Email.split, h0, if_false] at h
      cases fuel with
      | zero => exact absurd h (by simp [loop])
      | succ fuel =>
        simp [loop, Email.round] at h
        subst h
        simp
    · rcases (C50_termination_partial rs m p).1 ⟨bs, h⟩ with h1 | h1 | h1
      · exact absurd h1 h0
      · obtain ⟨fuel, h⟩ := h
        simp only [Email.split, h0, if_false] at h
        have := loop_spec h1 (i := 0) (by omega) (by simpa using h)
        simpa using this
      · exact absurd h1 hrs

example : Splits ["a".toList, "b".toList, "c".toList, "d".toList, "e".toList] 3 []
    [([], ["a".toList, "b".toList]), ([], ["c".toList, "d".toList]), ([], ["e".toList])] :=
  ⟨10, by decide +kernel⟩

/-! ### C51 -/

theorem tryServers_fst (sent : Bool) (ss : List Session) :
    (tryServers sent ss).1 = true ↔ sent = true ∨ ∃ s ∈ ss, s.returned = true := by
  induction ss generalizing sent with
  | nil => simp [tryServers]
  | cons s ss ih =>
    rw [tryServers]
    cases hr : s.returned <;> cases hq : s.quit <;> simp [ih, hr]

/-- The servers are tried in order, up to the first that takes the message and ends the session. -/
theorem tryServers_snd (sent : Bool) (ss : List Session) :
    (tryServers sent ss).2 =
      (ss.take (ss.findIdx (fun s => s.returned && s.quit) + 1)).map Session.delivered := by
  induction ss generalizing sent with
  | nil => simp [tryServers]
  | cons s ss ih =>
    rw [tryServers, List.findIdx_cons]
    cases hr : s.returned <;> cases hq : s.quit <;> simp [ih]

theorem sendEmail_clean {as : List Address} {ss : List Session} (h : ∀ s ∈ ss, Clean as s) :
    ((sendEmail ss).1 = true ∧ ∃ k, (sendEmail ss).2 = List.replicate k [] ++ [as]) ∨
    ((sendEmail ss).1 = false ∧ (sendEmail ss).2 = List.replicate ss.length []) := by
  unfold sendEmail
  induction ss with
  | nil => right; simp [tryServers]
  | cons s ss ih =>
    rcases h s (by simp) with ⟨h1, h2, h3⟩ | ⟨h1, h2⟩
    · left
      rw [tryServers, if_pos h1, if_pos h3]
      exact ⟨rfl, 0, by simp [h2]⟩
    · rw [tryServers, if_neg (by simp [h1])]
      rcases ih (fun s hs => h s (by simp [hs])) with ⟨e1, k, e2⟩ | ⟨e1, e2⟩
      · left
        exact ⟨e1, k + 1, by simp [h2, e2, List.replicate_succ]⟩
      · right
        exact ⟨e1, by simp [h2, e2, List.replicate_succ]⟩

/-- **C51**, what holds: the servers are tried in order up to the first that takes the message and ends
the session; `_send_email` raises exactly when no server took the message; and when servers take a
message for all addresses or not at all, and end the session when they take it, then it is delivered
once to all addresses, or raised and not delivered. The full statement is false: see
`C51_quit_violated` and `C51_refused_violated`. -/
theorem C51_failover_partial (ss : List Session) :
    (sendEmail ss).2 =
      (ss.take (ss.findIdx (fun s => s.returned && s.quit) + 1)).map Session.delivered ∧
    ((sendEmail ss).1 = false ↔ ∀ s ∈ ss, s.returned = false) ∧
    ∀ as, (∀ s ∈ ss, Clean as s) →
      ((sendEmail ss).1 = true → ∀ x, ((sendEmail ss).2.map (·.count x)).sum = as.count x) ∧
      ((sendEmail ss).1 = false → ∀ d ∈ (sendEmail ss).2, d = []) := by
  refine ⟨tryServers_snd _ _, ?_, ?_⟩
  · rw [← Bool.not_eq_true, sendEmail, tryServers_fst]
    simp
  · intro as h
    rcases sendEmail_clean h with ⟨h1, k, h2⟩ | ⟨h1, h2⟩
    · refine ⟨fun _ x => ?_, fun h' => by simp [h1] at h'⟩
      rw [h2]; simp
    · refine ⟨fun h' => by simp [h1] at h', fun _ d hd => ?_⟩
      rw [h2] at hd
      exact List.eq_of_mem_replicate hd

/-- A first server that refuses, a second that takes the message, a third that is not asked. -/
example : sendEmail [⟨[], false, true⟩, ⟨["a".toList], true, true⟩, ⟨["a".toList], true, true⟩] =
    (true, [[], ["a".toList]]) := by decide +kernel

/-- **C51** violated: when the server fails after it took the message, at the end of the session, the
next server delivers it again. -/
theorem C51_quit_violated (as : List Address) (x : Address) :
    ∃ ss : List Session, (∀ s ∈ ss, s.returned = true ∧ s.delivered = as) ∧
      (sendEmail ss).1 = true ∧ ((sendEmail ss).2.map (·.count x)).sum = 2 * as.count x :=
  ⟨[⟨as, true, false⟩, ⟨as, true, true⟩], by simp, by simp [sendEmail, tryServers],
    by simp [sendEmail, tryServers]; omega⟩

/-- **C51** violated: when the server refuses some of the addresses, `_send_email` returns normally
although these never receive the message, even if the next server would accept them. -/
theorem C51_refused_violated (as : List Address) (x : Address) :
    ∃ ss : List Session, ss.length = 2 ∧ (∀ s ∈ ss, s.returned = true ∧ s.quit = true) ∧
      (∃ s ∈ ss, s.delivered = as) ∧
      (sendEmail ss).1 = true ∧ ∀ d ∈ (sendEmail ss).2, x ∉ d :=
  ⟨[⟨as.filter (· ≠ x), true, true⟩, ⟨as, true, true⟩], rfl, by simp, by simp,
    by simp [sendEmail, tryServers], by simp [sendEmail, tryServers]⟩

/-! ### Whole transfers -/

theorem copies_append (ds es : List Delivery) (x : Address) :
    copies (ds ++ es) x = copies ds x + copies es x := by simp [copies]

theorem copies_map (l : List (List Address)) (m : Message) (x : Address) :
    copies (l.map fun d => (d, m)) x = (l.map (·.count x)).sum := by
  simp [copies, List.map_map, Function.comp_def]

/-- Copies sent by the loop over the batches. -/
theorem sendBatches_copies {comp : Address → List Address → Option Message}
    {net : ℕ → List Address → List Session} (hnet : CleanNet net) (x : Address) (k : ℕ)
    (bs : List (Address × List Address)) :
    ((sendBatches comp net k bs).1 = true →
      copies (sendBatches comp net k bs).2 x = (bs.map fun b => (b.1 :: b.2).count x).sum) ∧
    copies (sendBatches comp net k bs).2 x ≤ (bs.map fun b => (b.1 :: b.2).count x).sum := by
  induction bs generalizing k with
  | nil => simp [sendBatches, copies]
  | cons b bs ih =>
    obtain ⟨addr, bcc⟩ := b
    rw [sendBatches]
    cases hc : comp addr bcc with
    | none => simp [copies]
    | some m =>
      simp only
      obtain ⟨h1, h2⟩ := (C51_failover_partial (net k (addr :: bcc))).2.2 _ (hnet k (addr :: bcc))
      cases hs : (sendEmail (net k (addr :: bcc))).1 with
      | true =>
        simp only [if_true, copies_append, copies_map, h1 hs x, List.map_cons, List.sum_cons]
        refine ⟨fun h => by rw [(ih (k + 1)).1 h], ?_⟩
        have := (ih (k + 1)).2
        omega
      | false =>
        have h0 : ((sendEmail (net k (addr :: bcc))).2.map (·.count x)).sum = 0 := by
          rw [List.sum_eq_zero_iff]
          intro n hn
          obtain ⟨d, hd, rfl⟩ := List.mem_map.1 hn
          rw [h2 hs d hd]; rfl
        simp [copies_map, h0]

/-- Addresses of all batches. -/
theorem splits_count {rs : List Address} {m : ℤ} {p : Address} {bs : List (Address × List Address)}
    (h : Splits rs m p bs) {x : Address} (hx : m = 0 ∨ x ≠ p) :
    (bs.map fun b => (b.1 :: b.2).count x).sum = rs.count x := by
  obtain ⟨h0, h1⟩ := C49_partition h
  by_cases hm : m = 0
  · obtain ⟨e1, e2⟩ := h0 hm
    rw [← e2]
    clear h h0 h1 e2
    induction bs with
    | nil => rfl
    | cons b bs ih =>
      rw [List.map_cons, List.sum_cons, ih (fun b hb => e1 b (by simp [hb])), e1 b (by simp),
        List.map_cons, ← List.singleton_append (l := List.map _ _), List.count_append]
  · obtain ⟨e1, e2⟩ := h1 hm
    have hxp : x ≠ p := hx.resolve_left hm
    rw [← e1, List.count_flatten, List.map_map]
    congr 1
    apply List.map_congr_left
    intro b hb
    rw [(e2 b hb).1, List.count_cons_of_ne (Ne.symm hxp)]
    rfl

/-- **C49** for whole transfers: when servers take a message for all its addresses or not at all, and
`send` returns normally, every recipient received exactly one copy for each time it is listed; and no
recipient ever receives more, also when `send` raises. (The primary recipient is excluded: it gets a
copy of every batch.) The same for `cancel`. -/
theorem C49_one_copy {c : Config} {net : ℕ → List Address → List Session} (hnet : CleanNet net)
    {x : Address} (hx : Email.maxBcc c = 0 ∨ x ≠ Email.primary c) :
    (∀ out ds, Email.Send c net out ds →
      (out.isSome → copies ds x = c.recipients.count x) ∧ copies ds x ≤ c.recipients.count x) ∧
    (∀ arg ok ds, Email.Cancel c arg net ok ds →
      (ok = true → copies ds x = c.recipients.count x) ∧ copies ds x ≤ c.recipients.count x) := by
  constructor
  · rintro out ds ⟨bs, hbs, rfl, rfl⟩
    obtain ⟨h1, h2⟩ := sendBatches_copies (comp := Email.compose c) hnet x 0 bs
    rw [splits_count hbs hx] at h1 h2
    refine ⟨fun h => h1 ?_, h2⟩
    by_contra hf
    rw [if_neg hf] at h
    simp at h
  · rintro arg ok ds ⟨bs, hbs, rfl, rfl⟩
    obtain ⟨h1, h2⟩ := sendBatches_copies
      (comp := fun addr bcc => some (Email.composeCancel c arg addr bcc)) hnet x 0 bs
    rw [splits_count hbs hx] at h1 h2
    exact ⟨h1, h2⟩

/-- **C49**, default size: without `max_bcc`, no message goes to more than 25 addresses, with the primary
one. -/
theorem C49_default_size {c : Config} (hc : c.maxBcc = none) {bs : List (Address × List Address)}
    (h : Splits c.recipients (Email.maxBcc c) (Email.primary c) bs) :
    ∀ b ∈ bs, 1 + b.2.length ≤ 25 := by
  have hm : Email.maxBcc c = 25 := by unfold Email.maxBcc; rw [hc]; rfl
  rw [hm] at h
  intro b hb
  have := (((C49_partition h).2 (by decide)).2 b hb).2.2
  omega

/-- A configuration for the examples: three recipients, at most two addresses in a message. -/
def exMail : Email.Config where
  sender := "s@x".toList
  subject := "S".toList
  message := "M".toList
  recipients := ["a@x".toList, "b@x".toList, "c@x".toList]
  zipFile := none
  maxBcc := some 3
  primary := none
  cancelSubject := none
  cancelContent := none
  files := ["/d/f".toList]
  localDir := some "/e".toList
  dirFiles := ["/e/g".toList]

/-- Servers for the examples: the first fails, the second takes everything. -/
def exNet : ℕ → List Address → List Session := fun _ as => [⟨[], false, false⟩, ⟨as, true, true⟩]

theorem exNet_clean : CleanNet exNet := by
  intro k as s hs
  simp only [exNet, List.mem_cons, List.not_mem_nil, or_false] at hs
  rcases hs with rfl | rfl
  · exact Or.inr ⟨rfl, rfl⟩
  · exact Or.inl ⟨rfl, rfl, rfl⟩

theorem exMail_splits : Splits exMail.recipients (Email.maxBcc exMail) (Email.primary exMail)
    [([], ["a@x".toList, "b@x".toList]), ([], ["c@x".toList])] := ⟨3, by decide +kernel⟩

/-- Two messages are sent, the recipients get one copy each. -/
example : Email.Send exMail exNet (some 2)
      [([], ⟨"s@x".toList, [], "S".toList, "a@x, b@x".toList, "M".toList,
          ["/d/f".toList, "/e/g".toList]⟩),
       ([[], "a@x".toList, "b@x".toList], ⟨"s@x".toList, [], "S".toList, "a@x, b@x".toList,
          "M".toList, ["/d/f".toList, "/e/g".toList]⟩),
       ([], ⟨"s@x".toList, [], "S".toList, "c@x".toList, "M".toList,
          ["/d/f".toList, "/e/g".toList]⟩),
       ([[], "c@x".toList], ⟨"s@x".toList, [], "S".toList, "c@x".toList, "M".toList,
          ["/d/f".toList, "/e/g".toList]⟩)] :=
  ⟨_, exMail_splits, by decide +kernel, by decide +kernel⟩

/-! ### C88 -/

theorem mem_commaJoin {x : Address} {as : List Address} (h : x ∈ as) : x <:+: commaJoin as := by
  induction as with
  | nil => exact absurd h (by simp)
  | cons a as ih =>
    cases as with
    | nil =>
      rw [List.mem_singleton] at h
      subst h
      exact List.infix_refl _
    | cons b as =>
      rw [commaJoin]
      rcases List.mem_cons.1 h with rfl | h
      · exact ⟨[], ", ".toList ++ commaJoin (b :: as), by simp⟩
      · exact (ih h).trans (List.suffix_append _ _).isInfix

/-- Every delivery of the loop over the batches is of a message composed for a batch. -/
theorem sendBatches_mem {comp : Address → List Address → Option Message}
    {net : ℕ → List Address → List Session} {k : ℕ} {bs : List (Address × List Address)}
    {d : Delivery} (hd : d ∈ (sendBatches comp net k bs).2) :
    ∃ b ∈ bs, ∃ j, comp b.1 b.2 = some d.2 ∧ d.1 ∈ (sendEmail (net j (b.1 :: b.2))).2 := by
  induction bs generalizing k with
  | nil => simp [sendBatches] at hd
  | cons b bs ih =>
    obtain ⟨addr, bcc⟩ := b
    rw [sendBatches] at hd
    cases hc : comp addr bcc with
    | none => simp [hc] at hd
    | some m =>
      simp only [hc] at hd
      have key : d ∈ (sendEmail (net k (addr :: bcc))).2.map (fun d => (d, m)) →
          ∃ b ∈ (addr, bcc) :: bs, ∃ j, comp b.1 b.2 = some d.2 ∧
            d.1 ∈ (sendEmail (net j (b.1 :: b.2))).2 := by
        intro h
        obtain ⟨e, he, rfl⟩ := List.mem_map.1 h
        exact ⟨(addr, bcc), by simp, k, hc, he⟩
      by_cases hs : (sendEmail (net k (addr :: bcc))).1 = true
      · rw [if_pos hs] at hd
        rcases List.mem_append.1 hd with h | h
        · exact key h
        · obtain ⟨b, hb, hh⟩ := ih h
          exact ⟨b, by simp [hb], hh⟩
      · rw [if_neg hs] at hd
        exact key hd

theorem sendEmail_mem {as d : List Address} {ss : List Session} (h : ∀ s ∈ ss, Clean as s)
    (hd : d ∈ (sendEmail ss).2) : d = [] ∨ d = as := by
  rcases sendEmail_clean h with ⟨_, k, h2⟩ | ⟨_, h2⟩
  · rw [h2] at hd
    rcases List.mem_append.1 hd with h | h
    · exact Or.inl (List.eq_of_mem_replicate h)
    · exact Or.inr (List.mem_singleton.1 h)
  · rw [h2] at hd
    exact Or.inl (List.eq_of_mem_replicate hd)

/-- **C88** violated, always: the text of every message that goes out to a batch names, in its `Bcc`
field, every recipient it is delivered to, so each of them sees all the others. -/
theorem C88_bcc_disclosed_violated {c : Config} (hc : Email.maxBcc c ≠ 0)
    {net : ℕ → List Address → List Session} (hnet : CleanNet net) {out : Option ℕ}
    {ds : List Delivery} (h : Email.Send c net out ds) {d : Delivery} (hd : d ∈ ds) {x : Address}
    (hx : x ∈ d.1) (hp : x ≠ Email.primary c) : x <:+: d.2.bcc := by
  obtain ⟨bs, hbs, _, rfl⟩ := h
  obtain ⟨b, hb, j, hm, hmem⟩ := sendBatches_mem hd
  have hb1 := (((C49_partition hbs).2 hc).2 b hb).1
  rcases sendEmail_mem (hnet j _) hmem with h0 | h0
  · rw [h0] at hx; exact absurd hx (by simp)
  · rw [h0] at hx
    unfold Email.compose at hm
    obtain ⟨as, _, hm⟩ := Option.map_eq_some_iff.1 hm
    rw [← hm]
    rcases List.mem_cons.1 hx with h | h
    · exact absurd (h.trans hb1) hp
    · exact mem_commaJoin h

example : Email.maxBcc exMail ≠ 0 ∧ "a@x".toList ≠ Email.primary exMail ∧
    "b@x".toList <:+: "a@x, b@x".toList := by decide +kernel

/-! ### C89 -/

/-- **C89**, what holds: every message that goes out carries exactly the listed files followed by the
files of the directory, or the zip file if one is asked for; the zip file holds each of these files
once, listed ones under their base names; and without files nothing is attached. The full statement is
false: see the two violations. -/
theorem C89_attachments_partial {c : Config} {net : ℕ → List Address → List Session}
    {out : Option ℕ} {ds : List Delivery} (h : Email.Send c net out ds) {d : Delivery} (hd : d ∈ ds) :
    (∀ z, c.zipFile = some z → (c.files ≠ [] ∨ ∃ e, c.localDir = some e ∧ e ≠ []) →
      d.2.attachments = [z]) ∧
    (c.zipFile = none → c.files ≠ [] → d.2.attachments = c.files ++ Email.allLocalFiles c) ∧
    (c.files = [] → c.localDir = none → d.2.attachments = []) ∧
    (Email.zipEntries c).map Prod.snd = c.files ++ Email.allLocalFiles c := by
  obtain ⟨bs, hbs, _, rfl⟩ := h
  obtain ⟨b, hb, j, hm, hmem⟩ := sendBatches_mem hd
  unfold Email.compose at hm
  obtain ⟨as, has, hm⟩ := Option.map_eq_some_iff.1 hm
  rw [← hm]
  simp only
  unfold Email.attachments at has
  refine ⟨?_, ?_, ?_, ?_⟩
  · intro z hz hne
    have : Email.hasFiles c = true := by
      unfold Email.hasFiles
      rcases hne with h | ⟨e, he, he'⟩
      · simp [h]
      · simp [he, he']
    rw [if_pos this] at has
    simp only [hz, Option.some.injEq] at has
    exact has.symm
  · intro hz hne
    have : Email.hasFiles c = true := by unfold Email.hasFiles; simp [hne]
    rw [if_pos this] at has
    simp only [hz, hne, if_false, Option.some.injEq] at has
    exact has.symm
  · intro hf hdir
    have : ¬ Email.hasFiles c = true := by unfold Email.hasFiles; simp [hf, hdir]
    rw [if_neg this, Option.some.injEq] at has
    exact has.symm
  · unfold Email.zipEntries
    rw [List.map_append, List.map_map, List.map_map]
    congr 1
    · exact List.map_id' _
    · exact List.map_id' _

/-- **C89** violated: with a local directory but no listed file, and no zip file, nothing is ever sent
and an exception is raised. -/
theorem C89_directory_only_violated {c : Config} (hz : c.zipFile = none) (hf : c.files = [])
    {e : Text} (he : c.localDir = some e) (hne : e ≠ []) (hr : c.recipients ≠ [])
    {net : ℕ → List Address → List Session} {out : Option ℕ} {ds : List Delivery}
    (h : Email.Send c net out ds) : out = none ∧ ds = [] := by
  obtain ⟨bs, hbs, rfl, rfl⟩ := h
  have hcomp : ∀ a b, Email.compose c a b = none := by
    intro a b
    have : Email.hasFiles c = true := by unfold Email.hasFiles; simp [he, hne]
    unfold Email.compose Email.attachments
    rw [if_pos this]
    simp [hz, hf]
  cases bs with
  | nil =>
    exfalso
    obtain ⟨h0, h1⟩ := C49_partition hbs
    by_cases hm : Email.maxBcc c = 0
    · exact hr (h0 hm).2.symm
    · exact hr (h1 hm).1.symm
  | cons b bs =>
    obtain ⟨addr, bcc⟩ := b
    rw [sendBatches]
    simp [hcomp]

example : ∃ out ds, Email.Send { exMail with files := [] } exNet out ds :=
  ⟨_, _, _, exMail_splits, rfl, rfl⟩

/-- **C89** violated: two listed files with the same base name become two entries of the zip file with
the same name, so that only one of them can be extracted. -/
theorem C89_zip_names_violated {c : Config} {d e f : Text} (hf : '/' ∉ f)
    (hfiles : c.files = [d ++ '/' :: f, e ++ '/' :: f]) :
    ((Email.zipEntries c).map Prod.fst).count f ≥ 2 := by
  have hb : ∀ d : Text, baseName (d ++ '/' :: f) = f := by
    intro d
    unfold baseName
    rw [List.reverse_append, List.reverse_cons, List.append_assoc,
      List.takeWhile_append_of_pos (by
        intro c hc
        have : c ∈ f := by simpa using hc
        simp only [decide_eq_true_eq, ne_eq]
        rintro rfl
        exact hf this)]
    simp
  unfold Email.zipEntries
  rw [hfiles]
  simp [hb]

/-! ### C90 -/

/-- **C90**, what holds: the message of `cancel` has the text given to `cancel`, or the default text,
unless the property `cancel_content` is set. -/
theorem C90_cancel_text_partial {c : Config} {arg : Option Text}
    {net : ℕ → List Address → List Session} {ok : Bool} {ds : List Delivery}
    (h : Email.Cancel c arg net ok ds) (hprop : c.cancelContent = none) {d : Delivery} (hd : d ∈ ds) :
    (∀ t, arg = some t → d.2.body = t) ∧
    (arg = none → d.2.body = "This is a cancel message.".toList) ∧
    (c.cancelSubject = none → d.2.subject = c.subject) ∧
    (∀ t, c.cancelSubject = some t → d.2.subject = t) := by
  obtain ⟨bs, hbs, _, rfl⟩ := h
  obtain ⟨b, hb, j, hm, hmem⟩ := sendBatches_mem hd
  rw [Option.some.injEq] at hm
  rw [← hm]
  unfold Email.composeCancel
  refine ⟨?_, ?_, ?_, ?_⟩
  · rintro t rfl; simp [hprop]
  · rintro rfl; simp [hprop]
  · intro hs; simp [hs]
  · intro t hs; simp [hs]

/-- **C90** violated: the text given to `cancel` is ignored when the property is set. -/
theorem C90_argument_ignored_violated {c : Config} {arg : Option Text} {t : Text}
    {net : ℕ → List Address → List Session} {ok : Bool} {ds : List Delivery}
    (h : Email.Cancel c arg net ok ds) (hprop : c.cancelContent = some t) {d : Delivery}
    (hd : d ∈ ds) : d.2.body = t := by
  obtain ⟨bs, hbs, _, rfl⟩ := h
  obtain ⟨b, hb, j, hm, hmem⟩ := sendBatches_mem hd
  rw [Option.some.injEq] at hm
  rw [← hm]
  simp [Email.composeCancel, hprop]

example : ∃ ok ds d, Email.Cancel exMail (some "x".toList) exNet ok ds ∧ d ∈ ds ∧
    d.2.body = "x".toList ∧ exMail.cancelContent = none :=
  ⟨_, _, _, ⟨_, exMail_splits, rfl, rfl⟩, List.mem_cons_self .., by decide +kernel, rfl⟩

end Verif.Props
