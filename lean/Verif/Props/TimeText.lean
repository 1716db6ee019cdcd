import Verif.Spec.TimeText
import Verif.Props.Historic
import Verif.Props.DoubleMoney
import Mathlib.Tactic.IntervalCases

/-!
# C194: times as texts
-/

namespace Verif.Props
open Verif.Time Verif.Spec Verif.Dbl

/-! ### Reading -/

theorem parses_dir {c : Char} {f s : List Char} {v : ℕ} {r u : List Char} {vs : List (Char × ℕ)} (h1 : (readings c s).head? = some (v, r))
    (h2 : (parses f r).head? = some (vs, u)) : (parses ('%' :: c :: f) s).head? = some ((c, v) :: vs, u) := by
  rw [parses]
  rcases hr : readings c s with _ | ⟨x, xs⟩
  · rw [hr] at h1; simp at h1
  · rw [hr] at h1
    simp only [List.head?_cons, Option.some.injEq] at h1
    subst h1
    rcases hp : parses f r with _ | ⟨y, ys⟩
    · rw [hp] at h2; simp at h2
    · rw [hp] at h2
      simp only [List.head?_cons, Option.some.injEq] at h2
      subst h2
      simp [hp]

theorem parses_lit {c d : Char} {f s : List Char} (hc : c ≠ '%') (hd : c.toLower = d.toLower) : parses (c :: f) (d :: s) = parses f s := by
  rw [parses]
  · rw [if_pos hd]
  · intro _ _ h; exact absurd h hc

theorem digit_range {c : Char} (h : c.isDigit = true) : c.toNat - 48 ≤ 9 := by
  have h2 := h
  simp only [Char.isDigit, Bool.and_eq_true, decide_eq_true_eq] at h2
  have : c.toNat ≤ 57 := h2.2
  omega

theorem value_one (a : Char) : decimalValue [a] = a.toNat - 48 := by simp [decimalValue]
theorem value_two (a b : Char) : decimalValue [a, b] = 10 * (a.toNat - 48) + (b.toNat - 48) := by simp [decimalValue]

theorem number_cases {s : List Char} {n : ℕ} (h : Number s 1 2 n) :
    (∃ a, s = [a] ∧ a.isDigit = true ∧ n = a.toNat - 48) ∨
      ∃ a b, s = [a, b] ∧ a.isDigit = true ∧ b.isDigit = true ∧ n = 10 * (a.toNat - 48) + (b.toNat - 48) := by
  obtain ⟨h1, h2, h3, h4⟩ := h
  rcases s with _ | ⟨a, _ | ⟨b, _ | ⟨c, s⟩⟩⟩
  · simp at h1
  · exact .inl ⟨a, rfl, h3 a (by simp), by rw [← h4, value_one]⟩
  · exact .inr ⟨a, b, rfl, h3 a (by simp), h3 b (by simp), by rw [← h4, value_two]⟩
  · simp at h2

section
variable {s r : List Char} {n : ℕ} {x : Char}

theorem reads_month (h : Number s 1 2 n) (hx : x.isDigit = false) (h1 : 1 ≤ n) (h2 : n ≤ 12) : (readings 'm' (s ++ x :: r)).head? = some (n, x :: r) := by
  rcases number_cases h with ⟨a, rfl, ha, rfl⟩ | ⟨a, b, rfl, ha, hb, rfl⟩
  · simp [readings, two, one, ha, hx, h1]
  · have hA := digit_range ha
    have hB := digit_range hb
    simp only [readings, two, one, ha, hb, List.cons_append, List.nil_append]
    generalize a.toNat - 48 = A at *
    generalize b.toNat - 48 = B at *
    interval_cases A <;> interval_cases B <;> simp_all

theorem reads_day (h : DayText s n) (hx : x.isDigit = false) (h1 : 1 ≤ n) (h2 : n ≤ 31) : (readings 'd' (s ++ x :: r)).head? = some (n, x :: r) := by
  rcases h with h | ⟨d, rfl, h⟩
  · rcases number_cases h with ⟨a, rfl, ha, rfl⟩ | ⟨a, b, rfl, ha, hb, rfl⟩
    · simp [readings, two, one, ha, hx, h1]
    · have hA := digit_range ha
      have hB := digit_range hb
      simp only [readings, two, one, ha, hb, List.cons_append, List.nil_append]
      generalize a.toNat - 48 = A at *
      generalize b.toNat - 48 = B at *
      interval_cases A <;> interval_cases B <;> simp_all
  · rcases number_cases ⟨h.1, by have := h.2.1; omega, h.2.2⟩ with ⟨a, rfl, ha, rfl⟩ | ⟨a, b, rfl, ha, hb, rfl⟩
    · simp [readings, two, one, blankOne, ha, h1]
    · exact absurd h.2.1 (by simp)

theorem reads_hour (h : Number s 1 2 n) (hx : x.isDigit = false) (h2 : n ≤ 23) : (readings 'H' (s ++ x :: r)).head? = some (n, x :: r) := by
  rcases number_cases h with ⟨a, rfl, ha, rfl⟩ | ⟨a, b, rfl, ha, hb, rfl⟩
  · simp [readings, two, one, ha, hx]
  · have hA := digit_range ha
    have hB := digit_range hb
    simp only [readings, two, one, ha, hb, List.cons_append, List.nil_append]
    generalize a.toNat - 48 = A at *
    generalize b.toNat - 48 = B at *
    interval_cases A <;> interval_cases B <;> simp_all

theorem reads_minute (h : Number s 1 2 n) (hx : x.isDigit = false) (h2 : n ≤ 59) : (readings 'M' (s ++ x :: r)).head? = some (n, x :: r) := by
  rcases number_cases h with ⟨a, rfl, ha, rfl⟩ | ⟨a, b, rfl, ha, hb, rfl⟩
  · simp [readings, two, one, ha, hx]
  · have hA := digit_range ha
    have hB := digit_range hb
    simp only [readings, two, one, ha, hb, List.cons_append, List.nil_append]
    generalize a.toNat - 48 = A at *
    generalize b.toNat - 48 = B at *
    interval_cases A <;> interval_cases B <;> simp_all

theorem reads_second (h : Number s 1 2 n) (hx : x.isDigit = false) (h2 : n ≤ 59) : (readings 'S' (s ++ x :: r)).head? = some (n, x :: r) := by
  rcases number_cases h with ⟨a, rfl, ha, rfl⟩ | ⟨a, b, rfl, ha, hb, rfl⟩
  · simp [readings, two, one, ha, hx]
  · have hA := digit_range ha
    have hB := digit_range hb
    simp only [readings, two, one, ha, hb, List.cons_append, List.nil_append]
    generalize a.toNat - 48 = A at *
    generalize b.toNat - 48 = B at *
    interval_cases A <;> interval_cases B <;> simp_all

theorem exactly_all (hd : ∀ c ∈ s, c.isDigit = true) : exactly s.length (s ++ r) = some (s, r) := by
  unfold exactly
  rw [if_pos]
  · simp
  · simp only [List.length_append, List.take_left', List.all_eq_true]
    exact ⟨by omega, hd⟩

theorem exactly_more {k : ℕ} (hx : x.isDigit = false) (hk : s.length < k) : exactly k (s ++ x :: r) = none := by
  unfold exactly
  rw [if_neg]
  rintro ⟨h1, h2⟩
  have : x ∈ (s ++ x :: r).take k := by
    rw [List.take_append]
    obtain ⟨m, hm⟩ : ∃ m, k - s.length = m + 1 := ⟨k - s.length - 1, by omega⟩
    rw [hm]
    simp
  rw [List.all_eq_true.1 h2 x this] at hx
  cases hx

theorem reads_year (h : Number s 4 4 n) : (readings 'Y' (s ++ r)).head? = some (n, r) := by
  have hl : s.length = 4 := le_antisymm h.2.1 h.1
  have := exactly_all (r := r) h.2.2.1
  rw [hl] at this
  simp only [readings, if_true, this]
  simpa [valueOfDigits, decimalValue] using h.2.2.2

theorem reads_fraction (h : Number s 1 6 n) (hx : x.isDigit = false) : (readings 'f' (s ++ x :: r)).head? = some (n * 10 ^ (6 - s.length), x :: r) := by
  have hall := exactly_all (r := x :: r) h.2.2.1
  have hmore := fun k => exactly_more (s := s) (r := r) (k := k) hx
  have hv : valueOfDigits s = n := h.2.2.2
  have h1 := h.1
  have h2 := h.2.1
  generalize hl : s.length = l at *
  interval_cases l <;> simp [readings, hall, hmore, hv]

end

theorem moment_some (y mo d h mi s f : ℕ) (t : Moment) : moment y mo d h mi s f = some t ↔ t = ⟨y, mo, d, h, mi, s, f⟩ ∧ ValidTime t := by
  unfold moment ValidTime
  constructor
  · intro h
    split_ifs at h with hv
    cases h
    refine ⟨rfl, hv.1, hv.2.1, hv.2.2.1, hv.2.2.2.1, hv.2.2.2.2.1, ?_, by have := hv.2.2.2.2.2.2; simp only; omega⟩
    have := hv.2.2.2.2.2.1
    simp only [monthDays, List.mem_cons, List.not_mem_nil, or_false, Nat.dvd_iff_mod_eq_zero] at this ⊢
    exact this
  · rintro ⟨rfl, h1, h2, h3, h4, h5, h6, h7, h8, h9, h10⟩
    rw [if_pos]
    refine ⟨h1, h2, h3, h4, h5, ?_, by simp only at *; omega⟩
    simp only [monthDays, List.mem_cons, List.not_mem_nil, or_false, Nat.dvd_iff_mod_eq_zero] at h6 ⊢
    exact h6

theorem day_le {t : Moment} (h : ValidTime t) : t.day ≤ 31 := by
  have := h.2.2.2.2.2.1
  split_ifs at this <;> omega

/-! What is read stands for its value. -/

theorem two_sound {p : ℕ → ℕ → Bool} {s : List Char} {v : ℕ} {r : List Char} (h : two p s = some (v, r)) : ∃ d, s = d ++ r ∧ Number d 1 2 v := by
  rcases s with _ | ⟨a, _ | ⟨b, s⟩⟩
  · cases h
  · cases h
  · simp only [two] at h
    split_ifs at h with hc
    simp only [Bool.and_eq_true] at hc
    simp only [Option.some.injEq, Prod.mk.injEq] at h
    refine ⟨[a, b], by simp [h.2], by simp, by simp, ?_, by rw [value_two, h.1]⟩
    simp [hc.1.1, hc.1.2]

theorem one_sound {p : ℕ → Bool} {s : List Char} {v : ℕ} {r : List Char} (h : one p s = some (v, r)) : ∃ d, s = d ++ r ∧ Number d 1 1 v := by
  rcases s with _ | ⟨a, s⟩
  · cases h
  · simp only [one] at h
    split_ifs at h with hc
    simp only [Bool.and_eq_true] at hc
    simp only [Option.some.injEq, Prod.mk.injEq] at h
    refine ⟨[a], by simp [h.2], by simp, by simp, by simp [hc.1], by rw [value_one, h.1]⟩

theorem number_more {s : List Char} {n : ℕ} (h : Number s 1 1 n) : Number s 1 2 n := ⟨h.1, h.2.1.trans (by norm_num), h.2.2⟩

theorem one_sound' {p : ℕ → Bool} {s : List Char} {v : ℕ} {r : List Char} (h : one p s = some (v, r)) : ∃ d, s = d ++ r ∧ Number d 1 2 v := by
  obtain ⟨d, h1, h2⟩ := one_sound h
  exact ⟨d, h1, number_more h2⟩

theorem blank_sound {s : List Char} {v : ℕ} {r : List Char} (h : blankOne s = some (v, r)) : ∃ d, s = ' ' :: d ++ r ∧ Number d 1 1 v := by
  unfold blankOne at h
  split at h
  · obtain ⟨d, h1, h2⟩ := one_sound h
    exact ⟨d, by rw [h1]; rfl, h2⟩
  · cases h

theorem exactly_sound {k : ℕ} {s d r : List Char} (h : exactly k s = some (d, r)) : s = d ++ r ∧ d.length = k ∧ ∀ c ∈ d, c.isDigit = true := by
  unfold exactly at h
  split_ifs at h with hc
  simp only [Option.some.injEq, Prod.mk.injEq] at h
  obtain ⟨rfl, rfl⟩ := h
  exact ⟨by simp, by simp [hc.1], List.all_eq_true.1 hc.2⟩

theorem sound_two {c : Char} (hc : c ∈ ['m', 'H', 'M', 'S']) {s : List Char} {v : ℕ} {r : List Char} (h : (v, r) ∈ readings c s) :
    ∃ d, s = d ++ r ∧ Number d 1 2 v := by
  simp only [List.mem_cons, List.not_mem_nil, or_false] at hc
  rcases hc with rfl | rfl | rfl | rfl <;>
    simp [readings, List.mem_filterMap] at h
  · rcases h with h | h | h
    exacts [two_sound h.symm, two_sound h.symm, one_sound' h.symm]
  · rcases h with h | h | h
    exacts [two_sound h.symm, two_sound h.symm, one_sound' h.symm]
  · rcases h with h | h
    exacts [two_sound h.symm, one_sound' h.symm]
  · rcases h with h | h | h
    exacts [two_sound h.symm, two_sound h.symm, one_sound' h.symm]

theorem sound_day {s : List Char} {v : ℕ} {r : List Char} (h : (v, r) ∈ readings 'd' s) : ∃ d, s = d ++ r ∧ DayText d v := by
  simp [readings, List.mem_filterMap] at h
  rcases h with h | h | h | h | h
  · obtain ⟨d, h1, h2⟩ := two_sound h.symm; exact ⟨d, h1, .inl h2⟩
  · obtain ⟨d, h1, h2⟩ := two_sound h.symm; exact ⟨d, h1, .inl h2⟩
  · obtain ⟨d, h1, h2⟩ := two_sound h.symm; exact ⟨d, h1, .inl h2⟩
  · obtain ⟨d, h1, h2⟩ := one_sound' h.symm; exact ⟨d, h1, .inl h2⟩
  · obtain ⟨d, h1, h2⟩ := blank_sound h.symm; exact ⟨' ' :: d, h1, .inr ⟨d, rfl, h2⟩⟩

theorem sound_year {s : List Char} {v : ℕ} {r : List Char} (h : (v, r) ∈ readings 'Y' s) : ∃ d, s = d ++ r ∧ Number d 4 4 v := by
  simp only [readings, if_true, Option.mem_toList, Option.map_eq_some_iff] at h
  obtain ⟨⟨d, r'⟩, h1, h2⟩ := h
  simp only [Prod.mk.injEq] at h2
  obtain ⟨rfl, rfl⟩ := h2
  obtain ⟨h3, h4, h5⟩ := exactly_sound h1
  exact ⟨d, h3, h4.ge, h4.le, h5, rfl⟩

theorem sound_fraction {s : List Char} {v : ℕ} {r : List Char} (h : (v, r) ∈ readings 'f' s) :
    ∃ d n, s = d ++ r ∧ Number d 1 6 n ∧ v = n * 10 ^ (6 - d.length) := by
  have : ∃ k ∈ [6, 5, 4, 3, 2, 1], (exactly k s).map (fun x => (valueOfDigits x.1 * 10 ^ (6 - k), x.2)) = some (v, r) := by
    simpa only [readings, List.mem_filterMap, if_neg (by decide : ¬ 'f' = 'Y'), if_neg (by decide : ¬ 'f' = 'm'), if_neg (by decide : ¬ 'f' = 'd'),
      if_neg (by decide : ¬ 'f' = 'H'), if_neg (by decide : ¬ 'f' = 'M'), if_neg (by decide : ¬ 'f' = 'S'), if_true] using h
  obtain ⟨k, hk, h⟩ := this
  simp only [Option.map_eq_some_iff] at h
  obtain ⟨⟨d, r'⟩, h1, h2⟩ := h
  simp only [Prod.mk.injEq] at h2
  obtain ⟨rfl, rfl⟩ := h2
  obtain ⟨h3, h4, h5⟩ := exactly_sound h1
  refine ⟨d, valueOfDigits d, h3, ⟨?_, ?_, h5, rfl⟩, by rw [h4]⟩ <;> simp at hk <;> omega

theorem parses_dir_mem {c : Char} {f s : List Char} {x : List (Char × ℕ) × List Char} (h : x ∈ parses ('%' :: c :: f) s) :
    ∃ v r vs, (v, r) ∈ readings c s ∧ (vs, x.2) ∈ parses f r ∧ x.1 = (c, v) :: vs := by
  rw [parses, List.mem_flatMap] at h
  obtain ⟨⟨v, r⟩, h1, h2⟩ := h
  rw [List.mem_map] at h2
  obtain ⟨⟨vs, u⟩, h3, rfl⟩ := h2
  exact ⟨v, r, vs, h1, h3, rfl⟩

theorem parses_lit_mem {c : Char} {f s : List Char} {x : List (Char × ℕ) × List Char} (hc : c ≠ '%') (h : x ∈ parses (c :: f) s) :
    ∃ d s', s = d :: s' ∧ c.toLower = d.toLower ∧ x ∈ parses f s' := by
  rcases s with _ | ⟨d, s⟩
  · rw [parses] at h
    · simp at h
    · intro _ _ h; exact absurd h hc
  · rw [parses] at h
    · split_ifs at h with hd
      · exact ⟨d, s, rfl, hd, h⟩
      · simp at h
    · intro _ _ h; exact absurd h hc

theorem toLower_cases (d : Char) : (d.toLower = d ∧ ¬ (65 ≤ d.toNat ∧ d.toNat ≤ 90)) ∨ (65 ≤ d.toNat ∧ d.toNat ≤ 90 ∧ d.toLower.toNat = d.toNat + 32) := by
  by_cases h : 65 ≤ d.toNat ∧ d.toNat ≤ 90
  · right
    refine ⟨h.1, h.2, ?_⟩
    have : d = Char.ofNat d.toNat := (Char.ofNat_toNat d).symm
    rw [this]
    obtain ⟨h1, h2⟩ := h
    generalize d.toNat = n at *
    interval_cases n <;> decide
  · left
    refine ⟨?_, h⟩
    unfold Char.toLower
    rw [dif_neg]
    exact h

theorem char_eq {a b : Char} (h : a.toNat = b.toNat) : a = b := Char.toNat_inj.1 h

theorem lower_sign {c d : Char} (hc : c.toNat < 65) (h : c.toLower = d.toLower) : d = c := by
  have h1 : c.toLower = c := by
    rcases toLower_cases c with h | h
    · exact h.1
    · omega
  rw [h1] at h
  rcases toLower_cases d with h2 | h2
  · rw [h, h2.1]
  · rw [h] at hc; omega

theorem lower_T {d : Char} (h : 'T'.toLower = d.toLower) : d ∈ ['T', 't'] := by
  rcases toLower_cases d with h2 | h2
  · rw [← h2.1, ← h]; decide
  · have : d.toNat = 84 := by
      have h3 := h2.2.2
      rw [← h] at h3
      have : 'T'.toLower.toNat = 116 := by decide
      omega
    rw [char_eq (b := 'T') this]; simp

theorem lower_Z {d : Char} (h : 'Z'.toLower = d.toLower) : d ∈ ['Z', 'z'] := by
  rcases toLower_cases d with h2 | h2
  · rw [← h2.1, ← h]; decide
  · have : d.toNat = 90 := by
      have h3 := h2.2.2
      rw [← h] at h3
      have : 'Z'.toLower.toNat = 122 := by decide
      omega
    rw [char_eq (b := 'Z') this]; simp

theorem head_mem {α : Type} {l : List α} {a : α} (h : l.head? = some a) : a ∈ l := List.mem_of_mem_head? (by simp [h])

/-- The texts with a fraction that are read are those of the grammar, with a time of the calendar. -/
theorem C194_reads (s : List Char) (t : Moment) : strptime timeFormat s = some t ↔ TimeAs true s t ∧ ValidTime t := by
  have hf : timeFormat = ['%', 'Y', '-', '%', 'm', '-', '%', 'd', 'T', '%', 'H', ':', '%', 'M', ':', '%', 'S', '.', '%', 'f', 'Z'] := by decide
  constructor
  · intro h
    unfold strptime at h
    split at h
    · rename_i vs hp
      have hm := head_mem hp
      rw [hf] at hm
      obtain ⟨vy, s1, v1, y1, hm, e1⟩ := parses_dir_mem hm
      obtain ⟨c1, s2, rfl, l1, hm⟩ := parses_lit_mem (by decide) hm
      obtain ⟨vm, s3, v2, y2, hm, e2⟩ := parses_dir_mem hm
      obtain ⟨c2, s4, rfl, l2, hm⟩ := parses_lit_mem (by decide) hm
      obtain ⟨vd, s5, v3, y3, hm, e3⟩ := parses_dir_mem hm
      obtain ⟨c3, s6, rfl, l3, hm⟩ := parses_lit_mem (by decide) hm
      obtain ⟨vh, s7, v4, y4, hm, e4⟩ := parses_dir_mem hm
      obtain ⟨c4, s8, rfl, l4, hm⟩ := parses_lit_mem (by decide) hm
      obtain ⟨vmi, s9, v5, y5, hm, e5⟩ := parses_dir_mem hm
      obtain ⟨c5, s10, rfl, l5, hm⟩ := parses_lit_mem (by decide) hm
      obtain ⟨vs', s11, v6, y6, hm, e6⟩ := parses_dir_mem hm
      obtain ⟨c6, s12, rfl, l6, hm⟩ := parses_lit_mem (by decide) hm
      obtain ⟨vf, s13, v7, y7, hm, e7⟩ := parses_dir_mem hm
      obtain ⟨c7, s14, rfl, l7, hm⟩ := parses_lit_mem (by decide) hm
      simp only [parses, List.mem_singleton, Prod.mk.injEq] at hm
      obtain ⟨rfl, rfl⟩ := hm
      simp only at e1 e2 e3 e4 e5 e6 e7
      subst e7 e6 e5 e4 e3 e2 e1
      replace h : moment vy vm vd vh vmi vs' vf = some t := h
      rw [moment_some] at h
      obtain ⟨rfl, hv⟩ := h
      refine ⟨?_, hv⟩
      obtain ⟨ty, rfl, ny⟩ := sound_year y1
      obtain ⟨tm, rfl, nm⟩ := sound_two (by simp) y2
      obtain ⟨td, rfl, nd⟩ := sound_day y3
      obtain ⟨th, rfl, nh⟩ := sound_two (by simp) y4
      obtain ⟨tmi, rfl, nmi⟩ := sound_two (by simp) y5
      obtain ⟨ts, rfl, ns⟩ := sound_two (by simp) y6
      obtain ⟨tf, nf, rfl, nnf, ef⟩ := sound_fraction y7
      obtain rfl := lower_sign (by decide) l1
      obtain rfl := lower_sign (by decide) l2
      obtain rfl := lower_sign (by decide) l4
      obtain rfl := lower_sign (by decide) l5
      obtain rfl := lower_sign (by decide) l6
      exact ⟨ty, tm, td, th, tmi, ts, '.' :: tf, c3, c7, by simp, lower_T l3, lower_Z l7, ny, nm, nd, nh, nmi, ns,
        by rw [Fraction, if_pos rfl]; exact ⟨tf, nf, rfl, nnf, ef⟩⟩
    · cases h
  · rintro ⟨⟨y, mo, d, h, mi, sec, f, T, Z, rfl, hT, hZ, ny, nm, nd, nh, nmi, ns, hfr⟩, hv⟩
    rw [Fraction, if_pos rfl] at hfr
    obtain ⟨g, n, rfl, ng, em⟩ := hfr
    have hTl : 'T'.toLower = T.toLower := by
      simp only [List.mem_cons, List.not_mem_nil, or_false] at hT
      rcases hT with rfl | rfl <;> decide
    have hZl : 'Z'.toLower = Z.toLower := by
      simp only [List.mem_cons, List.not_mem_nil, or_false] at hZ
      rcases hZ with rfl | rfl <;> decide
    have hTd : T.isDigit = false := by
      simp only [List.mem_cons, List.not_mem_nil, or_false] at hT
      rcases hT with rfl | rfl <;> decide
    have hZd : Z.isDigit = false := by
      simp only [List.mem_cons, List.not_mem_nil, or_false] at hZ
      rcases hZ with rfl | rfl <;> decide
    have key : (parses timeFormat (y ++ '-' :: (mo ++ '-' :: (d ++ T :: (h ++ ':' :: (mi ++ ':' :: (sec ++ ('.' :: g ++ [Z])))))))).head? =
        some ([('Y', t.year), ('m', t.month), ('d', t.day), ('H', t.hour), ('M', t.minute), ('S', t.second), ('f', t.micro)], []) := by
      rw [hf]
      refine parses_dir (reads_year ny) ?_
      rw [parses_lit (by decide) rfl]
      refine parses_dir (reads_month nm (by decide) hv.2.2.1 hv.2.2.2.1) ?_
      rw [parses_lit (by decide) rfl]
      refine parses_dir (reads_day nd hTd hv.2.2.2.2.1 (day_le hv)) ?_
      rw [parses_lit (by decide) hTl]
      refine parses_dir (reads_hour nh (by decide) hv.2.2.2.2.2.2.1) ?_
      rw [parses_lit (by decide) rfl]
      refine parses_dir (reads_minute nmi (by decide) hv.2.2.2.2.2.2.2.1) ?_
      rw [parses_lit (by decide) rfl]
      refine parses_dir (reads_second ns (by decide) hv.2.2.2.2.2.2.2.2.1) ?_
      rw [parses_lit (by decide) rfl]
      rw [em]
      refine parses_dir (reads_fraction ng hZd) ?_
      rw [parses_lit (by decide) hZl]
      rfl
    unfold strptime
    rw [key]
    change moment t.year t.month t.day t.hour t.minute t.second t.micro = some t
    exact (moment_some ..).2 ⟨rfl, hv⟩

/-- The texts in whole seconds that are read are those of the grammar, with a time of the calendar. -/
theorem C194_reads_alt (s : List Char) (t : Moment) : strptime altTimeFormat s = some t ↔ TimeAs false s t ∧ ValidTime t := by
  have hf : altTimeFormat = ['%', 'Y', '-', '%', 'm', '-', '%', 'd', 'T', '%', 'H', ':', '%', 'M', ':', '%', 'S', 'Z'] := by decide
  constructor
  · intro h
    unfold strptime at h
    split at h
    · rename_i vs hp
      have hm := head_mem hp
      rw [hf] at hm
      obtain ⟨vy, s1, v1, y1, hm, e1⟩ := parses_dir_mem hm
      obtain ⟨c1, s2, rfl, l1, hm⟩ := parses_lit_mem (by decide) hm
      obtain ⟨vm, s3, v2, y2, hm, e2⟩ := parses_dir_mem hm
      obtain ⟨c2, s4, rfl, l2, hm⟩ := parses_lit_mem (by decide) hm
      obtain ⟨vd, s5, v3, y3, hm, e3⟩ := parses_dir_mem hm
      obtain ⟨c3, s6, rfl, l3, hm⟩ := parses_lit_mem (by decide) hm
      obtain ⟨vh, s7, v4, y4, hm, e4⟩ := parses_dir_mem hm
      obtain ⟨c4, s8, rfl, l4, hm⟩ := parses_lit_mem (by decide) hm
      obtain ⟨vmi, s9, v5, y5, hm, e5⟩ := parses_dir_mem hm
      obtain ⟨c5, s10, rfl, l5, hm⟩ := parses_lit_mem (by decide) hm
      obtain ⟨vs', s11, v6, y6, hm, e6⟩ := parses_dir_mem hm
      obtain ⟨c7, s12, rfl, l7, hm⟩ := parses_lit_mem (by decide) hm
      simp only [parses, List.mem_singleton, Prod.mk.injEq] at hm
      obtain ⟨rfl, rfl⟩ := hm
      simp only at e1 e2 e3 e4 e5 e6
      subst e6 e5 e4 e3 e2 e1
      replace h : moment vy vm vd vh vmi vs' 0 = some t := h
      rw [moment_some] at h
      obtain ⟨rfl, hv⟩ := h
      refine ⟨?_, hv⟩
      obtain ⟨ty, rfl, ny⟩ := sound_year y1
      obtain ⟨tm, rfl, nm⟩ := sound_two (by simp) y2
      obtain ⟨td, rfl, nd⟩ := sound_day y3
      obtain ⟨th, rfl, nh⟩ := sound_two (by simp) y4
      obtain ⟨tmi, rfl, nmi⟩ := sound_two (by simp) y5
      obtain ⟨ts, rfl, ns⟩ := sound_two (by simp) y6
      obtain rfl := lower_sign (by decide) l1
      obtain rfl := lower_sign (by decide) l2
      obtain rfl := lower_sign (by decide) l4
      obtain rfl := lower_sign (by decide) l5
      exact ⟨ty, tm, td, th, tmi, ts, [], c3, c7, by simp, lower_T l3, lower_Z l7, ny, nm, nd, nh, nmi, ns,
        by simp [Fraction]⟩
    · cases h
  · rintro ⟨⟨y, mo, d, h, mi, sec, f, T, Z, rfl, hT, hZ, ny, nm, nd, nh, nmi, ns, hfr⟩, hv⟩
    simp only [Fraction, Bool.false_eq_true, if_false] at hfr
    obtain ⟨rfl, em⟩ := hfr
    have hTl : 'T'.toLower = T.toLower := by
      simp only [List.mem_cons, List.not_mem_nil, or_false] at hT
      rcases hT with rfl | rfl <;> decide
    have hZl : 'Z'.toLower = Z.toLower := by
      simp only [List.mem_cons, List.not_mem_nil, or_false] at hZ
      rcases hZ with rfl | rfl <;> decide
    have hTd : T.isDigit = false := by
      simp only [List.mem_cons, List.not_mem_nil, or_false] at hT
      rcases hT with rfl | rfl <;> decide
    have hZd : Z.isDigit = false := by
      simp only [List.mem_cons, List.not_mem_nil, or_false] at hZ
      rcases hZ with rfl | rfl <;> decide
    have key : (parses altTimeFormat (y ++ '-' :: (mo ++ '-' :: (d ++ T :: (h ++ ':' :: (mi ++ ':' :: (sec ++ ([] ++ [Z])))))))).head? =
        some ([('Y', t.year), ('m', t.month), ('d', t.day), ('H', t.hour), ('M', t.minute), ('S', t.second)], []) := by
      rw [hf]
      refine parses_dir (reads_year ny) ?_
      rw [parses_lit (by decide) rfl]
      refine parses_dir (reads_month nm (by decide) hv.2.2.1 hv.2.2.2.1) ?_
      rw [parses_lit (by decide) rfl]
      refine parses_dir (reads_day nd hTd hv.2.2.2.2.1 (day_le hv)) ?_
      rw [parses_lit (by decide) hTl]
      refine parses_dir (reads_hour nh (by decide) hv.2.2.2.2.2.2.1) ?_
      rw [parses_lit (by decide) rfl]
      refine parses_dir (reads_minute nmi (by decide) hv.2.2.2.2.2.2.2.1) ?_
      rw [parses_lit (by decide) rfl]
      refine parses_dir (reads_second ns hZd hv.2.2.2.2.2.2.2.2.1) ?_
      rw [parses_lit (by decide) hZl]
      rfl
    unfold strptime
    rw [key]
    change moment t.year t.month t.day t.hour t.minute t.second 0 = some t
    rw [← em]
    exact (moment_some ..).2 ⟨rfl, hv⟩


theorem number_no {s : List Char} {a b n : ℕ} (h : Number s a b n) {x : Char} (hx : x.isDigit = false) : x ∉ s := by
  intro hm
  rw [h.2.2.1 x hm] at hx
  cases hx

theorem dot_mem {s : List Char} {t : Moment} (h : TimeAs true s t) : '.' ∈ s := by
  obtain ⟨y, mo, d, h, mi, sec, f, T, Z, rfl, -, -, -, -, -, -, -, -, hf⟩ := h
  rw [Fraction, if_pos rfl] at hf
  obtain ⟨g, n, rfl, -⟩ := hf
  simp

theorem dot_not_mem {s : List Char} {t : Moment} (h : TimeAs false s t) : '.' ∉ s := by
  obtain ⟨y, mo, d, h, mi, sec, f, T, Z, rfl, hT, hZ, ny, nm, nd, nh, nmi, ns, hf⟩ := h
  simp only [Fraction, Bool.false_eq_true, if_false] at hf
  obtain ⟨rfl, -⟩ := hf
  have hd : '.' ∉ d := by
    rcases nd with nd | ⟨d, rfl, nd⟩
    · exact number_no nd (by decide)
    · simp [number_no nd (by decide : '.'.isDigit = false)]
  have hT' : '.' ≠ T := by rintro rfl; simp at hT
  have hZ' : '.' ≠ Z := by rintro rfl; simp at hZ
  have e := fun {s a b n} (h : Number s a b n) => number_no h (by decide : '.'.isDigit = false)
  simp [e ny, e nm, hd, e nh, e nmi, e ns, hT', hZ']

/-- **C194**. A text is read as a time, by one format or the other, exactly when it has the form of the grammar and the time is one of the calendar: anything
else is refused with ValueError. -/
theorem C194_read (s : List Char) (t : Moment) : readTime s = some t ↔ (TimeAs true s t ∨ TimeAs false s t) ∧ ValidTime t := by
  unfold readTime
  constructor
  · intro h
    rcases h1 : strptime timeFormat s with _ | t'
    · rw [h1, Option.none_or] at h
      obtain ⟨h2, h3⟩ := (C194_reads_alt s t).1 h
      exact ⟨.inr h2, h3⟩
    · rw [h1] at h
      cases h
      obtain ⟨h2, h3⟩ := (C194_reads s t).1 h1
      exact ⟨.inl h2, h3⟩
  · rintro ⟨h1 | h1, h2⟩
    · rw [(C194_reads s t).2 ⟨h1, h2⟩]
      rfl
    · rw [(C194_reads_alt s t).2 ⟨h1, h2⟩]
      rcases h3 : strptime timeFormat s with _ | t'
      · rfl
      · exact absurd (dot_mem ((C194_reads s t').1 h3).1) (dot_not_mem h1)

/-! ### Writing -/

theorem number_padded {n k : ℕ} (hn : 1 ≤ n) (h : k < 10 ^ n) : Number (padded n k) n n k :=
  ⟨(padded_length hn h).ge, (padded_length hn h).le, List.all_eq_true.1 (padded_digits n k), padded_value n k⟩

theorem isPresent_skip {x : Char} {a b : List Char} (h : '%' ∉ a) : isPresentIn x (a ++ b) = isPresentIn x b := by
  induction a with
  | nil => rfl
  | cons c a ih =>
    have hc : c ≠ '%' := fun e => h (by simp [e])
    rw [List.cons_append, isPresentIn, ← ih (fun hm => h (by simp [hm]))]
    have : matchSpec x (c :: (a ++ b)) = none := by
      simp [matchSpec, hc]
    rw [this]

/-- The text of a time in a format that begins with the year and has no other `%Y`, `%c` or `%x`. -/
theorem written_time {t : Moment} {rest : List Char} (hw : WritableYear t.year) (hY : ∀ b, Spec.replaceDirective 'Y' b rest = rest)
    (hc : isPresentIn 'c' rest = false) (hx : isPresentIn 'x' rest = false)
    (hd : ∀ y : ℤ, expand (fun c => if c = 'Y' then Py.intStr t.year else directive t ⟨y, t.month, t.day⟩ c) rest = expand (directive t ⟨t.year, t.month, t.day⟩) rest) :
    timeText ('%' :: 'Y' :: rest) t = .ok (Py.natStr t.year ++ expand (directive t ⟨t.year, t.month, t.day⟩) rest) := by
  have hs : Py.intStr (t.year : ℤ) = Py.natStr t.year := by simp [Py.intStr]
  by_cases h : 1900 ≤ t.year
  · unfold timeText
    rw [C15_modern _ _ _ (by simpa using h)]
    simp [expand, directive, hs]
  · have hy : (t.year : ℤ) < 1900 := by omega
    have hm : (t.year : ℤ) % 400 ≠ 300 := by
      rcases hw with h' | h'
      · omega
      · omega
    have hr : Spec.replaceDirective 'Y' (Py.intStr (t.year : ℤ)) ('%' :: 'Y' :: rest) = Py.intStr t.year ++ rest := by
      rw [Spec.replaceDirective, hY]
      simp
    have hp := percent_not_in_intStr t.year
    obtain ⟨d', h1, h2, -, -, -, -, -, h3⟩ := C15_strftime_partial (directive t) ⟨t.year, t.month, t.day⟩ ('%' :: 'Y' :: rest) hy hm
      (by rw [hr, isPresent_skip hp, hc]) (by rw [hr, isPresent_skip hp, hx])
    unfold timeText
    obtain ⟨y', m', dd'⟩ := d'
    simp only at h1 h2
    subst h1 h2
    rw [h3]
    simp only [expand, if_true, hs] at hd ⊢
    rw [hd]

theorem written_full {t : Moment} (hw : WritableYear t.year) : timeText timeFormat t =
    .ok (Py.natStr t.year ++ '-' :: (padded 2 t.month ++ '-' :: (padded 2 t.day ++ 'T' :: (padded 2 t.hour ++ ':' :: (padded 2 t.minute ++ ':' ::
      (padded 2 t.second ++ ('.' :: padded 6 t.micro ++ ['Z']))))))) := by
  have hf : timeFormat = '%' :: 'Y' :: ['-', '%', 'm', '-', '%', 'd', 'T', '%', 'H', ':', '%', 'M', ':', '%', 'S', '.', '%', 'f', 'Z'] := by decide
  rw [hf, written_time hw (fun b => by simp [Spec.replaceDirective]) (by decide) (by decide) (fun y => by simp [expand, directive])]
  simp [expand, directive]

theorem written_alt {t : Moment} (hw : WritableYear t.year) : timeText altTimeFormat t =
    .ok (Py.natStr t.year ++ '-' :: (padded 2 t.month ++ '-' :: (padded 2 t.day ++ 'T' :: (padded 2 t.hour ++ ':' :: (padded 2 t.minute ++ ':' ::
      (padded 2 t.second ++ ['Z'])))))) := by
  have hf : altTimeFormat = '%' :: 'Y' :: ['-', '%', 'm', '-', '%', 'd', 'T', '%', 'H', ':', '%', 'M', ':', '%', 'S', 'Z'] := by decide
  rw [hf, written_time hw (fun b => by simp [Spec.replaceDirective]) (by decide) (by decide) (fun y => by simp [expand, directive])]
  simp [expand, directive]

theorem written_pdl {t : Moment} (hw : WritableYear t.year) : timeText "%Y-%m-%dT%H:%M:%S.%f".toList t =
    .ok (Py.natStr t.year ++ '-' :: (padded 2 t.month ++ '-' :: (padded 2 t.day ++ 'T' :: (padded 2 t.hour ++ ':' :: (padded 2 t.minute ++ ':' ::
      (padded 2 t.second ++ '.' :: padded 6 t.micro)))))) := by
  have hf : "%Y-%m-%dT%H:%M:%S.%f".toList = '%' :: 'Y' :: ['-', '%', 'm', '-', '%', 'd', 'T', '%', 'H', ':', '%', 'M', ':', '%', 'S', '.', '%', 'f'] := by decide
  rw [hf, written_time hw (fun b => by simp [Spec.replaceDirective]) (by decide) (by decide) (fun y => by simp [expand, directive])]
  simp [expand, directive]

/-- **C194**. A time of the calendar is written exactly when its year is not one of 300, 700, 1100 and 1500, and then as the year, the other fields with two digits
and six digits of the second, or without them. -/
theorem C194_written (t : Moment) (hv : ValidTime t) :
    (∀ s, timeText timeFormat t = .ok s → FullText s t) ∧ (∀ s, timeText altTimeFormat t = .ok s → ShortText s t) ∧
      ((∃ s, timeText timeFormat t = .ok s) ↔ WritableYear t.year) ∧ ((∃ s, timeText altTimeFormat t = .ok s) ↔ WritableYear t.year) ∧
      (¬ WritableYear t.year ↔ t.year ∈ [300, 700, 1100, 1500]) := by
  obtain ⟨h1, h2, h3, h4, h5, -, h7, h8, h9, h10⟩ := id hv
  have h6 := day_le hv
  have hno : ¬ WritableYear t.year → ∀ f, timeText f t = .assertionError := by
    intro h f
    unfold WritableYear at h
    unfold timeText
    exact C15_century_violated _ _ _ (by simp only; omega) (by simp only; omega)
  have n2 : ∀ {k}, k < 100 → Number (padded 2 k) 2 2 k := fun h => number_padded (by norm_num) (by omega)
  refine ⟨?_, ?_, ⟨?_, fun h => ⟨_, written_full h⟩⟩, ⟨?_, fun h => ⟨_, written_alt h⟩⟩, ?_⟩
  · intro s hs
    by_cases hw : WritableYear t.year
    · rw [written_full hw] at hs
      cases hs
      exact ⟨_, _, _, _, _, _, _, rfl, Text.natStr_isDecimalText _, n2 (by omega), n2 (by omega), n2 (by omega), n2 (by omega), n2 (by omega), _, rfl,
        number_padded (by norm_num) (by omega)⟩
    · rw [hno hw] at hs; cases hs
  · intro s hs
    by_cases hw : WritableYear t.year
    · rw [written_alt hw] at hs
      cases hs
      exact ⟨_, _, _, _, _, _, rfl, Text.natStr_isDecimalText _, n2 (by omega), n2 (by omega), n2 (by omega), n2 (by omega), n2 (by omega)⟩
    · rw [hno hw] at hs; cases hs
  · rintro ⟨s, hs⟩
    by_contra hw
    rw [hno hw] at hs; cases hs
  · rintro ⟨s, hs⟩
    by_contra hw
    rw [hno hw] at hs; cases hs
  · unfold WritableYear
    simp only [List.mem_cons, List.not_mem_nil, or_false]
    omega

theorem natStr_length {n : ℕ} (h1 : 1000 ≤ n) (h2 : n ≤ 9999) : (Py.natStr n).length = 4 := by
  rw [Text.natStr_ge (by omega), Text.natStr_ge (by omega), Text.natStr_ge (by omega), Text.natStr_lt (by omega)]
  rfl

theorem natStr_short {n : ℕ} (h : n < 1000) : (Py.natStr n).length < 4 := by
  by_cases h1 : n < 10
  · rw [Text.natStr_lt h1]; simp
  · by_cases h2 : n < 100
    · rw [Text.natStr_ge h1, Text.natStr_lt (by omega)]; simp
    · rw [Text.natStr_ge h1, Text.natStr_ge (by omega), Text.natStr_lt (by omega)]; simp

theorem isDigit_same (c : Char) (h : Py.isDigit c = true) : c.isDigit = true := by
  unfold Py.isDigit at h
  simp only [Bool.and_eq_true, decide_eq_true_eq] at h
  simp only [Char.isDigit, Bool.and_eq_true, decide_eq_true_eq]
  exact h

theorem natStr_number {n : ℕ} (h1 : 1000 ≤ n) (h2 : n ≤ 9999) : Number (Py.natStr n) 4 4 n :=
  ⟨(natStr_length h1 h2).ge, (natStr_length h1 h2).le, fun c hc => isDigit_same c (Text.natStr_digits n c hc), Text.decimalValue_natStr n⟩

theorem number_wider {s : List Char} {n : ℕ} (h : Number s 2 2 n) : Number s 1 2 n := ⟨by have := h.1; omega, h.2⟩

/-- **C194** (partial). From the year 1000 on, a time that can be written is read back: to the microsecond from the format that ruptures are written with, and
without the fraction of the second from the format of event.xml. What is missing: the four centuries above, and the years before 1000. -/
theorem C194_back_partial (t : Moment) (hv : ValidTime t) (hw : WritableYear t.year) (h : 1000 ≤ t.year) :
    (∃ s, timeText timeFormat t = .ok s ∧ readTime s = some t ∧ strptime timeFormat s = some t) ∧
      ∃ s, timeText altTimeFormat t = .ok s ∧ readTime s = some { t with micro := 0 } ∧ strptime timeFormat s = none ∧
        strptime altTimeFormat s = some { t with micro := 0 } := by
  obtain ⟨h1, h2, h3, h4, h5, h6, h7, h8, h9, h10⟩ := id hv
  have h6' := day_le hv
  have n2 : ∀ {k}, k < 100 → Number (padded 2 k) 1 2 k := fun h => number_wider (number_padded (by norm_num) (by omega))
  constructor
  · refine ⟨_, written_full hw, ?_⟩
    have : TimeAs true (Py.natStr t.year ++ '-' :: (padded 2 t.month ++ '-' :: (padded 2 t.day ++ 'T' :: (padded 2 t.hour ++ ':' :: (padded 2 t.minute ++ ':' ::
      (padded 2 t.second ++ ('.' :: padded 6 t.micro ++ ['Z']))))))) t := by
      refine ⟨_, _, _, _, _, _, _, _, _, rfl, by simp, by simp, natStr_number h h2, n2 (by omega), .inl (n2 (by omega)), n2 (by omega), n2 (by omega), n2 (by omega), ?_⟩
      have n6 := number_padded (n := 6) (k := t.micro) (by norm_num) (by omega)
      rw [Fraction, if_pos rfl]
      refine ⟨_, t.micro, rfl, ⟨by have := n6.1; omega, n6.2⟩, ?_⟩
      rw [padded_length (by norm_num) (by omega)]
      simp
    exact ⟨(C194_read _ _).2 ⟨.inl this, hv⟩, (C194_reads _ _).2 ⟨this, hv⟩⟩
  · refine ⟨_, written_alt hw, ?_⟩
    have hv' : ValidTime { t with micro := 0 } := ⟨h1, h2, h3, h4, h5, h6, h7, h8, h9, by simp⟩
    have : TimeAs false (Py.natStr t.year ++ '-' :: (padded 2 t.month ++ '-' :: (padded 2 t.day ++ 'T' :: (padded 2 t.hour ++ ':' :: (padded 2 t.minute ++ ':' ::
      (padded 2 t.second ++ ['Z'])))))) { t with micro := 0 } :=
      ⟨_, _, _, _, _, _, [], _, _, rfl, by simp, by simp, natStr_number h h2, n2 (by omega), .inl (n2 (by omega)), n2 (by omega), n2 (by omega), n2 (by omega),
        by simp [Fraction]⟩
    refine ⟨(C194_read _ _).2 ⟨.inr this, hv'⟩, ?_, (C194_reads_alt _ _).2 ⟨this, hv'⟩⟩
    rcases hs : strptime timeFormat _ with _ | t'
    · rfl
    · exact absurd (dot_mem ((C194_reads _ t').1 hs).1) (dot_not_mem this)

theorem no_year {y r s : List Char} (hy : y.length < 4) (hs : s = y ++ '-' :: r) (b : Bool) (t : Moment) : ¬ TimeAs b s t := by
  rintro ⟨y', mo, d, h, mi, sec, f, T, Z, e, -, -, ny, -⟩
  rw [hs] at e
  have hl : y'.length = 4 := le_antisymm ny.2.1 ny.1
  have := congrArg (fun l => l[y.length]?) e
  simp only [List.getElem?_append_right le_rfl, Nat.sub_self, List.getElem?_cons_zero] at this
  rw [List.getElem?_append_left (by omega)] at this
  exact number_no ny (by decide : '-'.isDigit = false) (List.mem_of_getElem? this.symm)

/-- C194 is violated: a time of the year 999 or before is written, in either format, and the text is refused when it is read. -/
theorem C194_year_violated (t : Moment) (hw : WritableYear t.year) (h : t.year < 1000) :
    (∃ s, timeText timeFormat t = .ok s ∧ readTime s = none) ∧ ∃ s, timeText altTimeFormat t = .ok s ∧ readTime s = none := by
  constructor
  · refine ⟨_, written_full hw, ?_⟩
    rw [Option.eq_none_iff_forall_ne_some]
    intro t' ht
    rcases ((C194_read _ _).1 ht).1 with h' | h' <;> exact no_year (natStr_short h) rfl _ _ h'
  · refine ⟨_, written_alt hw, ?_⟩
    rw [Option.eq_none_iff_forall_ne_some]
    intro t' ht
    rcases ((C194_read _ _).1 ht).1 with h' | h' <;> exact no_year (natStr_short h) rfl _ _ h'

theorem decimalValue_small {s : List Char} (h : ∀ c ∈ s, c.isDigit = true) : decimalValue s < 10 ^ s.length := by
  induction s using List.reverseRecOn with
  | nil => simp [decimalValue]
  | append_singleton s c ih =>
    have h1 := ih fun x hx => h x (by simp [hx])
    have h2 := digit_range (h c (by simp))
    rw [decimalValue_append, value_one, List.length_append, List.length_singleton, pow_one, pow_succ]
    omega

/-- **C194** (partial). The time of an event on PDL's command line is the time cut off after the millisecond, from the year 1000 on. -/
theorem C194_pdl_partial (t : Moment) (hv : ValidTime t) (hw : WritableYear t.year) (h : 1000 ≤ t.year) :
    ∃ s, pdlTime t = .ok s ∧ s.length = 24 ∧ readTime s = some { t with micro := t.micro / 1000 * 1000 } := by
  obtain ⟨h1, h2, h3, h4, h5, h6, h7, h8, h9, h10⟩ := id hv
  have h6' := day_le hv
  have n2 : ∀ {k}, k < 100 → Number (padded 2 k) 1 2 k := fun h => number_wider (number_padded (by norm_num) (by omega))
  have l2 : ∀ {k}, k < 100 → (padded 2 k).length = 2 := fun h => padded_length (by norm_num) (by omega)
  have l6 : (padded 6 t.micro).length = 6 := padded_length (by norm_num) (by omega)
  unfold pdlTime
  rw [written_pdl hw]
  simp only
  have ht : (Py.natStr t.year ++ '-' :: (padded 2 t.month ++ '-' :: (padded 2 t.day ++ 'T' :: (padded 2 t.hour ++ ':' :: (padded 2 t.minute ++ ':' ::
      (padded 2 t.second ++ '.' :: padded 6 t.micro)))))).take 23 =
      Py.natStr t.year ++ '-' :: (padded 2 t.month ++ '-' :: (padded 2 t.day ++ 'T' :: (padded 2 t.hour ++ ':' :: (padded 2 t.minute ++ ':' ::
      (padded 2 t.second ++ '.' :: (padded 6 t.micro).take 3))))) := by
    simp [List.take_append, natStr_length h h2, l2 (by omega : t.month < 100), l2 (by omega : t.day < 100), l2 (by omega : t.hour < 100),
      l2 (by omega : t.minute < 100), l2 (by omega : t.second < 100), List.take_of_length_le]
  have hd : ∀ c ∈ (padded 6 t.micro).take 3, c.isDigit = true := fun c hc => List.all_eq_true.1 (padded_digits 6 t.micro) c (List.mem_of_mem_take hc)
  have hval : decimalValue ((padded 6 t.micro).take 3) = t.micro / 1000 := by
    have e := decimalValue_append ((padded 6 t.micro).take 3) ((padded 6 t.micro).drop 3)
    rw [List.take_append_drop, padded_value, List.length_drop, l6] at e
    have := decimalValue_small (s := (padded 6 t.micro).drop 3) fun c hc => List.all_eq_true.1 (padded_digits 6 t.micro) c (List.mem_of_mem_drop hc)
    rw [List.length_drop, l6] at this
    norm_num at this e
    omega
  refine ⟨_, rfl, ?_, ?_⟩
  · rw [ht]
    simp [natStr_length h h2, l2 (by omega : t.month < 100), l2 (by omega : t.day < 100), l2 (by omega : t.hour < 100), l2 (by omega : t.minute < 100),
      l2 (by omega : t.second < 100), l6]
  · rw [ht, C194_read]
    refine ⟨.inl ⟨_, _, _, _, _, _, '.' :: (padded 6 t.micro).take 3, 'T', 'Z', by simp, by simp, by simp, natStr_number h h2, n2 (by simp only; omega), .inl (n2 (by simp only; omega)),
      n2 (by simp only; omega), n2 (by simp only; omega), n2 (by simp only; omega), ?_⟩, h1, h2, h3, h4, h5, h6, h7, h8, h9, by simp only; omega⟩
    rw [Fraction, if_pos rfl]
    refine ⟨_, t.micro / 1000, rfl, ⟨by simp [l6], by simp [l6], hd, hval⟩, ?_⟩
    simp [l6]

/-- Times, before and after 1900, with and without a fraction, and a text that is read although it was not written so. -/
example : ValidTime ⟨2020, 2, 29, 23, 59, 59, 999999⟩ ∧ timeText timeFormat ⟨2020, 2, 29, 23, 59, 59, 999999⟩ = .ok "2020-02-29T23:59:59.999999Z".toList ∧
    timeText altTimeFormat ⟨1811, 12, 16, 8, 15, 0, 5⟩ = .ok "1811-12-16T08:15:00Z".toList ∧
    pdlTime ⟨1906, 4, 18, 13, 12, 21, 123987⟩ = .ok "1906-04-18T13:12:21.123Z".toList ∧ WritableYear 1811 ∧
    timeText timeFormat ⟨869, 7, 13, 0, 0, 0, 0⟩ = .ok "869-07-13T00:00:00.000000Z".toList ∧ WritableYear 869 ∧
    readTime "2020-2- 9t7:5:3.25z".toList = some ⟨2020, 2, 9, 7, 5, 3, 250000⟩ ∧
    readTime "2019-02-29T00:00:00Z".toList = none ∧ readTime "2019-02-28T00:00:60Z".toList = none ∧ readTime "2019-02-28T00:00:00+00:00".toList = none ∧
    timeText timeFormat ⟨1500, 1, 1, 0, 0, 0, 0⟩ = .assertionError := by
  refine ⟨by simp [ValidTime], ?_, ?_, ?_, by simp [WritableYear], ?_, by simp [WritableYear], ?_, ?_, ?_, ?_, ?_⟩ <;> decide +kernel

end Verif.Props
