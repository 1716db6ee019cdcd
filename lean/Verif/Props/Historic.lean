import Verif.Model.Time
import Verif.Spec.Calendar
import Verif.Lemmas.Text
import Mathlib.Tactic.Linarith

/-!
# C15, C16, C82: formatting dates before 1900
-/

namespace Verif.Props
open Verif Verif.Time

/-! ## C15: the year map -/

/-- C15: for a year before 1900 the substituted year is from 1900 to 2299, congruent modulo 400 (so
also modulo 100). -/
theorem C15_year_map (y : ℤ) (_h : y < 1900) :
    1900 ≤ futureYear y ∧ futureYear y < 2300 ∧ futureYear y % 400 = y % 400 ∧
      futureYear y % 100 = y % 100 := by
  unfold futureYear; omega

/-- C15: years congruent modulo 400 have the same leap-year status, month lengths and weekdays. -/
theorem C15_same_calendar (y y' : ℤ) (h : y' % 400 = y % 400) :
    (Spec.Leap y' ↔ Spec.Leap y) ∧ (∀ m, Spec.monthLength y' m = Spec.monthLength y m) ∧
    (∀ m, Spec.daysBeforeMonth y' m = Spec.daysBeforeMonth y m) ∧
    ∀ m d, Spec.weekday y' m d = Spec.weekday y m d := by
  have hl : Spec.Leap y' ↔ Spec.Leap y := by unfold Spec.Leap; omega
  have hm : ∀ m, Spec.monthLength y' m = Spec.monthLength y m := by
    intro m; unfold Spec.monthLength; simp only [hl]
  have hd : ∀ m, Spec.daysBeforeMonth y' m = Spec.daysBeforeMonth y m := by
    intro m
    induction m using Nat.strong_induction_on with
    | _ m ih =>
      match m with
      | 0 => rfl
      | 1 => rfl
      | m + 2 => unfold Spec.daysBeforeMonth; rw [ih (m + 1) (by omega), hm]
  refine ⟨hl, hm, hd, fun m d => ?_⟩
  unfold Spec.weekday Spec.ordinal
  rw [hd]
  omega

/-! ## C16: replacing a directive -/

theorem matchSpec_percents (x : Char) (_hx : x ≠ '%') (n : ℕ) (rest : List Char)
    (hr : rest.head? ≠ some '%') :
    matchSpec x (List.replicate n '%' ++ rest) =
      if 1 ≤ n ∧ rest.head? = some x then some n else none := by
  have hk : ((List.replicate n '%' ++ rest).takeWhile (· == '%')).length = n := by
    rw [List.takeWhile_append_of_pos (by simp)]
    have : rest.takeWhile (· == '%') = [] := by
      cases rest with
      | nil => rfl
      | cons a t =>
        have : a ≠ '%' := by simpa using hr
        simp [this]
    simp [this]
  unfold matchSpec
  simp only [hk]
  rw [List.drop_left' (by simp)]

/-- Spec on a run of percent signs. -/
theorem replaceDirective_percents (x : Char) (hx : x ≠ '%') (by_ : List Char) (n : ℕ) (c : Char)
    (hc : c ≠ '%') (t : List Char) :
    Spec.replaceDirective x by_ (List.replicate n '%' ++ c :: t) =
      if n % 2 = 1 ∧ c = x then List.replicate (n - 1) '%' ++ by_ ++ Spec.replaceDirective x by_ t
      else List.replicate n '%' ++ c :: Spec.replaceDirective x by_ t := by
  induction n using Nat.strong_induction_on with
  | _ n ih =>
    match n with
    | 0 =>
      simp only [List.replicate_zero, List.nil_append]
      rw [if_neg (by omega)]
      rw [Spec.replaceDirective.eq_4 _ _ _ _ (by intro h; exact absurd h hc)
        (by intro a b h; exact absurd h hc)]
    | 1 =>
      simp only [List.replicate_one, List.cons_append, List.nil_append, Spec.replaceDirective]
      by_cases hcx : c = x
      · simp [hcx]
      · simp [hcx]
    | n + 2 =>
      have e : List.replicate (n + 2) '%' ++ c :: t =
          '%' :: '%' :: (List.replicate n '%' ++ c :: t) := by
        simp [List.replicate_succ]
      rw [e, Spec.replaceDirective, if_neg (Ne.symm hx), ih n (by omega)]
      by_cases hh : n % 2 = 1 ∧ c = x
      · rw [if_pos hh, if_pos ⟨by omega, hh.2⟩]
        obtain ⟨m, rfl⟩ : ∃ m, n = m + 1 := ⟨n - 1, by omega⟩
        simp [List.replicate_succ]
      · rw [if_neg hh, if_neg (fun h => hh ⟨by omega, h.2⟩)]
        simp [List.replicate_succ]

theorem replaceDirective_all_percents (x : Char) (hx : x ≠ '%') (by_ : List Char) (n : ℕ) :
    Spec.replaceDirective x by_ (List.replicate n '%') = List.replicate n '%' := by
  induction n using Nat.strong_induction_on with
  | _ n ih =>
    match n with
    | 0 => rfl
    | 1 => rfl
    | n + 2 =>
      rw [List.replicate_succ, List.replicate_succ, Spec.replaceDirective, if_neg (Ne.symm hx),
        ih n (by omega)]

/-- Every format string is a run of percent signs followed by nothing or by another character. -/
theorem split_percents (s : List Char) :
    (∃ n, s = List.replicate n '%') ∨
      ∃ n c t, s = List.replicate n '%' ++ c :: t ∧ c ≠ '%' := by
  induction s with
  | nil => exact Or.inl ⟨0, rfl⟩
  | cons a u ih =>
    by_cases ha : a = '%'
    · subst ha
      rcases ih with ⟨n, rfl⟩ | ⟨n, c, t, rfl, hc⟩
      · exact Or.inl ⟨n + 1, by simp [List.replicate_succ]⟩
      · exact Or.inr ⟨n + 1, c, t, by simp [List.replicate_succ], hc⟩
    · exact Or.inr ⟨0, a, u, rfl, ha⟩

theorem replaceIn_cons (x : Char) (by_ : List Char) (c : Char) (t : List Char) :
    replaceIn x by_ (c :: t) =
      match matchSpec x (c :: t) with
      | some n => (if n % 2 = 1 then List.replicate (n - 1) '%' ++ by_
          else List.replicate n '%' ++ [x]) ++ replaceIn x by_ ((c :: t).drop (n + 1))
      | none => c :: replaceIn x by_ t := by
  rw [replaceIn]
  split <;> rename_i h <;> rw [h]

/-- A run of percent signs that is not followed by the directive letter is copied. -/
theorem replaceIn_skip (x : Char) (hx : x ≠ '%') (by_ : List Char) (n : ℕ) (rest : List Char)
    (hr : rest.head? ≠ some '%') (hr2 : rest.head? ≠ some x) :
    replaceIn x by_ (List.replicate n '%' ++ rest) = List.replicate n '%' ++ replaceIn x by_ rest := by
  induction n with
  | zero => simp
  | succ n ih =>
    have hm := matchSpec_percents x hx (n + 1) rest hr
    rw [if_neg (by tauto)] at hm
    rw [List.replicate_succ, List.cons_append] at hm ⊢
    rw [replaceIn_cons, hm]
    simp only [List.cons_append, ih]

/-- C16: `replace_in` replaces exactly the directives that strftime would interpret, for every format
string, every directive letter and every replacement text. -/
theorem C16_replace_in (x : Char) (hx : x ≠ '%') (by_ s : List Char) :
    replaceIn x by_ s = Spec.replaceDirective x by_ s := by
  induction hl : s.length using Nat.strong_induction_on generalizing s with
  | _ L ih =>
    rcases split_percents s with ⟨n, rfl⟩ | ⟨n, c, t, rfl, hc⟩
    · rw [replaceDirective_all_percents x hx]
      have := replaceIn_skip x hx by_ n [] (by simp) (by simp)
      simpa [replaceIn] using this
    · rw [replaceDirective_percents x hx by_ n c hc t]
      have iht := ih t.length (by rw [← hl]; simp; omega) t rfl
      by_cases hcx : c = x
      · subst hcx
        match n with
        | 0 =>
          have hm := matchSpec_percents c hx 0 (c :: t) (by simpa using hc)
          simp only [List.replicate_zero, List.nil_append] at hm ⊢
          rw [replaceIn_cons, hm]
          simp [iht]
        | n + 1 =>
          have hm := matchSpec_percents c hx (n + 1) (c :: t) (by simpa using hc)
          rw [if_pos ⟨by omega, rfl⟩] at hm
          have hd : (List.replicate (n + 1) '%' ++ c :: t).drop (n + 1 + 1) = t := by
            rw [← List.drop_drop, List.drop_left' (by simp)]; rfl
          rw [List.replicate_succ, List.cons_append] at hm hd
          rw [List.replicate_succ, List.cons_append, replaceIn_cons, hm]
          simp only [hd, iht]
          by_cases ho : (n + 1) % 2 = 1
          · simp [ho]
          · simp [ho, List.replicate_succ]
      · rw [if_neg (by tauto), replaceIn_skip x hx by_ n (c :: t) (by simpa using hc) (by simpa using hcx)]
        congr 1
        have hm := matchSpec_percents x hx 0 (c :: t) (by simpa using hc)
        simp only [List.replicate_zero, List.nil_append] at hm
        rw [replaceIn_cons, hm]
        simp [iht]

example : Spec.replaceDirective 'Y' "1812".toList "%%%Y-%%Y %d%".toList = "%%1812-%%Y %d%".toList := by
  decide +kernel

/-- Expanding after replacement is expanding with the replacement text as the directive's value. -/
theorem expand_replace (interp : Char → List Char) (x : Char) (by_ : List Char)
    (hb : '%' ∉ by_) (s : List Char) :
    expand interp (Spec.replaceDirective x by_ s) =
      expand (fun d => if d = x then by_ else interp d) s := by
  have happ : ∀ u : List Char, expand interp (by_ ++ u) = by_ ++ expand interp u := by
    intro u
    induction by_ with
    | nil => rfl
    | cons a b ih =>
      have ha : a ≠ '%' := by rintro rfl; simp at hb
      have hcons : expand interp (a :: (b ++ u)) = a :: expand interp (b ++ u) := by
        rw [expand.eq_4 _ _ _ (by intro h; exact absurd h ha) (by intro d v h; exact absurd h ha)]
      rw [List.cons_append, hcons, ih (fun h => hb (by simp [h]))]
      rfl
  have hcp : ∀ (f : Char → List Char) (c : Char) (v : List Char), c ≠ '%' →
      expand f (c :: v) = c :: expand f v := by
    intro f c v hc
    rw [expand.eq_4 _ _ _ (by intro h; exact absurd h hc) (by intro d w h; exact absurd h hc)]
  have hcr : ∀ (c : Char) (v : List Char), c ≠ '%' →
      Spec.replaceDirective x by_ (c :: v) = c :: Spec.replaceDirective x by_ v := by
    intro c v hc
    rw [Spec.replaceDirective.eq_4 _ _ _ _ (by intro h; exact absurd h hc)
      (by intro d w h; exact absurd h hc)]
  induction hl : s.length using Nat.strong_induction_on generalizing s with
  | _ L ih =>
    match s with
    | [] => rfl
    | [c] =>
      by_cases hc : c = '%'
      · subst hc; rfl
      · rw [hcr c [] hc, hcp _ c _ hc, hcp _ c _ hc]; rfl
    | c :: d :: t =>
      by_cases hc : c = '%'
      · subst hc
        have iht := ih t.length (by rw [← hl]; simp; omega) t rfl
        by_cases hd : d = x
        · simp only [Spec.replaceDirective, expand, hd, if_true, happ, iht]
        · simp only [Spec.replaceDirective, expand, hd, if_false, iht]
      · rw [hcr c _ hc, hcp _ c _ hc, hcp _ c _ hc, ih (d :: t).length (by rw [← hl]; simp) (d :: t) rfl]

/-- The text of a year has no percent sign. -/
theorem percent_not_in_intStr (n : ℤ) : '%' ∉ Py.intStr n := by
  intro h
  rw [Text.intStr_shape] at h
  rcases List.mem_append.1 h with h | h
  · split at h <;> simp at h
  · have := Text.natStr_digits _ _ h
    exact absurd this (by decide)

/-- C15 (what holds): for a year from 1 to 1899 not congruent to 1900 modulo 400, and a format in which
the `%c`/`%x` guard finds nothing, the result is the expansion of the format with the true year
for `%Y` and every other directive evaluated at a date with the same month and day, the same
leap-year status and the same weekday. -/
theorem C15_strftime_partial (interp : Date → Char → List Char) (d : Date) (format : List Char)
    (h1 : d.year < 1900) (h2 : d.year % 400 ≠ 300)
    (hc : isPresentIn 'c' (Spec.replaceDirective 'Y' (Py.intStr d.year) format) = false)
    (hx : isPresentIn 'x' (Spec.replaceDirective 'Y' (Py.intStr d.year) format) = false) :
    ∃ d' : Date, d'.month = d.month ∧ d'.day = d.day ∧ 1900 < d'.year ∧
      d'.year % 400 = d.year % 400 ∧ d'.year % 100 = d.year % 100 ∧
      (Spec.Leap d'.year ↔ Spec.Leap d.year) ∧
      Spec.weekday d'.year d'.month d'.day = Spec.weekday d.year d.month d.day ∧
      strftime interp d format =
        .ok (expand (fun c => if c = 'Y' then Py.intStr d.year else interp d' c) format) := by
  obtain ⟨a1, a2, a3, a4⟩ := C15_year_map d.year h1
  have hgt : futureYear d.year > 1900 := by omega
  obtain ⟨b1, _, _, b4⟩ := C15_same_calendar d.year (futureYear d.year) a3
  refine ⟨{ d with year := futureYear d.year }, rfl, rfl, hgt, a3, a4, b1, b4 _ _, ?_⟩
  unfold strftime
  rw [if_neg (by omega)]
  simp only [C16_replace_in 'Y' (by decide), hc, hx]
  rw [if_neg (by simpa using hgt), if_neg (by simp), if_neg (by simpa using a4),
    expand_replace _ _ _ (percent_not_in_intStr _)]

/-- Non-vacuity: 13 July 1899 with an ordinary format. -/
example : (1899 : ℤ) % 400 ≠ 300 ∧
    isPresentIn 'c' (Spec.replaceDirective 'Y' (Py.intStr 1899) "%Y-%m-%d".toList) = false ∧
    isPresentIn 'x' (Spec.replaceDirective 'Y' (Py.intStr 1899) "%Y-%m-%d".toList) = false := by
  decide +kernel

/-- C15: from 1900 on the format is expanded unchanged. -/
theorem C15_modern (interp : Date → Char → List Char) (d : Date) (format : List Char)
    (h : 1900 ≤ d.year) : strftime interp d format = .ok (expand (interp d) format) := by
  unfold strftime; rw [if_pos h]

/-- C15 is violated: every date of 1500, 1100, 700 and 300 (years congruent to 1900 modulo 400) fails
with AssertionError, whatever the format. -/
theorem C15_century_violated (interp : Date → Char → List Char) (d : Date) (format : List Char)
    (h1 : d.year < 1900) (h2 : d.year % 400 = 300) :
    strftime interp d format = .assertionError := by
  have : ¬ futureYear d.year > 1900 := by unfold futureYear; omega
  unfold strftime
  rw [if_neg (by omega)]
  simp only [this, not_false_eq_true, if_true]

example : (1500 : ℤ) % 400 = 300 ∧ (300 : ℤ) % 400 = 300 := by decide

/-! ## C82: the guard for `%c` and `%x` -/

/-- C82 is violated: the guard looks at the first candidate only, so a directive after an escaped
one goes unnoticed and is expanded with the substituted year. -/
theorem C82_guard_misses_violated :
    Spec.HasDirective 'c' "%%c %c".toList ∧
    ∀ (interp : Date → Char → List Char),
      strftime interp ⟨1899, 7, 13⟩ "%%c %c".toList =
        .ok (interp ⟨2299, 7, 13⟩ '%' ++ "c ".toList ++ interp ⟨2299, 7, 13⟩ 'c') := by
  refine ⟨by simp [Spec.HasDirective], fun interp => ?_⟩
  have e : "%%c %c".toList = ['%', '%', 'c', ' ', '%', 'c'] := by decide
  have e2 : "c ".toList = ['c', ' '] := by decide
  rw [e, e2]
  unfold strftime
  rw [if_neg (by decide)]
  have hf : futureYear 1899 = 2299 := by decide
  have hr : replaceIn 'Y' (Py.intStr 1899) ['%', '%', 'c', ' ', '%', 'c']
      = ['%', '%', 'c', ' ', '%', 'c'] := by
    rw [C16_replace_in _ (by decide)]; rfl
  have hc : isPresentIn 'c' ['%', '%', 'c', ' ', '%', 'c'] = false := by decide
  have hx : isPresentIn 'x' ['%', '%', 'c', ' ', '%', 'c'] = false := by decide
  simp only [hf, hr, hc, hx]
  rw [if_neg (by decide), if_neg (by decide), if_neg (by decide)]
  simp [expand]

theorem hasDirective_percents (x : Char) (hx : x ≠ '%') (n : ℕ) (c : Char) (hc : c ≠ '%')
    (t : List Char) : Spec.HasDirective x (List.replicate n '%' ++ c :: t) ↔
      (n % 2 = 1 ∧ c = x) ∨ Spec.HasDirective x t := by
  induction n using Nat.strong_induction_on with
  | _ n ih =>
    match n with
    | 0 =>
      simp only [List.replicate_zero, List.nil_append]
      have : Spec.HasDirective x (c :: t) ↔ Spec.HasDirective x t := by
        rw [Spec.HasDirective.eq_4 _ _ _ (by intro h; exact absurd h hc)
          (by intro a b h; exact absurd h hc)]
      rw [this]; simp
    | 1 => simp [Spec.HasDirective]
    | n + 2 =>
      have e : List.replicate (n + 2) '%' ++ c :: t =
          '%' :: '%' :: (List.replicate n '%' ++ c :: t) := by
        simp [List.replicate_succ]
      rw [e, Spec.HasDirective, ih n (by omega)]
      constructor
      · rintro (h | h | h)
        · exact absurd h.symm hx
        · exact Or.inl ⟨by omega, h.2⟩
        · exact Or.inr h
      · rintro (h | h)
        · exact Or.inr (Or.inl ⟨by omega, h.2⟩)
        · exact Or.inr (Or.inr h)

theorem hasDirective_all_percents (x : Char) (hx : x ≠ '%') (n : ℕ) :
    ¬ Spec.HasDirective x (List.replicate n '%') := by
  induction n using Nat.strong_induction_on with
  | _ n ih =>
    match n with
    | 0 => simp [Spec.HasDirective]
    | 1 => simp [Spec.HasDirective]
    | n + 2 =>
      rw [List.replicate_succ, List.replicate_succ, Spec.HasDirective]
      rintro (h | h)
      · exact hx h.symm
      · exact ih n (by omega) h

theorem isPresentIn_skip (x : Char) (hx : x ≠ '%') (n : ℕ) (rest : List Char)
    (hr : rest.head? ≠ some '%') (hr2 : rest.head? ≠ some x) :
    isPresentIn x (List.replicate n '%' ++ rest) = isPresentIn x rest := by
  induction n with
  | zero => simp
  | succ n ih =>
    have hm := matchSpec_percents x hx (n + 1) rest hr
    rw [if_neg (by tauto)] at hm
    rw [List.replicate_succ, List.cons_append] at hm ⊢
    rw [isPresentIn, hm]
    exact ih

/-- C82 (what holds): the guard never fires on a format without the directive. -/
theorem C82_guard_sound (x : Char) (hx : x ≠ '%') (s : List Char) (h : isPresentIn x s = true) :
    Spec.HasDirective x s := by
  induction hl : s.length using Nat.strong_induction_on generalizing s with
  | _ L ih =>
    rcases split_percents s with ⟨n, rfl⟩ | ⟨n, c, t, rfl, hc⟩
    · have := isPresentIn_skip x hx n [] (by simp) (by simp)
      simp only [List.append_nil] at this
      rw [this] at h
      simp [isPresentIn] at h
    · rw [hasDirective_percents x hx n c hc t]
      by_cases hcx : c = x
      · subst hcx
        match n with
        | 0 =>
          right
          have hm := matchSpec_percents c hx 0 (c :: t) (by simpa using hc)
          simp only [List.replicate_zero, List.nil_append] at hm h
          rw [isPresentIn, hm] at h
          simp only [nonpos_iff_eq_zero, one_ne_zero, false_and, if_false] at h
          exact ih t.length (by rw [← hl]; simp) t h rfl
        | n + 1 =>
          left
          have hm := matchSpec_percents c hx (n + 1) (c :: t) (by simpa using hc)
          rw [if_pos ⟨by omega, rfl⟩] at hm
          rw [List.replicate_succ, List.cons_append] at hm h
          rw [isPresentIn, hm] at h
          exact ⟨by simpa using h, rfl⟩
      · right
        rw [isPresentIn_skip x hx n (c :: t) (by simpa using hc) (by simpa using hcx)] at h
        have hm := matchSpec_percents x hx 0 (c :: t) (by simpa using hc)
        simp only [List.replicate_zero, List.nil_append] at hm
        rw [isPresentIn, hm] at h
        simp only [nonpos_iff_eq_zero, one_ne_zero, false_and, if_false] at h
        exact ih t.length (by rw [← hl]; simp; omega) t h rfl

/-- C82: a format whose first candidate is a genuine directive is rejected. -/
theorem C82_rejects_partial (interp : Date → Char → List Char) (d : Date) (format : List Char)
    (h1 : d.year < 1900) (h2 : d.year % 400 ≠ 300)
    (hp : isPresentIn 'c' (Spec.replaceDirective 'Y' (Py.intStr d.year) format) = true ∨
      isPresentIn 'x' (Spec.replaceDirective 'Y' (Py.intStr d.year) format) = true) :
    strftime interp d format = .nameError := by
  obtain ⟨a1, a2, a3, a4⟩ := C15_year_map d.year h1
  have hgt : futureYear d.year > 1900 := by omega
  unfold strftime
  rw [if_neg (by omega)]
  simp only [C16_replace_in 'Y' (by decide)]
  rw [if_neg (by simpa using hgt), if_pos (by simpa using hp)]

example : isPresentIn 'c' (Spec.replaceDirective 'Y' (Py.intStr 1899) "on %c".toList) = true := by
  decide +kernel

end Verif.Props
