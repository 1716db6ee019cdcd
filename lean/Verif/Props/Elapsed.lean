import Verif.Model.Time
import Verif.Lemmas.Rounding
import Verif.Lemmas.Text

/-!
# C09, C10, C11, C83: elapsed time and UTM zones
-/

namespace Verif.Props
open Verif Verif.Time

theorem floatRem_eq (n u : ℤ) (hu : 0 < u) : floatRem n u = n % u := by
  unfold floatRem
  have hq : (u : ℚ) ≠ 0 := by exact_mod_cast hu.ne'
  have : ((n : ℚ) / u - (n / u : ℤ)) * u = ((n % u : ℤ) : ℚ) := by
    rw [sub_mul, div_mul_cancel₀ _ hq]
    have h := Int.emod_def n u
    rw [h]
    push_cast
    ring
  rw [this, Py.round_intCast]

/-- The elapsed components, in closed form. -/
theorem getTimeElapsed_eq (t1 t2 : ℤ) (h : t1 ≤ t2) :
    getTimeElapsed t1 t2 = some ⟨(t2 - t1) / 1000000 / 604800, (t2 - t1) / 1000000 / 86400 % 7,
      (t2 - t1) / 1000000 / 3600 % 24, (t2 - t1) / 1000000 / 60 % 60, (t2 - t1) / 1000000 % 60⟩ := by
  unfold getTimeElapsed
  rw [if_neg (by omega)]
  simp only [floatRem_eq _ 60 (by norm_num), floatRem_eq _ 24 (by norm_num),
    floatRem_eq _ 7 (by norm_num)]
  have hn : 0 ≤ (t2 - t1) / 1000000 := by omega
  generalize (t2 - t1) / 1000000 = n at *
  split_ifs <;> simp only [Option.some.injEq, Elapsed.mk.injEq] <;> and_intros <;> first | trivial | omega

/-- C09: `getTimeElapsed` raises exactly when the second time is before the first. -/
theorem C09_raises_iff (t1 t2 : ℤ) : getTimeElapsed t1 t2 = none ↔ t2 < t1 := by
  by_cases h : t2 < t1
  · simp [getTimeElapsed, h]
  · rw [getTimeElapsed_eq t1 t2 (by omega)]; simp [h]

/-- C09: otherwise the components are in range and add up to the whole seconds elapsed (times are
in microseconds). -/
theorem C09_components (t1 t2 : ℤ) (e : Elapsed) (h : getTimeElapsed t1 t2 = some e) :
    0 ≤ e.weeks ∧ (0 ≤ e.days ∧ e.days < 7) ∧ (0 ≤ e.hours ∧ e.hours < 24) ∧
    (0 ≤ e.minutes ∧ e.minutes < 60) ∧ (0 ≤ e.seconds ∧ e.seconds < 60) ∧
    let total := 604800 * e.weeks + 86400 * e.days + 3600 * e.hours + 60 * e.minutes + e.seconds
    1000000 * total ≤ t2 - t1 ∧ t2 - t1 < 1000000 * (total + 1) := by
  have hle : t1 ≤ t2 := by
    by_contra hc
    rw [(C09_raises_iff t1 t2).2 (by omega)] at h
    cases h
  rw [getTimeElapsed_eq t1 t2 hle] at h
  simp only [Option.some.injEq] at h
  subst h
  simp only
  omega

example : getTimeElapsed 0 1234567890123 = some ⟨2, 0, 6, 56, 7⟩ := by
  rw [getTimeElapsed_eq _ _ (by norm_num)]; norm_num

/-! ### The text -/

/-- Units of time with their length in seconds, largest first. -/
def timeUnits : List (String × ℤ) :=
  [("week", 604800), ("day", 86400), ("hour", 3600), ("minute", 60), ("second", 1)]

/-- A count with its unit: plural exactly when the count is not one. -/
def countText (k : ℤ) (unit : String) : List Char :=
  Py.intStr k ++ [' '] ++ unit.toList ++ (if k = 1 then [] else ['s'])

theorem unit_plural (k : ℤ) (u : String) :
    (if k ≠ 1 then u ++ "s" else u).toList = u.toList ++ (if k = 1 then [] else ['s']) := by
  by_cases h : k = 1
  · simp [h]
  · simp [h]

theorem getTimeStr_eq (a b : ℤ) (unit small : String) (hm : unit ∈ periods)
    (h1 : periodAt (periods.idxOf unit) = unit) (h2 : periodAt ((periods.idxOf unit : ℤ) - 1) = small) :
    getTimeStr a b unit = some (countText a unit ++ [',', ' '] ++ countText b small) := by
  unfold getTimeStr countText
  rw [if_neg (by simpa using hm)]
  simp only [h1, h2, unit_plural, List.append_assoc]

/-- C10: for an elapsed time of `n` whole seconds, at least a minute, the text names the largest unit
that fits and the next smaller one, with the whole numbers of each. -/
theorem C10_two_units (t1 t2 : ℤ) (n : ℤ) (hn : n = (t2 - t1) / 1000000) (h60 : 60 ≤ n) :
    ∃ (before after : List (String × ℤ)) (big small : String) (bigSize smallSize a b : ℤ),
      timeUnits = before ++ (big, bigSize) :: (small, smallSize) :: after ∧
      getElapsedString t1 t2 = some (countText a big ++ [',', ' '] ++ countText b small) ∧
      1 ≤ a ∧ 0 ≤ b ∧ b * smallSize < bigSize ∧
      (∀ u ∈ before, n < u.2) ∧
      a * bigSize + b * smallSize ≤ n ∧ n < a * bigSize + b * smallSize + smallSize := by
  have hle : t1 ≤ t2 := by omega
  unfold getElapsedString
  rw [getTimeElapsed_eq t1 t2 hle]
  simp only [← hn]
  by_cases hw : 604800 ≤ n
  · rw [if_pos (by omega), getTimeStr_eq _ _ "week" "day" (by decide) (by decide) (by decide)]
    exact ⟨[], _, _, _, _, _, _, _, rfl, rfl, by omega, by omega, by omega, by simp, by omega, by omega⟩
  rw [if_neg (by omega)]
  by_cases hd : 86400 ≤ n
  · rw [if_pos (by omega), getTimeStr_eq _ _ "day" "hour" (by decide) (by decide) (by decide)]
    exact ⟨[("week", 604800)], _, _, _, _, _, _, _, rfl, rfl, by omega, by omega, by omega,
      by simp; omega, by omega, by omega⟩
  rw [if_neg (by omega)]
  by_cases hh : 3600 ≤ n
  · rw [if_pos (by omega), getTimeStr_eq _ _ "hour" "minute" (by decide) (by decide) (by decide)]
    exact ⟨[("week", 604800), ("day", 86400)], _, _, _, _, _, _, _, rfl, rfl, by omega, by omega,
      by omega, by simp; omega, by omega, by omega⟩
  rw [if_neg (by omega), if_pos (by omega),
    getTimeStr_eq _ _ "minute" "second" (by decide) (by decide) (by decide)]
  exact ⟨[("week", 604800), ("day", 86400), ("hour", 3600)], _, _, _, _, _, _, _, rfl, rfl, by omega,
    by omega, by omega, by simp; omega, by omega, by omega⟩

/-- C10: below one minute the seconds alone are printed. -/
theorem C10_seconds (t1 t2 : ℤ) (n : ℤ) (hn : n = (t2 - t1) / 1000000) (h0 : t1 ≤ t2)
    (h60 : n < 60) : getElapsedString t1 t2 = some (countText n "second") := by
  unfold getElapsedString
  rw [getTimeElapsed_eq t1 t2 h0]
  simp only [← hn]
  rw [if_neg (by omega), if_neg (by omega), if_neg (by omega), if_neg (by omega)]
  have hm : n % 60 = n := by omega
  rw [hm]
  unfold countText
  by_cases h1 : n = 1
  · subst h1; rw [if_neg (by simp)]; decide +kernel
  · rw [if_pos h1, if_neg h1]
    simp

/-- C10: nothing is printed (the call raises) exactly when the times are in the wrong order. -/
theorem C10_raises_iff (t1 t2 : ℤ) : getElapsedString t1 t2 = none ↔ t2 < t1 := by
  by_cases h : t2 < t1
  · simp [getElapsedString, (C09_raises_iff t1 t2).2 h, h]
  · by_cases h60 : (t2 - t1) / 1000000 < 60
    · rw [C10_seconds t1 t2 _ rfl (by omega) h60]; simp [h]
    · obtain ⟨_, _, _, _, _, _, _, _, _, he, _⟩ := C10_two_units t1 t2 _ rfl (by omega)
      rw [he]; simp [h]

example : getElapsedString 0 3661000000 = some "1 hour, 1 minute".toList := by decide +kernel

/-- C83 (part that holds): for every unit but the smallest, `getTimeStr` names that unit and the next
smaller one in the list second, minute, hour, day, week, month, year. -/
theorem C83_getTimeStr_partial (a b : ℤ) (before after : List String) (small unit : String)
    (h : ["second", "minute", "hour", "day", "week", "month", "year"]
      = before ++ small :: unit :: after) :
    getTimeStr a b unit = some (countText a unit ++ [',', ' '] ++ countText b small) := by
  have hp : periods = before ++ small :: unit :: after := h
  rcases before with _ | ⟨x1, _ | ⟨x2, _ | ⟨x3, _ | ⟨x4, _ | ⟨x5, _ | ⟨x6, t⟩⟩⟩⟩⟩⟩ <;>
    simp only [List.cons_append, List.nil_append, List.cons.injEq] at h
  · obtain ⟨rfl, rfl, _⟩ := h
    exact getTimeStr_eq _ _ _ _ (by decide) (by decide) (by decide)
  · obtain ⟨_, rfl, rfl, _⟩ := h
    exact getTimeStr_eq _ _ _ _ (by decide) (by decide) (by decide)
  · obtain ⟨_, _, rfl, rfl, _⟩ := h
    exact getTimeStr_eq _ _ _ _ (by decide) (by decide) (by decide)
  · obtain ⟨_, _, _, rfl, rfl, _⟩ := h
    exact getTimeStr_eq _ _ _ _ (by decide) (by decide) (by decide)
  · obtain ⟨_, _, _, _, rfl, rfl, _⟩ := h
    exact getTimeStr_eq _ _ _ _ (by decide) (by decide) (by decide)
  · obtain ⟨_, _, _, _, _, rfl, rfl, _⟩ := h
    exact getTimeStr_eq _ _ _ _ (by decide) (by decide) (by decide)
  · exfalso
    have := congrArg List.length hp
    simp [periods] at this
    omega

/-- C83: an unknown unit raises. -/
theorem C83_unknown (a b : ℤ) (unit : String) :
    getTimeStr a b unit = none ↔
      unit ∉ ["second", "minute", "hour", "day", "week", "month", "year"] := by
  unfold getTimeStr periods
  split_ifs with h <;> simp_all

/-- C83 is violated for the documented unit 'second': the smaller unit wraps round to 'year'. -/
theorem C83_second_violated : getTimeStr 5 3 "second" = some "5 seconds, 3 years".toList := by
  decide +kernel

/-- C11: the UTM zone is between 1 and 60 and its band contains the longitude modulo 360. -/
theorem C11_utm_zone (clon : ℚ) :
    1 ≤ utmZone clon ∧ utmZone clon ≤ 60 ∧
    ∃ k : ℤ, (-180 + 6 * (utmZone clon - 1 : ℚ)) ≤ clon - 360 * k ∧
      clon - 360 * k < -180 + 6 * (utmZone clon : ℚ) := by
  unfold utmZone
  have h1 := Int.floor_le ((clon + 180) / 6)
  have h2 := Int.lt_floor_add_one ((clon + 180) / 6)
  generalize ⌊(clon + 180) / 6⌋ = f at *
  refine ⟨by omega, by omega, f / 60, ?_, ?_⟩
  · have he : f % 60 = f - 60 * (f / 60) := Int.emod_def f 60
    rw [he]
    push_cast
    linarith
  · have he : f % 60 = f - 60 * (f / 60) := Int.emod_def f 60
    rw [he]
    push_cast
    linarith

example : utmZone (-122) = 10 ∧ utmZone 180 = 1 := by decide +kernel

end Verif.Props
