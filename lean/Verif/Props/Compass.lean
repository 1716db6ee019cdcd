import Verif.Model.Compass
import Verif.Spec.Rose
import Verif.Lemmas.Argmin
import Mathlib.Tactic.Linarith
import Mathlib.Tactic.Ring
import Mathlib.Tactic.NormNum
import Mathlib.Tactic.Positivity

/-!
# C19, C20: compass directions
-/

namespace Verif.Props
open Verif Verif.Compass

/-- Row `i` of a table of `n` parts names the point at bearing `(i mod n) * 360 / n`. -/
def TableOk (isLong : Bool) (n : ℕ) (points : List String) : Prop :=
  ∀ i < n + 1, ∃ e ∈ Spec.rose16, points[i]? = some (if isLong then e.2.1 else e.1) ∧
    e.2.2 = ((i % n : ℕ) : ℚ) * (360 / n)

instance (b : Bool) (n : ℕ) (p : List String) : Decidable (TableOk b n p) := by
  unfold TableOk; infer_instance

theorem tables_ok : TableOk false 4 shortCardinal ∧ TableOk true 4 longCardinal ∧
    TableOk false 8 shortIntercardinal ∧ TableOk true 8 longIntercardinal ∧
    TableOk false 16 shortMeteorological ∧ TableOk true 16 longMeteorological := by
  decide +kernel

/-- The two formats. -/
def FormatOk (format : String) : Prop := format = "short" ∨ format = "long"

theorem table_spec (resolution format : String) (n : ℕ) (points : List String)
    (h : table resolution format = some (n, points)) :
    FormatOk format ∧ 0 < n ∧ Spec.roseStep resolution = some ((360 : ℚ) / n) ∧
      TableOk (decide (format = "long")) n points := by
  obtain ⟨t1, t2, t3, t4, t5, t6⟩ := tables_ok
  unfold table at h
  split_ifs at h with h1 h2 h3 h4 h5 h6 h7 <;> cases h <;> simp_all [FormatOk, Spec.roseStep] <;>
    norm_num

theorem table_none_iff (resolution format : String) : table resolution format = none ↔
    ¬ FormatOk format ∨ Spec.roseStep resolution = none := by
  unfold table FormatOk Spec.roseStep
  split_ifs <;> simp_all

/-- C19: the call fails (KeyError) exactly for an unknown format or resolution. -/
theorem C19_error_iff (azimuth : ℚ) (resolution format : String) :
    compassDirAzimuth azimuth resolution format = none ↔
      ¬ FormatOk format ∨ Spec.roseStep resolution = none := by
  rw [← table_none_iff]
  unfold compassDirAzimuth
  simp only
  cases ht : table resolution format with
  | none => simp
  | some np =>
    obtain ⟨n, points⟩ := np
    obtain ⟨_, hn, _, hok⟩ := table_spec resolution format n points ht
    obtain ⟨i, m, h1, h2, h3, h4⟩ := Py.argmin_spec ((angles n).map
      (fun a => |(if azimuth < 0 then azimuth + 360 else azimuth) - a|))
      (by simp [angles])
    simp only [h1]
    have hi : i < n + 1 := by
      by_contra hc
      rw [List.getElem?_eq_none (by simp [angles]; omega)] at h2
      cases h2
    obtain ⟨e, _, he, _⟩ := hok i hi
    rw [he]
    simp

/-- C19: for an azimuth between -360 and 360 the result is a point of the rose, named in the asked
format, and no other point of the chosen resolution is at a smaller angle from the azimuth. -/
theorem C19_nearest (azimuth : ℚ) (resolution format : String) (ha : -360 ≤ azimuth)
    (hb : azimuth ≤ 360) (hf : FormatOk format) (hr : Spec.roseStep resolution ≠ none) :
    ∃ name bearing d, compassDirAzimuth azimuth resolution format = some name ∧
      Spec.InRose resolution format name bearing ∧ Spec.IsAngleBetween azimuth bearing d ∧
      ∀ name' bearing' d', Spec.InRose resolution format name' bearing' →
        Spec.IsAngleBetween azimuth bearing' d' → d ≤ d' := by
  set az := if azimuth < 0 then azimuth + 360 else azimuth with haz
  have haz0 : 0 ≤ az := by rw [haz]; split_ifs <;> linarith
  have haz1 : az ≤ 360 := by rw [haz]; split_ifs <;> linarith
  obtain ⟨s, hs⟩ : ∃ s : ℤ, az = azimuth + 360 * s := by
    rw [haz]; split_ifs
    · exact ⟨1, by push_cast; ring⟩
    · exact ⟨0, by push_cast; ring⟩
  have htab : table resolution format ≠ none := by
    rw [Ne, table_none_iff]; tauto
  obtain ⟨⟨n, points⟩, ht⟩ := Option.ne_none_iff_exists'.1 htab
  obtain ⟨hfo, hn, hstep, hok⟩ := table_spec resolution format n points ht
  obtain ⟨i, m, h1, h2, h3, -⟩ := Py.argmin_spec ((angles n).map (fun a => |az - a|))
    (by simp [angles])
  have hi : i < n + 1 := by
    by_contra hc
    rw [List.getElem?_eq_none (by simp [angles]; omega)] at h2
    cases h2
  have hm : m = |az - i * (360 / n)| := by
    have hget : ((angles n).map (fun a => |az - a|))[i]? = some |az - i * (360 / n)| := by
      unfold angles
      rw [List.map_map, List.getElem?_map, List.getElem?_range hi]
      rfl
    rw [hget] at h2
    exact (Option.some.inj h2).symm
  have hall : ∀ j : ℕ, j < n + 1 → m ≤ |az - j * (360 / n)| := by
    intro j hj
    apply h3
    unfold angles
    rw [List.map_map, List.mem_map]
    exact ⟨j, by simpa using hj, rfl⟩
  have hnq : (n : ℚ) ≠ 0 := by exact_mod_cast hn.ne'
  obtain ⟨e, hemem, hename, hebear⟩ := hok i hi
  -- lower bound for every direction
  have lower : ∀ (k : ℕ) (z : ℤ), m ≤ |azimuth - k * (360 / n) + 360 * z| := by
    intro k z
    -- az - k*step + 360*(z - s)
    have hre : azimuth - k * (360 / n) + 360 * z = az - (k * (360 / n) - 360 * (z - s : ℤ)) := by
      rw [hs]; push_cast; ring
    rw [hre]
    -- k*step - 360*w = (k - n*w)*step
    have hk : (k : ℚ) * (360 / n) - 360 * (z - s : ℤ) = ((k - n * (z - s) : ℤ) : ℚ) * (360 / n) := by
      push_cast; field_simp
    rw [hk]
    generalize (k - n * (z - s) : ℤ) = w
    have hstep0 : (0 : ℚ) < 360 / n := by positivity
    by_cases hw0 : w < 0
    · have h0 := hall 0 (by omega)
      simp only [Nat.cast_zero, zero_mul, sub_zero] at h0
      refine h0.trans ?_
      rw [abs_of_nonneg haz0]
      have : (w : ℚ) * (360 / n) ≤ 0 :=
        mul_nonpos_of_nonpos_of_nonneg (by exact_mod_cast hw0.le) hstep0.le
      rw [abs_of_nonneg (by linarith)]
      linarith
    · by_cases hwn : w ≤ n
      · have h0 := hall w.toNat (by omega)
        have hc : ((w.toNat : ℕ) : ℚ) = (w : ℚ) := by
          exact_mod_cast Int.toNat_of_nonneg (by omega)
        rwa [hc] at h0
      · have h0 := hall n (by omega)
        refine h0.trans ?_
        have e360 : (n : ℚ) * (360 / n) = 360 := by field_simp
        rw [e360, abs_of_nonpos (by linarith)]
        have : (360 : ℚ) ≤ w * (360 / n) := by
          have hnw : (n : ℤ) ≤ w := by omega
          have hnw' : (n : ℚ) ≤ w := by exact_mod_cast hnw
          have := mul_le_mul_of_nonneg_right hnw' hstep0.le
          rwa [e360] at this
        rw [abs_of_nonpos (by linarith)]
        linarith
  refine ⟨if decide (format = "long") then e.2.1 else e.1, e.2.2, m, ?_, ⟨360 / n, hstep, ⟨i % n, hebear⟩, e.1, e.2.1, hemem, ?_⟩,
    ⟨?_, ?_⟩, ?_⟩
  · unfold compassDirAzimuth
    simp only [ht, ← haz, h1, hename]
  · rcases hfo with rfl | rfl
    · left; simp
    · right; simp
  · refine ⟨s - (i / n : ℕ), ?_⟩
    rw [hm, hebear, hs]
    congr 1
    have : (i : ℚ) = ((i % n : ℕ) : ℚ) + n * ((i / n : ℕ) : ℚ) := by
      exact_mod_cast (Nat.mod_add_div i n).symm
    nth_rewrite 1 [this]
    generalize i / n = q
    push_cast
    field_simp
    ring
  · intro k
    rw [hebear]
    exact lower (i % n) k
  · rintro name' b' d' ⟨step', hst', ⟨k, hk⟩, -⟩ ⟨⟨z, hz⟩, -⟩
    rw [hstep] at hst'
    cases hst'
    rw [hz, hk]
    exact lower k z

example : compassDirAzimuth (-100) "intercardinal" "long" = some "West" := by decide +kernel
example : compassDirAzimuth 350 "meteorological" "short" = some "N" := by decide +kernel

/-- Outside the range of C19: an azimuth of 450 degrees (due east) is reported as north. -/
theorem C19_above_360 : compassDirAzimuth 450 "cardinal" "short" = some "N" := by decide +kernel

/-- C20 (what holds): with the short format, and an azimuth in [-360, 360], `get_compass_dir` agrees
with `get_compass_dir_azimuth`. -/
theorem C20_short_partial (az : ℚ) (resolution : String) (h0 : -360 ≤ az) :
    compassDir az resolution "short" = compassDirAzimuth az resolution "short" := by
  unfold compassDir compassDirAzimuth
  by_cases h : az < 0
  · simp only [if_pos h]
    rw [if_neg (by linarith)]
  · simp only [if_neg h]

/-- C20 is violated: the format argument has no effect at all. -/
theorem C20_format_ignored_violated (az : ℚ) (resolution f f' : String) :
    compassDir az resolution f = compassDir az resolution f' := rfl

/-- C20, concrete: asking for the long name of east gives the short one. -/
theorem C20_witness : compassDir 90 "cardinal" "long" = some "E" ∧
    compassDirAzimuth 90 "cardinal" "long" = some "East" := by decide +kernel

end Verif.Props
