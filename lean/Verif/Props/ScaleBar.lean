import Verif.Model.ScaleBar
import Verif.Lemmas.Argmin
import Verif.Lemmas.Rounding
import Mathlib.Tactic.Linarith
import Mathlib.Tactic.FieldSimp
import Mathlib.Tactic.Ring
import Mathlib.Tactic.NormNum

/-!
# C25, C26, C27, C84: the scale bar
-/

namespace Verif.Props
open Verif Verif.ScaleBar

/-- All arguments other than the override pair are acceptable. -/
def ScaleArgsOk (ax : Axes) (pos units : String) : Prop :=
  ax.isGeo = true ∧ (pos = "ll" ∨ pos = "lr" ∨ pos = "ul" ∨ pos = "ur") ∧
  units ∈ unitTable.map Prod.fst

/-- The override pair is acceptable: both or neither given, and 2 to 6 divisions. -/
def OverrideOk (barLength : Option ℚ) (divisions : Option ℤ) : Prop :=
  (barLength = none ∧ divisions = none) ∨
  ∃ l d, barLength = some l ∧ divisions = some d ∧ 2 ≤ d ∧ d ≤ 6

theorem lookup_isSome_iff (l : List (String × ℚ)) (u : String) :
    u ∈ l.map Prod.fst ↔ ∃ x, l.lookup u = some x ∧ (u, x) ∈ l := by
  induction l with
  | nil => simp
  | cons p l ih =>
    obtain ⟨a, b⟩ := p
    rw [List.lookup_cons]
    by_cases h : u = a
    · subst h; simp
    · have : (u == a) = false := by simpa using h
      simp only [List.map_cons, List.mem_cons, h, false_or, ih, this]
      constructor
      · rintro ⟨x, h1, h2⟩; exact ⟨x, h1, by simp [h2]⟩
      · rintro ⟨x, h1, h2⟩
        refine ⟨x, h1, ?_⟩
        rcases h2 with h2 | h2
        · cases h2; exact absurd rfl h
        · exact h2

theorem lookup_none_iff' (l : List (String × ℚ)) (u : String) :
    l.lookup u = none ↔ u ∉ l.map Prod.fst := by
  rw [lookup_isSome_iff]
  cases h : l.lookup u with
  | none => simp
  | some x =>
    simp only [reduceCtorEq, false_iff, not_not]
    refine ⟨x, rfl, ?_⟩
    have := (lookup_isSome_iff l u)
    induction l with
    | nil => simp at h
    | cons p l ih =>
      obtain ⟨a, b⟩ := p
      rw [List.lookup_cons] at h
      by_cases hu : u = a
      · subst hu; simp at h; simp [h]
      · have hb : (u == a) = false := by simpa using hu
        rw [hb] at h
        simp only at h
        exact List.mem_cons_of_mem _ (ih h (lookup_isSome_iff l u))

theorem defaultLength_spec (width : ℚ) : ∃ len divs, defaultLength width = some (len, divs) ∧
    (len, divs) ∈ lengths ∧
    ∀ p ∈ lengths, |width / 4 - (len : ℚ)| ≤ |width / 4 - (p.1 : ℚ)| := by
  obtain ⟨i, m, h1, h2, h3, _⟩ := Py.argmin_spec
    (lengths.map (fun p => |width * (1 / 4) - (p.1 : ℚ)|)) (by simp [lengths])
  unfold defaultLength
  simp only [h1]
  rw [List.getElem?_map, Option.map_eq_some_iff] at h2
  obtain ⟨⟨len, divs⟩, e, h2⟩ := h2
  refine ⟨len, divs, e, List.mem_of_getElem? e, ?_⟩
  intro p hp
  have := h3 _ (List.mem_map.2 ⟨p, hp, rfl⟩)
  rw [← h2] at this
  have hw : width * (1 / 4) = width / 4 := by ring
  rw [hw] at this
  exact this

/-- Every tabulated length has 2 to 6 divisions and is a multiple of their number. -/
theorem lengths_ok : ∀ p ∈ lengths, 2 ≤ p.2 ∧ p.2 ≤ 6 ∧ p.2 ∣ p.1 ∧ 0 < p.1 := by decide

theorem drawScale_default (ax : Axes) (pos : String) (padx : ℚ) (units : String)
    (h : ScaleArgsOk ax pos units) : ∃ unit len divs, (units, unit) ∈ unitTable ∧
      (len, divs) ∈ lengths ∧
      (∀ p ∈ lengths, |(ax.xmax - ax.xmin) * ax.dataunitsToMeters / unit / 4 - (len : ℚ)| ≤
        |(ax.xmax - ax.xmin) * ax.dataunitsToMeters / unit / 4 - (p.1 : ℚ)|) ∧
      drawScale ax pos padx units none none =
        .ok (draw ax pos padx unit len divs (ax.xmax - ax.xmin)) := by
  obtain ⟨h1, h2, h3⟩ := h
  obtain ⟨unit, hu, hm⟩ := (lookup_isSome_iff _ _).1 h3
  obtain ⟨len, divs, e, hl, hmin⟩ := defaultLength_spec
    ((ax.xmax - ax.xmin) * ax.dataunitsToMeters * 1 / unit)
  refine ⟨unit, len, divs, hm, hl, ?_, ?_⟩
  · simpa using hmin
  · unfold drawScale
    rw [if_neg (by simp), if_neg (by simp [badDivisions])]
    simp only [hu]
    rw [if_neg (by rcases h2 with rfl | rfl | rfl | rfl <;> simp), if_neg (by simp [h1])]
    rw [e]

/-- C25: with no override the bar has a tabulated length, no tabulated length is closer to a quarter
of the map width (in the requested units), and the bar has that length's division count, which is
between 2 and 6 and divides the length. -/
theorem C25_default_length (ax : Axes) (pos : String) (padx : ℚ) (units : String)
    (h : ScaleArgsOk ax pos units) : ∃ d unit len divs,
      drawScale ax pos padx units none none = .ok d ∧ (units, unit) ∈ unitTable ∧
      (len, divs) ∈ lengths ∧ d.barLength = len ∧ d.divisions = divs ∧
      2 ≤ divs ∧ divs ≤ 6 ∧ divs ∣ len ∧
      ∀ p ∈ lengths, |(ax.xmax - ax.xmin) * ax.dataunitsToMeters / unit / 4 - d.barLength| ≤
        |(ax.xmax - ax.xmin) * ax.dataunitsToMeters / unit / 4 - (p.1 : ℚ)| := by
  obtain ⟨unit, len, divs, h1, h2, h3, h4⟩ := drawScale_default ax pos padx units h
  obtain ⟨h5, h6, h7, _⟩ := lengths_ok _ h2
  exact ⟨_, unit, len, divs, h4, h1, h2, rfl, rfl, h5, h6, h7, h3⟩

/-- A Mercator map 1000 km wide. -/
def sampleAxes : Axes := ⟨true, 0, 1000000, 1⟩

example : ScaleArgsOk sampleAxes "lr" "mi" := by unfold ScaleArgsOk sampleAxes; decide +kernel

example : (drawScale sampleAxes "ll" (1 / 10) "km" none none).toOption.map (·.barLength) =
    some 240 := by decide +kernel

theorem drawScale_bad (ax : Axes) (pos : String) (padx : ℚ) (units : String)
    (barLength : Option ℚ) (divisions : Option ℤ) (hargs : ¬ ScaleArgsOk ax pos units) :
    drawScale ax pos padx units barLength divisions =
      if barLength.isSome ≠ divisions.isSome then .error .requiredArgument
      else .error .valueError := by
  unfold drawScale
  by_cases h1 : barLength.isSome ≠ divisions.isSome
  · rw [if_pos h1, if_pos h1]
  · rw [if_neg h1, if_neg h1]
    by_cases h2 : badDivisions divisions = true
    · rw [if_pos h2]
    · rw [if_neg h2]
      cases hu : unitTable.lookup units with
      | none => rfl
      | some unit =>
        have hmem : units ∈ unitTable.map Prod.fst := by
          by_contra hc
          rw [← lookup_none_iff', hu] at hc
          cases hc
        simp only
        by_cases hpos : pos ∈ ["ll", "lr", "ul", "ur"]
        · rw [if_neg (not_not.2 hpos)]
          by_cases hg : ax.isGeo = false
          · rw [if_pos hg]
          · exact absurd ⟨by simpa using hg, by simpa using hpos, hmem⟩ hargs
        · rw [if_pos hpos]

/-- C26 (partial): the pair is rejected with RequiredArgumentError exactly when only one is given;
given both, ValueError exactly when the count is not 2..6 or another argument is bad.
Missing: a valid pair should draw a bar, see `C26_override_violated`. -/
theorem C26_validation_partial (ax : Axes) (pos : String) (padx : ℚ) (units : String)
    (barLength : Option ℚ) (divisions : Option ℤ) :
    (drawScale ax pos padx units barLength divisions = .error .requiredArgument ↔
      barLength.isSome ≠ divisions.isSome) ∧
    (drawScale ax pos padx units barLength divisions = .error .valueError ↔
      barLength.isSome = divisions.isSome ∧
        (¬ OverrideOk barLength divisions ∨ ¬ ScaleArgsOk ax pos units)) ∧
    ((∃ d, drawScale ax pos padx units barLength divisions = .ok d) ↔
      barLength = none ∧ divisions = none ∧ ScaleArgsOk ax pos units) := by
  by_cases hargs : ScaleArgsOk ax pos units
  · cases barLength with
    | none =>
      cases divisions with
      | none =>
        obtain ⟨unit, len, divs, _, _, _, e⟩ := drawScale_default ax pos padx units hargs
        rw [e]
        simp [OverrideOk, hargs]
      | some d => simp [drawScale]
    | some l =>
      cases divisions with
      | none => simp [drawScale]
      | some d =>
        obtain ⟨h1, h2, h3⟩ := id hargs
        obtain ⟨unit, hu, hm⟩ := (lookup_isSome_iff _ _).1 h3
        have hd : d ∉ ([2, 3, 4, 5, 6] : List ℤ) ↔ ¬ OverrideOk (some l) (some d) := by
          rw [not_iff_not]
          unfold OverrideOk
          simp only [List.mem_cons, List.not_mem_nil, or_false, Option.some.injEq, reduceCtorEq,
            and_self, false_or]
          constructor
          · intro h; exact ⟨l, d, rfl, rfl, by omega, by omega⟩
          · rintro ⟨_, _, rfl, rfl, h, h'⟩; omega
        have hpos : pos ∈ ["ll", "lr", "ul", "ur"] := by
          rcases h2 with rfl | rfl | rfl | rfl <;> simp
        unfold drawScale
        rw [if_neg (by simp)]
        by_cases hc : d ∉ ([2, 3, 4, 5, 6] : List ℤ)
        · rw [if_pos (by simpa [badDivisions] using hc)]
          simp [hd.1 hc]
        · rw [if_neg (by simpa [badDivisions] using hc)]
          simp only [hu]
          rw [if_neg (not_not.2 hpos), if_neg (by simp [h1])]
          have := (not_congr hd).1 hc
          simp only [not_not] at this
          simp [this, hargs]
  · rw [drawScale_bad ax pos padx units _ _ hargs]
    split_ifs with h1
    · simp only [ne_eq] at h1
      simp only [h1, true_iff, hargs, and_false, false_and, iff_false]
      simp [h1]
    · simp only [ne_eq, not_not] at h1
      simp [h1, hargs]

/-- C26 violated: an acceptable override always fails on an unassigned variable instead of drawing
a bar. -/
theorem C26_override_violated (ax : Axes) (pos : String) (padx : ℚ) (units : String) (l : ℚ) (d : ℤ)
    (h : ScaleArgsOk ax pos units) (h2 : 2 ≤ d) (h6 : d ≤ 6) :
    drawScale ax pos padx units (some l) (some d) = .error .unboundLocal := by
  have hov : OverrideOk (some l) (some d) := Or.inr ⟨l, d, rfl, rfl, h2, h6⟩
  obtain ⟨k1, k2, k3⟩ := C26_validation_partial ax pos padx units (some l) (some d)
  cases e : drawScale ax pos padx units (some l) (some d) with
  | ok d => have := k3.1 ⟨d, e⟩; simp at this
  | error err =>
    cases err with
    | requiredArgument => have := k1.1 e; simp at this
    | valueError => have := k2.1 e; simp [hov, h] at this
    | unboundLocal => rfl

example : drawScale sampleAxes "ll" (1 / 10) "km" (some 50) (some 5) = .error .unboundLocal :=
  C26_override_violated _ _ _ _ _ _ (by unfold ScaleArgsOk sampleAxes; decide +kernel) (by decide)
    (by decide)

theorem trunc_natCast (n : ℕ) : Py.trunc (n : ℚ) = n := by
  have := Py.trunc_intCast (n : ℤ)
  push_cast at this
  exact this

/-- C27: the divisions of a drawn bar. They are contiguous and of equal width from the bar's left
edge to its right edge, and alternate white, black, white... -/
theorem C27_divisions_tile (ax : Axes) (pos : String) (padx : ℚ) (units : String) (d : Drawing)
    (h : drawScale ax pos padx units none none = .ok d) :
    d.divs.length = d.divisions ∧ 0 < d.divisions ∧
    (d.divs.head?.map (·.left) = some d.left) ∧
    (d.divs.getLast?.map (·.right) = some d.right) ∧
    (∀ i a b, d.divs[i]? = some a → d.divs[i + 1]? = some b → a.right = b.left) ∧
    (∀ a ∈ d.divs, a.right - a.left = (d.right - d.left) / d.divisions) ∧
    (∀ i a, d.divs[i]? = some a → a.color = if i % 2 = 0 then "white" else "black") := by
  have hargs : ScaleArgsOk ax pos units :=
    ((C26_validation_partial ax pos padx units none none).2.2.1 ⟨d, h⟩).2.2
  obtain ⟨unit, len, divs, _, h2, _, h4⟩ := drawScale_default ax pos padx units hargs
  rw [h] at h4
  cases h4
  obtain ⟨h5, _, _, _⟩ := lengths_ok _ h2
  simp only at h5
  have hq : (divs : ℚ) ≠ 0 := by
    have : 0 < divs := by omega
    exact_mod_cast this.ne'
  unfold draw
  simp only
  set L := (len : ℚ) * unit * (1 / ax.dataunitsToMeters)
  set B := ax.xmin + barLeftAxes pos padx (L / (ax.xmax - ax.xmin)) * (ax.xmax - ax.xmin)
  have hget : ∀ i a, ((List.range divs).map (division B L divs))[i]? = some a →
      i < divs ∧ a = division B L divs i := by
    intro i a ha
    rw [List.getElem?_map, Option.map_eq_some_iff] at ha
    obtain ⟨j, hj, rfl⟩ := ha
    obtain ⟨hi, hj⟩ := List.getElem?_eq_some_iff.1 hj
    rw [List.getElem_range] at hj
    subst hj
    exact ⟨by simpa using hi, rfl⟩
  refine ⟨by simp, by omega, ?_, ?_, ?_, ?_, ?_⟩
  · obtain ⟨n, rfl⟩ : ∃ n, divs = n + 1 := ⟨divs - 1, by omega⟩
    rw [List.range_succ_eq_map]
    simp [division]
  · obtain ⟨n, rfl⟩ : ∃ n, divs = n + 1 := ⟨divs - 1, by omega⟩
    rw [List.range_succ]
    simp only [List.map_append, List.map_cons, List.map_nil, List.getLast?_concat,
      Option.map_some, Option.some.injEq]
    unfold division
    simp only
    push_cast at hq ⊢
    field_simp
    ring
  · intro i a b ha hb
    obtain ⟨_, rfl⟩ := hget i a ha
    obtain ⟨_, rfl⟩ := hget _ b hb
    unfold division
    simp only
    push_cast
    ring
  · intro a ha
    obtain ⟨i, _, rfl⟩ := List.mem_map.1 ha
    unfold division
    simp only
    ring
  · intro i a ha
    obtain ⟨_, rfl⟩ := hget i a ha
    unfold division
    simp only
    rcases Nat.mod_two_eq_zero_or_one i with e | e <;> simp [e]

/-- C27: the tick labels. The number at each tick, counted in the requested units, is the distance
from the bar's left edge to the tick; there is a 0 at the left edge and the bar's length at the
right edge; with an odd number of divisions only the two ends have ticks, with an even number every
second division boundary has one. -/
theorem C27_ticks (ax : Axes) (pos : String) (padx : ℚ) (units : String) (d : Drawing)
    (h : drawScale ax pos padx units none none = .ok d) :
    ∃ unit, (units, unit) ∈ unitTable ∧
      (∀ x l, (x, l) ∈ d.ticks → (l : ℚ) * (unit / ax.dataunitsToMeters) = x - d.left) ∧
      (d.left, 0) ∈ d.ticks ∧ (∃ l : ℤ, (l : ℚ) = d.barLength ∧ (d.right, l) ∈ d.ticks) ∧
      (∀ x, (∃ l, (x, l) ∈ d.ticks) ↔ x = d.left ∨ x = d.right ∨
        (d.divisions % 2 = 0 ∧ ∃ k, 2 * k ≤ d.divisions ∧
          x = d.left + (d.right - d.left) * (2 * k) / d.divisions)) := by
  have hargs : ScaleArgsOk ax pos units :=
    ((C26_validation_partial ax pos padx units none none).2.2.1 ⟨d, h⟩).2.2
  obtain ⟨unit, len, divs, hu, h2, _, h4⟩ := drawScale_default ax pos padx units hargs
  rw [h] at h4
  cases h4
  obtain ⟨h5, _, ⟨c, hc⟩, _⟩ := lengths_ok _ h2
  simp only at h5 hc
  have hq : (divs : ℚ) ≠ 0 := by
    have : 0 < divs := by omega
    exact_mod_cast this.ne'
  have htick : ∀ i : ℕ, Py.trunc ((i : ℚ) * ((len : ℚ) / divs)) = ((i * c : ℕ) : ℤ) := by
    intro i
    rw [← trunc_natCast]
    congr 1
    rw [hc]
    push_cast
    field_simp
  refine ⟨unit, hu, ?_⟩
  unfold draw
  simp only
  set L := (len : ℚ) * unit * (1 / ax.dataunitsToMeters) with hL
  set B := ax.xmin + barLeftAxes pos padx (L / (ax.xmax - ax.xmin)) * (ax.xmax - ax.xmin)
  have hmem : ∀ x l, (x, l) ∈ (List.range divs).filterMap (tick B L (len : ℚ) divs) ++
      [(B + L, Py.trunc (len : ℚ))] ↔ (∃ i < divs, i % 2 = 0 ∧ (divs % 2 = 0 ∨ i = 0) ∧
        x = B + L / divs * i ∧ l = ((i * c : ℕ) : ℤ)) ∨ (x = B + L ∧ l = (len : ℤ)) := by
    intro x l
    rw [List.mem_append, List.mem_singleton, Prod.mk.injEq, trunc_natCast, List.mem_filterMap]
    apply or_congr_left
    constructor
    · rintro ⟨i, hi, ht⟩
      unfold tick at ht
      split_ifs at ht with h1 h2
      rw [Option.some.injEq, Prod.mk.injEq] at ht
      refine ⟨i, List.mem_range.1 hi, by omega, h2, ht.1.symm, ?_⟩
      rw [← ht.2, htick]
    · rintro ⟨i, hi, he, hd, rfl, rfl⟩
      refine ⟨i, List.mem_range.2 hi, ?_⟩
      unfold tick
      rw [if_neg (by omega), if_pos hd, htick]
  refine ⟨?_, ?_, ?_, ?_⟩
  · intro x l hx
    rcases (hmem x l).1 hx with ⟨i, _, _, _, rfl, rfl⟩ | ⟨rfl, rfl⟩
    · rw [hL, hc]
      push_cast
      field_simp
      ring
    · rw [hL]
      push_cast
      ring
  · rw [hmem]
    exact Or.inl ⟨0, by omega, rfl, Or.inr rfl, by simp, by simp⟩
  · refine ⟨len, by push_cast; rfl, ?_⟩
    rw [hmem]
    exact Or.inr ⟨rfl, rfl⟩
  · intro x
    constructor
    · rintro ⟨l, hx⟩
      rcases (hmem x l).1 hx with ⟨i, hi, he, hd, rfl, rfl⟩ | ⟨rfl, rfl⟩
      · rcases hd with hd | rfl
        · refine Or.inr (Or.inr ⟨hd, i / 2, by omega, ?_⟩)
          have : ((2 : ℚ) * ((i / 2 : ℕ) : ℚ)) = i := by
            exact_mod_cast (by omega : 2 * (i / 2) = i)
          rw [this]
          ring
        · exact Or.inl (by simp)
      · exact Or.inr (Or.inl rfl)
    · rintro (rfl | rfl | ⟨hd, k, hk, rfl⟩)
      · exact ⟨0, (hmem _ _).2 (Or.inl ⟨0, by omega, rfl, Or.inr rfl, by simp, by simp⟩)⟩
      · exact ⟨len, (hmem _ _).2 (Or.inr ⟨rfl, rfl⟩)⟩
      · by_cases hk2 : 2 * k = divs
        · refine ⟨len, (hmem _ _).2 (Or.inr ⟨?_, rfl⟩)⟩
          have : (2 : ℚ) * k = divs := by exact_mod_cast hk2
          rw [this]
          field_simp
          ring
        · refine ⟨_, (hmem _ _).2 (Or.inl ⟨2 * k, by omega, by omega, Or.inl hd, ?_, rfl⟩)⟩
          push_cast
          ring

example : (drawScale sampleAxes "ll" 0 "km" none none).toOption.map (·.ticks) =
    some [(0, 0), (80000, 80), (160000, 160), (240000, 240)] := by decide +kernel

/-- C84: the bar is placed at the requested horizontal distance (a fraction of the map width) from
the requested side, and its data length times the metres per data unit is the length it claims. -/
theorem C84_placement (ax : Axes) (pos : String) (padx : ℚ) (units : String) (d : Drawing)
    (hw : ax.xmin < ax.xmax) (hm : 0 < ax.dataunitsToMeters)
    (h : drawScale ax pos padx units none none = .ok d) :
    ((pos = "ll" ∨ pos = "ul") → d.left - ax.xmin = padx * (ax.xmax - ax.xmin)) ∧
    ((pos = "lr" ∨ pos = "ur") → ax.xmax - d.right = padx * (ax.xmax - ax.xmin)) ∧
    ∃ unit, (units, unit) ∈ unitTable ∧
      (d.right - d.left) * ax.dataunitsToMeters = d.barLength * unit := by
  have hargs : ScaleArgsOk ax pos units :=
    ((C26_validation_partial ax pos padx units none none).2.2.1 ⟨d, h⟩).2.2
  obtain ⟨unit, len, divs, hu, h2, _, h4⟩ := drawScale_default ax pos padx units hargs
  rw [h] at h4
  cases h4
  have hw' : ax.xmax - ax.xmin ≠ 0 := by
    have := sub_pos.2 hw
    exact this.ne'
  have hm' := hm.ne'
  unfold draw barLeftAxes
  simp only
  refine ⟨?_, ?_, unit, hu, ?_⟩
  · rintro (rfl | rfl) <;> simp
  · rintro (rfl | rfl) <;> (simp; field_simp; ring)
  · field_simp
    ring

end Verif.Props
