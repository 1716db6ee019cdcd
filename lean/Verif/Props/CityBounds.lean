import Verif.Spec.CityBounds
import Verif.Props.Cities

/-!
# C201: the bounds of the cities
-/

namespace Verif.Props
open Verif.Cities Verif.Spec

theorem least_iff {l : List ℚ} {a : ℚ} : l.min? = some a ↔ a ∈ l ∧ ∀ x ∈ l, a ≤ x := List.min?_eq_some_iff

theorem greatest_iff {l : List ℚ} {a : ℚ} : l.max? = some a ↔ a ∈ l ∧ ∀ x ∈ l, x ≤ a := List.max?_eq_some_iff

theorem getBounds_iff (t : Table) (a b c d : ℚ) : getBounds t = some (a, b, c, d) ↔
    (t.rows.map City.lon).min? = some a ∧ (t.rows.map City.lon).max? = some b ∧ (t.rows.map City.lat).min? = some c ∧ (t.rows.map City.lat).max? = some d := by
  unfold getBounds
  cases (t.rows.map City.lon).min? <;> cases (t.rows.map City.lon).max? <;> cases (t.rows.map City.lat).min? <;> cases (t.rows.map City.lat).max? <;> simp

/-- C201: `getBounds` gives the smallest box with all the cities, for every table with cities, and nan only for a table without. Each of the four edges goes through a city. -/
theorem C201_bounds (t : Table) :
    (t.rows = [] → getBounds t = none) ∧
    (t.rows ≠ [] → ∃ a b c d, getBounds t = some (a, b, c, d) ∧ SmallestBox t.rows a b c d ∧
      (∃ p ∈ t.rows, p.lon = a) ∧ (∃ p ∈ t.rows, p.lon = b) ∧ (∃ p ∈ t.rows, p.lat = c) ∧ ∃ p ∈ t.rows, p.lat = d) := by
  constructor
  · intro h
    unfold getBounds
    simp [h]
  · intro h
    have hx : t.rows.map City.lon ≠ [] := by simpa using h
    have hy : t.rows.map City.lat ≠ [] := by simpa using h
    have some_min : ∀ {l : List ℚ}, l ≠ [] → ∃ a, l.min? = some a := fun hl => Option.ne_none_iff_exists'.1 (by simpa [List.min?_eq_none_iff] using hl)
    have some_max : ∀ {l : List ℚ}, l ≠ [] → ∃ a, l.max? = some a := fun hl => Option.ne_none_iff_exists'.1 (by simpa [List.max?_eq_none_iff] using hl)
    obtain ⟨a, ha⟩ := some_min hx
    obtain ⟨b, hb⟩ := some_max hx
    obtain ⟨c, hc⟩ := some_min hy
    obtain ⟨d, hd⟩ := some_max hy
    refine ⟨a, b, c, d, (getBounds_iff t a b c d).2 ⟨ha, hb, hc, hd⟩, ?_⟩
    obtain ⟨ma, la⟩ := least_iff.1 ha
    obtain ⟨mb, lb⟩ := greatest_iff.1 hb
    obtain ⟨mc, lc⟩ := least_iff.1 hc
    obtain ⟨md, ld⟩ := greatest_iff.1 hd
    obtain ⟨pa, hpa, ea⟩ := List.mem_map.1 ma
    obtain ⟨pb, hpb, eb⟩ := List.mem_map.1 mb
    obtain ⟨pc, hpc, ec⟩ := List.mem_map.1 mc
    obtain ⟨pd, hpd, ed⟩ := List.mem_map.1 md
    refine ⟨⟨fun p hp => ⟨la _ (List.mem_map_of_mem hp), lb _ (List.mem_map_of_mem hp), lc _ (List.mem_map_of_mem hp), ld _ (List.mem_map_of_mem hp)⟩, ?_⟩,
      ⟨pa, hpa, ea⟩, ⟨pb, hpb, eb⟩, ⟨pc, hpc, ec⟩, pd, hpd, ed⟩
    intro x1 x2 y1 y2 hin
    exact ⟨ea ▸ (hin pa hpa).1, eb ▸ (hin pb hpb).2.1, ec ▸ (hin pc hpc).2.2.1, ed ▸ (hin pd hpd).2.2.2⟩

/-- C201: the bounds of some of the cities lie within the bounds of all of them. -/
theorem C201_some (t t' : Table) (h : ∀ c ∈ t'.rows, c ∈ t.rows) (a b c d a' b' c' d' : ℚ) (hb : getBounds t = some (a, b, c, d)) (hb' : getBounds t' = some (a', b', c', d')) :
    a ≤ a' ∧ b' ≤ b ∧ c ≤ c' ∧ d' ≤ d := by
  obtain ⟨h1, h2, h3, h4⟩ := (getBounds_iff ..).1 hb
  obtain ⟨k1, k2, k3, k4⟩ := (getBounds_iff ..).1 hb'
  have sub : ∀ f : City → ℚ, ∀ x ∈ t'.rows.map f, x ∈ t.rows.map f := by
    intro f x hx
    obtain ⟨p, hp, rfl⟩ := List.mem_map.1 hx
    exact List.mem_map_of_mem (h p hp)
  exact ⟨(least_iff.1 h1).2 _ (sub _ _ (least_iff.1 k1).1), (greatest_iff.1 h2).2 _ (sub _ _ (greatest_iff.1 k2).1),
    (least_iff.1 h3).2 _ (sub _ _ (least_iff.1 k3).1), (greatest_iff.1 h4).2 _ (sub _ _ (greatest_iff.1 k4).1)⟩

/-- C201, second part, for all the cities that are not on the western or southern edge: limiting a table to its own bounds keeps exactly these. -/
theorem C201_own_partial (t : Table) (h : HasColumns t) (a b c d : ℚ) (hb : getBounds t = some (a, b, c, d)) :
    ∃ t', limitByBounds t a b c d = .ok t' ∧ KeepsExactly (fun p => p.lon ≠ a ∧ p.lat ≠ c) t.rows t'.rows := by
  obtain ⟨h1, h2, h3, h4⟩ := (getBounds_iff ..).1 hb
  refine ⟨_, (C21_constructor _).1 h, ?_⟩
  have hk := keepsExactly_filter (xs := t.rows) (p := fun q : City => decide (q.lon ≠ a) && decide (q.lat ≠ c)) (P := fun p => p.lon ≠ a ∧ p.lat ≠ c) (by intro q; simp)
  have : t.rows.filter (fun q => decide (q.lat > c) && decide (q.lat ≤ d) && decide (q.lon > a) && decide (q.lon ≤ b)) =
      t.rows.filter (fun q => decide (q.lon ≠ a) && decide (q.lat ≠ c)) := by
    apply List.filter_congr
    intro q hq
    have e1 := (least_iff.1 h1).2 _ (List.mem_map_of_mem hq)
    have e2 := (greatest_iff.1 h2).2 _ (List.mem_map_of_mem hq)
    have e3 := (least_iff.1 h3).2 _ (List.mem_map_of_mem hq)
    have e4 := (greatest_iff.1 h4).2 _ (List.mem_map_of_mem hq)
    rw [Bool.eq_iff_iff]
    simp only [Bool.and_eq_true, decide_eq_true_eq]
    constructor
    · rintro ⟨⟨⟨g1, -⟩, g2⟩, -⟩
      exact ⟨ne_of_gt g2, ne_of_gt g1⟩
    · rintro ⟨g1, g2⟩
      exact ⟨⟨⟨lt_of_le_of_ne e3 (Ne.symm g2), e4⟩, lt_of_le_of_ne e1 (Ne.symm g1)⟩, e2⟩
  rw [this]
  exact hk

/-- C201 violated: limiting a table to its own bounds loses a city of every table that has one, at least the westernmost. -/
theorem C201_own_violated (t : Table) (h : HasColumns t) (a b c d : ℚ) (hb : getBounds t = some (a, b, c, d)) :
    ∃ t', limitByBounds t a b c d = .ok t' ∧ t'.rows.length < t.rows.length ∧ ∃ p ∈ t.rows, p.lon = a ∧ p ∉ t'.rows := by
  obtain ⟨h1, -, -, -⟩ := (getBounds_iff ..).1 hb
  obtain ⟨p, hp, ep⟩ := List.mem_map.1 (least_iff.1 h1).1
  refine ⟨_, (C21_constructor _).1 h, ?_, p, hp, ep, ?_⟩
  · refine List.length_filter_lt_length_iff_exists.2 ⟨p, hp, ?_⟩
    simp [ep]
  · simp [ep]

/-- Two cities: the box between them, and only one of them within the bounds. -/
example : getBounds ⟨["name", "lat", "lon"], [⟨"a", 10, 20, 5⟩, ⟨"b", 12, 15, 7⟩]⟩ = some (15, 20, 10, 12) := by decide +kernel

end Verif.Props
