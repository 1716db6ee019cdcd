import Verif.Props.Longitudes

/-!
# Bounding boxes of longitudes (C124)
-/

namespace Verif.Props
open Real Verif.Oq Verif.Spec

theorem extent_of_range {a b : ℝ} (h0 : 0 ≤ b - a) (h1 : b - a < 180) : longitudinalExtent a b = b - a :=
  extent_unique 0 (by simp) (by linarith) h1

theorem extent_far {a b : ℝ} (h0 : 180 ≤ b - a) (h1 : b - a < 540) : longitudinalExtent a b = b - a - 360 :=
  extent_unique (-1) (by push_cast; ring) (by linarith) (by linarith)

/-- What the function returns is right, except for a collection with both -180 and 180. -/
theorem box_sound {lons : List ℝ} {w e : ℝ} (h : boundingLons lons = .ok (w, e)) :
    (Tight w e lons (longitudinalExtent w e) ∧ 0 ≤ longitudinalExtent w e) ∨
      (w = -180 ∧ e = 180 ∧ (-180 : ℝ) ∈ lons ∧ (180 : ℝ) ∈ lons) := by
  unfold boundingLons at h
  split at h
  · rename_i a b ha hb
    obtain ⟨a1, a2⟩ := pyMin_some ha
    obtain ⟨b1, b2⟩ := pyMax_some hb
    split at h
    · cases h
    · rename_i hr
      push Not at hr
      obtain ⟨⟨r1, r2⟩, r3, r4⟩ := hr
      split at h
      · split at h
        · rename_i w' e' hw he
          obtain ⟨w1, w2⟩ := pyMin_some hw
          obtain ⟨e1, e2⟩ := pyMax_some he
          split at h
          · cases h
          · rename_i hall
            push Not at hall
            cases h
            left
            have hwm := (List.mem_filter.mp w1).1
            have hem := (List.mem_filter.mp e1).1
            have hwe := (hall e hem).1
            obtain ⟨k, hk⟩ := extent_mod w e
            refine ⟨⟨hwm, hem, ⟨k, by rw [hk]; ring⟩, ?_⟩, hwe⟩
            intro lon hl
            obtain ⟨p1, p2⟩ := hall lon hl
            obtain ⟨m, hm⟩ := extent_mod w lon
            obtain ⟨n, hn⟩ := extent_mod lon e
            refine ⟨longitudinalExtent w lon, p1, ?_, ⟨m, by rw [hm]; ring⟩⟩
            have q1 := (extent_range w lon).2
            have q2 := (extent_range lon e).2
            by_contra hc
            have hs : longitudinalExtent w lon + longitudinalExtent lon e - longitudinalExtent w e = 360 * ((m + n - k : ℤ) : ℝ) := by
              rw [hm, hn, hk]; push_cast; ring
            have s1 : (0 : ℝ) < ((m + n - k : ℤ) : ℝ) := by linarith
            have s2 : ((m + n - k : ℤ) : ℝ) < 1 := by linarith
            have s1' : 0 < m + n - k := by exact_mod_cast s1
            have s2' : m + n - k < 1 := by exact_mod_cast s2
            omega
        · cases h
      · rename_i hext
        cases h
        have hab := a2 _ b1
        by_cases hd : e - w < 180
        · left
          have hx := extent_of_range (by linarith) hd
          rw [hx]
          exact ⟨⟨a1, b1, ⟨0, by simp⟩, fun lon hl => ⟨lon - w, by linarith [a2 lon hl], by linarith [b2 lon hl], ⟨0, by simp⟩⟩⟩,
            by linarith⟩
        · right
          rw [extent_far (by linarith) (by linarith)] at hext
          have hw : w = -180 := by linarith
          have he : e = 180 := by linarith
          subst hw he
          exact ⟨rfl, rfl, a1, b1⟩
  · cases h

/-- Any collection that fits into less than half a turn has a box. -/
theorem box_complete {lons : List ℝ} (hne : lons ≠ []) (hr : ∀ x ∈ lons, -180 ≤ x ∧ x ≤ 180) {west width : ℝ}
    (hw : width < 180) (harc : OnArc west width lons) : ∃ w e, boundingLons lons = .ok (w, e) := by
  choose! t t0 t1 tm using harc
  have hext : ∀ x ∈ lons, ∀ y ∈ lons, longitudinalExtent x y = t y - t x := by
    intro x hx y hy
    obtain ⟨k, hk⟩ := tm x hx
    obtain ⟨m, hm⟩ := tm y hy
    exact extent_unique (m - k) (by push_cast; linarith) (by linarith [t0 y hy, t1 x hx]) (by linarith [t0 x hx, t1 y hy])
  have hb : ∀ x ∈ lons, ∀ y ∈ lons, |t y - t x| < 180 := by
    intro x hx y hy
    rw [abs_lt]
    constructor <;> linarith [t0 x hx, t1 x hx, t0 y hy, t1 y hy]
  obtain ⟨a, ha⟩ := pyMin_ex hne
  obtain ⟨b, hbb⟩ := pyMax_ex hne
  obtain ⟨a1, a2⟩ := pyMin_some ha
  obtain ⟨b1, b2⟩ := pyMax_some hbb
  unfold boundingLons
  rw [ha, hbb]
  simp only
  rw [if_neg (by simp only [not_not]; exact ⟨hr a a1, hr b b1⟩)]
  by_cases hx : longitudinalExtent a b < 0
  · rw [if_pos hx]
    have hab := a2 b b1
    have hd : 180 ≤ b - a := by
      by_contra hc
      rw [extent_of_range (by linarith) (by linarith)] at hx
      linarith
    have hd' : 180 < b - a := by
      rcases lt_or_eq_of_le hd with h | h
      · exact h
      · exfalso
        have h1 := hext a a1 b b1
        rw [extent_far hd (by linarith)] at h1
        have h2 := hb a a1 b b1
        rw [← h1, ← h] at h2
        norm_num at h2
    have hfar : longitudinalExtent a b = b - a - 360 := extent_far hd (by linarith [(hr a a1).1, (hr b b1).2])
    have ha0 : a < 0 := by linarith [(hr b b1).2]
    have hb0 : 0 < b := by linarith [(hr a a1).1]
    have hz : (0 : ℝ) ∉ lons := by
      intro h0
      have e1 := hext 0 h0 b b1
      have e2 := hext a a1 0 h0
      have e3 := hext a a1 b b1
      have hb180 : b - 0 < 180 := by
        rcases lt_or_eq_of_le (hr b b1).2 with h | h
        · linarith
        · exfalso
          rw [extent_far (by linarith) (by linarith)] at e1
          have := hb 0 h0 b b1
          rw [← e1, h] at this
          norm_num at this
      have ha180 : 0 - a < 180 := by
        rcases lt_or_eq_of_le (hr a a1).1 with h | h
        · linarith
        · exfalso
          rw [extent_far (by linarith) (by linarith)] at e2
          have := hb a a1 0 h0
          rw [← e2, ← h] at this
          norm_num at this
      rw [extent_of_range (by linarith) hb180] at e1
      rw [extent_of_range (by linarith) ha180] at e2
      rw [hfar] at e3
      linarith
    -- the extent between longitudes on different sides of the date line
    have hcross : ∀ x ∈ lons, ∀ y ∈ lons, x < 0 → 0 < y → 0 ≤ longitudinalExtent y x := by
      intro x hxm y hym hx0 hy0
      by_contra hc
      have hdxy : y - x < 180 := by
        by_contra hge
        have hr1 := (hr x hxm).1
        have hr2 := (hr y hym).2
        have : longitudinalExtent y x = x - y + 360 := by
          rcases lt_or_eq_of_le (not_lt.mp hge) with h | h
          · exact extent_unique 1 (by push_cast; ring) (by linarith) (by linarith)
          · exfalso
            have h1 : longitudinalExtent y x = -180 := extent_unique 0 (by push_cast; linarith) le_rfl (by norm_num)
            have h2 := hext y hym x hxm
            have h3 := hb y hym x hxm
            rw [← h2, h1] at h3
            norm_num at h3
        linarith
      have h1 : longitudinalExtent y x = x - y := extent_unique 0 (by simp) (by linarith) (by linarith)
      have h2 : longitudinalExtent y b = b - y := extent_of_range (by linarith [b2 y hym]) (by linarith [(hr b b1).2])
      have h3 : longitudinalExtent a x = x - a := extent_of_range (by linarith [a2 x hxm]) (by linarith [(hr a a1).1])
      rw [hext y hym x hxm] at h1
      rw [hext y hym b b1] at h2
      rw [hext a a1 x hxm] at h3
      have h4 := hb a a1 b b1
      rw [show t b - t a = b - a by linarith, abs_of_pos (by linarith)] at h4
      linarith
    obtain ⟨w, hw'⟩ := pyMin_ex (l := lons.filter fun l => decide (l > 0))
      (List.ne_nil_of_mem (List.mem_filter.mpr ⟨b1, by simpa using hb0⟩))
    obtain ⟨e, he'⟩ := pyMax_ex (l := lons.filter fun l => decide (l < 0))
      (List.ne_nil_of_mem (List.mem_filter.mpr ⟨a1, by simpa using ha0⟩))
    obtain ⟨w1, w2⟩ := pyMin_some hw'
    obtain ⟨e1, e2⟩ := pyMax_some he'
    obtain ⟨w1, w3⟩ := List.mem_filter.mp w1
    obtain ⟨e1, e3⟩ := List.mem_filter.mp e1
    simp only [decide_eq_true_eq] at w3 e3
    rw [hw', he']
    simp only
    refine ⟨w, e, if_neg ?_⟩
    simp only [not_not]
    intro lon hl
    rcases lt_trichotomy lon 0 with h | h | h
    · have hle := e2 lon (List.mem_filter.mpr ⟨hl, by simpa using h⟩)
      refine ⟨hcross lon hl w w1 h w3, ?_⟩
      rw [extent_of_range (by linarith) (by linarith [(hr lon hl).1])]
      linarith
    · rw [h] at hl; exact absurd hl hz
    · have hle := w2 lon (List.mem_filter.mpr ⟨hl, by simpa using h⟩)
      refine ⟨?_, hcross e e1 lon hl e3 h⟩
      rw [extent_of_range (by linarith) (by linarith [(hr lon hl).2])]
      linarith
  · rw [if_neg hx]
    exact ⟨a, b, rfl⟩

/-- **C124**: for longitudes in [-180, 180] that do not include both ends, `get_spherical_bounding_box` returns the west and
the east of the smallest arc that holds them if they fit into less than 180 degrees, across the date line or not, and
raises an error otherwise. -/
theorem C124_box_partial {lons : List ℝ} (hne : lons ≠ []) (hr : ∀ x ∈ lons, -180 ≤ x ∧ x ≤ 180)
    (hends : ¬ ((-180 : ℝ) ∈ lons ∧ (180 : ℝ) ∈ lons)) :
    ((∃ west width, width < 180 ∧ OnArc west width lons) ↔ ∃ w e, boundingLons lons = .ok (w, e)) ∧
    (∀ w e, boundingLons lons = .ok (w, e) → ∃ width, 0 ≤ width ∧ width < 180 ∧ Tight w e lons width) := by
  have hs : ∀ w e, boundingLons lons = .ok (w, e) → ∃ width, 0 ≤ width ∧ width < 180 ∧ Tight w e lons width := by
    intro w e h
    rcases box_sound h with ⟨h1, h2⟩ | ⟨-, -, h3, h4⟩
    · exact ⟨_, h2, (extent_range w e).2, h1⟩
    · exact absurd ⟨h3, h4⟩ hends
  refine ⟨⟨fun ⟨west, width, h1, h2⟩ => box_complete hne hr h1 h2, fun ⟨w, e, h⟩ => ?_⟩, hs⟩
  obtain ⟨width, -, h1, h2⟩ := hs w e h
  exact ⟨w, width, h1, h2.all⟩

/-- Points on both sides of the date line. -/
example : ∃ w e, boundingLons [170, -170, 175] = .ok (w, e) :=
  (C124_box_partial (by simp) (by norm_num) (by norm_num)).1.mp ⟨170, 20, by norm_num, by
    intro lon hl
    simp only [List.mem_cons, List.not_mem_nil, or_false] at hl
    rcases hl with rfl | rfl | rfl
    · exact ⟨0, by norm_num, by norm_num, 0, by norm_num⟩
    · exact ⟨20, by norm_num, by norm_num, 1, by norm_num⟩
    · exact ⟨5, by norm_num, by norm_num, 0, by norm_num⟩⟩

/-- **C124** violated: a collection with -180 and 180 gets a box around the whole globe, also if all its points are on the
date line or if they are spread over the globe; and two points exactly 180 degrees apart are refused, although the
error says that they are more than that apart. -/
theorem C124_box_violated :
    (∀ lons : List ℝ, (∀ x ∈ lons, -180 ≤ x ∧ x ≤ 180) → (-180 : ℝ) ∈ lons → (180 : ℝ) ∈ lons →
      boundingLons lons = .ok (-180, 180)) ∧
    (∀ a : ℝ, -180 < a → a < 0 → boundingLons [a, a + 180] = .error .value) := by
  constructor
  · intro lons hr h1 h2
    obtain ⟨a, ha⟩ := pyMin_ex (List.ne_nil_of_mem h1)
    obtain ⟨b, hb⟩ := pyMax_ex (List.ne_nil_of_mem h1)
    obtain ⟨a1, a2⟩ := pyMin_some ha
    obtain ⟨b1, b2⟩ := pyMax_some hb
    have e1 : a = -180 := le_antisymm (a2 _ h1) (hr a a1).1
    have e2 : b = 180 := le_antisymm (hr b b1).2 (b2 _ h2)
    unfold boundingLons
    rw [ha, hb]
    simp only
    rw [e1, e2, if_neg (by norm_num), if_neg]
    rw [extent_unique (x := 0) (-1) (by norm_num) (by norm_num) (by norm_num)]
    exact lt_irrefl 0
  · intro a h0 h1
    have hx : longitudinalExtent a (a + 180) = -180 := extent_unique (-1) (by push_cast; ring) le_rfl (by norm_num)
    have hx' : longitudinalExtent (a + 180) a = -180 := extent_unique 0 (by push_cast; ring) le_rfl (by norm_num)
    have hmin : pyMin [a, a + 180] = some a := by simp [pyMin, npMin]
    have hmax : pyMax [a, a + 180] = some (a + 180) := by simp [pyMax, npMax]
    have hf1 : ([a, a + 180].filter fun l => decide (l > 0)) = [a + 180] := by
      simp [h1.le, show 0 < a + 180 by linarith]
    have hf2 : ([a, a + 180].filter fun l => decide (l < 0)) = [a] := by
      simp [h1, show ¬ a + 180 < 0 by linarith]
    unfold boundingLons
    rw [hmin, hmax]
    simp only
    rw [if_neg (by simp only [not_not]; refine ⟨⟨?_, ?_⟩, ?_, ?_⟩ <;> linarith), if_pos (by rw [hx]; norm_num), hf1, hf2]
    simp only [pyMin, pyMax, npMin, npMax, List.foldl_nil]
    rw [if_pos]
    intro hall
    have := (hall a (by simp)).1
    rw [hx'] at this
    norm_num at this

end Verif.Props
