import Verif.Model.ColorMap
import Verif.Spec.ColorMap
import Verif.Props.Palette
import Verif.Model.Double

/-!
# C183: the colour of a data value
-/

namespace Verif.Props
open Verif.Spec Verif.Colors

theorem between_spec (knots : List Knot) (hs : knots.Pairwise fun a b => a.x < b.x) (x : ℚ) (k0 kl : Knot) (h0 : knots.head? = some k0)
    (hl : knots.getLast? = some kl) (hx0 : k0.x < x) (hxl : x ≤ kl.x) :
    ∃ (i : ℕ) (k k' : Knot), knots[i]? = some k ∧ knots[i + 1]? = some k' ∧ k.x < x ∧ x ≤ k'.x ∧
      ∀ ch, between ch knots x = lerp k.x k'.x (ch k.after) (ch k'.before) x := by
  induction knots generalizing k0 with
  | nil => simp at h0
  | cons a ks ih =>
    cases h0
    cases ks with
    | nil =>
      simp only [List.getLast?_singleton, Option.some.injEq] at hl
      subst hl
      linarith
    | cons b ks =>
      by_cases hb : x ≤ b.x
      · refine ⟨0, a, b, rfl, rfl, hx0, hb, fun ch => ?_⟩
        unfold between lerp
        rw [if_pos hb]
        ring
      · obtain ⟨i, k, k', e1, e2, e3, e4, e5⟩ := ih (List.pairwise_cons.1 hs).2 b rfl (by simpa using hl) (not_le.1 hb)
        refine ⟨i + 1, k, k', e1, e2, e3, e4, fun ch => ?_⟩
        rw [← e5 ch, between, if_neg hb]

theorem lerp_between {a b p q w lo hi : ℚ} (hab : a < b) (h1 : a ≤ w) (h2 : w ≤ b) (hp : lo ≤ p ∧ p ≤ hi) (hq : lo ≤ q ∧ q ≤ hi) :
    lo ≤ lerp a b p q w ∧ lerp a b p q w ≤ hi := by
  have hd : 0 < b - a := by linarith
  have t0 : 0 ≤ (w - a) / (b - a) := div_nonneg (by linarith) hd.le
  have t1 : (w - a) / (b - a) ≤ 1 := by rw [div_le_one hd]; linarith
  unfold lerp
  constructor <;> nlinarith [mul_nonneg t0 (sub_nonneg.2 hp.1), mul_nonneg t0 (sub_nonneg.2 hq.1), mul_nonneg t0 (sub_nonneg.2 hp.2),
    mul_nonneg t0 (sub_nonneg.2 hq.2), mul_nonneg (sub_nonneg.2 t1) (sub_nonneg.2 hp.1), mul_nonneg (sub_nonneg.2 t1) (sub_nonneg.2 hp.2)]

theorem clip_self {v : ℚ} (h0 : 0 ≤ v) (h1 : v ≤ 1) : clip v = v := by
  unfold clip
  rw [min_eq_left h1, max_eq_right h0]

/-- A palette of contiguous coloured ranges with colours of 0..255. -/
structure Painted (s : Segments) (resolution : Option ℚ) (p : Palette) : Prop where
  ranges : Contiguous s.z0 s.z1
  starts : s.rgb0.length = s.z0.length
  ends : s.rgb1.length = s.z0.length
  colors : ∀ c ∈ s.rgb0 ++ s.rgb1, Within255 c
  built : construct s resolution false = .ok p

theorem cell_le (n : ℕ) (t : ℚ) : cell n t ≤ n - 1 := by
  unfold cell
  split
  · omega
  · split
    · exact le_rfl
    · rename_i h1 h2
      have h1 := not_lt.1 h1
      have h2 := not_le.1 h2
      unfold Py.trunc
      rw [if_pos h1]
      have : ⌊t * (n : ℚ)⌋ < (n : ℤ) := Int.floor_lt.2 (by exact_mod_cast h2)
      omega

theorem cell_floor {n : ℕ} {t : ℚ} (h0 : 0 ≤ t) (h1 : t < 1) (hn : 0 < n) : (cell n t : ℤ) = ⌊t * (n : ℚ)⌋ := by
  have hn' : (0 : ℚ) < n := by exact_mod_cast hn
  have a : 0 ≤ t * n := by positivity
  have b : t * n < n := by nlinarith
  unfold cell Py.trunc
  rw [if_neg (not_lt.2 a), if_neg (not_le.2 b), if_pos a]
  exact Int.toNat_of_nonneg (Int.floor_nonneg.2 a)

theorem cell_low {n : ℕ} {t : ℚ} (h : t ≤ 0) (hn : 0 < n) : cell n t = 0 := by
  have hn' : (0 : ℚ) < n := by exact_mod_cast hn
  rcases lt_or_eq_of_le h with h | rfl
  · unfold cell
    rw [if_pos (mul_neg_of_neg_of_pos h hn')]
  · have := cell_floor (n := n) (t := 0) le_rfl (by norm_num) hn
    simpa using this

theorem cell_high {n : ℕ} {t : ℚ} (h : 1 ≤ t) (hn : 0 < n) : cell n t = n - 1 := by
  have hn' : (0 : ℚ) < n := by exact_mod_cast hn
  have : (n : ℚ) ≤ t * n := by nlinarith
  unfold cell
  rw [if_neg (by linarith), if_pos this]

theorem cell_mono {n : ℕ} (hn : 0 < n) {t t' : ℚ} (h : t ≤ t') : cell n t ≤ cell n t' := by
  by_cases h0 : t ≤ 0
  · rw [cell_low h0 hn]; exact Nat.zero_le _
  by_cases h1 : 1 ≤ t'
  · rw [cell_high h1 hn]; exact cell_le n t
  push Not at h0 h1
  have a := cell_floor (n := n) h0.le (lt_of_le_of_lt h h1) hn
  have b := cell_floor (n := n) (h0.le.trans h) h1 hn
  have : ⌊t * (n : ℚ)⌋ ≤ ⌊t' * (n : ℚ)⌋ := Int.floor_le_floor (by
    have hn' : (0 : ℚ) < n := by exact_mod_cast hn
    nlinarith)
  omega

/-- The entry that is read belongs to a position no further than `1 / n` away. -/
theorem cell_near {n : ℕ} (hn : 2 ≤ n) {t : ℚ} (h0 : 0 ≤ t) (h1 : t ≤ 1) : |(cell n t : ℚ) / ((n : ℚ) - 1) - t| ≤ 1 / n := by
  have hn' : (2 : ℚ) ≤ n := by exact_mod_cast hn
  have hm : (0 : ℚ) < (n : ℚ) - 1 := by linarith
  rcases lt_or_eq_of_le h1 with h1 | rfl
  · have hc := cell_floor h0 h1 (by omega : 0 < n)
    have f1 : (cell n t : ℚ) ≤ t * n := by
      have := Int.floor_le (t * (n : ℚ))
      rw [← hc] at this
      exact_mod_cast this
    have f2 : t * n < (cell n t : ℚ) + 1 := by
      have := Int.lt_floor_add_one (t * (n : ℚ))
      rw [← hc] at this
      exact_mod_cast this
    have f3 : (cell n t : ℚ) ≤ (n : ℚ) - 1 := by
      have := cell_le n t
      have h : ((cell n t : ℕ) : ℚ) ≤ ((n - 1 : ℕ) : ℚ) := by exact_mod_cast this
      rwa [Nat.cast_sub (by omega), Nat.cast_one] at h
    have f0 : (0 : ℚ) ≤ (cell n t : ℚ) := Nat.cast_nonneg _
    set c : ℚ := (cell n t : ℚ)
    have hnp : (0 : ℚ) < n := by linarith
    rw [abs_le]
    constructor
    · rw [neg_le_sub_iff_le_add, ← sub_le_iff_le_add, le_div_iff₀ hm]
      have : (t - 1 / n) * (n : ℚ) = t * n - 1 := by field_simp
      nlinarith
    · rw [sub_le_iff_le_add, div_le_iff₀ hm]
      have e : (1 / (n : ℚ) + t) * ((n : ℚ) - 1) = (1 + t * n) * ((n : ℚ) - 1) / n := by field_simp
      rw [e, le_div_iff₀ hnp]
      nlinarith
  · rw [cell_high le_rfl (by omega), Nat.cast_sub (by omega), Nat.cast_one, div_self hm.ne', sub_self, abs_zero]
    positivity

/-- Entry `i` of the table is a colour that the ranges prescribe for the value at `i / (n - 1)` of the way from `vmin` to `vmax`. -/
theorem entry_drawn {s : Segments} {resolution : Option ℚ} {p : Palette} (hp : Painted s resolution p) (n i : ℕ) (hn : 2 ≤ n) (hi : i ≤ n - 1) :
    ∃ c : RGB, DrawnAt s.z0 s.z1 s.rgb0 s.rgb1 (p.vmin + (i : ℚ) / ((n : ℚ) - 1) * (p.vmax - p.vmin)) c ∧
      ∀ ch, IsChannel ch → entry ch p.knots n i = ch c / 255 := by
  obtain ⟨zf, zl, p', e1, e2, e3, e4, e5, e6, e7, e8, e9, e10, e11⟩ :=
    construct_contiguous s resolution false hp.ranges hp.starts hp.ends
  have hb := hp.built
  rw [e6] at hb
  cases hb
  obtain ⟨q, f1, f2, f3, f4, f5, f6, f7, f8, _, _⟩ := C29_knots s resolution false hp.ranges hp.starts hp.ends
  rw [e6] at f1
  cases f1
  have f8 := f8 hp.colors
  have hd : 0 < zl - zf := by linarith
  have hm : (0 : ℚ) < (n : ℚ) - 1 := by
    have : (2 : ℚ) ≤ n := by exact_mod_cast hn
    linarith
  have hx : ∀ (j : ℕ) (k : Knot), p.knots[j]? = some k → ∃ z, (s.z0 ++ [zl])[j]? = some z ∧ k.x = (z - zf) / (zl - zf) := by
    intro j k hk
    rw [e11, List.getElem?_map, Option.map_eq_some_iff] at hk
    obtain ⟨⟨z, b, a⟩, ht, rfl⟩ := hk
    rw [List.getElem?_zip_eq_some] at ht
    exact ⟨z, ht.1, rfl⟩
  -- a pair of neighbouring knots is a range
  have main : ∀ (j : ℕ) (k k' : Knot) (x : ℚ), p.knots[j]? = some k → p.knots[j + 1]? = some k' → k.x ≤ x → x ≤ k'.x →
      ∃ c : RGB, DrawnAt s.z0 s.z1 s.rgb0 s.rgb1 (p.vmin + x * (p.vmax - p.vmin)) c ∧
        ∀ ch, IsChannel ch → clip (lerp k.x k'.x (ch k.after) (ch k'.before) x) = ch c / 255 := by
    intro j k k' x hk hk' hx1 hx2
    have hj : j < s.z0.length := by
      have := (List.getElem?_eq_some_iff.1 hk').1
      omega
    obtain ⟨a, ha, hka⟩ := hx j k hk
    obtain ⟨b, hb, hkb⟩ := hx (j + 1) k' hk'
    rw [List.getElem?_append_left hj] at ha
    have hb1 : s.z1[j]? = some b := by rw [e5, List.getElem?_tail, hb]
    have hab : a < b := hp.ranges.2.2.1 j a b ha hb1
    obtain ⟨ca, hca⟩ : ∃ ca, s.rgb0[j]? = some ca := ⟨_, List.getElem?_eq_getElem (by rw [hp.starts]; exact hj)⟩
    obtain ⟨cb, hcb⟩ : ∃ cb, s.rgb1[j]? = some cb := ⟨_, List.getElem?_eq_getElem (by rw [hp.ends]; exact hj)⟩
    set w := p.vmin + x * (p.vmax - p.vmin) with hw
    have hxw : x = (w - zf) / (zl - zf) := by
      rw [hw, e8, e9]; field_simp; ring
    rw [hka, hxw, div_le_div_iff_of_pos_right hd] at hx1
    rw [hkb, hxw, div_le_div_iff_of_pos_right hd] at hx2
    have hwa : a ≤ w := by linarith
    have hwb : w ≤ b := by linarith
    have g1 : k.after = scale255 ca := f6 j k ca hk hca
    have g2 : k'.before = scale255 cb := f7 j k' cb hk' hcb
    refine ⟨_, ⟨j, a, b, ca, cb, ha, hb1, hca, hcb, hwa, hwb, rfl⟩, fun ch hch => ?_⟩
    have hl : lerp k.x k'.x (ch k.after) (ch k'.before) x = lerp a b (ch (scale255 ca)) (ch (scale255 cb)) w := by
      rw [hka, hkb, g1, g2, hxw]
      unfold lerp
      congr 2
      have hab' : b - a ≠ 0 := by linarith
      have h1 : (b - zf) / (zl - zf) - (a - zf) / (zl - zf) = (b - a) / (zl - zf) := by ring
      have h2 : (w - zf) / (zl - zf) - (a - zf) / (zl - zf) = (w - a) / (zl - zf) := by ring
      rw [h1, h2]
      field_simp
    have w1 := within1_scale (hp.colors ca (List.mem_append_left _ (List.mem_of_getElem? hca)))
    have w2 := within1_scale (hp.colors cb (List.mem_append_right _ (List.mem_of_getElem? hcb)))
    have hin : 0 ≤ lerp a b (ch (scale255 ca)) (ch (scale255 cb)) w ∧ lerp a b (ch (scale255 ca)) (ch (scale255 cb)) w ≤ 1 := by
      apply lerp_between hab hwa hwb
      · rcases hch with rfl | rfl | rfl
        · exact w1.1
        · exact w1.2.1
        · exact w1.2.2
      · rcases hch with rfl | rfl | rfl
        · exact w2.1
        · exact w2.2.1
        · exact w2.2.2
    rw [hl, clip_self hin.1 hin.2]
    rcases hch with rfl | rfl | rfl <;> unfold scale255 lerp <;> simp only <;> ring
  have hlen : 2 ≤ p.knots.length := by
    have : s.z0.length ≠ 0 := fun h => hp.ranges.1 (List.length_eq_zero_iff.1 h)
    omega
  have hstrict : ∀ (j : ℕ) (k k' : Knot), p.knots[j]? = some k → p.knots[j + 1]? = some k' → k.x < k'.x := by
    intro j k k' hk hk'
    obtain ⟨h1, rfl⟩ := List.getElem?_eq_some_iff.1 hk
    obtain ⟨h2, rfl⟩ := List.getElem?_eq_some_iff.1 hk'
    exact List.pairwise_iff_getElem.1 f5 j (j + 1) h1 h2 (by omega)
  obtain ⟨k0, hk0⟩ : ∃ k0, p.knots[0]? = some k0 := ⟨_, List.getElem?_eq_getElem (by omega)⟩
  obtain ⟨kl, hkl⟩ : ∃ kl, p.knots[p.knots.length - 1]? = some kl := ⟨_, List.getElem?_eq_getElem (by omega)⟩
  have hh : p.knots.head? = some k0 := by rw [List.head?_eq_getElem?, hk0]
  have hl : p.knots.getLast? = some kl := by rw [List.getLast?_eq_getElem?, hkl]
  have hk0x : k0.x = 0 := by rw [hh] at f3; simpa using f3
  have hklx : kl.x = 1 := by rw [hl] at f4; simpa using f4
  by_cases hi0 : i = 0
  · subst hi0
    obtain ⟨k1, hk1⟩ : ∃ k1, p.knots[0 + 1]? = some k1 := ⟨_, List.getElem?_eq_getElem (by omega)⟩
    have hlt := hstrict 0 k0 k1 hk0 hk1
    obtain ⟨c, hc1, hc2⟩ := main 0 k0 k1 0 hk0 hk1 hk0x.le (by linarith)
    refine ⟨c, by simpa using hc1, fun ch hch => ?_⟩
    rw [← hc2 ch hch]
    unfold entry
    rw [if_pos rfl, hh]
    simp only [Option.map_some, Option.getD_some]
    unfold lerp
    rw [hk0x]
    simp
  by_cases hin : i = n - 1
  · subst hin
    obtain ⟨j, hj⟩ : ∃ j, p.knots.length - 1 = j + 1 := ⟨p.knots.length - 2, by omega⟩
    rw [hj] at hkl
    obtain ⟨k1, hk1⟩ : ∃ k1, p.knots[j]? = some k1 := ⟨_, List.getElem?_eq_getElem (by omega)⟩
    have hlt := hstrict j k1 kl hk1 hkl
    obtain ⟨c, hc1, hc2⟩ := main j k1 kl 1 hk1 hkl (by linarith) hklx.ge
    refine ⟨c, ?_, fun ch hch => ?_⟩
    · rw [Nat.cast_sub (by omega), Nat.cast_one, div_self hm.ne']
      exact hc1
    · rw [← hc2 ch hch]
      unfold entry
      rw [if_neg hi0, if_pos rfl, hl]
      simp only [Option.map_some, Option.getD_some]
      unfold lerp
      rw [hklx, div_self (by rw [hklx] at hlt; linarith)]
      congr 1
      ring
  · have hipos : (0 : ℚ) < (i : ℚ) / ((n : ℚ) - 1) := div_pos (by exact_mod_cast Nat.pos_of_ne_zero hi0) hm
    have hile : (i : ℚ) / ((n : ℚ) - 1) ≤ 1 := by
      rw [div_le_one hm]
      have h : ((i : ℕ) : ℚ) ≤ ((n - 1 : ℕ) : ℚ) := by exact_mod_cast hi
      rwa [Nat.cast_sub (by omega), Nat.cast_one] at h
    obtain ⟨j, k, k', g1, g2, g3, g4, g5⟩ := between_spec p.knots f5 _ k0 kl hh hl (by rw [hk0x]; exact hipos) (by rw [hklx]; exact hile)
    obtain ⟨c, hc1, hc2⟩ := main j k k' _ g1 g2 g3.le g4
    refine ⟨c, hc1, fun ch hch => ?_⟩
    rw [← hc2 ch hch]
    unfold entry
    rw [if_neg hi0, if_neg hin, g5]

theorem painted_acceptable {s : Segments} {resolution : Option ℚ} {p : Palette} (hp : Painted s resolution p) :
    acceptable p.knots = true ∧ 2 ≤ p.numcolors.toNat ∧ ((p.numcolors.toNat : ℕ) : ℚ) = p.numcolors ∧ p.vmin < p.vmax ∧ p.isLog = false ∧
      s.z0.head? = some p.vmin ∧ s.z1.getLast? = some p.vmax := by
  obtain ⟨q, f1, f2, f3, f4, f5, _, _, _, f9, _⟩ := C29_knots s resolution false hp.ranges hp.starts hp.ends
  obtain ⟨zf, zl, p', e1, e2, e3, _, _, e6, e7, e8, e9, _⟩ := construct_contiguous s resolution false hp.ranges hp.starts hp.ends
  have hb := hp.built
  rw [f1] at hb
  cases hb
  rw [f1] at e6
  cases e6
  refine ⟨?_, by omega, ?_, by rw [e8, e9]; exact e3, e7, by rw [e8]; exact e1, by rw [e9]; exact e2⟩
  · unfold acceptable
    rw [decide_eq_true f3, decide_eq_true f4, decide_eq_true (f5.imp fun h => h.le)]
    rfl
  · have : ((p.numcolors.toNat : ℕ) : ℤ) = p.numcolors := Int.toNat_of_nonneg (by omega)
    exact_mod_cast this

/-- What `getDataColor` returns for a number. -/
theorem dataColor_num {s : Segments} {resolution : Option ℚ} {p : Palette} (hp : Painted s resolution p) (log : ℚ → ℚ) (bad : List ℚ) (z : ℚ) :
    dataColor log p bad (.num z) "mlab" = .ok (.floats (rgba p (cell p.numcolors.toNat ((z - p.vmin) / (p.vmax - p.vmin))))) := by
  obtain ⟨a, _, _, _, b, _⟩ := painted_acceptable hp
  unfold dataColor lookupColor
  rw [a, b]
  rfl

/-- The opaque colour with the channels of `c`, which are of 0..255. -/
def opaque255 (c : ℚ × ℚ × ℚ) : List ℚ := [c.1 / 255, c.2.1 / 255, c.2.2 / 255, 1]

theorem rgba_drawn {s : Segments} {resolution : Option ℚ} {p : Palette} (hp : Painted s resolution p) (t : ℚ) :
    ∃ c : RGB, DrawnAt s.z0 s.z1 s.rgb0 s.rgb1
        (p.vmin + (cell p.numcolors.toNat t : ℚ) / ((p.numcolors.toNat : ℚ) - 1) * (p.vmax - p.vmin)) c ∧
      rgba p (cell p.numcolors.toNat t) = opaque255 c := by
  obtain ⟨_, hn, _⟩ := painted_acceptable hp
  obtain ⟨c, h1, h2⟩ := entry_drawn hp p.numcolors.toNat _ hn (cell_le p.numcolors.toNat t)
  refine ⟨c, h1, ?_⟩
  unfold rgba opaque255
  rw [h2 _ (.inl rfl), h2 _ (.inr (.inl rfl)), h2 _ (.inr (.inr rfl))]

/-- **C183** (partial): for contiguous ranges, the colour of a value within the range of the palette is, in all three channels and opaque, the
colour that the ranges prescribe for some value near it: no further away than one part in `N` of the range of the palette, `N` being the number of
colours, and no further than the resolution the palette was made with. Missing: that it is the colour of the value itself, see
`C183_documented_violated`. -/
theorem C183_color_partial (s : Segments) (resolution : Option ℚ) (p : Palette) (hp : Painted s resolution p) (log : ℚ → ℚ) (bad : List ℚ) (z : ℚ)
    (h1 : p.vmin ≤ z) (h2 : z ≤ p.vmax) :
    ∃ w c, DrawnAt s.z0 s.z1 s.rgb0 s.rgb1 w c ∧ dataColor log p bad (.num z) "mlab" = .ok (.floats (opaque255 c)) ∧
      |w - z| ≤ (p.vmax - p.vmin) / 256 ∧ ∀ r, resolution = some r → 0 < r → |w - z| ≤ r := by
  obtain ⟨a1, a2, a3, a4, a5, a6, a7⟩ := painted_acceptable hp
  obtain ⟨q, f1, _, _, _, _, _, _, _, f9, f10⟩ := C29_knots s resolution false hp.ranges hp.starts hp.ends
  rw [hp.built] at f1
  cases f1
  set t := (z - p.vmin) / (p.vmax - p.vmin) with ht
  have hd : 0 < p.vmax - p.vmin := by linarith
  obtain ⟨c, hc1, hc2⟩ := rgba_drawn hp t
  have hnear := cell_near a2 (t := t) (div_nonneg (by linarith) hd.le) (by rw [ht, div_le_one hd]; linarith)
  have hw : |p.vmin + (cell p.numcolors.toNat t : ℚ) / ((p.numcolors.toNat : ℚ) - 1) * (p.vmax - p.vmin) - z| ≤
      (p.vmax - p.vmin) / p.numcolors := by
    have e : p.vmin + (cell p.numcolors.toNat t : ℚ) / ((p.numcolors.toNat : ℚ) - 1) * (p.vmax - p.vmin) - z =
        ((cell p.numcolors.toNat t : ℚ) / ((p.numcolors.toNat : ℚ) - 1) - t) * (p.vmax - p.vmin) := by
      have : z = p.vmin + t * (p.vmax - p.vmin) := by rw [ht]; field_simp; ring
      rw [sub_mul]
      linarith
    rw [e, abs_mul, abs_of_pos hd, ← a3]
    refine (mul_le_mul_of_nonneg_right hnear hd.le).trans (le_of_eq ?_)
    rw [one_div, inv_mul_eq_div]
  refine ⟨_, c, hc1, by rw [dataColor_num hp, ← ht, hc2], hw.trans ?_, fun r hr hr0 => hw.trans (f10 r hr hr0)⟩
  have : (256 : ℚ) ≤ p.numcolors := by exact_mod_cast f9
  exact div_le_div_of_nonneg_left hd.le (by norm_num) this

/-- **C183**: at and below the start of the first range the colour is the first start colour, at and above the end of the last range it is the last
end colour. -/
theorem C183_ends (s : Segments) (resolution : Option ℚ) (p : Palette) (hp : Painted s resolution p) (log : ℚ → ℚ) (bad : List ℚ) (lo hi : ℚ)
    (first last : RGB) (hlo : s.z0.head? = some lo) (hhi : s.z1.getLast? = some hi) (hf : s.rgb0.head? = some first)
    (hl : s.rgb1.getLast? = some last) (z : ℚ) :
    (z ≤ lo → dataColor log p bad (.num z) "mlab" = .ok (.floats (opaque255 first))) ∧
    (hi ≤ z → dataColor log p bad (.num z) "mlab" = .ok (.floats (opaque255 last))) := by
  obtain ⟨a1, a2, a3, a4, a5, a6, a7⟩ := painted_acceptable hp
  obtain ⟨q, f1, f2, f3, f4, f5, f6, f7, _⟩ := C29_knots s resolution false hp.ranges hp.starts hp.ends
  rw [hp.built] at f1
  cases f1
  rw [a6] at hlo
  cases hlo
  rw [a7] at hhi
  cases hhi
  have hd : 0 < p.vmax - p.vmin := by linarith
  have hz : s.z0.length ≠ 0 := fun h => hp.ranges.1 (List.length_eq_zero_iff.1 h)
  rw [List.head?_eq_getElem?] at hf
  rw [List.getLast?_eq_getElem?, hp.ends] at hl
  constructor
  · intro h
    rw [dataColor_num hp, cell_low (div_nonpos_of_nonpos_of_nonneg (by linarith) hd.le) (by omega)]
    obtain ⟨k, hk⟩ : ∃ k, p.knots[0]? = some k := ⟨_, List.getElem?_eq_getElem (by omega)⟩
    have hk' := f6 0 k first hk hf
    have hh : p.knots.head? = some k := by rw [List.head?_eq_getElem?, hk]
    have hw := within1_scale (hp.colors first (List.mem_append_left _ (List.mem_of_getElem? hf)))
    unfold rgba entry opaque255
    simp only [if_true, hh, Option.map_some, Option.getD_some, hk']
    rw [clip_self hw.1.1 hw.1.2, clip_self hw.2.1.1 hw.2.1.2, clip_self hw.2.2.1 hw.2.2.2]
    rfl
  · intro h
    rw [dataColor_num hp, cell_high (by rw [le_div_iff₀ hd]; linarith) (by omega)]
    obtain ⟨k, hk⟩ : ∃ k, p.knots[s.z0.length - 1 + 1]? = some k := ⟨_, List.getElem?_eq_getElem (by omega)⟩
    have hk' := f7 _ k last hk hl
    have hh : p.knots.getLast? = some k := by
      rw [List.getLast?_eq_getElem?, f2, ← hk]
      congr 1
      omega
    have hw := within1_scale (hp.colors last (List.mem_append_right _ (List.mem_of_getElem? hl)))
    unfold rgba entry opaque255
    simp only [if_true, if_neg (show p.numcolors.toNat - 1 ≠ 0 by omega), hh, Option.map_some, Option.getD_some, hk']
    rw [clip_self hw.1.1 hw.1.2, clip_self hw.2.1.1 hw.2.1.2, clip_self hw.2.2.1 hw.2.2.2]
    rfl

/-! ### Order of the colours -/

/-- Start colours are ordered along the ranges. -/
theorem rising_starts {f : RGB → ℚ} {c0 c1 : List RGB} (h : Rising f c0 c1) (hl : c0.length = c1.length) (i j : ℕ) (hij : i < j) (q p' : RGB)
    (hq : c1[i]? = some q) (hp : c0[j]? = some p') : f q ≤ f p' := by
  induction j generalizing p' with
  | zero => omega
  | succ j ih =>
    rcases Nat.lt_or_ge i j with hlt | hge
    · have hj : j < c0.length := by have := (List.getElem?_eq_some_iff.1 hp).1; omega
      have h1 := ih hlt _ (List.getElem?_eq_getElem hj)
      have h2 := h.1 j _ _ (List.getElem?_eq_getElem hj) (List.getElem?_eq_getElem (by omega))
      have h3 := h.2 j _ _ (List.getElem?_eq_getElem (by omega)) hp
      linarith
    · obtain rfl : i = j := by omega
      exact h.2 i q p' hq hp

theorem contiguous_order {z0 z1 : List ℚ} (h : Contiguous z0 z1) (i j : ℕ) (hij : i < j) (a b : ℚ) (hb : z1[i]? = some b) (ha : z0[j]? = some a) :
    b ≤ a := by
  induction j generalizing a with
  | zero => omega
  | succ j ih =>
    have hl := h.2.1
    rcases Nat.lt_or_ge i j with hlt | hge
    · have hj : j < z0.length := by have := (List.getElem?_eq_some_iff.1 ha).1; omega
      have h1 := ih hlt _ (List.getElem?_eq_getElem hj)
      have h2 := h.2.2.1 j _ _ (List.getElem?_eq_getElem hj) (List.getElem?_eq_getElem (by omega))
      have h3 := h.2.2.2 j _ _ (List.getElem?_eq_getElem (by omega)) ha
      linarith
    · obtain rfl : i = j := by omega
      exact (h.2.2.2 i b a hb ha).le

theorem lerp_mono {a b p q w w' : ℚ} (hab : a < b) (hpq : p ≤ q) (hw : w ≤ w') : lerp a b p q w ≤ lerp a b p q w' := by
  unfold lerp
  have : (w - a) / (b - a) ≤ (w' - a) / (b - a) := div_le_div_of_nonneg_right (by linarith) (by linarith)
  nlinarith

theorem lerp_strict {a b p q w w' : ℚ} (hab : a < b) (hpq : p < q) (hw : w < w') : lerp a b p q w < lerp a b p q w' := by
  unfold lerp
  have : (w - a) / (b - a) < (w' - a) / (b - a) := div_lt_div_of_pos_right (by linarith) (by linarith)
  nlinarith

/-- The colours of two values stand in the order of the values. -/
theorem drawn_order {z0 z1 : List ℚ} {c0 c1 : List RGB} {f : RGB → ℚ} (hf : IsChannel f) (hz : Contiguous z0 z1) (h0 : c0.length = z0.length)
    (h1 : c1.length = z0.length) (hr : Rising f c0 c1) (w w' : ℚ) (c c' : RGB) (hw : w < w') (hc : DrawnAt z0 z1 c0 c1 w c)
    (hc' : DrawnAt z0 z1 c0 c1 w' c') : f c ≤ f c' ∧ (StrictlyRising f c0 c1 → f c < f c') := by
  obtain ⟨i, a, b, p, q, e1, e2, e3, e4, e5, e6, rfl⟩ := hc
  obtain ⟨j, a', b', p', q', g1, g2, g3, g4, g5, g6, rfl⟩ := hc'
  have hab := hz.2.2.1 i a b e1 e2
  have hab' := hz.2.2.1 j a' b' g1 g2
  have hpq := hr.1 i p q e3 e4
  have hpq' := hr.1 j p' q' g3 g4
  have ef : ∀ (a b w : ℚ) (p q : RGB), f (lerp a b p.1 q.1 w, lerp a b p.2.1 q.2.1 w, lerp a b p.2.2 q.2.2 w) = lerp a b (f p) (f q) w := by
    intro a b w p q
    rcases hf with rfl | rfl | rfl <;> rfl
  rw [ef, ef]
  rcases lt_trichotomy i j with hij | rfl | hij
  · have hqp := rising_starts hr (by omega) i j hij q p' e4 g3
    have hba := contiguous_order hz i j hij a' b e2 g1
    have m1 := (lerp_between hab e5 e6 (lo := f p) (hi := f q) ⟨le_rfl, hpq⟩ ⟨hpq, le_rfl⟩).2
    have m2 := (lerp_between hab' g5 g6 (lo := f p') (hi := f q') ⟨le_rfl, hpq'⟩ ⟨hpq', le_rfl⟩).1
    refine ⟨by linarith, fun hs => ?_⟩
    have s1 := hs.1 i p q e3 e4
    have s2 := hs.1 j p' q' g3 g4
    have k1 : lerp a b (f p) (f q) b = f q := by
      unfold lerp; rw [div_self (by linarith)]; ring
    have k2 : lerp a' b' (f p') (f q') a' = f p' := by
      unfold lerp; simp
    rcases lt_or_eq_of_le e6 with h | rfl
    · have := lerp_strict hab s1 h
      rw [k1] at this
      linarith
    · rcases Nat.lt_or_ge (i + 1) j with hgt | hge
      · have hj := (List.getElem?_eq_some_iff.1 g3).1
        have r1 := rising_starts hr (by omega) i (i + 1) (by omega) q _ e4 (List.getElem?_eq_getElem (by omega))
        have r2 := rising_starts hr (by omega) (i + 1) j hgt _ p' (List.getElem?_eq_getElem (by omega)) g3
        have r3 := hs.1 (i + 1) _ _ (List.getElem?_eq_getElem (by omega)) (List.getElem?_eq_getElem (by omega))
        linarith
      · obtain rfl : j = i + 1 := by omega
        have hwa := hz.2.2.2 i w a' e2 g1
        have := lerp_strict hab' s2 (show a' < w' by linarith)
        rw [k2] at this
        linarith
  · rw [e1] at g1
    cases g1
    rw [e2] at g2
    cases g2
    rw [e3] at g3
    cases g3
    rw [e4] at g4
    cases g4
    exact ⟨lerp_mono hab hpq hw.le, fun hs => lerp_strict hab (hs.1 i p q e3 e4) hw⟩
  · exfalso
    have := contiguous_order hz j i hij a b' g2 e1
    linarith

/-- The number of a returned colour that stands for a channel. -/
theorem opaque_channel {f : RGB → ℚ} (hf : IsChannel f) (c : RGB) : f ((opaque255 c)[0]!, (opaque255 c)[1]!, (opaque255 c)[2]!) = f c / 255 := by
  rcases hf with rfl | rfl | rfl <;> rfl

/-- **C183**: where a channel never falls along the ranges, it never falls with the data value, for all values, also outside of the ranges; and where
it grows along each range, it is larger for a value that is larger by the resolution of the palette, for values from the start to before the
end of the ranges. -/
theorem C183_order (s : Segments) (resolution : Option ℚ) (p : Palette) (hp : Painted s resolution p) (log : ℚ → ℚ) (bad : List ℚ) (f : RGB → ℚ)
    (hf : IsChannel f) (hr : Rising f s.rgb0 s.rgb1) (z z' : ℚ) (h : z ≤ z') :
    ∃ c c', dataColor log p bad (.num z) "mlab" = .ok (.floats (opaque255 c)) ∧
      dataColor log p bad (.num z') "mlab" = .ok (.floats (opaque255 c')) ∧ f c ≤ f c' ∧
      ∀ r, resolution = some r → 0 < r → StrictlyRising f s.rgb0 s.rgb1 → p.vmin ≤ z → z' < p.vmax → z + r ≤ z' → f c < f c' := by
  obtain ⟨a1, a2, a3, a4, a5, a6, a7⟩ := painted_acceptable hp
  obtain ⟨q, f1, _, _, _, _, _, _, _, f9, f10⟩ := C29_knots s resolution false hp.ranges hp.starts hp.ends
  rw [hp.built] at f1
  cases f1
  have hd : 0 < p.vmax - p.vmin := by linarith
  have hn : (0 : ℚ) < (p.numcolors.toNat : ℚ) := by exact_mod_cast (by omega : 0 < p.numcolors.toNat)
  have hm : (0 : ℚ) < (p.numcolors.toNat : ℚ) - 1 := by
    have : (2 : ℚ) ≤ (p.numcolors.toNat : ℚ) := by exact_mod_cast a2
    linarith
  set t := (z - p.vmin) / (p.vmax - p.vmin) with ht
  set t' := (z' - p.vmin) / (p.vmax - p.vmin) with ht'
  have htt : t ≤ t' := div_le_div_of_nonneg_right (by linarith) hd.le
  have hcell := cell_mono (n := p.numcolors.toNat) (by omega) htt
  obtain ⟨c, hc1, hc2⟩ := rgba_drawn hp t
  obtain ⟨c', hc1', hc2'⟩ := rgba_drawn hp t'
  have key : cell p.numcolors.toNat t < cell p.numcolors.toNat t' → f c ≤ f c' ∧ (StrictlyRising f s.rgb0 s.rgb1 → f c < f c') := by
    intro hlt
    refine drawn_order hf hp.ranges hp.starts hp.ends hr _ _ c c' ?_ hc1 hc1'
    have : (cell p.numcolors.toNat t : ℚ) < (cell p.numcolors.toNat t' : ℚ) := by exact_mod_cast hlt
    have := div_lt_div_of_pos_right this hm
    nlinarith
  refine ⟨c, c', by rw [dataColor_num hp, ← ht, hc2], by rw [dataColor_num hp, ← ht', hc2'], ?_, ?_⟩
  · rcases Nat.lt_or_ge (cell p.numcolors.toNat t) (cell p.numcolors.toNat t') with hlt | hge
    · exact (key hlt).1
    · have heq : cell p.numcolors.toNat t = cell p.numcolors.toNat t' := by omega
      rw [heq, hc2'] at hc2
      have e := opaque_channel hf c
      rw [← hc2, opaque_channel hf c'] at e
      linarith
  · intro r hres hr0 hs hz hz' hzz
    refine (key ?_).2 hs
    have h0 : 0 ≤ t := div_nonneg (by linarith) hd.le
    have h1 : t' < 1 := by rw [ht', div_lt_one hd]; linarith
    have b1 := cell_floor (n := p.numcolors.toNat) h0 (by linarith) (by omega)
    have b2 := cell_floor (n := p.numcolors.toNat) (by linarith) h1 (by omega)
    have hstep : t * (p.numcolors.toNat : ℚ) + 1 ≤ t' * (p.numcolors.toNat : ℚ) := by
      have hN := f10 r hres hr0
      rw [← a3, div_le_iff₀ hn] at hN
      have e : (t' - t) * (p.vmax - p.vmin) = z' - z := by
        rw [ht, ht']; field_simp; ring
      by_contra hcon
      push Not at hcon
      have : (t' - t) * (p.numcolors.toNat : ℚ) < 1 := by linarith
      have h2 : (t' - t) * (p.numcolors.toNat : ℚ) * (p.vmax - p.vmin) < 1 * (p.vmax - p.vmin) := mul_lt_mul_of_pos_right this hd
      have h3 : (t' - t) * (p.numcolors.toNat : ℚ) * (p.vmax - p.vmin) = (z' - z) * (p.numcolors.toNat : ℚ) := by rw [← e]; ring
      have h4 : r * (p.numcolors.toNat : ℚ) ≤ (z' - z) * (p.numcolors.toNat : ℚ) := mul_le_mul_of_nonneg_right (by linarith) hn.le
      linarith
    have : ⌊t * (p.numcolors.toNat : ℚ)⌋ + 1 ≤ ⌊t' * (p.numcolors.toNat : ℚ)⌋ := by
      rw [← Int.floor_add_one]
      exact Int.floor_le_floor hstep
    omega

/-- **C183** violated: when the resolution divides the range of the palette into a whole number of parts, 256 or more, the end of the range and the value
one resolution below it have the same colour, whatever the colours of the ranges are. -/
theorem C183_top_violated (s : Segments) (r : ℚ) (p : Palette) (hp : Painted s (some r) p) (log : ℚ → ℚ) (bad : List ℚ) (m : ℕ) (hm : 256 ≤ m)
    (hr : p.vmax - p.vmin = m * r) (format : String) :
    dataColor log p bad (.num (p.vmax - r)) format = dataColor log p bad (.num p.vmax) format := by
  obtain ⟨a1, a2, a3, a4, a5, a6, a7⟩ := painted_acceptable hp
  obtain ⟨zf, zl, p', e1, e2, e3, _, _, e6, e7, e8, e9, e10, _⟩ := construct_contiguous s (some r) false hp.ranges hp.starts hp.ends
  rw [hp.built] at e6
  cases e6
  have hd : 0 < p.vmax - p.vmin := by linarith
  have hm0 : (0 : ℚ) < m := by exact_mod_cast (by omega : 0 < m)
  have hr0 : 0 < r := by
    rw [hr] at hd
    exact (pos_iff_pos_of_mul_pos hd).1 hm0
  have hN : p.numcolors.toNat = m := by
    rw [e10, numColors, ← e8, ← e9, hr, mul_div_assoc, div_self hr0.ne', mul_one, Int.ceil_natCast]
    omega
  have ht : (p.vmax - r - p.vmin) / (p.vmax - p.vmin) = 1 - 1 / (m : ℚ) := by
    have : p.vmax - r - p.vmin = m * r - r := by linarith
    rw [this, hr]
    field_simp
  have hc : cell m (1 - 1 / (m : ℚ)) = m - 1 := by
    have h1 : 1 / (m : ℚ) ≤ 1 := by rw [div_le_one hm0]; exact_mod_cast (by omega : 1 ≤ m)
    have h2 : 0 < 1 / (m : ℚ) := by positivity
    have := cell_floor (n := m) (t := 1 - 1 / (m : ℚ)) (by linarith) (by linarith) (by omega)
    have e : (1 - 1 / (m : ℚ)) * (m : ℚ) = ((m - 1 : ℤ) : ℚ) := by
      push_cast
      field_simp
    rw [e, Int.floor_intCast] at this
    omega
  unfold dataColor lookupColor
  rw [a1, a5]
  simp only [if_true, Bool.false_eq_true, if_false]
  rw [hN, ht, hc, div_self hd.ne', cell_high le_rfl (by omega)]

/-- **C183**: NaN has the colour that was given for it, an RGBA quadruple of 0..255, and a single number stands for four times itself. -/
theorem C183_nan (s : Segments) (resolution : Option ℚ) (p : Palette) (hp : Painted s resolution p) (log : ℚ → ℚ) (r g b a n : ℚ)
    (hr : 0 ≤ r ∧ r ≤ 255) (hg : 0 ≤ g ∧ g ≤ 255) (hb : 0 ≤ b ∧ b ≤ 255) (ha : 0 ≤ a ∧ a ≤ 255) (hn : 0 ≤ n ∧ n ≤ 255) :
    (∃ bad, badColor (.inr [r, g, b, a]) = .ok bad ∧ dataColor log p bad .nan "mlab" = .ok (.floats [r / 255, g / 255, b / 255, a / 255])) ∧
    ∃ bad, badColor (.inl n) = .ok bad ∧ dataColor log p bad .nan "mlab" = .ok (.floats [n / 255, n / 255, n / 255, n / 255]) := by
  obtain ⟨a1, a2, a3, a4, a5, a6, a7⟩ := painted_acceptable hp
  have key : ∀ x : ℚ, 0 ≤ x ∧ x ≤ 255 → 0 ≤ x / 255 ∧ x / 255 ≤ 1 := by
    intro x hx
    exact ⟨div_nonneg hx.1 (by norm_num), by rw [div_le_one (by norm_num)]; exact hx.2⟩
  have hd : ∀ bad, dataColor log p bad .nan "mlab" = .ok (.floats bad) := by
    intro bad
    unfold dataColor lookupColor
    rw [a1, a5]
    rfl
  refine ⟨⟨_, ?_, hd _⟩, ⟨_, ?_, hd _⟩⟩
  · unfold badColor
    rw [if_pos]
    · rfl
    · intro v hv
      simp only [List.map_cons, List.map_nil, List.mem_cons, List.not_mem_nil, or_false] at hv
      rcases hv with rfl | rfl | rfl | rfl <;> apply key <;> assumption
  · unfold badColor
    rw [if_pos]
    · rfl
    · intro v hv
      simp only [List.replicate, List.map_cons, List.map_nil, List.mem_cons, List.not_mem_nil, or_false] at hv
      rcases hv with rfl | rfl | rfl | rfl <;> exact key n hn

/-- **C183**: after `vmin` and `vmax` are set, the colours are stretched over the new limits: a value has the colour that the value at the same part of
the way between the old limits had before. The reported limits are the ones that were set. -/
theorem C183_stretch (s : Segments) (resolution : Option ℚ) (p : Palette) (hp : Painted s resolution p) (log : ℚ → ℚ) (bad : List ℚ) (lo hi : ℚ)
    (h : lo ≠ hi) (part : ℚ) (format : String) :
    dataColor log (setVmax (setVmin p lo) hi) bad (.num (lo + part * (hi - lo))) format =
      dataColor log p bad (.num (p.vmin + part * (p.vmax - p.vmin))) format ∧
    (setVmax (setVmin p lo) hi).vmin = lo ∧ (setVmax (setVmin p lo) hi).vmax = hi := by
  obtain ⟨a1, a2, a3, a4, a5, a6, a7⟩ := painted_acceptable hp
  refine ⟨?_, rfl, rfl⟩
  have h1 : hi - lo ≠ 0 := fun e => h (by linarith)
  have h2 : p.vmax - p.vmin ≠ 0 := by linarith
  unfold dataColor lookupColor setVmax setVmin rgba
  simp only [a1, a5, if_true, Bool.false_eq_true, if_false, add_sub_cancel_left]
  rw [mul_div_assoc, mul_div_assoc, div_self h1, div_self h2]

theorem construct_log (s : Segments) (resolution : Option ℚ) (p : Palette) (h : construct s resolution false = .ok p) :
    construct s resolution true = .ok { p with isLog := true } := by
  unfold construct at h ⊢
  split at h
  · cases h
  · rename_i hl
    rw [if_neg hl]
    split at h
    · rename_i vmin vmax zlast e1 e2 e3
      simp only at h ⊢
      split at h
      · cases h
      · rename_i ks hk
        cases h
        rfl
    · cases h

/-- **C183**: a palette with a logarithmic scale gives a positive value the colour of its logarithm, 0 the first colour and a negative value the
colour of NaN. -/
theorem C183_log (s : Segments) (resolution : Option ℚ) (p : Palette) (hp : Painted s resolution p) (log : ℚ → ℚ) (bad : List ℚ) (format : String) :
    ∃ q, construct s resolution true = .ok q ∧
      (∀ z, 0 < z → dataColor log q bad (.num z) format = dataColor log p bad (.num (log z)) format) ∧
      dataColor log q bad (.num 0) format = dataColor log p bad (.num p.vmin) format ∧
      ∀ z, z < 0 → dataColor log q bad (.num z) format = dataColor log p bad .nan format := by
  obtain ⟨a1, a2, a3, a4, a5, a6, a7⟩ := painted_acceptable hp
  refine ⟨_, construct_log s resolution p hp.built, fun z hz => ?_, ?_, fun z hz => ?_⟩
  · unfold dataColor lookupColor logOf rgba
    simp only [a1, a5, if_true, Bool.false_eq_true, if_false, if_neg (not_lt.2 hz.le), if_neg hz.ne']
  · unfold dataColor lookupColor logOf rgba
    simp only [a1, a5, if_true, Bool.false_eq_true, if_false, lt_irrefl, sub_self, zero_div, if_neg (not_lt.2 a4.le)]
    rw [cell_low le_rfl (by omega)]
  · unfold dataColor lookupColor logOf
    simp only [a1, a5, if_true, Bool.false_eq_true, if_false, if_pos hz]

theorem buildKnots_xs (xs : List ℚ) : ∀ (bs as : List RGB) (ks : List Knot), buildKnots xs bs as = .ok ks → ks.map (·.x) = xs := by
  induction xs with
  | nil => intro bs as ks h; cases h; rfl
  | cons x xs ih =>
    intro bs as ks h
    cases bs with
    | nil => cases h
    | cons b bs =>
      cases as with
      | nil => cases h
      | cons a as =>
        unfold buildKnots at h
        split at h
        · rename_i ks' hk
          cases h
          rw [List.map_cons, ih bs as ks' hk]
        · cases h

/-- **C183** violated: ranges that do not start with the lowest or do not end with the highest are accepted by the constructor, and then no data value has
a colour: every call raises ValueError. -/
theorem C183_unordered_violated (s : Segments) (resolution : Option ℚ) (isLog : Bool) (p : Palette) (hb : construct s resolution isLog = .ok p)
    (hv : p.vmin ≠ p.vmax) (h : s.z0.head? ≠ some p.vmin ∨ s.z1.getLast? ≠ some p.vmax) (log : ℚ → ℚ) (bad : List ℚ) (value : Datum)
    (format : String) : dataColor log p bad value format = .error .valueError := by
  have hacc : acceptable p.knots = false := by
    unfold construct at hb
    split at hb
    · cases hb
    · split at hb
      · rename_i vmin vmax zlast e1 e2 e3
        simp only at hb
        split at hb
        · cases hb
        · rename_i ks hk
          cases hb
          have hd : vmax - vmin ≠ 0 := fun e => hv (by simp only; linarith)
          have hx := buildKnots_xs _ _ _ _ hk
          simp only at h ⊢
          rw [Bool.eq_false_iff]
          intro hcon
          unfold acceptable at hcon
          simp only [Bool.and_eq_true, decide_eq_true_eq] at hcon
          obtain ⟨⟨c1, c2⟩, _⟩ := hcon
          rw [← List.head?_map, hx] at c1
          rw [← List.getLast?_map, hx] at c2
          rcases h with h | h
          · cases hz : s.z0 with
            | nil => rw [hz] at e1; cases e1
            | cons a as =>
              rw [hz] at c1 h
              simp only [List.map_cons, List.cons_append, List.head?_cons, Option.some.injEq] at c1
              rw [div_eq_zero_iff, or_iff_left hd] at c1
              exact h (by rw [List.head?_cons]; congr 1; linarith)
          · rw [List.getLast?_append, List.getLast?_singleton] at c2
            simp only [Option.some_or, Option.some.injEq] at c2
            rw [div_eq_one_iff_eq hd] at c2
            exact h (by rw [e3]; congr 1; linarith)
      · cases hb
  unfold dataColor lookupColor
  rw [hacc]
  rfl

/-- The ranges of the example in the documentation of `fromFile`. -/
def documented : Segments :=
  ⟨[0, 1, 2], [1, 2, 3], [(0, 0, 0), (85, 85, 85), (170, 170, 170)], [(85, 85, 85), (170, 170, 170), (255, 255, 255)]⟩

/-- A palette made of it. -/
def documentedPalette (resolution : Option ℚ) : Palette := (construct documented resolution false).toOption.getD ⟨false, 0, 0, [], 0⟩

theorem documented_painted (resolution : Option ℚ) : Painted documented resolution (documentedPalette resolution) := by
  have hc : Contiguous documented.z0 documented.z1 := by
    refine ⟨by simp [documented], rfl, ?_, ?_⟩ <;>
    · intro i a b ha hb
      have hi : i < 3 := (List.getElem?_eq_some_iff.1 ha).1
      interval_cases i <;> simp [documented] at ha hb <;> linarith
  refine ⟨hc, rfl, rfl, ?_, ?_⟩
  · intro c hc
    simp only [documented, List.cons_append, List.nil_append, List.mem_cons, List.not_mem_nil, or_false] at hc
    rcases hc with rfl | rfl | rfl | rfl | rfl | rfl <;> norm_num [Within255]
  · obtain ⟨zf, zl, p, _, _, _, _, _, h, _⟩ := construct_contiguous documented resolution false hc rfl rfl
    unfold documentedPalette
    rw [h]
    rfl

/-- **C183** violated: the colour of 0.5 in the documentation's example is not the documented `(42.5/255, 42.5/255, 42.5/255)`. -/
theorem C183_documented_violated (log : ℚ → ℚ) (bad : List ℚ) :
    dataColor log (documentedPalette (some (1 / 100))) bad (.num (1 / 2)) "mlab" = .ok (.floats [50 / 299, 50 / 299, 50 / 299, 1]) ∧
      DrawnAt documented.z0 documented.z1 documented.rgb0 documented.rgb1 (1 / 2) (85 / 2, 85 / 2, 85 / 2) ∧
      (50 / 299 : ℚ) ≠ 85 / 2 / 255 := by
  refine ⟨?_, ⟨0, 0, 1, (0, 0, 0), (85, 85, 85), rfl, rfl, rfl, rfl, by norm_num, by norm_num, by norm_num [lerp]⟩, by norm_num⟩
  rw [dataColor_num (documented_painted _)]
  congr 2
  decide +kernel

/-- **C183** violated: with a gap between two ranges the colours of the first are stretched over the gap: here its end, which should be white, is
grey. -/
theorem C183_gap_violated (log : ℚ → ℚ) (bad : List ℚ) : ∃ s p, construct s none false = .ok p ∧
    DrawnAt s.z0 s.z1 s.rgb0 s.rgb1 1 (255, 255, 255) ∧ (∀ c, DrawnAt s.z0 s.z1 s.rgb0 s.rgb1 1 c → c = (255, 255, 255)) ∧
    dataColor log p bad (.num 1) "mlab" = .ok (.floats [1 / 2, 1 / 2, 1 / 2, 1]) := by
  refine ⟨⟨[0, 2], [1, 3], [(0, 0, 0), (255, 255, 255)], [(255, 255, 255), (255, 255, 255)]⟩,
    ⟨false, 0, 3, [⟨0, scale255 dummyB, (0, 0, 0)⟩, ⟨2 / 3, (1, 1, 1), (1, 1, 1)⟩, ⟨1, (1, 1, 1), scale255 dummyE⟩], 256⟩, by decide +kernel, ?_, ?_, ?_⟩
  · exact ⟨0, 0, 1, (0, 0, 0), (255, 255, 255), rfl, rfl, rfl, rfl, by norm_num, by norm_num, by norm_num [lerp]⟩
  · rintro c ⟨i, a, b, p, q, h1, h2, h3, h4, h5, h6, rfl⟩
    have hi : i < 2 := (List.getElem?_eq_some_iff.1 h1).1
    interval_cases i
    · cases h1; cases h2; cases h3; cases h4
      norm_num [lerp]
    · cases h1
      norm_num at h5
  · unfold dataColor lookupColor
    have : acceptable [(⟨0, scale255 dummyB, (0, 0, 0)⟩ : Knot), ⟨2 / 3, (1, 1, 1), (1, 1, 1)⟩, ⟨1, (1, 1, 1), scale255 dummyE⟩] = true := by
      decide +kernel
    rw [this]
    simp only [if_true, Bool.false_eq_true, if_false]
    show Except.ok (Color.floats _) = _
    congr 2
    decide +kernel

/-! ### The presets -/

/-- The upper bounds that make the lower bounds of a preset contiguous. -/
def presetRanges (s : Segments) (top : ℚ) : Segments := { s with z1 := s.z0.tail ++ [top] }

/-- **C183**: the three presets are palettes of contiguous ranges with the lower bounds and colours of the preset, each range ending where the next one
starts. -/
theorem C183_presets (name : String) (s : Segments) (r : ℚ) (h : (name, s, r) ∈ presets) :
    ∃ top p, s.z1.getLast? = some top ∧ fromPreset name = .ok p ∧ Painted (presetRanges s top) (some r) p := by
  have key : ∀ top p, Contiguous (presetRanges s top).z0 (presetRanges s top).z1 → s.rgb0.length = s.z0.length → s.rgb1.length = s.z0.length →
      (s.rgb0 ++ s.rgb1).all (fun c => decide (Within255 c)) = true → construct (presetRanges s top) (some r) false = .ok p →
      Painted (presetRanges s top) (some r) p := by
    intro top p h1 h2 h3 h4 h5
    exact ⟨h1, h2, h3, fun c hc => of_decide_eq_true (List.all_eq_true.1 h4 c hc), h5⟩
  simp only [presets, List.mem_cons, Prod.mk.injEq, List.not_mem_nil, or_false] at h
  rcases h with ⟨rfl, rfl, rfl⟩ | ⟨rfl, rfl, rfl⟩ | ⟨rfl, rfl, rfl⟩
  · obtain ⟨p, hp⟩ := exists_ok (fromPreset "mmi") (by decide +kernel)
    have e : fromPreset "mmi" = construct (presetRanges presetMMI 10) (some (1 / 10)) false := by decide +kernel
    refine ⟨10, p, rfl, hp, key 10 p ⟨by simp [presetRanges, presetMMI], rfl, ?_, ?_⟩ rfl rfl (by decide +kernel) (e ▸ hp)⟩ <;>
    · intro i a b ha hb
      have hi : i < 10 := (List.getElem?_eq_some_iff.1 ha).1
      interval_cases i <;> simp [presetRanges, presetMMI] at ha hb <;> linarith
  · obtain ⟨p, hp⟩ := exists_ok (fromPreset "pop") (by decide +kernel)
    have e : fromPreset "pop" = construct (presetRanges presetPOP 50000) (some 1) false := by decide +kernel
    refine ⟨50000, p, rfl, hp, key 50000 p ⟨by simp [presetRanges, presetPOP], rfl, ?_, ?_⟩ rfl rfl (by decide +kernel) (e ▸ hp)⟩ <;>
    · intro i a b ha hb
      have hi : i < 8 := (List.getElem?_eq_some_iff.1 ha).1
      interval_cases i <;> simp [presetRanges, presetPOP] at ha hb <;> linarith
  · obtain ⟨p, hp⟩ := exists_ok (fromPreset "shaketopo") (by decide +kernel)
    have e : fromPreset "shaketopo" = construct (presetRanges presetTOPO 9200) (some 1) false := by decide +kernel
    refine ⟨9200, p, rfl, hp, key 9200 p ⟨by simp [presetRanges, presetTOPO], rfl, ?_, ?_⟩ rfl rfl (by decide +kernel) (e ▸ hp)⟩ <;>
    · intro i a b ha hb
      have hi : i < 11 := (List.getElem?_eq_some_iff.1 ha).1
      interval_cases i <;> simp [presetRanges, presetTOPO] at ha hb <;> linarith

/-- **C183**: for the population preset the colour is exact for every number of people up to the highest: it is a colour that the ranges prescribe for that
number. -/
theorem C183_population (p : Palette) (hp : fromPreset "pop" = .ok p) (log : ℚ → ℚ) (bad : List ℚ) (z : ℕ) (hz : z < 50000) :
    ∃ c, DrawnAt presetPOP.z0 presetPOP.z1 presetPOP.rgb0 presetPOP.rgb1 z c ∧
      dataColor log p bad (.num z) "mlab" = .ok (.floats (opaque255 c)) := by
  obtain ⟨top, q, ht, hq, hpaint⟩ := C183_presets "pop" presetPOP 1 (by simp [presets])
  rw [hp] at hq
  cases hq
  obtain rfl : top = 50000 := by
    rw [show presetPOP.z1.getLast? = some 50000 from rfl] at ht
    cases ht
    rfl
  have hseg : presetRanges presetPOP 50000 = presetPOP := rfl
  rw [hseg] at hpaint
  have hN : p.numcolors.toNat = 50000 ∧ p.vmin = 0 ∧ p.vmax = 50000 := by
    have : (fromPreset "pop").toOption.map (fun p => (p.numcolors, p.vmin, p.vmax)) = some (50000, 0, 50000) := by decide +kernel
    rw [hp] at this
    simp only [Except.toOption, Option.map_some, Option.some.injEq, Prod.mk.injEq] at this
    exact ⟨by rw [this.1]; rfl, this.2⟩
  have hzq : (z : ℚ) < 50000 := by exact_mod_cast hz
  obtain ⟨c, hc1, hc2⟩ := rgba_drawn hpaint ((z - p.vmin) / (p.vmax - p.vmin))
  have hcell : cell p.numcolors.toNat (((z : ℚ) - p.vmin) / (p.vmax - p.vmin)) = z := by
    rw [hN.1, hN.2.1, hN.2.2, sub_zero, sub_zero]
    have := cell_floor (n := 50000) (t := (z : ℚ) / 50000) (by positivity) (by rw [div_lt_one (by norm_num)]; exact hzq) (by norm_num)
    rw [show (z : ℚ) / 50000 * ((50000 : ℕ) : ℚ) = ((z : ℤ) : ℚ) by push_cast; field_simp, Int.floor_intCast] at this
    exact_mod_cast this
  refine ⟨c, ?_, by rw [dataColor_num hpaint, hc2]⟩
  rw [hcell, hN.1, hN.2.1, hN.2.2] at hc1
  obtain ⟨i, a, b, u, v, e1, e2, e3, e4, e5, e6, rfl⟩ := hc1
  have hw1 : (z : ℚ) ≤ 0 + (z : ℚ) / (((50000 : ℕ) : ℚ) - 1) * (50000 - 0) := by
    have : (0 : ℚ) ≤ z := Nat.cast_nonneg z
    push_cast
    linarith
  have hw2 : 0 + (z : ℚ) / (((50000 : ℕ) : ℚ) - 1) * (50000 - 0) ≤ z + 1 := by
    have : (z : ℚ) ≤ 49999 := by exact_mod_cast (by omega : z ≤ 49999)
    push_cast
    linarith
  set w : ℚ := 0 + (z : ℚ) / (((50000 : ℕ) : ℚ) - 1) * (50000 - 0) with hw
  -- the colours do not change within a range
  have flat : u = v := by
    rw [show presetPOP.rgb1 = presetPOP.rgb0 from rfl, e3] at e4
    cases e4
    rfl
  have hint : ∃ m : ℤ, a = m := by
    have hi : i < 8 := (List.getElem?_eq_some_iff.1 e1).1
    interval_cases i <;> cases e1
    exacts [⟨0, rfl⟩, ⟨4, rfl⟩, ⟨49, rfl⟩, ⟨99, rfl⟩, ⟨499, rfl⟩, ⟨999, rfl⟩, ⟨4999, rfl⟩, ⟨9999, rfl⟩]
  obtain ⟨m, hm⟩ := hint
  have ha : a ≤ z := by
    by_contra hcon
    have h1 : (z : ℚ) + 1 ≤ a := by
      rw [hm] at hcon ⊢
      have : (z : ℤ) < m := by
        by_contra h
        exact hcon (by exact_mod_cast not_lt.1 h)
      exact_mod_cast this
    have h2 : w = z + 1 := by linarith
    have h3 : (z : ℚ) = 49999 := by
      rw [hw] at h2
      push_cast at h2
      linarith
    have h4 : a < 50000 := by
      have hi : i < 8 := (List.getElem?_eq_some_iff.1 e1).1
      interval_cases i <;> cases e1 <;> norm_num
    linarith
  refine ⟨i, a, b, u, v, e1, e2, e3, e4, ha, by linarith, ?_⟩
  subst flat
  unfold lerp
  simp

/-- **C183** violated: the intensity preset does not give intensity 5 the colour of its table, (122, 255, 147). -/
theorem C183_intensity_violated (log : ℚ → ℚ) (bad : List ℚ) : ∃ p, fromPreset "mmi" = .ok p ∧
    dataColor log p bad (.num 5) "255" = .ok (.ints [124, 255, 144, 255]) ∧
    DrawnAt presetMMI.z0 presetMMI.z1 presetMMI.rgb0 presetMMI.rgb1 5 (122, 255, 147) ∧
    ∀ c, DrawnAt presetMMI.z0 presetMMI.z1 presetMMI.rgb0 presetMMI.rgb1 5 c → c = (122, 255, 147) := by
  obtain ⟨top, p, ht, hp, hpaint⟩ := C183_presets "mmi" presetMMI (1 / 10) (by simp [presets])
  refine ⟨p, hp, ?_, ?_, ?_⟩
  · have h : (fromPreset "mmi").toOption.map (fun p => (rgba p (cell p.numcolors.toNat ((5 - p.vmin) / (p.vmax - p.vmin)))).map
        (fun c => Py.trunc (c * 255))) = some [124, 255, 144, 255] := by decide +kernel
    rw [hp] at h
    simp only [Except.toOption, Option.map_some, Option.some.injEq] at h
    obtain ⟨a1, _, _, _, a5, _⟩ := painted_acceptable hpaint
    unfold dataColor lookupColor
    rw [a1, a5]
    show Except.ok (Color.ints _) = _
    rw [h]
  · exact ⟨4, 4, 5, (128, 255, 255), (122, 255, 147), rfl, rfl, rfl, rfl, by norm_num, by norm_num, by norm_num [lerp]⟩
  · rintro c ⟨i, a, b, p, q, h1, h2, h3, h4, h5, h6, rfl⟩
    have hi : i < 10 := (List.getElem?_eq_some_iff.1 h1).1
    interval_cases i <;> simp only [presetMMI, List.getElem?_cons_zero, List.getElem?_cons_succ, Option.some.injEq] at h1 h2 h3 h4 <;>
      subst h1 <;> subst h2 <;> subst h3 <;> subst h4 <;>
      first | (exfalso; linarith) | norm_num [lerp]

/-- **C183**: a channel of 0..255 that is stored divided by 255 in binary floating point comes back as itself in the formats made of integers. -/
theorem C183_bytes (c : ℕ) (h : c ≤ 255) : Py.trunc (Dbl.rnd (Dbl.rnd ((c : ℚ) / 255) * 255)) = c := by
  have : ∀ c : Fin 256, Py.trunc (Dbl.rnd (Dbl.rnd ((c.val : ℚ) / 255) * 255)) = (c.val : ℤ) := by decide +kernel
  exact this ⟨c, by omega⟩

/-! The values of the project's own tests: 0.5 in the example without a resolution, before and after its limits are set to -1 and 4. -/

example : dataColor id (documentedPalette none) [] (.num (1 / 2)) "mlab" = .ok (.floats [42 / 255, 42 / 255, 42 / 255, 1]) := by decide +kernel
example : dataColor id (setVmax (setVmin (documentedPalette none) (-1)) 4) [] (.num (1 / 2)) "mlab" =
    .ok (.floats [76 / 255, 76 / 255, 76 / 255, 1]) := by decide +kernel
example : dataColor id (setVmax (setVmin (documentedPalette none) (-1)) 4) [] (.num (1 / 2)) "255" = .ok (.ints [76, 76, 76, 255]) := by
  decide +kernel
example : dataColor id (setVmax (setVmin (documentedPalette none) (-1)) 4) [] (.num (1 / 2)) "hex" = .ok (.text "#4C4C4C".toList) := by
  decide +kernel
example : getPresets = ["mmi", "pop", "shaketopo"] := rfl

/-- The example meets the hypotheses of `C183_order` and `C183_top_violated`. -/
example : StrictlyRising (fun c => c.1) documented.rgb0 documented.rgb1 ∧
    (documentedPalette (some (1 / 100))).vmax - (documentedPalette (some (1 / 100))).vmin = (300 : ℕ) * (1 / 100) := by
  refine ⟨⟨?_, ?_⟩, by decide +kernel⟩ <;>
  · intro i p q hp hq
    have hi : i < 3 := by
      have := (List.getElem?_eq_some_iff.1 hp).1
      exact this
    interval_cases i <;> simp [documented] at hp hq <;> subst hp <;> subst hq <;> norm_num

/-- Ranges from high to low meet the hypotheses of `C183_unordered_violated`. -/
example : ∃ p, construct ⟨[1, 0], [2, 1], [(0, 0, 0), (9, 9, 9)], [(9, 9, 9), (255, 0, 0)]⟩ none false = .ok p ∧ p.vmin = 0 ∧ p.vmax = 2 :=
  ⟨_, rfl, by decide +kernel, by decide +kernel⟩

end Verif.Props
