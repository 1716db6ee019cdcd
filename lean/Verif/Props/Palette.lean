import Verif.Model.Palette
import Verif.Spec.Palette
import Verif.Lemmas.Rounding
import Mathlib.Tactic.Linarith
import Mathlib.Tactic.FieldSimp
import Mathlib.Tactic.Ring
import Mathlib.Tactic.NormNum
import Mathlib.Tactic.IntervalCases
import Mathlib.Tactic.Positivity

/-!
# C28, C29, C30, C31, C85, C86: colour palettes
-/

namespace Verif.Props
open Verif Verif.Colors Verif.Spec

theorem contiguous_knots (z0 : List ℚ) : ∀ z1 : List ℚ, Contiguous z0 z1 →
    ∃ zl, z1.getLast? = some zl ∧ (z0 ++ [zl]).Pairwise (· < ·) ∧ z1 = (z0 ++ [zl]).tail := by
  induction z0 with
  | nil => intro z1 h; exact absurd rfl h.1
  | cons a as ih =>
    intro z1 h
    obtain ⟨_, h2, h3, h4⟩ := h
    cases z1 with
    | nil => simp at h2
    | cons b bs =>
      have hab : a < b := h3 0 a b rfl rfl
      cases as with
      | nil =>
        have : bs = [] := by
          apply List.eq_nil_of_length_eq_zero
          simpa using h2.symm
        subst this
        exact ⟨b, rfl, by simpa using hab, rfl⟩
      | cons a' as' =>
        have hb : b = a' := h4 0 b a' rfl rfl
        have hl : (a' :: as').length = bs.length := by simpa using h2
        obtain ⟨zl, e1, e2, e3⟩ := ih bs ⟨by simp, hl, fun i x y hx hy => h3 (i + 1) x y hx hy,
          fun i x y hx hy => h4 (i + 1) x y hx hy⟩
        refine ⟨zl, ?_, ?_, ?_⟩
        · cases bs with
          | nil => simp at hl
          | cons c cs => simpa using e1
        · rw [List.cons_append, List.pairwise_cons]
          refine ⟨?_, e2⟩
          intro x hx
          rw [List.cons_append, List.pairwise_cons] at e2
          rcases List.mem_cons.1 (by simpa using hx : x ∈ a' :: (as' ++ [zl])) with rfl | hx
          · rw [← hb]; exact hab
          · exact (hb ▸ hab).trans (e2.1 x hx)
        · rw [e3, hb]
          rfl

theorem contiguous_minmax {z0 z1 : List ℚ} (h : Contiguous z0 z1) :
    ∃ zf zl, z0.head? = some zf ∧ z0.min? = some zf ∧ z1.max? = some zl ∧
      z1.getLast? = some zl ∧ zf < zl ∧ (z0 ++ [zl]).Pairwise (· < ·) ∧
      z1 = (z0 ++ [zl]).tail := by
  obtain ⟨zl, e1, e2, e3⟩ := contiguous_knots z0 z1 h
  cases z0 with
  | nil => exact absurd rfl h.1
  | cons a as =>
    rw [List.cons_append, List.pairwise_cons] at e2
    have hz1 : z1 = as ++ [zl] := by rw [e3]; rfl
    refine ⟨a, zl, rfl, ?_, ?_, e1, e2.1 zl (by simp), ?_, e3⟩
    · rw [List.min?_eq_some_iff]
      refine ⟨by simp, ?_⟩
      intro b hb
      rcases List.mem_cons.1 hb with rfl | hb
      · exact le_rfl
      · exact (e2.1 b (by simp [hb])).le
    · rw [List.max?_eq_some_iff, hz1]
      refine ⟨by simp, ?_⟩
      intro b hb
      rcases List.mem_append.1 hb with hb | hb
      · have := (List.pairwise_append.1 e2.2).2.2 b hb zl (by simp)
        exact this.le
      · simp at hb; exact hb.le
    · rw [List.cons_append, List.pairwise_cons]; exact e2

theorem buildKnots_ok (xs : List ℚ) : ∀ bs as : List RGB, xs.length ≤ bs.length →
    xs.length ≤ as.length → buildKnots xs bs as =
      .ok ((xs.zip (bs.zip as)).map (fun t => ⟨t.1, scale255 t.2.1, scale255 t.2.2⟩)) := by
  induction xs with
  | nil => intro bs as _ _; rfl
  | cons x xs ih =>
    intro bs as h1 h2
    cases bs with
    | nil => simp at h1
    | cons b bs =>
      cases as with
      | nil => simp at h2
      | cons a as =>
        rw [buildKnots, ih bs as (by simpa using h1) (by simpa using h2)]
        rfl

/-- The four lists have the same length. -/
def SameLengths (s : Segments) : Prop :=
  s.z0.length = s.z1.length ∧ s.z1.length = s.rgb0.length ∧ s.rgb0.length = s.rgb1.length

/-- C28 (partial): lists of equal non-zero length are accepted. ConsistentLengthError is raised
exactly when every two neighbouring lists have different lengths, in particular never for equal
lengths. Missing: other unequal lengths are accepted, see `C28_unequal_accepted_violated`. -/
theorem C28_lengths_partial (s : Segments) (resolution : Option ℚ) (isLog : Bool) :
    (SameLengths s → s.z0 ≠ [] → ∃ p, construct s resolution isLog = .ok p) ∧
    (construct s resolution isLog = .error .consistentLength ↔
      s.z0.length ≠ s.z1.length ∧ s.z1.length ≠ s.rgb0.length ∧
        s.rgb0.length ≠ s.rgb1.length) := by
  constructor
  · rintro ⟨h1, h2, h3⟩ hne
    obtain ⟨vmin, hmin⟩ := Option.isSome_iff_exists.1 (List.isSome_min?_of_ne_nil hne)
    have hne1 : s.z1 ≠ [] := by
      intro hc; rw [hc] at h1; exact hne (List.eq_nil_of_length_eq_zero h1)
    obtain ⟨vmax, hmax⟩ := Option.isSome_iff_exists.1 (List.isSome_max?_of_ne_nil hne1)
    unfold construct
    have : lengthsRejected s = false := by simp [lengthsRejected, h1]
    rw [this]
    simp only [Bool.false_eq_true, if_false, hmin, hmax, List.getLast?_eq_some_getLast hne1]
    rw [buildKnots_ok]
    · exact ⟨_, rfl⟩
    · simp; omega
    · simp; omega
  · have hk : ∀ xs bs as, buildKnots xs bs as ≠ .error .consistentLength := by
      intro xs
      induction xs with
      | nil => intro bs as; simp [buildKnots]
      | cons x xs ih =>
        intro bs as
        cases bs with
        | nil => simp [buildKnots]
        | cons b bs =>
          cases as with
          | nil => simp [buildKnots]
          | cons a as =>
            rw [buildKnots]
            have := ih bs as
            cases h : buildKnots xs bs as with
            | ok ks => simp
            | error e => rw [h] at this; simpa using this
    unfold construct
    by_cases hr : lengthsRejected s = true
    · rw [if_pos hr]
      unfold lengthsRejected at hr
      simp only [Bool.and_eq_true, bne_iff_ne, ne_eq] at hr
      simp only [true_iff]
      tauto
    · rw [if_neg hr]
      have hr2 : ¬ (s.z0.length ≠ s.z1.length ∧ s.z1.length ≠ s.rgb0.length ∧
          s.rgb0.length ≠ s.rgb1.length) := by
        intro hc
        apply hr
        unfold lengthsRejected
        simp only [Bool.and_eq_true, bne_iff_ne, ne_eq]
        tauto
      simp only [hr2, iff_false]
      split
      · split
        · rename_i e he
          intro hc
          cases hc
          exact hk _ _ _ he
        · simp
      · simp

theorem exists_ok {ε α : Type} (x : Except ε α) (h : x.isOk = true) : ∃ p, x = .ok p := by
  cases x with
  | ok p => exact ⟨p, rfl⟩
  | error e => cases h

/-- C28 violated: lists of lengths 2, 2, 3, 2 are accepted, and so are 2, 1, 2, 2. -/
theorem C28_unequal_accepted_violated :
    (∃ s p, s.z0.length = 2 ∧ s.z1.length = 2 ∧ s.rgb0.length = 3 ∧ s.rgb1.length = 2 ∧
      construct s none false = .ok p) ∧
    (∃ s p, s.z0.length = 2 ∧ s.z1.length = 1 ∧ s.rgb0.length = 2 ∧ s.rgb1.length = 2 ∧
      construct s none false = .ok p) := by
  obtain ⟨p, hp⟩ := exists_ok (construct ⟨[0, 1], [1, 2], [(0, 0, 0), (9, 9, 9), (5, 5, 5)],
    [(9, 9, 9), (255, 0, 0)]⟩ none false) (by decide +kernel)
  obtain ⟨q, hq⟩ := exists_ok (construct ⟨[0, 1], [2], [(0, 0, 0), (9, 9, 9)],
    [(9, 9, 9), (255, 0, 0)]⟩ none false) (by decide +kernel)
  exact ⟨⟨_, p, rfl, rfl, rfl, rfl, hp⟩, ⟨_, q, rfl, rfl, rfl, rfl, hq⟩⟩

theorem construct_contiguous (s : Segments) (resolution : Option ℚ) (isLog : Bool)
    (hc : Contiguous s.z0 s.z1) (h0 : s.rgb0.length = s.z0.length)
    (h1 : s.rgb1.length = s.z0.length) :
    ∃ zf zl p, s.z0.head? = some zf ∧ s.z1.getLast? = some zl ∧ zf < zl ∧
      (s.z0 ++ [zl]).Pairwise (· < ·) ∧ s.z1 = (s.z0 ++ [zl]).tail ∧
      construct s resolution isLog = .ok p ∧ p.isLog = isLog ∧ p.vmin = zf ∧ p.vmax = zl ∧
      p.numcolors = numColors zf zl resolution ∧
      p.knots = ((s.z0 ++ [zl]).zip ((dummyB :: s.rgb1).zip (s.rgb0 ++ [dummyE]))).map
        (fun t => ⟨(t.1 - zf) / (zl - zf), scale255 t.2.1, scale255 t.2.2⟩) := by
  obtain ⟨zf, zl, e1, e2, e3, e4, e5, e6, e7⟩ := contiguous_minmax hc
  have hrej : lengthsRejected s = false := by simp [lengthsRejected, hc.2.1]
  refine ⟨zf, zl, ⟨isLog, zf, zl, _, numColors zf zl resolution⟩, e1, e4, e5, e6, e7, ?_, rfl, rfl,
    rfl, rfl, rfl⟩
  unfold construct
  rw [hrej]
  simp only [Bool.false_eq_true, if_false, e2, e3, e4]
  rw [buildKnots_ok]
  · simp only [Except.ok.injEq, Palette.mk.injEq, true_and, and_true]
    rw [show s.z0.map (fun z => (z - zf) / (zl - zf)) ++ [(zl - zf) / (zl - zf)] =
      (s.z0 ++ [zl]).map (fun z => (z - zf) / (zl - zf)) by simp, List.zip_map_left, List.map_map]
    rfl
  · simp; omega
  · simp; omega

theorem zip3_getElem {α β γ : Type} (as : List α) (bs : List β) (cs : List γ) (i : ℕ) (a : α)
    (b : β) (c : γ) (ha : as[i]? = some a) (hb : bs[i]? = some b) (hc : cs[i]? = some c) :
    (as.zip (bs.zip cs))[i]? = some (a, b, c) := by
  rw [List.getElem?_zip_eq_some, List.getElem?_zip_eq_some]
  exact ⟨ha, hb, hc⟩

/-- All three channels are within 0..255. -/
def Within255 (c : RGB) : Prop :=
  (0 ≤ c.1 ∧ c.1 ≤ 255) ∧ (0 ≤ c.2.1 ∧ c.2.1 ≤ 255) ∧ (0 ≤ c.2.2 ∧ c.2.2 ≤ 255)

/-- All three channels are within 0..1. -/
def Within1 (c : RGB) : Prop :=
  (0 ≤ c.1 ∧ c.1 ≤ 1) ∧ (0 ≤ c.2.1 ∧ c.2.1 ≤ 1) ∧ (0 ≤ c.2.2 ∧ c.2.2 ≤ 1)

theorem within1_scale {c : RGB} (h : Within255 c) : Within1 (scale255 c) := by
  obtain ⟨⟨a, b⟩, ⟨c, d⟩, ⟨e, f⟩⟩ := h
  unfold scale255 Within1
  refine ⟨⟨?_, ?_⟩, ⟨?_, ?_⟩, ⟨?_, ?_⟩⟩
  all_goals simp only
  all_goals first | positivity | (rw [div_le_one (by norm_num)]; assumption)

/-- C29: for contiguous ascending ranges with one start and one end colour each, the knots of the
colour map start at 0, end at 1 and increase; knot `i` leaves with start colour `i` and knot `i+1`
is reached with end colour `i`, each channel divided by 255 and so within 0..1; the colour count is
at least 256 and fine enough for the requested resolution. -/
theorem C29_knots (s : Segments) (resolution : Option ℚ) (isLog : Bool)
    (hc : Contiguous s.z0 s.z1) (h0 : s.rgb0.length = s.z0.length)
    (h1 : s.rgb1.length = s.z0.length) :
    ∃ p, construct s resolution isLog = .ok p ∧
      p.knots.length = s.z0.length + 1 ∧
      p.knots.head?.map (·.x) = some 0 ∧ p.knots.getLast?.map (·.x) = some 1 ∧
      p.knots.Pairwise (fun a b => a.x < b.x) ∧
      (∀ (i : ℕ) (k : Knot) (c : RGB), p.knots[i]? = some k → s.rgb0[i]? = some c → k.after = scale255 c) ∧
      (∀ (i : ℕ) (k : Knot) (c : RGB), p.knots[i + 1]? = some k → s.rgb1[i]? = some c → k.before = scale255 c) ∧
      ((∀ c ∈ s.rgb0 ++ s.rgb1, Within255 c) → ∀ (i : ℕ) (k : Knot), p.knots[i]? = some k →
        (i < s.z0.length → Within1 k.after) ∧ (0 < i → Within1 k.before)) ∧
      256 ≤ p.numcolors ∧
      (∀ r, resolution = some r → 0 < r → (p.vmax - p.vmin) / p.numcolors ≤ r) := by
  obtain ⟨zf, zl, p, e1, e2, e3, e4, e5, e6, e7, e8, e9, e10, e11⟩ :=
    construct_contiguous s resolution isLog hc h0 h1
  have hd : 0 < zl - zf := by linarith
  have hget : ∀ (i : ℕ) (k : Knot), p.knots[i]? = some k → ∃ z b a, (s.z0 ++ [zl])[i]? = some z ∧
      (dummyB :: s.rgb1)[i]? = some b ∧ (s.rgb0 ++ [dummyE])[i]? = some a ∧
      k = ⟨(z - zf) / (zl - zf), scale255 b, scale255 a⟩ := by
    intro i k hk
    rw [e11, List.getElem?_map, Option.map_eq_some_iff] at hk
    obtain ⟨⟨z, b, a⟩, ht, rfl⟩ := hk
    rw [List.getElem?_zip_eq_some, List.getElem?_zip_eq_some] at ht
    exact ⟨z, b, a, ht.1, ht.2.1, ht.2.2, rfl⟩
  have hafter : ∀ (i : ℕ) (k : Knot) (c : RGB), p.knots[i]? = some k → s.rgb0[i]? = some c → k.after = scale255 c := by
    intro i k c hk hcc
    obtain ⟨z, b, a, _, _, ha, rfl⟩ := hget i k hk
    obtain ⟨hi, _⟩ := List.getElem?_eq_some_iff.1 hcc
    rw [List.getElem?_append_left hi, hcc] at ha
    cases ha
    rfl
  have hbefore : ∀ (i : ℕ) (k : Knot) (c : RGB), p.knots[i + 1]? = some k → s.rgb1[i]? = some c →
      k.before = scale255 c := by
    intro i k c hk hcc
    obtain ⟨z, b, a, _, hb, _, rfl⟩ := hget _ k hk
    rw [List.getElem?_cons_succ, hcc] at hb
    cases hb
    rfl
  refine ⟨p, e6, ?_, ?_, ?_, ?_, hafter, hbefore, ?_, ?_, ?_⟩
  · rw [e11]
    simp
    omega
  · rw [e11]
    cases hz : s.z0 with
    | nil => rw [hz] at e1; cases e1
    | cons a as =>
      rw [hz] at e1; cases e1
      cases hr : s.rgb0 with
      | nil => rw [hr, hz] at h0; simp at h0
      | cons c cs => simp
  · have hlen : p.knots.length = s.z0.length + 1 := by rw [e11]; simp; omega
    rw [List.getLast?_eq_getElem?, hlen]
    simp only [Nat.add_sub_cancel]
    have : s.z0.length < p.knots.length := by omega
    obtain ⟨z, b, a, hz, _, _, hk⟩ := hget _ _ (List.getElem?_eq_getElem this)
    rw [List.getElem?_eq_getElem this, hk]
    rw [List.getElem?_append_right (le_refl _)] at hz
    simp at hz
    subst hz
    simp [hd.ne']
  · rw [List.pairwise_iff_getElem]
    intro i j hi hj hij
    obtain ⟨z, b, a, hz, _, _, hk⟩ := hget _ _ (List.getElem?_eq_getElem hi)
    obtain ⟨z', b', a', hz', _, _, hk'⟩ := hget _ _ (List.getElem?_eq_getElem hj)
    rw [hk, hk']
    simp only
    obtain ⟨hi', rfl⟩ := List.getElem?_eq_some_iff.1 hz
    obtain ⟨hj', rfl⟩ := List.getElem?_eq_some_iff.1 hz'
    have := List.pairwise_iff_getElem.1 e4 i j hi' hj' hij
    apply div_lt_div_of_pos_right _ hd
    linarith
  · intro hw i k hk
    constructor
    · intro hi
      have hi' : i < s.rgb0.length := by omega
      rw [hafter i k _ hk (List.getElem?_eq_getElem hi')]
      exact within1_scale (hw _ (List.mem_append_left _ (List.getElem_mem hi')))
    · intro hi
      obtain ⟨j, rfl⟩ : ∃ j, i = j + 1 := ⟨i - 1, by omega⟩
      have hlen : p.knots.length = s.z0.length + 1 := by rw [e11]; simp; omega
      obtain ⟨hjl, _⟩ := List.getElem?_eq_some_iff.1 hk
      have hj' : j < s.rgb1.length := by omega
      rw [hbefore j k _ hk (List.getElem?_eq_getElem hj')]
      exact within1_scale (hw _ (List.mem_append_right _ (List.getElem_mem hj')))
  · rw [e10]
    cases resolution <;> simp [numColors]
  · rintro r rfl hr
    rw [e8, e9, e10]
    unfold numColors
    have h256 : (0 : ℚ) < ((max 256 ⌈(zl - zf) / r⌉ : ℤ) : ℚ) := by
      exact_mod_cast lt_of_lt_of_le (by norm_num : (0 : ℤ) < 256) (le_max_left _ _)
    rw [div_le_iff₀ h256]
    have : (zl - zf) / r ≤ ((max 256 ⌈(zl - zf) / r⌉ : ℤ) : ℚ) :=
      (Int.le_ceil _).trans (by exact_mod_cast le_max_right _ _)
    rw [div_le_iff₀ hr] at this
    linarith

/-- A channel of a colour. -/
def IsChannel (ch : RGB → ℚ) : Prop :=
  ch = (fun c => c.1) ∨ ch = (fun c => c.2.1) ∨ ch = (fun c => c.2.2)

/-- C85: a data value inside range `i` is looked up between knots `i` and `i + 1`, and linear
interpolation between those knots is linear interpolation between the range's start and end colours
(divided by 255). -/
theorem C85_interpolates (s : Segments) (resolution : Option ℚ) (log : ℚ → ℚ)
    (hc : Contiguous s.z0 s.z1) (h0 : s.rgb0.length = s.z0.length)
    (h1 : s.rgb1.length = s.z0.length) (p : Palette)
    (hp : construct s resolution false = .ok p) (i : ℕ) (a b : ℚ) (ca cb : RGB)
    (ha : s.z0[i]? = some a) (hb : s.z1[i]? = some b) (hca : s.rgb0[i]? = some ca)
    (hcb : s.rgb1[i]? = some cb) (z : ℚ) (hz1 : a ≤ z) (hz2 : z ≤ b) (ch : RGB → ℚ)
    (hch : IsChannel ch) :
    ∃ k k', p.knots[i]? = some k ∧ p.knots[i + 1]? = some k' ∧
      k.x ≤ normValue log p z ∧ normValue log p z ≤ k'.x ∧
      lerp k.x k'.x (ch k.after) (ch k'.before) (normValue log p z) =
        lerp a b (ch ca) (ch cb) z / 255 := by
  obtain ⟨zf, zl, p', e1, e2, e3, e4, e5, e6, e7, e8, e9, e10, e11⟩ :=
    construct_contiguous s resolution false hc h0 h1
  rw [e6] at hp
  cases hp
  have hd : 0 < zl - zf := by linarith
  have hab : a < b := hc.2.2.1 i a b ha hb
  have hi : i < s.z0.length := (List.getElem?_eq_some_iff.1 ha).1
  have hzs : (s.z0 ++ [zl])[i]? = some a := by rw [List.getElem?_append_left hi, ha]
  have hzs' : (s.z0 ++ [zl])[i + 1]? = some b := by
    rw [e5] at hb
    rwa [List.getElem?_tail] at hb
  obtain ⟨b0, hb0⟩ : ∃ b0, (dummyB :: s.rgb1)[i]? = some b0 :=
    ⟨_, List.getElem?_eq_getElem (by simp; omega)⟩
  obtain ⟨a1, ha1⟩ : ∃ a1, (s.rgb0 ++ [dummyE])[i + 1]? = some a1 :=
    ⟨_, List.getElem?_eq_getElem (by simp; omega)⟩
  have hk : p.knots[i]? = some ⟨(a - zf) / (zl - zf), scale255 b0, scale255 ca⟩ := by
    rw [e11, List.getElem?_map, zip3_getElem _ _ _ i a b0 ca hzs hb0
      (by rw [List.getElem?_append_left (by omega), hca])]
    rfl
  have hk' : p.knots[i + 1]? = some ⟨(b - zf) / (zl - zf), scale255 cb, scale255 a1⟩ := by
    rw [e11, List.getElem?_map, zip3_getElem _ _ _ (i + 1) b cb a1 hzs'
      (by rw [List.getElem?_cons_succ, hcb]) ha1]
    rfl
  refine ⟨_, _, hk, hk', ?_, ?_, ?_⟩
  · unfold normValue
    rw [e7, e8, e9]
    simp only [Bool.false_eq_true, if_false]
    apply div_le_div_of_nonneg_right _ hd.le
    linarith
  · unfold normValue
    rw [e7, e8, e9]
    simp only [Bool.false_eq_true, if_false]
    apply div_le_div_of_nonneg_right _ hd.le
    linarith
  · unfold normValue lerp
    rw [e7, e8, e9]
    simp only [Bool.false_eq_true, if_false]
    have e : ((z - zf) / (zl - zf) - (a - zf) / (zl - zf)) /
        ((b - zf) / (zl - zf) - (a - zf) / (zl - zf)) = (z - a) / (b - a) := by
      have hab' : b - a ≠ 0 := by linarith
      have : (b - zf) / (zl - zf) - (a - zf) / (zl - zf) = (b - a) / (zl - zf) := by ring
      have h2 : (z - zf) / (zl - zf) - (a - zf) / (zl - zf) = (z - a) / (zl - zf) := by ring
      rw [this, h2]
      field_simp
    rw [e]
    rcases hch with rfl | rfl | rfl <;> unfold scale255 <;> simp only <;> ring

example : Contiguous presetMMI.z0 presetMMI.z1 ∧
    presetMMI.rgb0.length = presetMMI.z0.length ∧
    presetMMI.rgb1.length = presetMMI.z0.length := by
  refine ⟨⟨by simp [presetMMI], rfl, ?_, ?_⟩, rfl, rfl⟩ <;>
  · intro i a b ha hb
    have hi : i < 10 := (List.getElem?_eq_some_iff.1 ha).1
    interval_cases i <;> simp [presetMMI] at ha hb <;> linarith

/-! ### C30: presets -/

/-- A table is well formed: equal lengths, contiguous ascending ranges, channels within 0..255. -/
def WellFormed (s : Segments) : Prop :=
  SameLengths s ∧ Contiguous s.z0 s.z1 ∧ ∀ c ∈ s.rgb0 ++ s.rgb1, Within255 c

instance (c : RGB) : Decidable (Within255 c) := by unfold Within255; infer_instance

/-- C30 (partial): the `mmi` and `pop` presets are well formed. Missing: `shaketopo`, see
`C30_shaketopo_violated`. -/
theorem C30_presets_partial (name : String) (s : Segments) (r : ℚ) (h : (name, s, r) ∈ presets)
    (hn : name ≠ "shaketopo") : WellFormed s ∧ 0 < r := by
  simp only [presets, List.mem_cons, List.not_mem_nil, or_false, Prod.mk.injEq] at h
  rcases h with ⟨rfl, rfl, rfl⟩ | ⟨rfl, rfl, rfl⟩ | ⟨rfl, rfl, rfl⟩
  · refine ⟨⟨⟨rfl, rfl, rfl⟩, ⟨by simp [presetMMI], rfl, ?_, ?_⟩, by decide +kernel⟩, by norm_num⟩ <;>
    · intro i a b ha hb
      have hi : i < 10 := (List.getElem?_eq_some_iff.1 ha).1
      interval_cases i <;> simp [presetMMI] at ha hb <;> linarith
  · refine ⟨⟨⟨rfl, rfl, rfl⟩, ⟨by simp [presetPOP], rfl, ?_, ?_⟩, by decide +kernel⟩, by norm_num⟩ <;>
    · intro i a b ha hb
      have hi : i < 8 := (List.getElem?_eq_some_iff.1 ha).1
      interval_cases i <;> simp [presetPOP] at ha hb <;> linarith
  · exact absurd rfl hn

/-- C30 violated: the `shaketopo` preset has 11 lower and 10 upper bounds. -/
theorem C30_shaketopo_violated : ∃ s r, ("shaketopo", s, r) ∈ presets ∧ ¬ WellFormed s ∧
    s.z0.length = 11 ∧ s.z1.length = 10 :=
  ⟨presetTOPO, 1, by simp [presets], fun h => absurd h.1.1 (by decide), rfl, rfl⟩

/-- C30: nevertheless every preset loads, with knots from 0 to 1 in increasing order; any other name
is rejected. -/
theorem C30_presets_load (name : String) :
    (name ∈ ["mmi", "pop", "shaketopo"] → ∃ p, fromPreset name = .ok p ∧
      p.knots.head?.map (·.x) = some 0 ∧ p.knots.getLast?.map (·.x) = some 1 ∧
      p.knots.Pairwise (fun a b => a.x < b.x)) ∧
    (name ∉ ["mmi", "pop", "shaketopo"] → fromPreset name = .error .unsupportedArgument) := by
  have key : ∀ x : Except Colors.Err Palette, (match x with
      | .ok p => decide (p.knots.head?.map (·.x) = some 0 ∧ p.knots.getLast?.map (·.x) = some 1 ∧
          p.knots.Pairwise (fun a b => a.x < b.x))
      | .error _ => false) = true → ∃ p, x = .ok p ∧
      p.knots.head?.map (·.x) = some 0 ∧ p.knots.getLast?.map (·.x) = some 1 ∧
      p.knots.Pairwise (fun a b => a.x < b.x) := by
    intro x hx
    cases x with
    | error e => cases hx
    | ok p => exact ⟨p, rfl, of_decide_eq_true hx⟩
  constructor
  · intro h
    simp only [List.mem_cons, List.not_mem_nil, or_false] at h
    rcases h with rfl | rfl | rfl
    · exact key _ (by decide +kernel)
    · exact key _ (by decide +kernel)
    · exact key _ (by decide +kernel)
  · intro h
    simp only [List.mem_cons, List.not_mem_nil, or_false, not_or] at h
    obtain ⟨h1, h2, h3⟩ := h
    unfold fromPreset presets
    have g1 : (name == "mmi") = false := by simpa using h1
    have g2 : (name == "pop") = false := by simpa using h2
    have g3 : (name == "shaketopo") = false := by simpa using h3
    simp [List.lookup_cons, g1, g2, g3]

/-! ### C31: colour formats -/

theorem hex_table : ∀ n < 256, ∃ a b, (format02x n).map upper = [a, b] ∧
    ∃ x y, hexValue a = some x ∧ hexValue b = some y ∧ 16 * x + y = n := by
  have h : ∀ n < 256, (match (format02x n).map upper with
      | [a, b] => (match hexValue a, hexValue b with
        | some x, some y => decide (16 * x + y = n)
        | _, _ => false)
      | _ => false) = true := by decide +kernel
  intro n hn
  have := h n hn
  split at this
  · rename_i a b heq
    split at this
    · rename_i x y hx hy
      exact ⟨a, b, heq, x, y, hx, hy, of_decide_eq_true this⟩
    · cases this
  · cases this

theorem trunc255 (c : ℚ) (h0 : 0 ≤ c) (h1 : c ≤ 1) :
    Py.trunc (c * 255) = ⌊c * 255⌋ ∧ 0 ≤ ⌊c * 255⌋ ∧ ⌊c * 255⌋ ≤ 255 := by
  have hc : 0 ≤ c * 255 := by positivity
  refine ⟨by unfold Py.trunc; rw [if_pos hc], Int.floor_nonneg.2 hc, ?_⟩
  have : c * 255 < ((256 : ℤ) : ℚ) := by push_cast; linarith
  have := Int.floor_lt.2 this
  omega

/-- C31 (partial): for a colour `(r, g, b, a)` with channels within 0..1, the default format returns
it, `255` returns the channels times 255 rounded down, `array` on an array value returns the same
numbers, `hex` is an HTML colour that reads back as the first three of them, and any other format
raises AttributeError. Missing: `array` on a scalar value, see `C31_scalar_array_violated`. -/
theorem C31_formats_partial (r g b a : ℚ)
    (hr : 0 ≤ r ∧ r ≤ 1) (hg : 0 ≤ g ∧ g ≤ 1) (hb : 0 ≤ b ∧ b ≤ 1) (ha : 0 ≤ a ∧ a ≤ 1)
    (isScalar : Bool) (format : String) :
    (format = "mlab" → getDataColor isScalar [r, g, b, a] format = .ok (.floats [r, g, b, a])) ∧
    (format = "255" → getDataColor isScalar [r, g, b, a] format =
      .ok (.ints [⌊r * 255⌋, ⌊g * 255⌋, ⌊b * 255⌋, ⌊a * 255⌋])) ∧
    (format = "array" → isScalar = false → getDataColor isScalar [r, g, b, a] format =
      .ok (.ints [⌊r * 255⌋, ⌊g * 255⌋, ⌊b * 255⌋, ⌊a * 255⌋])) ∧
    (format = "hex" → ∃ text x y z, getDataColor isScalar [r, g, b, a] format = .ok (.text text) ∧
      readHtmlColor text = some (x, y, z) ∧ (x : ℤ) = ⌊r * 255⌋ ∧ (y : ℤ) = ⌊g * 255⌋ ∧
      (z : ℤ) = ⌊b * 255⌋) ∧
    (getDataColor isScalar [r, g, b, a] format = .error .attributeError ↔
      format ∉ ["mlab", "255", "array", "hex"]) := by
  obtain ⟨r1, r2, r3⟩ := trunc255 r hr.1 hr.2
  obtain ⟨g1, g2, g3⟩ := trunc255 g hg.1 hg.2
  obtain ⟨b1, b2, b3⟩ := trunc255 b hb.1 hb.2
  obtain ⟨a1, a2, a3⟩ := trunc255 a ha.1 ha.2
  refine ⟨?_, ?_, ?_, ?_, ?_⟩
  · rintro rfl; simp [getDataColor]
  · rintro rfl; simp [getDataColor, r1, g1, b1, a1]
  · rintro rfl rfl
    simp only [getDataColor, List.map_cons, List.map_nil, r1, g1, b1, a1]
    rw [if_neg (by decide), if_neg (by decide), if_pos trivial, if_neg (by decide)]
    rw [Int.emod_eq_of_lt r2 (by omega), Int.emod_eq_of_lt g2 (by omega),
      Int.emod_eq_of_lt b2 (by omega), Int.emod_eq_of_lt a2 (by omega)]
  · rintro rfl
    obtain ⟨c1, c2, e1, x1, y1, f1, f2, s1⟩ := hex_table ⌊r * 255⌋.toNat (by omega)
    obtain ⟨c3, c4, e2, x2, y2, f3, f4, s2⟩ := hex_table ⌊g * 255⌋.toNat (by omega)
    obtain ⟨c5, c6, e3, x3, y3, f5, f6, s3⟩ := hex_table ⌊b * 255⌋.toNat (by omega)
    refine ⟨['#', c1, c2, c3, c4, c5, c6], 16 * x1 + y1, 16 * x2 + y2, 16 * x3 + y3, ?_, ?_,
      by omega, by omega, by omega⟩
    · simp only [getDataColor, List.map_cons, List.map_nil, r1, g1, b1, List.map_append, e1, e2, e3]
      rw [if_neg (by decide), if_neg (by decide), if_neg (by decide), if_pos trivial]
      rfl
    · simp [readHtmlColor, f1, f2, f3, f4, f5, f6]
  · unfold getDataColor
    by_cases h1 : format = "mlab"
    · simp [h1]
    · by_cases h2 : format = "255"
      · simp [h2]
      · by_cases h3 : format = "array"
        · rw [if_neg h1, if_neg h2, if_pos h3]
          rw [h3]
          have : "array" ∈ ["mlab", "255", "array", "hex"] := by decide
          simp only [this, not_true, iff_false]
          split_ifs <;> exact fun hc => by cases hc
        · by_cases h4 : format = "hex"
          · simp [h4]
          · simp [h1, h2, h3, h4]

/-- C31 violated: for a scalar value the `array` format returns 1020 numbers, 255 copies of the
unscaled colour cut to integers, instead of the four numbers of the `255` format. -/
theorem C31_scalar_array_violated (r g b a : ℚ) : ∃ cs,
    getDataColor true [r, g, b, a] "array" = .ok (.ints cs) ∧ cs.length = 1020 ∧
    ∀ ds, getDataColor true [r, g, b, a] "255" = .ok (.ints ds) → cs ≠ ds := by
  have hlen : (((List.replicate 255 [r, g, b, a]).flatten).map
      (fun c => Py.trunc c % 256)).length = 1020 := by
    rw [List.length_map, List.length_flatten, List.map_replicate, List.sum_replicate]
    rfl
  refine ⟨((List.replicate 255 [r, g, b, a]).flatten).map (fun c => Py.trunc c % 256), ?_, ?_, ?_⟩
  · unfold getDataColor
    rw [if_neg (by decide), if_neg (by decide), if_pos rfl, if_pos rfl]
  · exact hlen
  · intro ds hds hc
    have h1 : ds.length = 4 := by
      unfold getDataColor at hds
      rw [if_neg (by decide), if_pos rfl] at hds
      cases hds; rfl
    rw [← hc, hlen] at h1
    cases h1

example : getDataColor true [1, 1 / 2, 0, 1] "hex" = .ok (.text "#FF7F00".toList) := by
  decide +kernel

/-! ### C86: palettes made from a colour map -/

/-- C86: for contiguous ranges `fromColorMap` succeeds; the knots lie where C29 says, and the colours
on both sides of every interior knot are equal, within 1/510 of the colour map's own colour at the
normalised position of the bound. Unequal lengths raise ConsistentLengthError. -/
theorem C86_from_color_map (z0 z1 : List ℚ) (cmap : ℚ → RGB) (resolution : Option ℚ)
    (isLog : Bool) :
    (z0.length ≠ z1.length → fromColorMap z0 z1 cmap resolution isLog =
      .error .consistentLength) ∧
    (Contiguous z0 z1 → ∃ p zf zl, fromColorMap z0 z1 cmap resolution isLog = .ok p ∧
      z0.head? = some zf ∧ z1.getLast? = some zl ∧
      ∀ (i : ℕ) (k k' : Knot) (b : ℚ) (ch : RGB → ℚ), IsChannel ch → z1[i]? = some b →
        p.knots[i]? = some k → p.knots[i + 1]? = some k' →
        (z0[i + 1]? = some b → k'.before = k'.after) ∧
        k'.x = (b - zf) / (zl - zf) ∧
        |ch k'.before - ch (cmap ((b - zf) / (zl - zf)))| ≤ 1 / 510) := by
  constructor
  · intro h
    unfold fromColorMap
    rw [if_pos h]
  · intro hc
    obtain ⟨zf, zl, e1, e2, e3, e4, e5, e6, e7⟩ := contiguous_minmax hc
    set color : ℚ → RGB := fun z =>
      (((Py.round ((cmap ((z - zf) / (zl - zf))).1 * 255) : ℤ) : ℚ),
       ((Py.round ((cmap ((z - zf) / (zl - zf))).2.1 * 255) : ℤ) : ℚ),
       ((Py.round ((cmap ((z - zf) / (zl - zf))).2.2 * 255) : ℤ) : ℚ)) with hcolor
    obtain ⟨zf', zl', p, f1, f2, f3, f4, f5, f6, f7, f8, f9, f10, f11⟩ :=
      construct_contiguous ⟨z0, z1, z0.map color, z1.map color⟩ resolution isLog hc (by simp)
        (by simp [hc.2.1])
    simp only at f1 f2 f4 f5
    rw [e1] at f1; cases f1
    rw [e4] at f2; cases f2
    have hfrom : fromColorMap z0 z1 cmap resolution isLog = .ok p := by
      unfold fromColorMap
      rw [if_neg (by simp [hc.2.1])]
      simp only [e2, e3]
      exact f6
    refine ⟨p, zf, zl, hfrom, e1, e4, ?_⟩
    intro i k k' b ch hch hb hk hk'
    have hi : i < z1.length := (List.getElem?_eq_some_iff.1 hb).1
    rw [f11, List.getElem?_map, Option.map_eq_some_iff] at hk'
    obtain ⟨⟨z, bc, ac⟩, ht, rfl⟩ := hk'
    rw [List.getElem?_zip_eq_some, List.getElem?_zip_eq_some] at ht
    obtain ⟨t1, t2, t3⟩ := ht
    simp only at t1 t2 t3
    have hz : z = b := by
      rw [f5, List.getElem?_tail] at hb
      rw [hb] at t1
      exact (Option.some.inj t1).symm
    subst hz
    rw [List.getElem?_cons_succ, List.getElem?_map, hb] at t2
    have hbc : bc = color z := by simpa using t2.symm
    subst hbc
    refine ⟨?_, rfl, ?_⟩
    · intro hn
      have hi2 : i + 1 < (z0.map color).length := by
        simpa using (List.getElem?_eq_some_iff.1 hn).1
      rw [List.getElem?_append_left hi2, List.getElem?_map, hn] at t3
      have : ac = color z := by simpa using t3.symm
      rw [this]
    · have hround : ∀ q : ℚ, |((Py.round (q * 255) : ℤ) : ℚ) / 255 - q| ≤ 1 / 510 := by
        intro q
        have := Py.round_abs_sub_le (q * 255)
        rw [abs_le] at this ⊢
        obtain ⟨h1, h2⟩ := this
        constructor <;> linarith
      rcases hch with rfl | rfl | rfl <;> exact hround _

end Verif.Props
