import Verif.Spec.Polygon
import Mathlib.Data.List.Rotate
import Mathlib.Data.List.Forall2
import Mathlib.Tactic.Ring
import Mathlib.Tactic.Linarith

/-!
# Rupture polygons: C60, C61, C62
-/

namespace Verif.Props
open Verif.Factory Verif.Spec

theorem forall₂_get {α β : Type} {R : α → β → Prop} {l₁ : List α} {l₂ : List β} :
    List.Forall₂ R l₁ l₂ ↔ l₁.length = l₂.length ∧ ∀ (i : ℕ) a b, l₁[i]? = some a → l₂[i]? = some b → R a b := by
  constructor
  · intro h
    refine ⟨h.length_eq, ?_⟩
    induction h with
    | nil => intro i a b ha; simp at ha
    | cons h _ ih =>
      intro i a b ha hb
      cases i with
      | zero => simp at ha hb; rw [← ha, ← hb]; exact h
      | succ i => simp at ha hb; exact ih i a b ha hb
  · rintro ⟨h, hr⟩
    induction l₁ generalizing l₂ with
    | nil => cases l₂ with
      | nil => exact .nil
      | cons => simp at h
    | cons a l₁ ih =>
      cases l₂ with
      | nil => simp at h
      | cons b l₂ =>
        exact .cons (hr 0 a b rfl rfl) (ih (by simpa using h) (fun i x y hx hy => hr (i + 1) x y hx hy))

/-- A closed polygon is its points and the first again. -/
theorem closed_form {p : List Vert} (hp : p ≠ []) : p = p.dropLast ++ [p.getLast hp] :=
  (List.dropLast_append_getLast hp).symm

theorem pairs_iff {p : List Vert} :
    pairsOrdered p = true ↔
      ∀ j, j < (p.length - 1) / 2 → (vertAt p j).depth < (vertAt p (p.length - (j + 2))).depth := by
  unfold pairsOrdered nPairs
  simp

theorem vertAt_dropLast {p : List Vert} {i : ℕ} (h : i < p.length - 1) :
    p.dropLast[i]? = some (vertAt p i) := by
  unfold vertAt
  rw [List.getElem?_dropLast, if_pos h, List.getD_eq_getElem?_getD,
    List.getElem?_eq_getElem (by omega)]
  rfl

/-- **C60.** A polygon is accepted if and only if it is valid, and else `ValueError` is raised. -/
theorem C60_check_polygon (p : List Vert) :
    (checkPolygon p = .ok () ↔ ValidPolygon p) ∧
    (¬ ValidPolygon p → checkPolygon p = .error .valueError) := by
  have main : checkPolygon p = .ok () ↔ ValidPolygon p := by
    unfold checkPolygon
    by_cases h1 : p.length % 2 = 0
    · rw [if_pos h1]
      refine ⟨fun h => by simp at h, ?_⟩
      rintro ⟨hne, -, top, bottom, hd, hf⟩
      have h2 := congrArg List.length hd
      have h3 := hf.length_eq
      simp at h2
      have : 0 < p.length := List.length_pos_iff.2 hne
      omega
    · rw [if_neg h1]
      have hlen : p.length % 2 = 1 := by omega
      have hne : p ≠ [] := by rintro rfl; simp at hlen
      by_cases h2 : p.head? ≠ p.getLast?
      · rw [if_pos h2]
        exact ⟨fun h => by simp at h, fun h => absurd h.2.1 h2⟩
      · rw [if_neg h2]
        push Not at h2
        have h3 : (pairsOrdered p = true) ↔ ValidPolygon p := by
          rw [pairs_iff]
          set m := (p.length - 1) / 2 with hm
          have hpm : p.length = 2 * m + 1 := by omega
          have hdl : p.dropLast.length = 2 * m := by simp; omega
          constructor
          · intro h
            refine ⟨hne, h2, p.dropLast.take m, (p.dropLast.drop m).reverse, by simp, ?_⟩
            rw [forall₂_get]
            refine ⟨by simp; omega, ?_⟩
            intro i a b ha hb
            have hi : i < m := by
              have := (List.getElem?_eq_some_iff.1 ha).1
              simp at this; omega
            rw [List.getElem?_take, if_pos hi, vertAt_dropLast (by omega)] at ha
            rw [List.getElem?_reverse (by simp; omega), List.getElem?_drop] at hb
            have : m + ((p.dropLast.drop m).length - 1 - i) = p.length - (i + 2) := by
              simp; omega
            rw [this, vertAt_dropLast (by omega)] at hb
            simp at ha hb
            rw [← ha, ← hb]
            exact h i hi
          · rintro ⟨-, -, top, bottom, hd, hf⟩ j hj
            rw [forall₂_get] at hf
            obtain ⟨hl, hr⟩ := hf
            have h4 : top.length = m := by
              have := congrArg List.length hd
              simp at this
              omega
            apply hr j
            · have := vertAt_dropLast (p := p) (i := j) (by omega)
              rw [hd, List.getElem?_append_left (by omega)] at this
              exact this
            · have := vertAt_dropLast (p := p) (i := p.length - (j + 2)) (by omega)
              rw [hd, List.getElem?_append_right (by omega), List.getElem?_reverse (by omega)] at this
              have e : bottom.length - 1 - (p.length - (j + 2) - top.length) = j := by omega
              rw [e] at this
              exact this
        by_cases h4 : pairsOrdered p = true
        · rw [if_pos h4]; simp [h3.1 h4]
        · rw [if_neg h4]; simpa using fun h => h4 (h3.2 h)
  refine ⟨main, fun h => ?_⟩
  have h1 : checkPolygon p ≠ .ok () := fun hh => h (main.1 hh)
  revert h1
  unfold checkPolygon
  by_cases a : p.length % 2 = 0
  · rw [if_pos a]; simp
  · rw [if_neg a]
    by_cases b : p.head? ≠ p.getLast?
    · rw [if_pos b]; simp
    · rw [if_neg b]
      by_cases c : pairsOrdered p = true
      · rw [if_pos c]; simp
      · rw [if_neg c]; simp

/-- A rupture of two quadrilaterals. -/
def twoQuads : List Vert :=
  [⟨0, 0, 0⟩, ⟨1, 0, 1⟩, ⟨2, 0, 0⟩, ⟨2, 0, 5⟩, ⟨1, 0, 6⟩, ⟨0, 0, 5⟩, ⟨0, 0, 0⟩]

example : checkPolygon twoQuads = .ok () ∧ checkPolygon twoQuads.tail = .error .valueError := by
  decide +kernel

/-! ### C61 -/

/-- A closed polygon is determined by its points without the last. -/
theorem closed_unique {p q : List Vert} (hp : 2 ≤ p.length) (hq : 2 ≤ q.length) (cp : Closed p)
    (cq : Closed q) (h : p.dropLast = q.dropLast) : p = q := by
  have form : ∀ p : List Vert, 2 ≤ p.length → Closed p → ∃ a l, p.dropLast = a :: l ∧ p = (a :: l) ++ [a] := by
    intro p hp cp
    match p, hp, cp with
    | a :: b :: l, _, cp =>
      refine ⟨a, (b :: l).dropLast, rfl, ?_⟩
      have h1 : (b :: l) ≠ [] := by simp
      have h2 : (a :: b :: l).getLast? = some ((b :: l).getLast h1) := by
        rw [List.getLast?_cons_cons]; exact List.getLast?_eq_getLast_of_ne_nil h1
      unfold Closed at cp
      rw [h2] at cp
      simp only [List.head?_cons, Option.some.injEq] at cp
      conv_lhs => rw [← List.dropLast_append_getLast h1]
      rw [← cp]; rfl
  obtain ⟨a, l, e, f⟩ := form p hp cp
  obtain ⟨a', l', e', f'⟩ := form q hq cq
  rw [e, e'] at h
  rw [f, f', h]
  injection h with h _
  rw [h]

/-- **C61.** A closed polygon of at least two points is rotated by one: the result is closed and has the
same points in the same cyclic order, one further; rotating as often as there are points gives the polygon
back. Any other list is refused. -/
theorem C61_rotate_polygon (p : List Vert) :
    (Closed p ∧ 2 ≤ p.length → ∃ q, rotatePolygon p = .ok q ∧ Closed q ∧ q.length = p.length ∧
      q.dropLast = p.dropLast.rotate 1) ∧
    (¬ (Closed p ∧ 2 ≤ p.length) → rotatePolygon p = .error .exception) ∧
    (Closed p ∧ 2 ≤ p.length →
      (Nat.repeat (fun r => r >>= rotatePolygon) (p.length - 1) (Except.ok p)) = .ok p) := by
  have rot : ∀ p : List Vert, Closed p ∧ 2 ≤ p.length → ∃ q, rotatePolygon p = .ok q ∧ Closed q ∧
      q.length = p.length ∧ q.dropLast = p.dropLast.rotate 1 := by
    rintro p ⟨hc, h2⟩
    unfold rotatePolygon
    rw [if_neg (not_not.2 (show p.head? = p.getLast? from hc))]
    have hdl : p.dropLast.length = p.length - 1 := by simp
    cases hd : p.dropLast with
    | nil => rw [hd] at hdl; simp at hdl; omega
    | cons a rest =>
      rw [hd] at hdl
      simp at hdl
      refine ⟨_, rfl, ?_, by simp; omega, ?_⟩
      · unfold Closed
        cases rest with
        | nil => simp
        | cons b rest =>
          rw [List.getLast?_append]; simp
      · rw [List.dropLast_concat]
        simp
  refine ⟨rot p, ?_, ?_⟩
  · intro h
    unfold rotatePolygon
    by_cases hc : p.head? ≠ p.getLast?
    · rw [if_pos hc]
    · rw [if_neg hc]
      push Not at hc
      have : p.dropLast = [] := by
        apply List.length_eq_zero_iff.1
        have : ¬ 2 ≤ p.length := fun h2 => h ⟨hc, h2⟩
        simp; omega
      rw [this]
  · rintro h
    have key : ∀ k, ∃ q, Nat.repeat (fun r => r >>= rotatePolygon) k (Except.ok p) = .ok q ∧ Closed q ∧
        q.length = p.length ∧ q.dropLast = p.dropLast.rotate k := by
      intro k
      induction k with
      | zero => exact ⟨p, rfl, h.1, rfl, by simp⟩
      | succ k ih =>
        obtain ⟨q, e, c, l, d⟩ := ih
        obtain ⟨q', e', c', l', d'⟩ := rot q ⟨c, by omega⟩
        refine ⟨q', ?_, c', by omega, ?_⟩
        · show (Nat.repeat (fun r => r >>= rotatePolygon) k (Except.ok p)) >>= rotatePolygon = _
          rw [e]; exact e'
        · rw [d', d, List.rotate_rotate]
    obtain ⟨q, e, c, l, d⟩ := key (p.length - 1)
    rw [e]
    have : q.dropLast = p.dropLast := by
      rw [d]
      have : p.length - 1 = p.dropLast.length := by simp
      rw [this, List.rotate_length]
    congr 1
    exact closed_unique (by omega) h.2 c h.1 this

example : Closed twoQuads ∧ 2 ≤ twoQuads.length := by unfold Closed; decide +kernel

/-! ### C62 -/

/-- The loop finds the first valid rotation. -/
theorem tryRotations_spec {p : List Vert} (hc : Closed p) (h2 : 2 ≤ p.length) (n : ℕ) :
    (∃ q k, k < n ∧ tryRotations n p = .ok (some q) ∧ Closed q ∧ q.length = p.length ∧
      q.dropLast = p.dropLast.rotate k ∧ ValidPolygon q ∧
      ∀ q' k', k' < k → Closed q' → q'.length = p.length → q'.dropLast = p.dropLast.rotate k' →
        ¬ ValidPolygon q') ∨
    (tryRotations n p = .ok none ∧
      ∀ q' k', k' < n → Closed q' → q'.length = p.length → q'.dropLast = p.dropLast.rotate k' →
        ¬ ValidPolygon q') := by
  induction n generalizing p with
  | zero => right; exact ⟨rfl, fun _ _ h => absurd h (Nat.not_lt_zero _)⟩
  | succ n ih =>
    obtain ⟨c1, c2⟩ := C60_check_polygon p
    by_cases hv : ValidPolygon p
    · left
      refine ⟨p, 0, by omega, ?_, hc, rfl, by simp, hv, fun _ _ h => absurd h (Nat.not_lt_zero _)⟩
      rw [tryRotations, c1.2 hv]
    · obtain ⟨p', e, cp', lp', dp'⟩ := (C61_rotate_polygon p).1 ⟨hc, h2⟩
      have hstep : tryRotations (n + 1) p = tryRotations n p' := by
        rw [tryRotations, c2 hv]
        simp only [e]
      have hzero : ∀ q', Closed q' → q'.length = p.length → q'.dropLast = p.dropLast.rotate 0 →
          ¬ ValidPolygon q' := by
        intro q' cq lq dq
        rw [List.rotate_zero] at dq
        rw [closed_unique (by omega) h2 cq hc dq]
        exact hv
      have hsucc : ∀ k, p'.dropLast.rotate k = p.dropLast.rotate (k + 1) := by
        intro k
        rw [dp', List.rotate_rotate, Nat.add_comm]
      rcases ih cp' (by omega) with ⟨q, k, hk, er, cq, lq, dq, vq, hmin⟩ | ⟨er, hnone⟩
      · left
        refine ⟨q, k + 1, by omega, by rw [hstep, er], cq, by omega, by rw [dq, hsucc], vq, ?_⟩
        intro q' k' hk' cq' lq' dq'
        cases k' with
        | zero => exact hzero q' cq' lq' dq'
        | succ k' => exact hmin q' k' (by omega) cq' (by omega) (by rw [dq', hsucc])
      · right
        refine ⟨by rw [hstep, er], ?_⟩
        intro q' k' hk' cq' lq' dq'
        cases k' with
        | zero => exact hzero q' cq' lq' dq'
        | succ k' => exact hnone q' k' (by omega) cq' (by omega) (by rw [dq', hsucc])

/-- All rotations are tried. -/
theorem tryRotations_all {p : List Vert} (hc : Closed p) (h2 : 2 ≤ p.length) :
    (∃ q, tryRotations (p.length - 1) p = .ok (some q) ∧ SamePolygon p q ∧ ValidPolygon q) ∨
    (tryRotations (p.length - 1) p = .ok none ∧ ∀ q, SamePolygon p q → ¬ ValidPolygon q) := by
  rcases tryRotations_spec hc h2 (p.length - 1) with ⟨q, k, -, e, cq, lq, dq, vq, -⟩ | ⟨e, h⟩
  · exact Or.inl ⟨q, e, ⟨cq, lq, k, dq⟩, vq⟩
  · refine Or.inr ⟨e, ?_⟩
    rintro q ⟨cq, lq, k, dq⟩
    refine h q (k % p.dropLast.length) ?_ cq lq ?_
    · have : p.dropLast.length = p.length - 1 := by simp
      rw [this]; exact Nat.mod_lt _ (by omega)
    · rw [dq, List.rotate_mod]

theorem tryRotations_unclosed {p : List Vert} (hc : ¬ Closed p) (h2 : 2 ≤ p.length) :
    tryRotations (p.length - 1) p = .error .exception := by
  obtain ⟨n, hn⟩ : ∃ n, p.length - 1 = n + 1 := ⟨p.length - 2, by omega⟩
  rw [hn, tryRotations, (C60_check_polygon p).2 (fun h => hc h.2.1)]
  simp only [(C61_rotate_polygon p).2.1 (fun h => hc h.1)]

theorem checkAll_iff (ps : List (List Vert)) :
    (checkAll ps = .ok () ↔ ∀ p ∈ ps, ValidPolygon p) ∧
    ((¬ ∀ p ∈ ps, ValidPolygon p) → checkAll ps = .error .valueError) := by
  induction ps with
  | nil => simp [checkAll]
  | cons p ps ih =>
    obtain ⟨c1, c2⟩ := C60_check_polygon p
    by_cases hv : ValidPolygon p
    · rw [checkAll, c1.2 hv]
      simp only [List.forall_mem_cons, hv, true_and]
      exact ih
    · rw [checkAll, c2 hv]
      simp [hv]

/-- **C62** (partial). For polygons of two points or more: when each of them is closed and is valid from
some starting point, the result holds each of them from such a starting point; otherwise an exception is
raised, `ValueError` when all are closed. What is missing: polygons of a single point, see below. -/
theorem C62_repair_partial (ps : List (List Vert)) (h2 : ∀ p ∈ ps, 2 ≤ p.length) :
    ((∀ p ∈ ps, Closed p ∧ ∃ q, SamePolygon p q ∧ ValidPolygon q) →
      ∃ qs, repairAndValidate ps = .ok qs ∧
        List.Forall₂ (fun p q => SamePolygon p q ∧ ValidPolygon q) ps qs) ∧
    ((∀ p ∈ ps, Closed p) → (¬ ∀ p ∈ ps, ∃ q, SamePolygon p q ∧ ValidPolygon q) →
      repairAndValidate ps = .error .valueError) ∧
    ((¬ ∀ p ∈ ps, Closed p) → repairAndValidate ps = .error .exception) := by
  have hall : (∀ p ∈ ps, Closed p) → ∃ rs, tryAll ps = .ok rs ∧
      List.Forall₂ (fun p r => (∃ q, r = some q ∧ SamePolygon p q ∧ ValidPolygon q) ∨
        (r = none ∧ ∀ q, SamePolygon p q → ¬ ValidPolygon q)) ps rs := by
    intro hc
    induction ps with
    | nil => exact ⟨[], rfl, .nil⟩
    | cons p ps ih =>
      simp only [List.forall_mem_cons] at h2 hc
      obtain ⟨rs, e, hf⟩ := ih h2.2 hc.2
      rcases tryRotations_all hc.1 h2.1 with ⟨q, eq, sq, vq⟩ | ⟨eq, hn⟩
      · exact ⟨some q :: rs, by rw [tryAll, eq]; simp only [e], .cons (Or.inl ⟨q, rfl, sq, vq⟩) hf⟩
      · exact ⟨none :: rs, by rw [tryAll, eq]; simp only [e], .cons (Or.inr ⟨rfl, hn⟩) hf⟩
  refine ⟨?_, ?_, ?_⟩
  · intro h
    obtain ⟨rs, e, hf⟩ := hall (fun p hp => (h p hp).1)
    have hqs : ∃ qs, rs = qs.map some ∧ List.Forall₂ (fun p q => SamePolygon p q ∧ ValidPolygon q) ps qs := by
      clear e hall h2
      induction hf with
      | nil => exact ⟨[], rfl, .nil⟩
      | cons hr _ ih =>
        simp only [List.forall_mem_cons] at h
        obtain ⟨qs, rfl, hq⟩ := ih h.2
        rcases hr with ⟨q, rfl, hq'⟩ | ⟨rfl, hn⟩
        · exact ⟨q :: qs, rfl, .cons hq' hq⟩
        · obtain ⟨-, q, sq, vq⟩ := h.1
          exact absurd vq (hn q sq)
    obtain ⟨qs, rfl, hq⟩ := hqs
    refine ⟨qs, ?_, hq⟩
    have h3 : repair ps = .ok qs := by
      unfold repair
      simp only [e]
      rw [if_pos (by simp)]
      simp [List.filterMap_map]
    have h4 : ∀ q ∈ qs, ValidPolygon q := by
      clear h3 e hf hall h h2
      induction hq with
      | nil => simp
      | cons a _ ih => exact List.forall_mem_cons.2 ⟨a.2, ih⟩
    unfold repairAndValidate
    simp only [h3, (checkAll_iff qs).1.2 h4]
  · intro hc hn
    obtain ⟨rs, e, hf⟩ := hall hc
    have h1 : rs.all Option.isSome = false := by
      rw [Bool.eq_false_iff]
      intro hs
      apply hn
      clear e hall h2 hn hc
      induction hf with
      | nil => simp
      | cons hr _ ih =>
        simp only [List.all_cons, Bool.and_eq_true] at hs
        simp only [List.forall_mem_cons]
        refine ⟨?_, ih hs.2⟩
        rcases hr with ⟨q, rfl, hq'⟩ | ⟨rfl, -⟩
        · exact ⟨q, hq'⟩
        · simp at hs
    have h3 : repair ps = .ok ps := by
      unfold repair
      simp only [e, h1]
      rfl
    have h4 : ¬ ∀ p ∈ ps, ValidPolygon p := by
      intro hv
      apply hn
      intro p hp
      exact ⟨p, ⟨hc p hp, rfl, 0, by simp⟩, hv p hp⟩
    unfold repairAndValidate
    simp only [h3, (checkAll_iff ps).2 h4]
  · intro hc
    have : tryAll ps = .error .exception := by
      clear hall
      induction ps with
      | nil => simp at hc
      | cons p ps ih =>
        simp only [List.forall_mem_cons] at h2 hc
        by_cases hp : Closed p
        · have := ih h2.2 (fun h => hc ⟨hp, h⟩)
          rcases tryRotations_all hp h2.1 with ⟨q, eq, -⟩ | ⟨eq, -⟩
          · rw [tryAll, eq]; simp only [this]
          · rw [tryAll, eq]; simp only [this]
        · rw [tryAll, tryRotations_unclosed hp h2.1]
    unfold repairAndValidate repair
    simp only [this]

example : (∀ p ∈ [twoQuads.tail ++ [⟨1, 0, 1⟩]], 2 ≤ p.length) ∧
    repairAndValidate [twoQuads.tail ++ [⟨1, 0, 1⟩]] = .ok [twoQuads] := by decide +kernel

/-- **C62** violated: a polygon of a single point is valid, but no attempt is made to check it, so that all
repairs are thrown away: a polygon that starts on its bottom edge is repaired when it is alone, and refused
when it is followed by a single point. -/
theorem C62_single_point_violated :
    (∀ v, ValidPolygon [v]) ∧ (∀ v, repairAndValidate [[v]] = .ok [[v]]) ∧
    repairAndValidate [twoQuads.tail ++ [⟨1, 0, 1⟩]] = .ok [twoQuads] ∧
    ∀ v, repairAndValidate [twoQuads.tail ++ [⟨1, 0, 1⟩], [v]] = .error .valueError := by
  have hv : ∀ v, ValidPolygon [v] := fun v => ⟨by simp, rfl, [], [], rfl, .nil⟩
  refine ⟨hv, ?_, by decide +kernel, ?_⟩
  · intro v
    have := (checkAll_iff [[v]]).1.2 (by simpa using hv v)
    unfold repairAndValidate repair
    simp only [tryAll, List.length_singleton, Nat.sub_self, tryRotations, List.all_cons, Option.isSome,
      Bool.false_and, Bool.false_eq_true, if_false, this]
  · intro v
    have h1 : tryRotations ((twoQuads.tail ++ [(⟨1, 0, 1⟩ : Vert)]).length - 1)
        (twoQuads.tail ++ [(⟨1, 0, 1⟩ : Vert)]) = .ok (some twoQuads) := by decide +kernel
    have h2 : checkPolygon (twoQuads.tail ++ [(⟨1, 0, 1⟩ : Vert)]) = .error .valueError := by
      decide +kernel
    unfold repairAndValidate repair
    rw [tryAll, h1]
    simp only [tryAll, List.length_singleton, Nat.sub_self, tryRotations, List.all_cons, Option.isSome,
      List.all_nil, Bool.and_false, Bool.and_true, Bool.false_eq_true, if_false]
    rw [checkAll, h2]

end Verif.Props
