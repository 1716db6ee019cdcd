import Verif.Model.FromTrace
import Verif.Spec.Trace
import Verif.Props.OqProjection
import Verif.Props.QuadMeasures
import Verif.Props.OqCourse

/-!
# C146 (`fromTrace`) and C147 (`fromOrientation`)
-/

namespace Verif.Props
open Real Verif.Oq Verif.Spec Verif.QuadR Verif.Rup
open Verif.Vec (V3 arctan2 npMod)

theorem wrapLon_turns (x : ℝ) : ∃ k : ℤ, wrapLon x = x + k * 360 := by
  unfold wrapLon
  simp only
  split <;> split
  · exact ⟨0, by push_cast; ring⟩
  · exact ⟨-1, by push_cast; ring⟩
  · exact ⟨1, by push_cast; ring⟩
  · exact ⟨0, by push_cast; ring⟩

/-- The point found by the reverse projection, as components at the centre. -/
theorem reverse_spec (lon0 lat0 x y : ℝ) (h : x ^ 2 + y ^ 2 ≤ 6371 ^ 2) :
    let q := (centredOn lon0 lat0).reverse x y
    6371 * eastOf lon0 q.1 q.2 = x ∧ 6371 * northOf lon0 lat0 q.1 q.2 = y ∧
    greatCircle lon0 lat0 q.1 q.2 ≤ 6371 * (π / 2) := by
  intro q
  set xx := x / 6371 with hxx
  set yy := y / 6371 with hyy
  have h1 : xx ^ 2 + yy ^ 2 ≤ 1 := by
    rw [hxx, hyy, div_pow, div_pow, ← add_div, div_le_one (by norm_num)]
    exact h
  set C := √(1 - (xx ^ 2 + yy ^ 2)) with hC
  have hC0 : 0 ≤ C := sqrt_nonneg _
  have hC2 : C ^ 2 = 1 - (xx ^ 2 + yy ^ 2) := sq_sqrt (by linarith)
  set S := C * sin (rad lat0) + yy * cos (rad lat0) with hS
  set K := cos (rad lat0) * C - yy * sin (rad lat0) with hK
  have s0 := sin_sq_add_cos_sq (rad lat0)
  have hSK : S ^ 2 + K ^ 2 + xx ^ 2 = 1 := by
    rw [hS, hK]
    linear_combination (C ^ 2 + yy ^ 2) * s0 + hC2
  have hq : q = (wrapLon (Oq.degrees (rad lon0 + arctan2 xx K)), Oq.degrees (arcsin S)) := rfl
  have hrd : ∀ z : ℝ, rad (Oq.degrees z) = z := by
    intro z
    unfold rad Oq.degrees
    have := pi_ne_zero
    field_simp
  have hlat : rad q.2 = arcsin S := by rw [hq, hrd]
  obtain ⟨k, hk⟩ := wrapLon_turns (Oq.degrees (rad lon0 + arctan2 xx K))
  have hlon : rad q.1 = rad lon0 + arctan2 xx K + k * (2 * π) := by
    rw [hq]
    simp only
    rw [hk]
    have := hrd (rad lon0 + arctan2 xx K)
    unfold rad at this ⊢
    rw [add_mul, this]
    ring
  have hsinlat : sin (rad q.2) = S := by
    rw [hlat, sin_arcsin] <;> nlinarith [sq_nonneg K, sq_nonneg xx]
  have hcoslat : cos (rad q.2) = √(K ^ 2 + xx ^ 2) := by
    rw [hlat, cos_arcsin]
    congr 1; linarith
  set z : ℂ := ⟨K, xx⟩ with hz
  have hnorm : ‖z‖ = √(K ^ 2 + xx ^ 2) := by
    rw [Complex.norm_eq_sqrt_sq_add_sq]
  have hs : cos (rad q.2) * sin (rad q.1 - rad lon0) = xx := by
    rw [hlon, hcoslat, ← hnorm, show rad lon0 + arctan2 xx K + k * (2 * π) - rad lon0 = arctan2 xx K + k * (2 * π) by ring,
      sin_add_int_mul_two_pi]
    exact Complex.norm_mul_sin_arg z
  have hc : cos (rad q.2) * cos (rad q.1 - rad lon0) = K := by
    rw [hlon, hcoslat, ← hnorm, show rad lon0 + arctan2 xx K + k * (2 * π) - rad lon0 = arctan2 xx K + k * (2 * π) by ring,
      cos_add_int_mul_two_pi]
    exact Complex.norm_mul_cos_arg z
  have hE : eastOf lon0 q.1 q.2 = cos (rad q.2) * sin (rad q.1 - rad lon0) := by
    unfold eastOf eastAt onSphere
    simp only [PiLp.inner_apply, Fin.sum_univ_three]
    simp
    rw [sin_sub]; ring
  have hN : northOf lon0 lat0 q.1 q.2 =
      cos (rad lat0) * sin (rad q.2) - sin (rad lat0) * (cos (rad q.2) * cos (rad q.1 - rad lon0)) := by
    unfold northOf northAt onSphere
    simp only [PiLp.inner_apply, Fin.sum_univ_three]
    simp
    rw [cos_sub]; ring
  have hI : inner ℝ (onSphere lon0 lat0) (onSphere q.1 q.2) =
      cos (rad lat0) * (cos (rad q.2) * cos (rad q.1 - rad lon0)) + sin (rad lat0) * sin (rad q.2) := by
    rw [onSphere_inner, show rad lon0 - rad q.1 = -(rad q.1 - rad lon0) by ring, cos_neg]
    ring
  rw [hE, hN, hs, hc, hsinlat]
  rw [hc, hsinlat] at hI
  refine ⟨by rw [hxx]; ring, ?_, ?_⟩
  · rw [hS, hK]
    have : cos (rad lat0) * (C * sin (rad lat0) + yy * cos (rad lat0)) -
        sin (rad lat0) * (cos (rad lat0) * C - yy * sin (rad lat0)) = yy := by
      linear_combination yy * s0
    rw [this, hyy]; ring
  · have hI' : inner ℝ (onSphere lon0 lat0) (onSphere q.1 q.2) = C := by
      rw [hI, hS, hK]
      linear_combination C * s0
    unfold greatCircle
    have : InnerProductGeometry.angle (onSphere lon0 lat0) (onSphere q.1 q.2) ≤ π / 2 := by
      unfold InnerProductGeometry.angle
      rw [onSphere_norm, onSphere_norm, hI', arccos_le_pi_div_two]
      simpa using hC0
    linarith

/-! ### The box -/

theorem foldl_min_least (l : List ℝ) (a : ℝ) : (∀ x ∈ a :: l, l.foldl min a ≤ x) ∧ l.foldl min a ∈ a :: l := by
  induction l generalizing a with
  | nil => simp
  | cons b l ih =>
    obtain ⟨h1, h2⟩ := ih (min a b)
    simp only [List.foldl_cons]
    constructor
    · intro x hx
      have h0 := h1 (min a b) (by simp)
      rcases List.mem_cons.1 hx with rfl | hx
      · exact h0.trans (min_le_left _ _)
      · rcases List.mem_cons.1 hx with rfl | hx
        · exact h0.trans (min_le_right _ _)
        · exact h1 x (by simp [hx])
    · rcases List.mem_cons.1 h2 with h | h
      · rw [h]
        rcases min_choice a b with e | e <;> rw [e] <;> simp
      · simp [h]

theorem foldl_max_greatest (l : List ℝ) (a : ℝ) : (∀ x ∈ a :: l, x ≤ l.foldl max a) ∧ l.foldl max a ∈ a :: l := by
  induction l generalizing a with
  | nil => simp
  | cons b l ih =>
    obtain ⟨h1, h2⟩ := ih (max a b)
    simp only [List.foldl_cons]
    constructor
    · intro x hx
      have h0 := h1 (max a b) (by simp)
      rcases List.mem_cons.1 hx with rfl | hx
      · exact (le_max_left _ _).trans h0
      · rcases List.mem_cons.1 hx with rfl | hx
        · exact (le_max_right _ _).trans h0
        · exact h1 x (by simp [hx])
    · rcases List.mem_cons.1 h2 with h | h
      · rw [h]
        rcases max_choice a b with e | e <;> rw [e] <;> simp
      · simp [h]

theorem minOf_eq {a b : List ℝ} (ha : a ≠ []) (hb : b ≠ []) {m : ℝ} (h : IsLeast {x | x ∈ a ∨ x ∈ b} m) : minOf a b = m := by
  cases a with
  | nil => exact absurd rfl ha
  | cons x a =>
    cases b with
    | nil => exact absurd rfl hb
    | cons y b =>
      obtain ⟨a1, a2⟩ := foldl_min_least a x
      obtain ⟨b1, b2⟩ := foldl_min_least b y
      apply IsLeast.unique _ h
      show IsLeast _ (min (a.foldl min x) (b.foldl min y))
      constructor
      · rcases min_choice (a.foldl min x) (b.foldl min y) with e | e <;> rw [e]
        · exact Or.inl a2
        · exact Or.inr b2
      · rintro z (hz | hz)
        · exact (min_le_left _ _).trans (a1 z hz)
        · exact (min_le_right _ _).trans (b1 z hz)

theorem maxOf_eq {a b : List ℝ} (ha : a ≠ []) (hb : b ≠ []) {m : ℝ} (h : IsGreatest {x | x ∈ a ∨ x ∈ b} m) : maxOf a b = m := by
  cases a with
  | nil => exact absurd rfl ha
  | cons x a =>
    cases b with
    | nil => exact absurd rfl hb
    | cons y b =>
      obtain ⟨a1, a2⟩ := foldl_max_greatest a x
      obtain ⟨b1, b2⟩ := foldl_max_greatest b y
      apply IsGreatest.unique _ h
      show IsGreatest _ (max (a.foldl max x) (b.foldl max y))
      constructor
      · rcases max_choice (a.foldl max x) (b.foldl max y) with e | e <;> rw [e]
        · exact Or.inl a2
        · exact Or.inr b2
      · rintro z (hz | hz)
        · exact (a1 z hz).trans (le_max_left _ _)
        · exact (b1 z hz).trans (le_max_right _ _)

/-! ### C146 -/

/-- All arrays of a trace have `n` entries. -/
def TraceSize (t : Trace) (n : ℕ) : Prop :=
  t.xp0.length = n ∧ t.yp0.length = n ∧ t.xp1.length = n ∧ t.yp1.length = n ∧ t.zp.length = n ∧ t.widths.length = n ∧
  t.dips.length = n

/-- The given top corners. -/
def topFirst (t : Trace) (i : ℕ) : Point := ⟨t.xp0.getD i 0, t.yp0.getD i 0, t.zp.getD i 0⟩
def topSecond (t : Trace) (i : ℕ) : Point := ⟨t.xp1.getD i 0, t.yp1.getD i 0, t.zp.getD i 0⟩

/-- `s` is the strike used for quadrilateral `i`: the one given for all or for this one, or that of the top edge. -/
def StrikeUsed (lon0 lat0 : ℝ) (t : Trace) (strike : Option (List ℝ)) (i : ℕ) (s : ℝ) : Prop :=
  match strike with
  | none => EdgeStrike lon0 lat0 (topFirst t i) (topSecond t i) s
  | some [a] => s = a
  | some l => l[i]? = some s

theorem sin_rad_add_90 (x : ℝ) : sin (rad (x + 90)) = cos (rad x) := by
  rw [show rad (x + 90) = rad x + π / 2 by unfold rad; ring, sin_add_pi_div_two]

theorem cos_rad_add_90 (x : ℝ) : cos (rad (x + 90)) = -sin (rad x) := by
  rw [show rad (x + 90) = rad x + π / 2 by unfold rad; ring, cos_add_pi_div_two]

theorem mapM_range_some {β : Type} {f : ℕ → Option β} {g : ℕ → β} {n : ℕ} (h : ∀ i < n, f i = some (g i)) :
    (List.range n).mapM f = some ((List.range n).map g) := by
  have : ∀ l : List ℕ, (∀ i ∈ l, f i = some (g i)) → l.mapM f = some (l.map g) := by
    intro l
    induction l with
    | nil => intro _; rfl
    | cons a l ih =>
      intro h
      rw [List.mapM_cons, h a (by simp), ih fun i hi => h i (by simp [hi])]
      rfl
  exact this _ fun i hi => h i (List.mem_range.1 hi)

theorem mapM_range_none {β : Type} {f : ℕ → Option β} {n i : ℕ} (hi : i < n) (h : f i = none) :
    (List.range n).mapM f = none := by
  have : ∀ l : List ℕ, i ∈ l → l.mapM f = none := by
    intro l
    induction l with
    | nil => simp
    | cons a l ih =>
      intro hm
      rw [List.mapM_cons]
      rcases List.mem_cons.1 hm with rfl | hm
      · rw [h]; rfl
      · cases hf : f a with
        | none => rfl
        | some b => rw [ih hm]; rfl
  exact this _ (List.mem_range.2 hi)

/-- One lower corner. -/
theorem corner_spec {lon0 lat0 : ℝ} (th dip w : ℝ) (p : Point)
    (hroom : HasRoom lon0 lat0 (Oq.degrees th) dip w p) :
    let c := lowerCorner th (Oq.radians dip) w ⟨eastKm lon0 p, northKm lon0 lat0 p⟩
    DownDip lon0 lat0 (Oq.degrees th) dip w p ⟨((centredOn lon0 lat0).reverse c.x c.y).1,
      ((centredOn lon0 lat0).reverse c.x c.y).2, lowerDepth (Oq.radians dip) w p.depth⟩ := by
  intro c
  have hc : c.x = eastKm lon0 p + w * cos (rad dip) * cos th ∧ c.y = northKm lon0 lat0 p - w * cos (rad dip) * sin th := by
    have h := Real.sin_sq_add_cos_sq th
    have hr : Oq.radians dip = rad dip := rfl
    simp only [c, lowerCorner, rotate, Real.cos_neg, Real.sin_neg, hr]
    constructor
    · linear_combination eastKm lon0 p * h
    · linear_combination northKm lon0 lat0 p * h
  unfold HasRoom at hroom
  rw [sin_rad_add_90, cos_rad_add_90, rad_degrees] at hroom
  unfold DownDip
  rw [sin_rad_add_90, cos_rad_add_90, rad_degrees]
  obtain ⟨r1, r2, r3⟩ := reverse_spec lon0 lat0 c.x c.y (by rw [hc.1, hc.2]; linarith [hroom])
  refine ⟨r3, ?_, ?_, ?_⟩
  · show 6371 * _ = _
    rw [r1, hc.1]
  · show 6371 * _ = _
    rw [r2, hc.2]
    ring
  · show lowerDepth (rad dip) w p.depth = _
    unfold lowerDepth; ring

/-- One quadrilateral. -/
theorem traceQuad_spec {lon0 lat0 : ℝ} {t : Trace} {strike : Option (List ℝ)} {i : ℕ}
    (hs : ∀ l, strike = some l → l.length = 1 ∨ i < l.length)
    (h0 : Near lon0 lat0 (topFirst t i)) (h1 : Near lon0 lat0 (topSecond t i)) :
    ∃ s, StrikeUsed lon0 lat0 t strike i s ∧ ∃ q, traceQuad (centredOn lon0 lat0) t strike i = some q ∧
      q.p0 = topFirst t i ∧ q.p1 = topSecond t i ∧
      (HasRoom lon0 lat0 s (t.dips.getD i 0) (t.widths.getD i 0) (topFirst t i) →
        DownDip lon0 lat0 s (t.dips.getD i 0) (t.widths.getD i 0) q.p0 q.p3) ∧
      (HasRoom lon0 lat0 s (t.dips.getD i 0) (t.widths.getD i 0) (topSecond t i) →
        DownDip lon0 lat0 s (t.dips.getD i 0) (t.widths.getD i 0) q.p1 q.p2) := by
  have e0 := (C130_forward lon0 lat0 (topFirst t i).lon (topFirst t i).lat).2 h0
  have e1 := (C130_forward lon0 lat0 (topSecond t i).lon (topSecond t i).lat).2 h1
  set a : P2 := ⟨eastKm lon0 (topFirst t i), northKm lon0 lat0 (topFirst t i)⟩ with ha
  set b : P2 := ⟨eastKm lon0 (topSecond t i), northKm lon0 lat0 (topSecond t i)⟩ with hb
  set th := theta strike i a b with hth
  refine ⟨Oq.degrees th, ?_, ?_⟩
  · have hrd : ∀ z : ℝ, Oq.degrees (Oq.radians z) = z := fun z => by
      unfold Oq.degrees Oq.radians
      have := pi_ne_zero
      field_simp
    unfold StrikeUsed
    split
    · refine ⟨√((b.y - a.y) ^ 2 + (b.x - a.x) ^ 2), sqrt_nonneg _, ?_, ?_⟩ <;> rw [rad_degrees, hth] <;> simp only [theta, traceAngle, arctan2]
      · rw [show √((b.y - a.y) ^ 2 + (b.x - a.x) ^ 2) = ‖(⟨b.y - a.y, b.x - a.x⟩ : ℂ)‖ by
          rw [Complex.norm_eq_sqrt_sq_add_sq], Complex.norm_mul_sin_arg]
      · rw [show √((b.y - a.y) ^ 2 + (b.x - a.x) ^ 2) = ‖(⟨b.y - a.y, b.x - a.x⟩ : ℂ)‖ by
          rw [Complex.norm_eq_sqrt_sq_add_sq], Complex.norm_mul_cos_arg]
    · rw [hth]; simp [theta, hrd]
    · rename_i l hne
      have hl := hs _ rfl
      have : l.length ≠ 1 := by
        intro h
        obtain ⟨x, rfl⟩ := List.length_eq_one_iff.1 h
        exact hne x rfl
      have hi : i < l.length := by tauto
      rw [hth]
      simp only [theta]
      rw [if_neg this, hrd, List.getElem?_eq_getElem hi]
      simp [hi]
  · set dip := Oq.radians (t.dips.getD i 0) with hdip
    set w := t.widths.getD i 0 with hw
    refine ⟨⟨topFirst t i, topSecond t i,
      ⟨((centredOn lon0 lat0).reverse (lowerCorner th dip w b).x (lowerCorner th dip w b).y).1,
       ((centredOn lon0 lat0).reverse (lowerCorner th dip w b).x (lowerCorner th dip w b).y).2,
       lowerDepth dip w (t.zp.getD i 0)⟩,
      ⟨((centredOn lon0 lat0).reverse (lowerCorner th dip w a).x (lowerCorner th dip w a).y).1,
       ((centredOn lon0 lat0).reverse (lowerCorner th dip w a).x (lowerCorner th dip w a).y).2,
       lowerDepth dip w (t.zp.getD i 0)⟩⟩, ?_, rfl, rfl, ?_, ?_⟩
    · unfold traceQuad
      simp only [topFirst, topSecond] at e0 e1
      rw [e0, e1]
      rfl
    · exact fun hroom => corner_spec th (t.dips.getD i 0) w (topFirst t i) hroom
    · exact fun hroom => corner_spec th (t.dips.getD i 0) w (topSecond t i) hroom

/-- The box of a trace. -/
structure TraceBox (t : Trace) (west east north south : ℝ) : Prop where
  west : IsLeast {x | x ∈ t.xp0 ∨ x ∈ t.xp1} west
  east : IsGreatest {x | x ∈ t.xp0 ∨ x ∈ t.xp1} east
  north : IsGreatest {x | x ∈ t.yp0 ∨ x ∈ t.yp1} north
  south : IsLeast {x | x ∈ t.yp0 ∨ x ∈ t.yp1} south

theorem traceProj_eq {at_ : ℝ → ℝ → ℝ → ℝ → ℝ × ℝ} {t : Trace} {n : ℕ} (hn : TraceSize t n) (h0 : 0 < n)
    {west east north south : ℝ} (hb : TraceBox t west east north south) :
    traceProj at_ t = centredOn (middlePoint at_ west north east south).1 (middlePoint at_ west north east south).2 := by
  obtain ⟨l1, l2, l3, l4, -⟩ := hn
  have ne : ∀ l : List ℝ, l.length = n → l ≠ [] := by rintro l h rfl; simp at h; omega
  unfold traceProj projOf
  rw [minOf_eq (ne _ l1) (ne _ l3) hb.west, maxOf_eq (ne _ l1) (ne _ l3) hb.east, maxOf_eq (ne _ l2) (ne _ l4) hb.north,
    minOf_eq (ne _ l2) (ne _ l4) hb.south]
  rfl

/-- **C146**, errors of `fromTrace`: arrays of different lengths, a strike of the wrong length, no quadrilaterals, and a
top corner more than a quarter of the circumference from the middle of the box. -/
theorem C146_errors (at_ : ℝ → ℝ → ℝ → ℝ → ℝ × ℝ) (t : Trace) (strike : Option (List ℝ)) (index : Option (List ℤ)) :
    ((¬ ∃ n, TraceSize t n) → fromTrace at_ t strike index = .error .consistentLength) ∧
    ∀ n, TraceSize t n →
      (∀ s, strike = some s → s.length ≠ 1 → s.length ≠ n → fromTrace at_ t strike index = .error .typeError) ∧
      ((∀ s, strike = some s → s.length = 1 ∨ s.length = n) →
        (n = 0 → fromTrace at_ t strike index = .error .valueError) ∧
        (0 < n → ∀ west east north south, TraceBox t west east north south →
          (∃ i < n, ¬ Near (middlePoint at_ west north east south).1 (middlePoint at_ west north east south).2 (topFirst t i) ∨
            ¬ Near (middlePoint at_ west north east south).1 (middlePoint at_ west north east south).2 (topSecond t i)) →
          fromTrace at_ t strike index = .error .valueError)) := by
  constructor
  · intro h
    unfold fromTrace
    simp only
    rw [if_pos]
    rintro ⟨h1, h2, h3, h4, h5, h6⟩
    exact h ⟨t.xp0.length, rfl, by omega, by omega, by omega, by omega, by omega, by omega⟩
  · intro n hn
    obtain ⟨l1, l2, l3, l4, l5, l6, l7⟩ := id hn
    have hlen : ¬ ¬ (t.xp0.length = t.yp0.length ∧ t.yp0.length = t.xp1.length ∧ t.xp1.length = t.yp1.length ∧
        t.yp1.length = t.zp.length ∧ t.zp.length = t.dips.length ∧ t.dips.length = t.widths.length) := by
      rw [not_not]; refine ⟨?_, ?_, ?_, ?_, ?_, ?_⟩ <;> omega
    constructor
    · intro s hs h1 h2
      unfold fromTrace
      simp only
      rw [if_neg hlen, if_pos (by rw [hs]; simp [l1, h1, Ne.symm h2])]
    · intro hs
      have hst : ¬ (strike.any fun s => t.xp0.length ≠ s.length ∧ s.length ≠ 1) = true := by
        cases strike with
        | none => simp
        | some s =>
          have := hs s rfl
          simp only [Option.any_some, decide_eq_true_eq, not_and, not_not]
          intro h
          omega
      constructor
      · intro h0
        unfold fromTrace
        simp only
        rw [if_neg hlen, if_neg hst, if_pos (by omega)]
      · rintro h0 west east north south hb ⟨i, hi, hfar⟩
        unfold fromTrace
        simp only
        rw [if_neg hlen, if_neg hst, if_neg (by omega), traceProj_eq hn h0 hb]
        have : traceQuads (centredOn (middlePoint at_ west north east south).1 (middlePoint at_ west north east south).2) t
            strike = none := by
          unfold traceQuads
          apply mapM_range_none (i := i) (by omega)
          unfold traceQuad
          rcases hfar with hfar | hfar
          · have := (C130_forward _ _ _ _).1.2 (not_le.1 hfar)
            simp only [topFirst] at this
            rw [this]; rfl
          · have := (C130_forward _ _ _ _).1.2 (not_le.1 hfar)
            simp only [topSecond] at this
            rw [this]
            cases Proj.forward _ (t.xp0.getD i 0) (t.yp0.getD i 0) <;> rfl
        rw [this]

/-- **C146.** For arrays of the same length, a strike of length 1 or this length or none, and top corners at most a quarter
of the circumference from the middle of their box: there are a strike for each quadrilateral - the one given, or that of the
top edge - and quadrilaterals with the given top corners, such that each lower corner lies down dip of the upper one when
there is room for it on this half of the earth; the rupture is made of these quadrilaterals, in groups. -/
theorem C146_from_trace (at_ : ℝ → ℝ → ℝ → ℝ → ℝ × ℝ) {t : Trace} {n : ℕ} (hn : TraceSize t n) (h0 : 0 < n)
    {strike : Option (List ℝ)} (hs : ∀ s, strike = some s → s.length = 1 ∨ s.length = n)
    {west east north south : ℝ} (hb : TraceBox t west east north south) {lon0 lat0 : ℝ}
    (hm : middlePoint at_ west north east south = (lon0, lat0))
    (hnear : ∀ i < n, Near lon0 lat0 (topFirst t i) ∧ Near lon0 lat0 (topSecond t i)) :
    ∃ (s : ℕ → ℝ) (quads : List (Quad Point)), quads.length = n ∧
      (∀ i < n, StrikeUsed lon0 lat0 t strike i (s i)) ∧
      (∀ i q, quads[i]? = some q → q.p0 = topFirst t i ∧ q.p1 = topSecond t i ∧
        (HasRoom lon0 lat0 (s i) (t.dips.getD i 0) (t.widths.getD i 0) q.p0 →
          DownDip lon0 lat0 (s i) (t.dips.getD i 0) (t.widths.getD i 0) q.p0 q.p3) ∧
        (HasRoom lon0 lat0 (s i) (t.dips.getD i 0) (t.widths.getD i 0) q.p1 →
          DownDip lon0 lat0 (s i) (t.dips.getD i 0) (t.widths.getD i 0) q.p1 q.p2)) ∧
      fromTrace at_ t strike none = .ok (quads.map fun q => [q.p0, q.p1, q.p2, q.p3, q.p0]) ∧
      (∀ idx : List ℤ, idx.length = n → ∀ ps, fromVertices quads (some idx) = some ps →
        fromTrace at_ t strike (some idx) = .ok ps) ∧
      (∀ idx : List ℤ, n < idx.length → fromTrace at_ t strike (some idx) = .error .indexError) := by
  obtain ⟨l1, l2, l3, l4, l5, l6, l7⟩ := id hn
  have hlen : ¬ ¬ (t.xp0.length = t.yp0.length ∧ t.yp0.length = t.xp1.length ∧ t.xp1.length = t.yp1.length ∧
      t.yp1.length = t.zp.length ∧ t.zp.length = t.dips.length ∧ t.dips.length = t.widths.length) := by
    rw [not_not]; refine ⟨?_, ?_, ?_, ?_, ?_, ?_⟩ <;> omega
  have hst : ¬ (strike.any fun s => t.xp0.length ≠ s.length ∧ s.length ≠ 1) = true := by
    cases strike with
    | none => simp
    | some s =>
      have := hs s rfl
      simp only [Option.any_some, decide_eq_true_eq, not_and, not_not]
      intro h
      omega
  have hq : ∀ i, ∃ (s : ℝ) (q : Quad Point), i < n → StrikeUsed lon0 lat0 t strike i s ∧
      traceQuad (centredOn lon0 lat0) t strike i = some q ∧
      q.p0 = topFirst t i ∧ q.p1 = topSecond t i ∧
      (HasRoom lon0 lat0 s (t.dips.getD i 0) (t.widths.getD i 0) (topFirst t i) →
        DownDip lon0 lat0 s (t.dips.getD i 0) (t.widths.getD i 0) q.p0 q.p3) ∧
      (HasRoom lon0 lat0 s (t.dips.getD i 0) (t.widths.getD i 0) (topSecond t i) →
        DownDip lon0 lat0 s (t.dips.getD i 0) (t.widths.getD i 0) q.p1 q.p2) := by
    intro i
    by_cases hi : i < n
    · obtain ⟨s, a, q, b⟩ := traceQuad_spec (lon0 := lon0) (lat0 := lat0) (t := t) (strike := strike) (i := i)
        (fun l hl => by have := hs l hl; omega) (hnear i hi).1 (hnear i hi).2
      exact ⟨s, q, fun _ => ⟨a, b⟩⟩
    · exact ⟨0, ⟨⟨0, 0, 0⟩, ⟨0, 0, 0⟩, ⟨0, 0, 0⟩, ⟨0, 0, 0⟩⟩, fun h => absurd h hi⟩
  choose s q hq using hq
  have hquads : traceQuads (centredOn lon0 lat0) t strike = some ((List.range n).map q) := by
    unfold traceQuads
    rw [l1]
    exact mapM_range_some fun i hi => (hq i hi).2.1
  have hproj : traceProj at_ t = centredOn lon0 lat0 := by rw [traceProj_eq hn h0 hb, hm]
  have hfrom : ∀ index, fromTrace at_ t strike index = match traceGroups ((List.range n).map q) index with
      | none => .error .indexError
      | some polys => .ok polys := by
    intro index
    unfold fromTrace
    simp only
    rw [if_neg hlen, if_neg hst, if_neg (by omega), hproj, hquads]
    rfl
  refine ⟨s, (List.range n).map q, by simp, fun i hi => (hq i hi).1, ?_, ?_, ?_, ?_⟩
  · intro i q' hq'
    rw [List.getElem?_map] at hq'
    obtain ⟨j, hj, rfl⟩ := Option.map_eq_some_iff.1 hq'
    obtain ⟨hi, hj⟩ := List.getElem?_eq_some_iff.1 hj
    rw [List.getElem_range] at hj
    subst hj
    rw [List.length_range] at hi
    obtain ⟨-, -, a, b, c, d⟩ := hq i hi
    exact ⟨a, b, by rw [a] at c ⊢; exact c, by rw [b] at d ⊢; exact d⟩
  · rw [hfrom, (C110_trace_groups_partial _).1, (C103_from_vertices _).1]
  · intro idx hidx ps hps
    rw [hfrom, ((C110_trace_groups_partial _).2 idx).1 (by simp [hidx]), hps]
  · intro idx hidx
    rw [hfrom, ((C110_trace_groups_partial _).2 idx).2 (by simp [hidx])]

/-! ### C147 -/

/-- All arrays given to `fromOrientation` have `n` entries. -/
def OrientationSize (o : Orientation) (n : ℕ) : Prop :=
  o.px.length = n ∧ o.py.length = n ∧ o.pz.length = n ∧ o.dx.length = n ∧ o.dy.length = n ∧ o.length.length = n ∧
  o.width.length = n ∧ o.strike.length = n ∧ o.dip.length = n

/-- From the known point, the corner is reached along a great circle by going back `dx` against the strike and up the dip
by `dy`, measured on the plane. -/
def CornerFromKnown (px py dx dy strike dip : ℝ) (p : Point) : Prop :=
  ∃ az d, 0 ≤ d ∧ onSphere p.lon p.lat = arrive px py az d ∧
    d * sin (rad az) = -(dx * sin (rad strike)) - dy * cos (rad dip) * sin (rad (strike + 90)) ∧
    d * cos (rad az) = -(dx * cos (rad strike)) - dy * cos (rad dip) * cos (rad (strike + 90))

theorem cornerP1_spec {at_ : ℝ → ℝ → ℝ → ℝ → ℝ × ℝ} (hat : FindsPoint at_) {px py : ℝ} (h1 : -90 < py) (h2 : py < 90)
    (dx dy strike dip z : ℝ) :
    let p := cornerP1 at_ px py dx dy strike dip
    CornerFromKnown px py dx dy strike dip ⟨p.1, p.2, z⟩ := by
  intro p
  refine ⟨_, _, sqrt_nonneg _, (hat px py _ _ h1 h2).1, ?_, ?_⟩
  all_goals
    set c := dy * cos (Oq.radians dip) with hc
    have hcr : dy * cos (rad dip) = c := rfl
    set z : ℂ := ⟨dx, c⟩ with hz
    have hn : √(dx ^ 2 + c ^ 2) = ‖z‖ := by rw [Complex.norm_eq_sqrt_sq_add_sq]
    have hsin : ‖z‖ * sin (arctan2 c dx) = c := Complex.norm_mul_sin_arg z
    have hcos : ‖z‖ * cos (arctan2 c dx) = dx := Complex.norm_mul_cos_arg z
    have hra : rad (strike + 180 + Oq.degrees (arctan2 c dx)) = rad strike + arctan2 c dx + π := by
      have := rad_degrees (arctan2 c dx)
      unfold rad at this ⊢
      rw [add_mul, this]
      ring
    rw [hn, hra, hcr]
  · rw [sin_add_pi, sin_add, sin_rad_add_90]
    linear_combination -(cos (rad strike)) * hsin - sin (rad strike) * hcos
  · rw [cos_add_pi, cos_add, cos_rad_add_90]
    linear_combination sin (rad strike) * hsin - cos (rad strike) * hcos

/-- **C147** (partial). For arrays of the same length and known points that are not poles, `fromOrientation` is `fromTrace`
with the given strikes, dips and widths and with these top edges: the first corner is reached from the known point by going
back `dx` against the strike and `dy` up the plane, the second corner by going `length` along the strike, and the top is
higher than the known point by the vertical part of `dy`. Arrays of different lengths are an error. What is missing: a
negative `dy`, see `C147_negative_dy_violated`; corners at a pole. -/
theorem C147_from_orientation_partial {at_ : ℝ → ℝ → ℝ → ℝ → ℝ × ℝ} (hat : FindsPoint at_) (o : Orientation) :
    ((¬ ∃ n, OrientationSize o n) → fromOrientation at_ o = .error .consistentLength) ∧
    ∀ n, OrientationSize o n → (∀ i < n, -90 < o.py.getD i 0 ∧ o.py.getD i 0 < 90) →
      ∃ t : Trace, TraceSize t n ∧ t.widths = o.width ∧ t.dips = o.dip ∧
        fromOrientation at_ o = fromTrace at_ t (some o.strike) none ∧
        ∀ i < n, CornerFromKnown (o.px.getD i 0) (o.py.getD i 0) (o.dx.getD i 0) (o.dy.getD i 0) (o.strike.getD i 0)
            (o.dip.getD i 0) (topFirst t i) ∧
          (-90 < (topFirst t i).lat → (topFirst t i).lat < 90 → onSphere (topSecond t i).lon (topSecond t i).lat =
            arrive (topFirst t i).lon (topFirst t i).lat (o.strike.getD i 0) (o.length.getD i 0)) ∧
          (0 ≤ o.dy.getD i 0 * sin (rad (o.dip.getD i 0)) →
            (topFirst t i).depth = o.pz.getD i 0 - o.dy.getD i 0 * sin (rad (o.dip.getD i 0))) := by
  constructor
  · intro h
    unfold fromOrientation
    rw [if_neg]
    rintro ⟨h1, h2, h3, h4, h5, h6, h7, h8⟩
    exact h ⟨o.px.length, rfl, by omega, by omega, by omega, by omega, by omega, by omega, by omega, by omega⟩
  · intro n hn hlat
    obtain ⟨l1, l2, l3, l4, l5, l6, l7, l8, l9⟩ := hn
    refine ⟨orientationTrace at_ o, ?_, rfl, rfl, ?_, ?_⟩
    · unfold orientationTrace
      refine ⟨?_, ?_, ?_, ?_, ?_, l7, l9⟩ <;> simp [l1]
    · unfold fromOrientation
      rw [if_pos (by refine ⟨?_, ?_, ?_, ?_, ?_, ?_, ?_, ?_⟩ <;> omega)]
    · intro i hi
      have hi' : i < o.px.length := by omega
      have hp1 : topFirst (orientationTrace at_ o) i =
          ⟨(cornerP1 at_ (o.px.getD i 0) (o.py.getD i 0) (o.dx.getD i 0) (o.dy.getD i 0) (o.strike.getD i 0)
            (o.dip.getD i 0)).1,
           (cornerP1 at_ (o.px.getD i 0) (o.py.getD i 0) (o.dx.getD i 0) (o.dy.getD i 0) (o.strike.getD i 0)
            (o.dip.getD i 0)).2, o.pz.getD i 0 - |o.dy.getD i 0 * sin (Oq.radians (o.dip.getD i 0))|⟩ := by
        unfold topFirst orientationTrace
        simp only [List.getD_eq_getElem?_getD, List.getElem?_map, List.getElem?_range hi', Option.map_some, Option.getD_some]
      have hp2 : (topSecond (orientationTrace at_ o) i).lon = (at_ (topFirst (orientationTrace at_ o) i).lon
            (topFirst (orientationTrace at_ o) i).lat (o.strike.getD i 0) (o.length.getD i 0)).1 ∧
          (topSecond (orientationTrace at_ o) i).lat = (at_ (topFirst (orientationTrace at_ o) i).lon
            (topFirst (orientationTrace at_ o) i).lat (o.strike.getD i 0) (o.length.getD i 0)).2 := by
        rw [hp1]
        unfold topSecond orientationTrace
        simp only [List.getD_eq_getElem?_getD, List.getElem?_map, List.getElem?_range hi', Option.map_some, Option.getD_some]
        trivial
      refine ⟨?_, ?_, ?_⟩
      · rw [hp1]
        exact cornerP1_spec hat (hlat i hi).1 (hlat i hi).2 _ _ _ _ _
      · intro b1 b2
        rw [hp2.1, hp2.2]
        exact (hat _ _ _ _ b1 b2).1
      · intro hd
        rw [hp1]
        show _ - |_ * sin (rad _)| = _
        rw [abs_of_nonneg hd]

/-- **C147** violated for a negative `dy`: the top edge is put as high above a known point as for the positive one, so for
a known point above the top edge the plane does not go through it. -/
theorem C147_negative_dy_violated (at_ : ℝ → ℝ → ℝ → ℝ → ℝ × ℝ) (o : Orientation) {i : ℕ} (hi : i < o.px.length)
    (h : o.dy.getD i 0 * sin (rad (o.dip.getD i 0)) < 0) :
    (topFirst (orientationTrace at_ o) i).depth = o.pz.getD i 0 + o.dy.getD i 0 * sin (rad (o.dip.getD i 0)) ∧
    (topFirst (orientationTrace at_ o) i).depth ≠ o.pz.getD i 0 - o.dy.getD i 0 * sin (rad (o.dip.getD i 0)) := by
  have : (topFirst (orientationTrace at_ o) i).depth =
      o.pz.getD i 0 + o.dy.getD i 0 * sin (rad (o.dip.getD i 0)) := by
    unfold topFirst orientationTrace
    simp only [List.getD_eq_getElem?_getD, List.getElem?_map, List.getElem?_range hi, Option.map_some, Option.getD_some]
    simp only [List.getD_eq_getElem?_getD] at h
    show _ - |_ * sin (rad _)| = _
    rw [abs_of_neg h]
    ring
  exact ⟨this, by rw [this]; intro e; linarith⟩

/-! ### An example: one quadrilateral on the equator -/

/-- A top edge of two degrees on the equator, 5 km deep, 10 km wide, dipping at 30 degrees. -/
def exTrace : Trace := ⟨[-1], [0], [1], [0], [5], [10], [30]⟩

theorem exTrace_box : TraceBox exTrace (-1) 1 0 0 := by
  constructor
  · constructor
    · simp [exTrace]
    · rintro x (h | h) <;> simp [exTrace] at h <;> rw [h]
      norm_num
  · constructor
    · simp [exTrace]
    · rintro x (h | h) <;> simp [exTrace] at h <;> rw [h]
      norm_num
  · constructor
    · simp [exTrace]
    · rintro x (h | h) <;> simp [exTrace] at h <;> rw [h]
  · constructor
    · simp [exTrace]
    · rintro x (h | h) <;> simp [exTrace] at h <;> rw [h]

/-- The middle of the box is at most 60 degrees from both corners. -/
theorem exTrace_middle : let m := middlePoint libraryPointAt (-1) 0 1 0
    greatCircle m.1 m.2 (-1) 0 ≤ 6371 * (π / 3) ∧ greatCircle m.1 m.2 1 0 ≤ 6371 * (π / 3) := by
  intro m
  obtain ⟨h1, h2⟩ := C143_middle_point_partial libraryPointAt_finds (lon1 := -1) (lat1 := 0) (by norm_num) (by norm_num) 1 0
  have hd : geodeticDistance (-1) 0 1 0 / 2 ≤ 6371 * (π / 3) := by
    unfold geodeticDistance Oq.earthRadius
    have h3 : √(sin ((Oq.radians 0 - Oq.radians 0) / 2) ^ 2 + cos (Oq.radians 0) * cos (Oq.radians 0) *
        sin ((Oq.radians (-1) - Oq.radians 1) / 2) ^ 2) = sin (π / 180) := by
      unfold Oq.radians
      rw [show (0 * (π / 180) - 0 * (π / 180)) / 2 = 0 by ring, show (-1 * (π / 180) - 1 * (π / 180)) / 2 = -(π / 180) by ring]
      simp only [sin_zero, zero_mul, cos_zero, sin_neg]
      rw [show (0 : ℝ) ^ 2 + 1 * 1 * (-sin (π / 180)) ^ 2 = sin (π / 180) ^ 2 by ring]
      exact sqrt_sq (sin_nonneg_of_nonneg_of_le_pi (by positivity) (by linarith [pi_pos]))
    rw [h3, arcsin_sin (by linarith [pi_pos]) (by linarith [pi_pos])]
    nlinarith [pi_pos]
  rw [← C78_great_circle, ← C78_great_circle]
  exact ⟨by rw [C78_metric.1]; exact h1.le.trans hd, h2.le.trans hd⟩

/-- The top edge meets the hypotheses of C146, with the strike given or not, and there is room for the lower corners. -/
example : TraceSize exTrace 1 ∧ TraceBox exTrace (-1) 1 0 0 ∧
    (let m := middlePoint libraryPointAt (-1) 0 1 0
     (∀ i < 1, Near m.1 m.2 (topFirst exTrace i) ∧ Near m.1 m.2 (topSecond exTrace i)) ∧
     ∀ s, HasRoom m.1 m.2 s (exTrace.dips.getD 0 0) (exTrace.widths.getD 0 0) (topFirst exTrace 0)) := by
  obtain ⟨m1, m2⟩ := exTrace_middle
  refine ⟨⟨rfl, rfl, rfl, rfl, rfl, rfl, rfl⟩, exTrace_box, ?_, ?_⟩
  · intro i hi
    obtain rfl : i = 0 := by omega
    exact ⟨m1.trans (by linarith [pi_pos]), m2.trans (by linarith [pi_pos])⟩
  · intro s
    set m := middlePoint libraryPointAt (-1) 0 1 0
    have hI : 1 / 2 ≤ inner ℝ (onSphere m.1 m.2) (onSphere (-1) 0) := by
      unfold greatCircle at m1
      have h1 : InnerProductGeometry.angle (onSphere m.1 m.2) (onSphere (-1) 0) ≤ π / 3 := by linarith
      have h2 := cos_le_cos_of_nonneg_of_le_pi (InnerProductGeometry.angle_nonneg _ _) (by linarith [pi_pos]) h1
      rw [cos_pi_div_three, InnerProductGeometry.cos_angle, onSphere_norm, onSphere_norm] at h2
      simpa using h2
    have hE := east_north_sq m.1 m.2 (-1) 0
    set E := eastOf m.1 (-1) 0 with hEd
    set N := northOf m.1 m.2 (-1) 0 with hNd
    have hEN : E ^ 2 + N ^ 2 ≤ 3 / 4 := by nlinarith
    unfold HasRoom
    show (6371 * E + 10 * cos (rad 30) * sin (rad (s + 90))) ^ 2 + (6371 * N + 10 * cos (rad 30) * cos (rad (s + 90))) ^ 2 ≤ _
    have h1 := sin_sq_add_cos_sq (rad (s + 90))
    have h2 := sin_sq_add_cos_sq (rad 30)
    set a := sin (rad (s + 90))
    set b := cos (rad (s + 90))
    set c := cos (rad 30)
    have hc : c ^ 2 ≤ 1 := by nlinarith [sq_nonneg (sin (rad 30))]
    have hp : 2 * ((6371 * E) * (10 * c * a) + (6371 * N) * (10 * c * b)) ≤
        1 / 5 * ((6371 * E) ^ 2 + (6371 * N) ^ 2) + 5 * ((10 * c * a) ^ 2 + (10 * c * b) ^ 2) := by
      nlinarith [sq_nonneg (6371 * E - 5 * (10 * c * a)), sq_nonneg (6371 * N - 5 * (10 * c * b))]
    have hq : (10 * c * a) ^ 2 + (10 * c * b) ^ 2 = 100 * c ^ 2 := by linear_combination 100 * c ^ 2 * h1
    nlinarith

/-- A known point in the middle of a plane meets the hypotheses of C147. -/
example : OrientationSize ⟨[-122], [47], [10], [20], [5], [40], [10], [45], [30]⟩ 1 ∧
    0 ≤ ([5] : List ℝ).getD 0 0 * sin (rad (([30] : List ℝ).getD 0 0)) := by
  refine ⟨⟨rfl, rfl, rfl, rfl, rfl, rfl, rfl, rfl, rfl⟩, ?_⟩
  show (0 : ℝ) ≤ 5 * sin (rad 30)
  exact mul_nonneg (by norm_num) (sin_nonneg_of_nonneg_of_le_pi (by unfold rad; positivity) (by unfold rad; linarith [pi_pos]))

end Verif.Props
