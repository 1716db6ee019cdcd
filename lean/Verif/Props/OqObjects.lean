import Verif.Model.OqObjects
import Verif.Spec.SimpleLine
import Verif.Props.OqProjection
import Verif.Props.OqCourse
import Verif.Props.BoundingBox

/-!
# C165, C166: the closest object, lines that cross themselves
-/

namespace Verif.Props
open Real Verif.Oq Verif.Spec

/-! ### Lines and polygons -/

/-- If two segments with a common end share another point, then one of them contains the other end of the other one. -/
theorem common_end {p a b x : ℝ × ℝ} (h1 : x ∈ segment ℝ a p) (h2 : x ∈ segment ℝ p b) (hx : x ≠ p) : b ∈ segment ℝ a p ∨ a ∈ segment ℝ p b := by
  obtain ⟨s, s', hs, hs', hss, e1⟩ := h1
  obtain ⟨t', t, ht', ht, htt, e2⟩ := h2
  obtain rfl : s' = 1 - s := by linarith
  obtain rfl : t' = 1 - t := by linarith
  have f1 : s * a.1 + (1 - s) * p.1 = x.1 := by simpa using congrArg Prod.fst e1
  have f2 : s * a.2 + (1 - s) * p.2 = x.2 := by simpa using congrArg Prod.snd e1
  have g1 : (1 - t) * p.1 + t * b.1 = x.1 := by simpa using congrArg Prod.fst e2
  have g2 : (1 - t) * p.2 + t * b.2 = x.2 := by simpa using congrArg Prod.snd e2
  have hs0 : 0 < s := by
    refine lt_of_le_of_ne hs ?_
    rintro rfl
    exact hx (Prod.ext (by linarith) (by linarith))
  have ht0 : 0 < t := by
    refine lt_of_le_of_ne ht ?_
    rintro rfl
    exact hx (Prod.ext (by linarith) (by linarith))
  rcases le_total s t with hst | hst
  · left
    refine ⟨s / t, 1 - s / t, by positivity, by rw [sub_nonneg, div_le_one ht0]; exact hst, by ring, ?_⟩
    refine Prod.ext ?_ ?_
    · simp only [Prod.fst_add, Prod.smul_fst, smul_eq_mul]
      field_simp
      linarith
    · simp only [Prod.snd_add, Prod.smul_snd, smul_eq_mul]
      field_simp
      linarith
  · right
    refine ⟨1 - t / s, t / s, by rw [sub_nonneg, div_le_one hs0]; exact hst, by positivity, by ring, ?_⟩
    refine Prod.ext ?_ ?_
    · simp only [Prod.fst_add, Prod.smul_fst, smul_eq_mul]
      field_simp
      linarith
    · simp only [Prod.snd_add, Prod.smul_snd, smul_eq_mul]
      field_simp
      linarith

theorem rolled_get (pts : List (ℝ × ℝ)) (hn : 1 ≤ pts.length) (k : ℕ) :
    (pts.rotate (pts.length - 1))[k + 1]? = (if k + 1 < pts.length then pts[k]? else none) ∧
      (pts.rotate (pts.length - 1))[0]? = pts[pts.length - 1]? := by
  constructor
  · split_ifs with h
    · rw [List.getElem?_rotate h]
      congr 1
      rw [show k + 1 + (pts.length - 1) = k + pts.length by omega, Nat.add_mod_right, Nat.mod_eq_of_lt (by omega)]
    · rw [List.getElem?_eq_none_iff, List.length_rotate]; omega
  · rw [List.getElem?_rotate (by omega), Nat.zero_add, Nat.mod_eq_of_lt (by omega)]

/-- The two tests of a line with at least four points find exactly the polygons that cross themselves. -/
theorem polygon_iff (pts : List (ℝ × ℝ)) (hn : 4 ≤ pts.length) (hr : NoRepeat pts) (hl : pts[pts.length - 1]? ≠ pts[0]?) :
    SimplePolygon pts ↔ SimpleLine pts ∧ SimpleLine (pts.rotate (pts.length - 1)) := by
  have get : ∀ (k : ℕ) (a : ℝ × ℝ), pts[k]? = some a → k < pts.length := fun k a h => (List.getElem?_eq_some_iff.1 h).1
  have has : ∀ k < pts.length, ∃ a, pts[k]? = some a := fun k h => ⟨_, List.getElem?_eq_getElem h⟩
  have r0 : (pts.rotate (pts.length - 1))[0]? = pts[pts.length - 1]? := (rolled_get pts (by omega) 0).2
  have rs : ∀ k, (pts.rotate (pts.length - 1))[k + 1]? = (if k + 1 < pts.length then pts[k]? else none) :=
    fun k => (rolled_get pts (by omega) k).1
  constructor
  · intro h
    constructor
    · intro i j a b c d x ha hb hc hd hij h1 h2
      have hi := get _ _ hb
      have hj := get _ _ hd
      have := h i j a b c d x ha (by rw [Nat.mod_eq_of_lt hi]; exact hb) hc (by rw [Nat.mod_eq_of_lt hj]; exact hd) hij h1 h2
      rcases this with h3 | ⟨_, h3, _⟩
      · exact .inl h3
      · omega
    · intro i j a b c d x ha hb hc hd hij h1 h2
      rw [List.length_rotate]
      obtain ⟨j, rfl⟩ : ∃ j', j = j' + 1 := ⟨j - 1, by omega⟩
      rw [rs] at hc hd
      rw [rs] at hb
      have hj : j + 1 + 1 < pts.length := by by_contra hcon; rw [if_neg hcon] at hd; cases hd
      rw [if_pos hj] at hd
      rw [if_pos (by omega)] at hc
      cases i with
      | zero =>
        rw [r0] at ha
        rw [if_pos (by omega)] at hb
        have := h j (pts.length - 1) c d a b x hc (by rw [Nat.mod_eq_of_lt (by omega)]; exact hd) ha
          (by rw [show pts.length - 1 + 1 = pts.length by omega, Nat.mod_self]; exact hb) (by omega) h2 h1
        rcases this with ⟨h3, _⟩ | ⟨h3, _, h4⟩
        · omega
        · exact .inl ⟨by omega, h4⟩
      | succ i =>
        rw [rs, if_pos (by omega)] at ha
        rw [if_pos (by omega)] at hb
        have := h i j a b c d x ha (by rw [Nat.mod_eq_of_lt (by omega)]; exact hb) hc (by rw [Nat.mod_eq_of_lt (by omega)]; exact hd) (by omega) h1 h2
        rcases this with ⟨h3, h4⟩ | ⟨_, h3, _⟩
        · exact .inl ⟨by omega, h4⟩
        · omega
  · rintro ⟨l1, l2⟩ i j a b c d x ha hb hc hd hij h1 h2
    have hj := get _ _ hc
    have hi := get _ _ ha
    have hi1 : i + 1 < pts.length := by omega
    rw [Nat.mod_eq_of_lt hi1] at hb
    by_cases hjl : j + 1 < pts.length
    · rw [Nat.mod_eq_of_lt hjl] at hd
      rcases l1 i j a b c d x ha hb hc hd hij h1 h2 with h3 | ⟨h3, h4, _, h5⟩
      · exact .inl h3
      · exfalso
        apply hl
        rw [show pts.length - 1 = j + 1 by omega, hd, ← h5, ← ha, h3]
    · obtain rfl : j = pts.length - 1 := by omega
      rw [show pts.length - 1 + 1 = pts.length by omega, Nat.mod_self] at hd
      by_cases hil : i + 2 < pts.length
      · -- the closing edge and an edge before the last one
        have := l2 0 (i + 1) c d a b x (by rw [r0]; exact hc) (by rw [rs, if_pos (by omega)]; exact hd)
          (by rw [rs, if_pos (by omega)]; exact ha) (by rw [rs, if_pos (by omega)]; exact hb) (by omega) h2 h1
        rw [List.length_rotate] at this
        rcases this with ⟨h3, h4⟩ | ⟨_, h3, _, h4⟩
        · exact .inr ⟨by omega, by omega, h4⟩
        · exfalso
          have : pts[i + 1]? ≠ some b := by
            intro hbb
            refine hr (i + 1) b hbb ?_
            rw [show i + 1 + 1 = pts.length - 1 by omega, hc, h4]
          exact this hb
      · obtain rfl : i = pts.length - 2 := by omega
        obtain rfl : b = c := by
          rw [show pts.length - 2 + 1 = pts.length - 1 by omega, hc] at hb
          exact (Option.some.inj hb).symm
        left
        refine ⟨by omega, ?_⟩
        by_contra hx
        rcases common_end h1 h2 hx with h3 | h3
        · -- the first corner lies on the last edge
          obtain ⟨u, hu⟩ := has 1 (by omega)
          have := l1 0 (pts.length - 2) d u a b d hd hu ha (by rw [show pts.length - 2 + 1 = pts.length - 1 by omega]; exact hc) (by omega)
            (left_mem_segment ℝ d u) h3
          rcases this with ⟨h4, _⟩ | ⟨_, _, _, h4⟩
          · omega
          · apply hl; rw [hc, hd, h4]
        · -- the last corner but one lies on the closing edge
          obtain ⟨u, hu⟩ := has (pts.length - 3) (by omega)
          have := l2 0 (pts.length - 2) b d u a a (by rw [r0]; exact hc) (by rw [rs, if_pos (by omega)]; exact hd)
            (by rw [show pts.length - 2 = pts.length - 3 + 1 by omega, rs, if_pos (by omega)]; exact hu)
            (by rw [rs, if_pos (by omega)]; exact ha) (by omega) h3 (right_mem_segment ℝ u a)
          rcases this with ⟨h4, _⟩ | ⟨_, _, h4, _⟩
          · omega
          · refine hr (pts.length - 2) a ha ?_
            rw [show pts.length - 2 + 1 = pts.length - 1 by omega, hc, h4]

/-! ### The projection of a collection -/

/-- The centre of the projection of a collection: the middle point of its bounding box. -/
def IsCentre (at_ : ℝ → ℝ → ℝ → ℝ → ℝ × ℝ) (places : List (ℝ × ℝ)) (lon0 lat0 : ℝ) : Prop :=
  ∃ west east north south, boundingLons (places.map Prod.fst) = .ok (west, east) ∧
    IsGreatest {lat | lat ∈ places.map Prod.snd} north ∧ IsLeast {lat | lat ∈ places.map Prod.snd} south ∧
    (lon0, lat0) = middlePoint at_ west north east south

/-- The places seen from far above the centre: how far east and how far north, in km. -/
noncomputable def seenFrom (lon0 lat0 : ℝ) (places : List (ℝ × ℝ)) : List (ℝ × ℝ) :=
  places.map fun p => (6371 * eastOf lon0 p.1 p.2, 6371 * northOf lon0 lat0 p.1 p.2)

/-- Whether all places are at most a quarter of the circumference away from the centre. -/
def InSight (lon0 lat0 : ℝ) (places : List (ℝ × ℝ)) : Prop := ∀ p ∈ places, greatCircle lon0 lat0 p.1 p.2 ≤ 6371 * (π / 2)

theorem projOf_ok {at_ : ℝ → ℝ → ℝ → ℝ → ℝ × ℝ} {places : List (ℝ × ℝ)} {proj : Proj}
    (h : projOf at_ (places.map Prod.fst) (places.map Prod.snd) = .ok proj) :
    ∃ lon0 lat0, IsCentre at_ places lon0 lat0 ∧ proj = centredOn lon0 lat0 := by
  unfold projOf at h
  split at h
  · rename_i n s w e hn hs hb
    cases h
    exact ⟨_, _, ⟨w, e, n, s, hb, pyMax_some hn, ⟨(pyMin_some hs).1, (pyMin_some hs).2⟩, rfl⟩, rfl⟩
  · cases h
  · cases h

theorem projOf_error {at_ : ℝ → ℝ → ℝ → ℝ → ℝ × ℝ} {places : List (ℝ × ℝ)} {e : BoxErr} (hne : places ≠ []) :
    projOf at_ (places.map Prod.fst) (places.map Prod.snd) = .error e ↔ boundingLons (places.map Prod.fst) = .error e := by
  obtain ⟨p, ps, rfl⟩ := List.exists_cons_of_ne_nil hne
  unfold projOf
  simp only [List.map_cons, pyMax, pyMin]
  cases boundingLons (p.1 :: ps.map Prod.fst) <;> simp

theorem forwardAll_eq (lon0 lat0 : ℝ) (places : List (ℝ × ℝ)) :
    (InSight lon0 lat0 places → (centredOn lon0 lat0).forwardAll places = .ok (seenFrom lon0 lat0 places)) ∧
    (¬ InSight lon0 lat0 places → (centredOn lon0 lat0).forwardAll places = .error .value) := by
  induction places with
  | nil => exact ⟨fun _ => rfl, fun h => absurd (fun p hp => by cases hp) h⟩
  | cons p ps ih =>
    obtain ⟨lon, lat⟩ := p
    obtain ⟨f1, f2⟩ := C130_forward lon0 lat0 lon lat
    by_cases hp : greatCircle lon0 lat0 lon lat ≤ 6371 * (π / 2)
    · by_cases hps : InSight lon0 lat0 ps
      · have hall : InSight lon0 lat0 ((lon, lat) :: ps) := by
          intro q hq
          rcases List.mem_cons.1 hq with rfl | hq
          · exact hp
          · exact hps q hq
        refine ⟨fun _ => ?_, fun h => absurd hall h⟩
        rw [Proj.forwardAll, f2 hp, ih.1 hps]
        rfl
      · refine ⟨fun h => absurd (fun q hq => h q (List.mem_cons_of_mem _ hq)) hps, fun _ => ?_⟩
        rw [Proj.forwardAll, f2 hp, ih.2 hps]
    · refine ⟨fun h => absurd (h _ List.mem_cons_self) hp, fun _ => ?_⟩
      rw [Proj.forwardAll, f1.2 (not_le.1 hp)]

theorem inSight_rotate {lon0 lat0 : ℝ} {places : List (ℝ × ℝ)} (n : ℕ) (h : InSight lon0 lat0 places) : InSight lon0 lat0 (places.rotate n) :=
  fun p hp => h p (List.mem_rotate.1 hp)

/-! ### C166 -/

/-- What a line with at least four points gives. -/
theorem intersects_eq (at_ : ℝ → ℝ → ℝ → ℝ → ℝ × ℝ) (simple : List (ℝ × ℝ) → Bool) {places : List (ℝ × ℝ)} (hn : 4 ≤ places.length) (closed : Bool) :
    (∃ e, lineIntersectsItself at_ simple places closed = .error e) ∨
    ∃ lon0 lat0, IsCentre at_ places lon0 lat0 ∧ InSight lon0 lat0 places ∧
      lineIntersectsItself at_ simple places closed =
        .ok (!simple (seenFrom lon0 lat0 places) || (closed && !simple ((seenFrom lon0 lat0 places).rotate (places.length - 1)))) := by
  unfold lineIntersectsItself
  rw [if_neg (by omega)]
  cases hp : projOf at_ (places.map Prod.fst) (places.map Prod.snd) with
  | error e => exact .inl ⟨e, rfl⟩
  | ok proj =>
    obtain ⟨lon0, lat0, hc, rfl⟩ := projOf_ok hp
    by_cases hs : InSight lon0 lat0 places
    · right
      refine ⟨lon0, lat0, hc, hs, ?_⟩
      have h1 := (forwardAll_eq lon0 lat0 places).1 hs
      have h2 := (forwardAll_eq lon0 lat0 _).1 (inSight_rotate (places.length - 1) hs)
      rw [show seenFrom lon0 lat0 (places.rotate (places.length - 1)) = (seenFrom lon0 lat0 places).rotate (places.length - 1) by
        unfold seenFrom; rw [List.map_rotate]] at h2
      show (do
        let pts ← (centredOn lon0 lat0).forwardAll places
        if !simple pts then return true
        if closed then
          let rolled ← (centredOn lon0 lat0).forwardAll (places.rotate (places.length - 1))
          if !simple rolled then return true
        return false : Except BoxErr Bool) = _
      rw [h1, h2]
      cases h3 : simple (seenFrom lon0 lat0 places) <;> cases closed <;>
        cases h4 : simple ((seenFrom lon0 lat0 places).rotate (places.length - 1)) <;>
        simp [bind, Except.bind, pure, Except.pure, h3, h4]
    · left
      refine ⟨.value, ?_⟩
      show (do
        let pts ← (centredOn lon0 lat0).forwardAll places
        if !simple pts then return true
        if closed then
          let rolled ← (centredOn lon0 lat0).forwardAll (places.rotate (places.length - 1))
          if !simple rolled then return true
        return false : Except BoxErr Bool) = _
      rw [(forwardAll_eq lon0 lat0 places).2 hs]
      rfl

/-- **C166**, an open line of at least four points none of which follows itself: the answer is whether the line, seen from above the centre of its bounding
box, meets itself anywhere but in the common points of consecutive edges, or in its ends if they coincide. -/
theorem C166_line_partial {simple : List (ℝ × ℝ) → Bool} (hsim : DecidesSimple simple) {at_ : ℝ → ℝ → ℝ → ℝ → ℝ × ℝ} {places : List (ℝ × ℝ)}
    (hn : 4 ≤ places.length) {b : Bool} (h : lineIntersectsItself at_ simple places false = .ok b) :
    ∃ lon0 lat0, IsCentre at_ places lon0 lat0 ∧ InSight lon0 lat0 places ∧
      (NoRepeat (seenFrom lon0 lat0 places) → (b = true ↔ ¬ SimpleLine (seenFrom lon0 lat0 places))) := by
  rcases intersects_eq at_ simple hn false with ⟨e, he⟩ | ⟨lon0, lat0, hc, hs, he⟩
  · rw [he] at h; cases h
  · rw [he] at h
    refine ⟨lon0, lat0, hc, hs, fun hr => ?_⟩
    rw [← hsim _ hr, ← Except.ok.inj h]
    simp

theorem noRepeat_rotate {pts : List (ℝ × ℝ)} (hn : 1 ≤ pts.length) (hr : NoRepeat pts) (hl : pts[pts.length - 1]? ≠ pts[0]?) :
    NoRepeat (pts.rotate (pts.length - 1)) := by
  intro i a ha hb
  rw [(rolled_get pts hn i).1] at hb
  split_ifs at hb with h
  cases i with
  | zero =>
    rw [(rolled_get pts hn 0).2] at ha
    exact hl (ha.trans hb.symm)
  | succ i =>
    rw [(rolled_get pts hn i).1, if_pos (by omega)] at ha
    exact hr i a ha hb

/-- **C166**, a closed shape with at least four corners, consecutive ones different: the two tests together find exactly the polygons that, seen
from above the centre of the bounding box, have two edges meeting anywhere but in a common corner. -/
theorem C166_polygon {simple : List (ℝ × ℝ) → Bool} (hsim : DecidesSimple simple) {at_ : ℝ → ℝ → ℝ → ℝ → ℝ × ℝ} {places : List (ℝ × ℝ)}
    (hn : 4 ≤ places.length) {b : Bool} (h : lineIntersectsItself at_ simple places true = .ok b) :
    ∃ lon0 lat0, IsCentre at_ places lon0 lat0 ∧ InSight lon0 lat0 places ∧
      (NoRepeat (seenFrom lon0 lat0 places) → (seenFrom lon0 lat0 places)[places.length - 1]? ≠ (seenFrom lon0 lat0 places)[0]? →
        (b = true ↔ ¬ SimplePolygon (seenFrom lon0 lat0 places))) := by
  rcases intersects_eq at_ simple hn true with ⟨e, he⟩ | ⟨lon0, lat0, hc, hs, he⟩
  · rw [he] at h; cases h
  · rw [he] at h
    refine ⟨lon0, lat0, hc, hs, fun hr hl => ?_⟩
    have hlen : (seenFrom lon0 lat0 places).length = places.length := by simp [seenFrom]
    rw [← hlen] at hl h
    rw [polygon_iff _ (by omega) hr hl, ← hsim _ hr, ← hsim _ (noRepeat_rotate (by omega) hr hl), ← Except.ok.inj h]
    simp only [Bool.or_eq_true, Bool.not_eq_true', Bool.and_eq_true, true_and, not_and_or, Bool.not_eq_true]

/-- **C166**, refused: `ValueError` or a failed assertion for collections without a bounding box, `ValueError` if a place is more than a quarter of
the circumference away from the centre; otherwise there is an answer. -/
theorem C166_refused (at_ : ℝ → ℝ → ℝ → ℝ → ℝ × ℝ) (simple : List (ℝ × ℝ) → Bool) {places : List (ℝ × ℝ)} (hn : 4 ≤ places.length) (closed : Bool)
    (e : BoxErr) : lineIntersectsItself at_ simple places closed = .error e ↔
      boundingLons (places.map Prod.fst) = .error e ∨ (e = .value ∧ ∃ lon0 lat0, IsCentre at_ places lon0 lat0 ∧ ¬ InSight lon0 lat0 places) := by
  have hne : places ≠ [] := by rintro rfl; simp at hn
  have uniq : ∀ {a b c d : ℝ}, IsCentre at_ places a b → IsCentre at_ places c d → (a, b) = (c, d) := by
    rintro a b c d ⟨w, e, n, s, h1, h2, h3, h4⟩ ⟨w', e', n', s', h1', h2', h3', h4'⟩
    rw [h1] at h1'
    cases h1'
    rw [h4, h4', h2.unique h2', h3.unique h3']
  cases hp : projOf at_ (places.map Prod.fst) (places.map Prod.snd) with
  | error e' =>
    have hb := (projOf_error hne).1 hp
    have : lineIntersectsItself at_ simple places closed = .error e' := by
      unfold lineIntersectsItself
      rw [if_neg (by omega), hp]
      rfl
    rw [this, hb]
    constructor
    · intro h; cases h; exact .inl rfl
    · rintro (h | ⟨_, _, _, ⟨_, _, _, _, h, _⟩, _⟩)
      · cases h; rfl
      · rw [hb] at h; cases h
  | ok proj =>
    obtain ⟨lon0, lat0, hc, rfl⟩ := projOf_ok hp
    have hb : ∃ x, boundingLons (places.map Prod.fst) = .ok x := by obtain ⟨_, _, _, _, h, _⟩ := hc; exact ⟨_, h⟩
    obtain ⟨x, hb⟩ := hb
    by_cases hs : InSight lon0 lat0 places
    · rcases intersects_eq at_ simple hn closed with ⟨e', he⟩ | ⟨_, _, _, _, he⟩
      · exfalso
        unfold lineIntersectsItself at he
        rw [if_neg (by omega), hp] at he
        have h1 := (forwardAll_eq lon0 lat0 places).1 hs
        have h2 := (forwardAll_eq lon0 lat0 _).1 (inSight_rotate (places.length - 1) hs)
        change (do
          let pts ← (centredOn lon0 lat0).forwardAll places
          if !simple pts then return true
          if closed then
            let rolled ← (centredOn lon0 lat0).forwardAll (places.rotate (places.length - 1))
            if !simple rolled then return true
          return false : Except BoxErr Bool) = _ at he
        rw [h1, h2] at he
        cases h3 : simple (seenFrom lon0 lat0 places) <;> cases closed <;>
          cases h4 : simple (seenFrom lon0 lat0 (places.rotate (places.length - 1))) <;>
          simp [bind, Except.bind, pure, Except.pure, h3, h4] at he
      · rw [he, hb]
        constructor
        · intro h; cases h
        · rintro (h | ⟨_, l, m, hc', hs'⟩)
          · cases h
          · obtain ⟨rfl, rfl⟩ := Prod.mk.inj (uniq hc hc')
            exact absurd hs hs'
    · have : lineIntersectsItself at_ simple places closed = .error .value := by
        unfold lineIntersectsItself
        rw [if_neg (by omega), hp]
        change (do
          let pts ← (centredOn lon0 lat0).forwardAll places
          if !simple pts then return true
          if closed then
            let rolled ← (centredOn lon0 lat0).forwardAll (places.rotate (places.length - 1))
            if !simple rolled then return true
          return false : Except BoxErr Bool) = _
        rw [(forwardAll_eq lon0 lat0 places).2 hs]
        rfl
      rw [this, hb]
      constructor
      · intro h
        cases h
        exact .inr ⟨rfl, lon0, lat0, hc, hs⟩
      · rintro (h | ⟨rfl, _⟩)
        · cases h
        · rfl

/-- **C166 is violated** for three points: a line that goes somewhere and straight back covers itself, whatever the two places are, but the answer
is always that lines of three points do not intersect themselves. -/
theorem C166_three_violated (at_ : ℝ → ℝ → ℝ → ℝ → ℝ × ℝ) (simple : List (ℝ × ℝ) → Bool) (closed : Bool) (p q : ℝ × ℝ) :
    lineIntersectsItself at_ simple [p, q, p] closed = .ok false ∧
    ∀ lon0 lat0, seenFrom lon0 lat0 [p] ≠ seenFrom lon0 lat0 [q] → ¬ SimpleLine (seenFrom lon0 lat0 [p, q, p]) := by
  refine ⟨rfl, fun lon0 lat0 hne h => ?_⟩
  simp only [seenFrom, List.map_cons, List.map_nil] at hne h
  generalize ((6371 * eastOf lon0 p.1 p.2, 6371 * northOf lon0 lat0 p.1 p.2) : ℝ × ℝ) = P at *
  generalize ((6371 * eastOf lon0 q.1 q.2, 6371 * northOf lon0 lat0 q.1 q.2) : ℝ × ℝ) = Q at *
  have hPQ : P ≠ Q := fun h => hne (by rw [h])
  have := h 0 1 P Q Q P (midpoint ℝ P Q) rfl rfl rfl rfl (by omega) (midpoint_mem_segment P Q)
    (by rw [midpoint_comm]; exact midpoint_mem_segment Q P)
  rcases this with ⟨_, h1⟩ | ⟨_, _, h1, _⟩
  · exact hPQ ((midpoint_eq_right_iff (R := ℝ)).1 h1)
  · exact hPQ ((midpoint_eq_left_iff (R := ℝ)).1 h1)

/-- **C166 is violated** for the lines its documentation singles out, "line with the last point repeating the first one considered intersecting itself":
such a line that does not cross itself elsewhere is said not to intersect itself. -/
theorem C166_ring_violated {simple : List (ℝ × ℝ) → Bool} (hsim : DecidesSimple simple) {at_ : ℝ → ℝ → ℝ → ℝ → ℝ × ℝ} {places : List (ℝ × ℝ)}
    {lon0 lat0 : ℝ} (hn : 4 ≤ places.length) (hc : IsCentre at_ places lon0 lat0) (hs : InSight lon0 lat0 places)
    (hr : NoRepeat (seenFrom lon0 lat0 places)) (hsl : SimpleLine (seenFrom lon0 lat0 places)) (_ : places.head? = places.getLast?) :
    lineIntersectsItself at_ simple places false = .ok false := by
  have hno : ¬ ∃ e, lineIntersectsItself at_ simple places false = .error e := by
    rintro ⟨e, he⟩
    rw [C166_refused at_ simple hn] at he
    rcases he with he | ⟨_, l, m, hc', hs'⟩
    · obtain ⟨_, _, _, _, h, _⟩ := hc
      rw [h] at he; cases he
    · obtain ⟨w, e, n, s, h1, h2, h3, h4⟩ := hc
      obtain ⟨w', e', n', s', h1', h2', h3', h4'⟩ := hc'
      rw [h1] at h1'
      cases h1'
      have := h2.unique h2'
      have := h3.unique h3'
      subst n' s'
      rw [← h4] at h4'
      obtain ⟨rfl, rfl⟩ := Prod.mk.inj h4'
      exact hs' hs
  cases h : lineIntersectsItself at_ simple places false with
  | error e => exact absurd ⟨e, h⟩ hno
  | ok b =>
    obtain ⟨l, m, hc', hs', hb⟩ := C166_line_partial hsim hn h
    obtain ⟨w, e, n, s, h1, h2, h3, h4⟩ := hc
    obtain ⟨w', e', n', s', h1', h2', h3', h4'⟩ := hc'
    rw [h1] at h1'
    cases h1'
    have := h2.unique h2'
    have := h3.unique h3'
    subst n' s'
    rw [← h4] at h4'
    obtain ⟨rfl, rfl⟩ := Prod.mk.inj h4'
    have := hb hr
    cases b with
    | false => rfl
    | true => exact absurd hsl (this.1 rfl)

/-! ### C165 -/

/-- **C165**, with the index: the answer is an object nearest to the place looked for, as seen from above the centre of the bounding box of
the objects, and its great circle distance. -/
theorem C165_tree_partial {at_ : ℝ → ℝ → ℝ → ℝ → ℝ × ℝ} {nearest : List (ℝ × ℝ) → ℝ × ℝ → ℕ}
    (hnear : ∀ pts q, pts ≠ [] → IsNearest pts q (nearest pts q)) {places : List (ℝ × ℝ)} {lon lat : ℝ} (hne : places ≠ []) {i : ℕ} {d : ℝ}
    (h : closestTree at_ nearest places lon lat = .ok (i, d)) :
    ∃ lon0 lat0 p, IsCentre at_ places lon0 lat0 ∧ InSight lon0 lat0 places ∧ greatCircle lon0 lat0 lon lat ≤ 6371 * (π / 2) ∧
      places[i]? = some p ∧ d = greatCircle lon lat p.1 p.2 ∧
      IsNearest (seenFrom lon0 lat0 places) (6371 * eastOf lon0 lon lat, 6371 * northOf lon0 lat0 lon lat) i := by
  unfold closestTree at h
  cases hp : projOf at_ (places.map Prod.fst) (places.map Prod.snd) with
  | error e => rw [hp] at h; cases h
  | ok proj =>
    obtain ⟨lon0, lat0, hc, rfl⟩ := projOf_ok hp
    rw [hp] at h
    by_cases hs : InSight lon0 lat0 places
    · change (do
        let pts ← (centredOn lon0 lat0).forwardAll places
        match (centredOn lon0 lat0).forward lon lat with
        | none => throw .value
        | some q => return (nearest pts q, geodeticDistance lon lat (places.getD (nearest pts q) (0, 0)).1 (places.getD (nearest pts q) (0, 0)).2) :
          Except BoxErr (ℕ × ℝ)) = _ at h
      rw [(forwardAll_eq lon0 lat0 places).1 hs] at h
      obtain ⟨f1, f2⟩ := C130_forward lon0 lat0 lon lat
      by_cases hq : greatCircle lon0 lat0 lon lat ≤ 6371 * (π / 2)
      · rw [f2 hq] at h
        simp only [bind, Except.bind, pure, Except.pure, Except.ok.injEq, Prod.mk.injEq] at h
        obtain ⟨rfl, rfl⟩ := h
        have hN := hnear (seenFrom lon0 lat0 places) (6371 * eastOf lon0 lon lat, 6371 * northOf lon0 lat0 lon lat)
          (by simpa [seenFrom] using hne)
        generalize nearest (seenFrom lon0 lat0 places) (6371 * eastOf lon0 lon lat, 6371 * northOf lon0 lat0 lon lat) = k at *
        obtain ⟨p', hp', _⟩ := id hN
        simp only [seenFrom, List.getElem?_map, Option.map_eq_some_iff] at hp'
        obtain ⟨p, hpk, _⟩ := hp'
        refine ⟨lon0, lat0, p, hc, hs, hq, hpk, ?_, hN⟩
        rw [C78_great_circle, List.getD_eq_getElem?_getD, hpk]
        rfl
      · rw [f1.2 (not_le.1 hq)] at h
        cases h
    · change (do
        let pts ← (centredOn lon0 lat0).forwardAll places
        match (centredOn lon0 lat0).forward lon lat with
        | none => throw .value
        | some q => return (nearest pts q, geodeticDistance lon lat (places.getD (nearest pts q) (0, 0)).1 (places.getD (nearest pts q) (0, 0)).2) :
          Except BoxErr (ℕ × ℝ)) = _ at h
      rw [(forwardAll_eq lon0 lat0 places).2 hs] at h
      cases h

theorem frame_parseval (lon0 lat0 : ℝ) (u v : EuclideanSpace ℝ (Fin 3)) :
    inner ℝ (eastAt lon0) u * inner ℝ (eastAt lon0) v + inner ℝ (northAt lon0 lat0) u * inner ℝ (northAt lon0 lat0) v +
      inner ℝ (onSphere lon0 lat0) u * inner ℝ (onSphere lon0 lat0) v = inner ℝ u v := by
  unfold eastAt northAt onSphere
  simp only [PiLp.inner_apply, Fin.sum_univ_three]
  simp
  have h1 := sin_sq_add_cos_sq (rad lon0)
  have h2 := sin_sq_add_cos_sq (rad lat0)
  generalize sin (rad lon0) = s at *
  generalize cos (rad lon0) = c at *
  generalize sin (rad lat0) = S at *
  generalize cos (rad lat0) = C at *
  generalize u.ofLp 0 = u0
  generalize u.ofLp 1 = u1
  generalize u.ofLp 2 = u2
  generalize v.ofLp 0 = v0
  generalize v.ofLp 1 = v1
  generalize v.ofLp 2 = v2
  linear_combination h1 * (u0 * v0 + u1 * v1) + h2 * ((c * u0 + s * u1) * (c * v0 + s * v1) + u2 * v2)

theorem inner_nonneg_of_near {a b c d : ℝ} (h : greatCircle a b c d ≤ 6371 * (π / 2)) : 0 ≤ inner ℝ (onSphere a b) (onSphere c d) := by
  unfold greatCircle at h
  have h3 : InnerProductGeometry.angle (onSphere a b) (onSphere c d) ≤ π / 2 := by linarith
  have h4 := cos_nonneg_of_mem_Icc ⟨by linarith [InnerProductGeometry.angle_nonneg (onSphere a b) (onSphere c d), pi_pos], h3⟩
  rw [InnerProductGeometry.cos_angle, onSphere_norm, onSphere_norm] at h4
  simpa using h4

/-- Two places in sight that are seen in the same place are the same. -/
theorem seen_injective {lon0 lat0 a b c d : ℝ} (h1 : greatCircle lon0 lat0 a b ≤ 6371 * (π / 2)) (h2 : greatCircle lon0 lat0 c d ≤ 6371 * (π / 2))
    (he : eastOf lon0 a b = eastOf lon0 c d) (hn : northOf lon0 lat0 a b = northOf lon0 lat0 c d) : greatCircle a b c d = 0 := by
  have e1 := east_north_sq lon0 lat0 a b
  have e2 := east_north_sq lon0 lat0 c d
  have i1 := inner_nonneg_of_near h1
  have i2 := inner_nonneg_of_near h2
  have hi : inner ℝ (onSphere lon0 lat0) (onSphere a b) = inner ℝ (onSphere lon0 lat0) (onSphere c d) := by
    rw [he, hn] at e1
    exact (sq_eq_sq₀ i1 i2).1 (by linarith)
  have hf := frame_parseval lon0 lat0 (onSphere a b) (onSphere c d)
  have : inner ℝ (onSphere a b) (onSphere c d) = (1 : ℝ) := by
    rw [← hf]
    unfold eastOf at he e1
    unfold northOf at hn e1
    rw [← he, ← hn, ← hi]
    linarith
  unfold greatCircle InnerProductGeometry.angle
  rw [onSphere_norm, onSphere_norm, this]
  simp

/-- **C165**, exact hits: when one of the objects is at the place looked for, the answer is an object at that place, and the distance zero. -/
theorem C165_hit {at_ : ℝ → ℝ → ℝ → ℝ → ℝ × ℝ} {nearest : List (ℝ × ℝ) → ℝ × ℝ → ℕ}
    (hnear : ∀ pts q, pts ≠ [] → IsNearest pts q (nearest pts q)) {places : List (ℝ × ℝ)} {lon lat : ℝ} (hmem : (lon, lat) ∈ places) {i : ℕ} {d : ℝ}
    (h : closestTree at_ nearest places lon lat = .ok (i, d)) : d = 0 := by
  obtain ⟨lon0, lat0, p, hc, hs, hq, hp, rfl, p', hp', hmin⟩ := C165_tree_partial hnear (List.ne_nil_of_mem hmem) h
  simp only [seenFrom, List.getElem?_map, hp, Option.map_some, Option.some.injEq] at hp'
  subst hp'
  have h1 := hmin _ (List.mem_map.2 ⟨(lon, lat), hmem, rfl⟩)
  simp only [sub_self] at h1
  have h2 : (6371 * eastOf lon0 p.1 p.2 - 6371 * eastOf lon0 lon lat) ^ 2 = 0 := by nlinarith [sq_nonneg (6371 * eastOf lon0 p.1 p.2 - 6371 * eastOf lon0 lon lat), sq_nonneg (6371 * northOf lon0 lat0 p.1 p.2 - 6371 * northOf lon0 lat0 lon lat)]
  have h3 : (6371 * northOf lon0 lat0 p.1 p.2 - 6371 * northOf lon0 lat0 lon lat) ^ 2 = 0 := by nlinarith [sq_nonneg (6371 * eastOf lon0 p.1 p.2 - 6371 * eastOf lon0 lon lat), sq_nonneg (6371 * northOf lon0 lat0 p.1 p.2 - 6371 * northOf lon0 lat0 lon lat)]
  have h4 := pow_eq_zero_iff (two_ne_zero) |>.1 h2
  have h5 := pow_eq_zero_iff (two_ne_zero) |>.1 h3
  exact seen_injective hq (hs p (List.mem_of_getElem? hp)) (by linarith) (by linarith)

/-- **C165**, the bound: no object is nearer than the answer appears to be from above. -/
theorem C165_bound {at_ : ℝ → ℝ → ℝ → ℝ → ℝ × ℝ} {nearest : List (ℝ × ℝ) → ℝ × ℝ → ℕ}
    (hnear : ∀ pts q, pts ≠ [] → IsNearest pts q (nearest pts q)) {places : List (ℝ × ℝ)} {lon lat : ℝ} (hne : places ≠ []) {i : ℕ} {d : ℝ}
    (h : closestTree at_ nearest places lon lat = .ok (i, d)) :
    ∃ lon0 lat0 p, IsCentre at_ places lon0 lat0 ∧ places[i]? = some p ∧ ∀ p' ∈ places,
      6371 * √((eastOf lon0 p.1 p.2 - eastOf lon0 lon lat) ^ 2 + (northOf lon0 lat0 p.1 p.2 - northOf lon0 lat0 lon lat) ^ 2) ≤
        greatCircle lon lat p'.1 p'.2 := by
  obtain ⟨lon0, lat0, p, hc, hs, hq, hp, rfl, p₁, hp', hmin⟩ := C165_tree_partial hnear hne h
  refine ⟨lon0, lat0, p, hc, hp, fun p' hmem => ?_⟩
  simp only [seenFrom, List.getElem?_map, hp, Option.map_some, Option.some.injEq] at hp'
  subst hp'
  have h1 := hmin _ (List.mem_map.2 ⟨p', hmem, rfl⟩)
  have h2 := C130_contraction ((C130_forward lon0 lat0 lon lat).2 hq) ((C130_forward lon0 lat0 p'.1 p'.2).2 (hs p' hmem))
  refine le_trans ?_ h2
  rw [show (6371 : ℝ) = √(6371 ^ 2) by rw [sqrt_sq (by norm_num)], ← sqrt_mul (by positivity)]
  apply sqrt_le_sqrt
  rw [sqrt_sq (by norm_num)]
  nlinarith [h1]

/-- The distance along the equator. -/
theorem equator_distance {a b : ℝ} (h0 : a ≤ b) (h1 : b - a ≤ 180) : greatCircle a 0 b 0 = 6371 * rad (b - a) := by
  unfold greatCircle
  congr 1
  unfold InnerProductGeometry.angle
  have r0 : rad 0 = 0 := by unfold rad; simp
  rw [onSphere_norm, onSphere_norm, onSphere_inner, r0, sin_zero, cos_zero]
  have : cos (rad a - rad b) = cos (rad (b - a)) := by
    rw [← cos_neg]; congr 1; unfold rad; ring
  rw [this]
  simp only [mul_one, one_mul, mul_zero, add_zero, div_one]
  apply arccos_cos
  · unfold rad; have := pi_pos; have : 0 ≤ b - a := by linarith
    positivity
  · unfold rad; nlinarith [pi_pos]

/-- The middle of a stretch of the equator around the zero meridian. -/
theorem middle_of_equator {at_ : ℝ → ℝ → ℝ → ℝ → ℝ × ℝ} (hat : FindsPoint at_) {a : ℝ} (h0 : 0 < a) (h1 : a < 90) :
    middlePoint at_ (-a) 0 a 0 = (0, 0) := by
  have hm := C143_middle_point_partial hat (lon1 := -a) (lat1 := 0) (by norm_num) (by norm_num) a 0
  simp only at hm
  obtain ⟨m1, m2⟩ := hm
  have hd := equator_distance (a := -a) (b := a) (by linarith) (by linarith)
  have hrange : -180 ≤ (middlePoint at_ (-a) 0 a 0).1 ∧ (middlePoint at_ (-a) 0 a 0).1 ≤ 180 ∧ -90 ≤ (middlePoint at_ (-a) 0 a 0).2 ∧
      (middlePoint at_ (-a) 0 a 0).2 ≤ 90 := by
    unfold middlePoint
    rw [if_neg (by rintro ⟨h, _⟩; linarith)]
    exact (hat _ _ _ _ (by norm_num) (by norm_num)).2
  generalize middlePoint at_ (-a) 0 a 0 = m at *
  obtain ⟨l, b⟩ := m
  obtain ⟨g1, g2, g3, g4⟩ := hrange
  rw [C78_great_circle, C78_great_circle, hd] at m1 m2
  have hca : ∀ {p q : EuclideanSpace ℝ (Fin 3)}, ‖p‖ = 1 → ‖q‖ = 1 → InnerProductGeometry.angle p q = rad a → inner ℝ p q = cos (rad a) := by
    intro p q hp hq h
    rw [← h, InnerProductGeometry.cos_angle, hp, hq]; simp
  have hra : rad (a - -a) = 2 * rad a := by unfold rad; ring
  unfold greatCircle at m1 m2
  have i1 := hca (onSphere_norm _ _) (onSphere_norm _ _) (show InnerProductGeometry.angle (onSphere (-a) 0) (onSphere l b) = rad a by rw [hra] at m1; linarith)
  have i2 := hca (onSphere_norm _ _) (onSphere_norm _ _) (show InnerProductGeometry.angle (onSphere l b) (onSphere a 0) = rad a by rw [hra] at m2; linarith)
  rw [onSphere_inner] at i1 i2
  have r0 : rad 0 = 0 := by unfold rad; simp
  have rn : rad (-a) = -rad a := by unfold rad; ring
  rw [r0, sin_zero, cos_zero, rn, show -rad a - rad l = -(rad a + rad l) by ring, cos_neg, cos_add] at i1
  rw [r0, sin_zero, cos_zero, cos_sub] at i2
  have hpos : 0 < cos (rad a) := by
    apply cos_pos_of_mem_Ioo
    constructor <;> unfold rad <;> nlinarith [pi_pos]
  have hone : cos (rad b) * cos (rad l) = 1 := by
    have : cos (rad a) * (cos (rad b) * cos (rad l)) = cos (rad a) := by linarith
    exact mul_left_cancel₀ hpos.ne' (by rw [this, mul_one])
  have hb0 : 0 ≤ cos (rad b) := by
    apply cos_nonneg_of_mem_Icc
    constructor <;> unfold rad <;> nlinarith [pi_pos]
  have hb1 := cos_le_one (rad b)
  have hl1 := cos_le_one (rad l)
  have hcb : cos (rad b) = 1 := by nlinarith
  have hcl : cos (rad l) = 1 := by rw [hcb, one_mul] at hone; exact hone
  have zb : rad b = 0 := (cos_eq_one_iff_of_lt_of_lt (by unfold rad; nlinarith [pi_pos]) (by unfold rad; nlinarith [pi_pos])).1 hcb
  have zl : rad l = 0 := (cos_eq_one_iff_of_lt_of_lt (by unfold rad; nlinarith [pi_pos]) (by unfold rad; nlinarith [pi_pos])).1 hcl
  unfold rad at zb zl
  have hp := pi_pos
  have : π / 180 ≠ 0 := by positivity
  rw [Prod.mk.injEq]
  exact ⟨(mul_eq_zero.1 zl).resolve_right this, (mul_eq_zero.1 zb).resolve_right this⟩

/-- **C165 is violated**: of three objects on the equator, at 80° west, 80° east and 45° east, the one at 80° east is said to be closest to 60° east,
20 degrees away, although the one at 45° east is only 15 degrees away. -/
theorem C165_distorted_violated {at_ : ℝ → ℝ → ℝ → ℝ → ℝ × ℝ} (hat : FindsPoint at_) {nearest : List (ℝ × ℝ) → ℝ × ℝ → ℕ}
    (hnear : ∀ pts q, pts ≠ [] → IsNearest pts q (nearest pts q)) :
    closestTree at_ nearest [(-80, 0), (80, 0), (45, 0)] 60 0 = .ok (1, greatCircle 60 0 80 0) ∧
      greatCircle 60 0 45 0 < greatCircle 60 0 80 0 := by
  have hpi := pi_pos
  have r0 : rad 0 = 0 := by unfold rad; simp
  have hE : ∀ lon, eastOf 0 lon 0 = sin (rad lon) := by
    intro lon
    unfold eastOf eastAt onSphere
    simp only [PiLp.inner_apply, Fin.sum_univ_three]
    simp [r0]
  have hN : ∀ lon, northOf 0 0 lon 0 = 0 := by
    intro lon
    unfold northOf northAt onSphere
    simp only [PiLp.inner_apply, Fin.sum_univ_three]
    simp [r0]
  have hin : ∀ lon, |lon| ≤ 90 → greatCircle 0 0 lon 0 ≤ 6371 * (π / 2) := by
    intro lon hl
    obtain ⟨h1, h2⟩ := abs_le.1 hl
    rcases le_total 0 lon with h | h
    · rw [equator_distance h (by linarith)]
      unfold rad
      nlinarith
    · rw [← C78_great_circle, C78_metric.1, C78_great_circle, equator_distance h (by linarith)]
      unfold rad
      nlinarith
  have hs : InSight 0 0 [((-80 : ℝ), (0 : ℝ)), (80, 0), (45, 0)] := by
    intro p hp
    simp only [List.mem_cons, List.not_mem_nil, or_false] at hp
    rcases hp with rfl | rfl | rfl <;> apply hin <;> norm_num [abs_le]
  have hb : boundingLons [(-80 : ℝ), 80, 45] = .ok (-80, 80) := by
    have e := extent_of_range (a := -80) (b := 80) (by norm_num) (by norm_num)
    unfold boundingLons
    have h1 : pyMin [(-80 : ℝ), 80, 45] = some (-80) := by norm_num [pyMin, npMin]
    have h2 : pyMax [(-80 : ℝ), 80, 45] = some 80 := by norm_num [pyMax, npMax]
    rw [h1, h2]
    simp only
    rw [if_neg (by norm_num), if_neg (by rw [e]; norm_num)]
  have hp : projOf at_ ([((-80 : ℝ), (0 : ℝ)), (80, 0), (45, 0)].map Prod.fst) ([((-80 : ℝ), (0 : ℝ)), (80, 0), (45, 0)].map Prod.snd) =
      .ok (centredOn 0 0) := by
    have h1 : pyMin [(0 : ℝ), 0, 0] = some 0 := by norm_num [pyMin, npMin]
    have h2 : pyMax [(0 : ℝ), 0, 0] = some 0 := by norm_num [pyMax, npMax]
    unfold projOf
    simp only [List.map_cons, List.map_nil]
    rw [h1, h2, hb]
    simp only
    rw [middle_of_equator hat (by norm_num) (by norm_num)]
    rfl
  have s45 : sin (rad 45) = √2 / 2 := by rw [← sin_pi_div_four]; congr 1; unfold rad; ring
  have s60 : sin (rad 60) = √3 / 2 := by rw [← sin_pi_div_three]; congr 1; unfold rad; ring
  have s80 : sin (rad 80) ≤ 1 := sin_le_one _
  have s80' : sin (rad 60) ≤ sin (rad 80) := by
    apply sin_le_sin_of_le_of_le_pi_div_two <;> unfold rad <;> nlinarith
  have q2 := sq_sqrt (show (0 : ℝ) ≤ 2 by norm_num)
  have q3 := sq_sqrt (show (0 : ℝ) ≤ 3 by norm_num)
  have p2 := sqrt_nonneg 2
  have p3 := sqrt_nonneg 3
  have b2 : √2 < 1.415 := by nlinarith
  have b3 : 1.73 < √3 := by nlinarith
  constructor
  · unfold closestTree
    rw [hp]
    change (do
        let pts ← (centredOn 0 0).forwardAll [((-80 : ℝ), (0 : ℝ)), (80, 0), (45, 0)]
        match (centredOn 0 0).forward 60 0 with
        | none => throw .value
        | some q => return (nearest pts q, geodeticDistance 60 0 (([((-80 : ℝ), (0 : ℝ)), (80, 0), (45, 0)]).getD (nearest pts q) (0, 0)).1
            (([((-80 : ℝ), (0 : ℝ)), (80, 0), (45, 0)]).getD (nearest pts q) (0, 0)).2) : Except BoxErr (ℕ × ℝ)) = _
    rw [(forwardAll_eq 0 0 _).1 hs, (C130_forward 0 0 60 0).2 (hin 60 (by norm_num [abs_le]))]
    have hidx : nearest (seenFrom 0 0 [((-80 : ℝ), (0 : ℝ)), (80, 0), (45, 0)]) (6371 * eastOf 0 60 0, 6371 * northOf 0 0 60 0) = 1 := by
      have hN' := hnear (seenFrom 0 0 [((-80 : ℝ), (0 : ℝ)), (80, 0), (45, 0)]) (6371 * eastOf 0 60 0, 6371 * northOf 0 0 60 0) (by simp [seenFrom])
      generalize nearest (seenFrom 0 0 [((-80 : ℝ), (0 : ℝ)), (80, 0), (45, 0)]) (6371 * eastOf 0 60 0, 6371 * northOf 0 0 60 0) = k at *
      obtain ⟨p, hpk, hmin⟩ := hN'
      have h1 := hmin (6371 * eastOf 0 80 0, 6371 * northOf 0 0 80 0) (by simp [seenFrom])
      simp only [hE, hN, s60] at h1
      rw [s60] at s80'
      match k, hpk with
      | 0, hpk =>
        simp only [seenFrom, List.map_cons, List.getElem?_cons_zero, Option.some.injEq] at hpk
        subst hpk
        simp only [hE, hN] at h1
        have : sin (rad (-80)) = - sin (rad 80) := by rw [← sin_neg]; congr 1; unfold rad; ring
        rw [this] at h1
        exfalso
        nlinarith
      | 1, _ => rfl
      | 2, hpk =>
        simp only [seenFrom, List.map_cons, List.getElem?_cons_succ, List.getElem?_cons_zero, Option.some.injEq] at hpk
        subst hpk
        simp only [hE, hN, s45] at h1
        exfalso
        nlinarith
      | k + 3, hpk => simp [seenFrom] at hpk
    simp only [bind, Except.bind, pure, Except.pure]
    rw [hidx, C78_great_circle]
    rfl
  · rw [← C78_great_circle 60 0 45 0, C78_metric.1, C78_great_circle, equator_distance (by norm_num) (by norm_num),
      equator_distance (by norm_num) (by norm_num)]
    unfold rad
    nlinarith

/-- A triangle with a right angle does not cross itself. -/
theorem triangle_simple {u v : ℝ} (hu : 0 < u) (hv : 0 < v) : SimpleLine [(0, 0), (u, 0), (0, v), (0, 0)] := by
  intro i j a b c d x ha hb hc hd hij h1 h2
  have hj : j + 1 < 4 := (List.getElem?_eq_some_iff.1 hd).1
  obtain ⟨s, s', _, _, hs, e1⟩ := h1
  obtain ⟨t, t', _, _, ht, e2⟩ := h2
  obtain rfl : s' = 1 - s := by linarith
  obtain rfl : t' = 1 - t := by linarith
  have f1 : s * a.1 + (1 - s) * b.1 = x.1 := by simpa using congrArg Prod.fst e1
  have f2 : s * a.2 + (1 - s) * b.2 = x.2 := by simpa using congrArg Prod.snd e1
  have g1 : t * c.1 + (1 - t) * d.1 = x.1 := by simpa using congrArg Prod.fst e2
  have g2 : t * c.2 + (1 - t) * d.2 = x.2 := by simpa using congrArg Prod.snd e2
  have cases3 : (i = 0 ∧ j = 1) ∨ (i = 0 ∧ j = 2) ∨ (i = 1 ∧ j = 2) := by omega
  rcases cases3 with ⟨rfl, rfl⟩ | ⟨rfl, rfl⟩ | ⟨rfl, rfl⟩ <;> simp at ha hb hc hd <;> subst ha hb hc hd <;> simp at f1 f2 g1 g2
  · left
    have : (1 - t) * v = 0 := by linarith
    have h : 1 - t = 0 := (mul_eq_zero.1 this).resolve_right hv.ne'
    refine ⟨rfl, Prod.ext ?_ ?_⟩
    · rw [← g1]; simp; rw [show t = 1 by linarith]; ring
    · rw [← f2]
  · right
    refine ⟨rfl, rfl, Prod.ext ?_ ?_, rfl⟩
    · simpa using g1.symm
    · simpa using f2.symm
  · left
    have : s * u = 0 := by linarith
    have h : s = 0 := (mul_eq_zero.1 this).resolve_right hu.ne'
    refine ⟨rfl, Prod.ext ?_ ?_⟩
    · exact g1.symm
    · rw [← f2, h]; simp

open Classical in
/-- A case of `C166_ring_violated` and of `C166_line_partial`: the triangle of a degree along the equator and the zero meridian. -/
example : ∃ (at_ : ℝ → ℝ → ℝ → ℝ → ℝ × ℝ) (simple : List (ℝ × ℝ) → Bool), DecidesSimple simple ∧
    lineIntersectsItself at_ simple [(0, 0), (1, 0), (0, 1), (0, 0)] false = .ok false := by
  refine ⟨fun _ _ _ _ => (0, 0), fun pts => decide (SimpleLine pts), fun pts _ => decide_eq_true_iff, ?_⟩
  have hpi := pi_pos
  have r0 : rad 0 = 0 := by unfold rad; simp
  have hsin : 0 < sin (rad 1) := by
    apply sin_pos_of_pos_of_lt_pi <;> unfold rad <;> nlinarith
  have hseen : seenFrom 0 0 [(0, 0), (1, 0), (0, 1), (0, 0)] = [(0, 0), (6371 * sin (rad 1), 0), (0, 6371 * sin (rad 1)), (0, 0)] := by
    simp only [seenFrom, List.map_cons, List.map_nil]
    unfold eastOf northOf eastAt northAt onSphere
    simp only [PiLp.inner_apply, Fin.sum_univ_three]
    simp [r0]
  refine C166_ring_violated (lon0 := 0) (lat0 := 0) (fun pts _ => decide_eq_true_iff) (by simp) ?_ ?_ ?_ ?_ rfl
  · refine ⟨0, 1, 1, 0, ?_, ?_, ?_, ?_⟩
    · have e := extent_of_range (a := 0) (b := 1) (by norm_num) (by norm_num)
      unfold boundingLons
      have h1 : pyMin [(0 : ℝ), 1, 0, 0] = some 0 := by norm_num [pyMin, npMin]
      have h2 : pyMax [(0 : ℝ), 1, 0, 0] = some 1 := by norm_num [pyMax, npMax]
      simp only [List.map_cons, List.map_nil]
      rw [h1, h2]
      simp only
      rw [if_neg (by norm_num), if_neg (by rw [e]; norm_num)]
    · constructor
      · simp
      · intro x hx
        simp at hx
        rcases hx with h | h | h <;> subst h <;> norm_num
    · constructor
      · simp
      · intro x hx
        simp at hx
        rcases hx with h | h | h <;> subst h <;> norm_num
    · unfold middlePoint
      rw [if_neg (by norm_num)]
  · intro p hp
    simp only [List.mem_cons, List.not_mem_nil, or_false] at hp
    have hz : greatCircle 0 0 0 0 = 0 := by rw [← C78_great_circle, C78_metric.2.2.2.1]
    rcases hp with rfl | rfl | rfl | rfl
    · rw [hz]; positivity
    · rw [equator_distance (by norm_num) (by norm_num)]
      unfold rad
      nlinarith
    · unfold greatCircle InnerProductGeometry.angle
      rw [onSphere_norm, onSphere_norm, onSphere_inner, r0]
      simp
      apply cos_nonneg_of_mem_Icc
      constructor <;> unfold rad <;> nlinarith
    · rw [hz]; positivity
  · rw [hseen]
    intro i a ha hb
    have : i + 1 < 4 := (List.getElem?_eq_some_iff.1 hb).1
    have : i = 0 ∨ i = 1 ∨ i = 2 := by omega
    rcases this with rfl | rfl | rfl <;> simp at ha hb <;> subst ha <;> simp at hb <;> linarith
  · rw [hseen]
    exact triangle_simple (by positivity) (by positivity)

theorem centre_unique {at_ : ℝ → ℝ → ℝ → ℝ → ℝ × ℝ} {places : List (ℝ × ℝ)} {a b c d : ℝ} (h : IsCentre at_ places a b) (h' : IsCentre at_ places c d) :
    a = c ∧ b = d := by
  obtain ⟨w, e, n, s, h1, h2, h3, h4⟩ := h
  obtain ⟨w', e', n', s', h1', h2', h3', h4'⟩ := h'
  rw [h1] at h1'
  cases h1'
  have := h2.unique h2'
  have := h3.unique h3'
  subst n' s'
  exact Prod.mk.inj (h4.trans h4'.symm)

/-- There is an answer for every line in sight. -/
theorem intersects_answer {at_ : ℝ → ℝ → ℝ → ℝ → ℝ × ℝ} (simple : List (ℝ × ℝ) → Bool) {places : List (ℝ × ℝ)} {lon0 lat0 : ℝ} (hn : 4 ≤ places.length)
    (hc : IsCentre at_ places lon0 lat0) (hs : InSight lon0 lat0 places) (closed : Bool) :
    ∃ b, lineIntersectsItself at_ simple places closed = .ok b := by
  cases h : lineIntersectsItself at_ simple places closed with
  | ok b => exact ⟨b, rfl⟩
  | error e =>
    exfalso
    rcases (C166_refused at_ simple hn closed e).1 h with h1 | ⟨_, l, m, hc', hs'⟩
    · obtain ⟨_, _, _, _, h2, _⟩ := hc
      rw [h2] at h1; cases h1
    · obtain ⟨rfl, rfl⟩ := centre_unique hc hc'
      exact hs' hs

/-- A case of `C166_polygon` that crosses itself: the corners (0, 0), (1, 0), (-1, 0), (0, 1), the second edge of which goes back over the first one. -/
example {simple : List (ℝ × ℝ) → Bool} (hsim : DecidesSimple simple) :
    lineIntersectsItself (fun _ _ _ _ => (0, 0)) simple [(0, 0), (1, 0), (-1, 0), (0, 1)] true = .ok true := by
  have hpi := pi_pos
  have r0 : rad 0 = 0 := by unfold rad; simp
  have rn : rad (-1) = -rad 1 := by unfold rad; ring
  have hsin : 0 < sin (rad 1) := by
    apply sin_pos_of_pos_of_lt_pi <;> unfold rad <;> nlinarith
  have hcos : 0 ≤ cos (rad 1) := by
    apply cos_nonneg_of_mem_Icc
    constructor <;> unfold rad <;> nlinarith
  have hseen : seenFrom 0 0 [(0, 0), (1, 0), (-1, 0), (0, 1)] =
      [(0, 0), (6371 * sin (rad 1), 0), (-(6371 * sin (rad 1)), 0), (0, 6371 * sin (rad 1))] := by
    simp only [seenFrom, List.map_cons, List.map_nil]
    unfold eastOf northOf eastAt northAt onSphere
    simp only [PiLp.inner_apply, Fin.sum_univ_three]
    simp [r0, rn]
  have hc : IsCentre (fun _ _ _ _ => (0, 0)) [(0, 0), (1, 0), (-1, 0), (0, 1)] 0 0 := by
    refine ⟨-1, 1, 1, 0, ?_, ?_, ?_, ?_⟩
    · have e := extent_of_range (a := -1) (b := 1) (by norm_num) (by norm_num)
      unfold boundingLons
      have h1 : pyMin [(0 : ℝ), 1, -1, 0] = some (-1) := by norm_num [pyMin, npMin]
      have h2 : pyMax [(0 : ℝ), 1, -1, 0] = some 1 := by norm_num [pyMax, npMax]
      simp only [List.map_cons, List.map_nil]
      rw [h1, h2]
      simp only
      rw [if_neg (by norm_num), if_neg (by rw [e]; norm_num)]
    · constructor
      · simp
      · intro x hx
        simp at hx
        rcases hx with h | h <;> subst h <;> norm_num
    · constructor
      · simp
      · intro x hx
        simp at hx
        rcases hx with h | h <;> subst h <;> norm_num
    · unfold middlePoint
      rw [if_neg (by norm_num)]
  have hs : InSight 0 0 [(0, 0), (1, 0), (-1, 0), (0, 1)] := by
    have key : ∀ a b : ℝ, 0 ≤ inner ℝ (onSphere 0 0) (onSphere a b) → greatCircle 0 0 a b ≤ 6371 * (π / 2) := by
      intro a b h
      unfold greatCircle InnerProductGeometry.angle
      rw [onSphere_norm, onSphere_norm]
      have := arccos_le_pi_div_two.2 h
      simpa using this
    intro p hp
    simp only [List.mem_cons, List.not_mem_nil, or_false] at hp
    rcases hp with rfl | rfl | rfl | rfl <;> apply key <;> rw [onSphere_inner] <;> simp [r0, rn, hcos]
  obtain ⟨b, hb⟩ := intersects_answer simple (by simp) hc hs true
  obtain ⟨l, m, hc', _, h⟩ := C166_polygon hsim (by simp) hb
  obtain ⟨rfl, rfl⟩ := centre_unique hc hc'
  rw [hseen] at h
  rw [hb]
  congr 1
  refine (h ?_ ?_).2 ?_
  · intro i a ha hb
    have : i + 1 < 4 := (List.getElem?_eq_some_iff.1 hb).1
    have : i = 0 ∨ i = 1 ∨ i = 2 := by omega
    rcases this with rfl | rfl | rfl <;> simp at ha hb <;> subst ha <;> simp at hb <;> linarith
  · simp
    intro h
    linarith
  · intro hp
    have := hp 0 1 (0, 0) (6371 * sin (rad 1), 0) (6371 * sin (rad 1), 0) (-(6371 * sin (rad 1)), 0) (0, 0) rfl rfl rfl rfl (by omega)
      (left_mem_segment ℝ _ _) ⟨1 / 2, 1 / 2, by norm_num, by norm_num, by norm_num, by ext <;> simp⟩
    rcases this with ⟨_, h1⟩ | ⟨_, h1, _⟩
    · simp at h1
      linarith
    · simp at h1

/-- An index that finds a nearest point, as the theorems on `get_closest` ask for, together with a function that finds points at a distance. -/
example : FindsPoint libraryPointAt ∧ ∃ nearest : List (ℝ × ℝ) → ℝ × ℝ → ℕ, ∀ pts q, pts ≠ [] → IsNearest pts q (nearest pts q) := by
  refine ⟨libraryPointAt_finds, ?_⟩
  have : ∀ (pts : List (ℝ × ℝ)) (q : ℝ × ℝ), ∃ i, pts ≠ [] → IsNearest pts q i := by
    intro pts q
    by_cases h : pts = []
    · exact ⟨0, fun h' => absurd h h'⟩
    · obtain ⟨p, hp, hmin⟩ := Set.exists_min_image {p | p ∈ pts} (fun p => (p.1 - q.1) ^ 2 + (p.2 - q.2) ^ 2) pts.finite_toSet
        (List.exists_mem_of_ne_nil pts h)
      obtain ⟨i, hi⟩ := List.mem_iff_getElem?.1 hp
      exact ⟨i, fun _ => ⟨p, hi, hmin⟩⟩
  choose f hf using this
  exact ⟨f, hf⟩

end Verif.Props
