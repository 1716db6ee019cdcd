import Verif.Model.EdgeRupture
import Verif.Props.QuadMeasures

/-!
# Ruptures of edges: C72, C73, C112
-/

namespace Verif.Props
open Verif.Vec Verif.Rup Verif.EdgeR Real
open Verif.Spec (panels outline)

/-! ### The arrays -/

/-- Group numbers from `i` on, each as often as its group has points. -/
def numbers (i : ℕ) : List ℕ → List ℕ
  | [] => []
  | n :: ns => List.replicate n i ++ numbers (i + 1) ns

theorem addPolygon_outline {α : Type} (e : Edges α) (i : ℕ) (top bottom : List α)
    (h : top.length = bottom.length) (hne : top ≠ []) :
    addPolygon e i (outline top bottom) =
      ⟨e.top ++ top, e.bot ++ bottom, e.group ++ List.replicate top.length i⟩ := by
  cases top with
  | nil => exact absurd rfl hne
  | cons t ts =>
    have hd : (outline (t :: ts) bottom).dropLast = (t :: ts) ++ bottom.reverse := by
      unfold outline
      simp only [List.head?_cons, Option.toList_some]
      exact List.dropLast_concat
    have hl : ((outline (t :: ts) bottom).length - 1) / 2 = (t :: ts).length := by
      unfold outline
      simp only [List.head?_cons, Option.toList_some, List.length_append, List.length_reverse, List.length_cons,
        List.length_nil]
      simp only [List.length_cons] at h
      omega
    unfold addPolygon
    simp only
    rw [hl, hd, List.take_left' rfl, List.drop_left' rfl, List.reverse_reverse]

theorem addPolygons_outline {α : Type} (tbs : List (List α × List α))
    (h : ∀ tb ∈ tbs, tb.1.length = tb.2.length ∧ tb.1 ≠ []) (e : Edges α) (i : ℕ) :
    addPolygons e i (tbs.map fun tb => outline tb.1 tb.2) =
      ⟨e.top ++ tbs.flatMap (·.1), e.bot ++ tbs.flatMap (·.2),
       e.group ++ numbers i (tbs.map fun tb => tb.1.length)⟩ := by
  induction tbs generalizing e i with
  | nil => simp [addPolygons, numbers]
  | cons tb tbs ih =>
    obtain ⟨h1, h2⟩ := h tb (by simp)
    rw [List.map_cons, addPolygons, addPolygon_outline e i tb.1 tb.2 h1 h2,
      ih (fun tb' h' => h tb' (by simp [h']))]
    simp [numbers]

/-! ### Groups -/

theorem members_append (a b : List ℕ) (g : ℕ) :
    members (a ++ b) g = members a g ++ (members b g).map (a.length + ·) := by
  unfold members
  rw [List.length_append, List.range_add, List.filter_append]
  congr 1
  · apply List.filter_congr
    intro i hi
    rw [List.getElem?_append_left (by simpa using hi)]
  · rw [List.filter_map]
    congr 1
    apply List.filter_congr
    intro i _
    simp only [Function.comp]
    rw [List.getElem?_append_right (by omega)]
    simp

theorem members_none {a : List ℕ} {g : ℕ} (h : g ∉ a) : members a g = [] := by
  unfold members
  rw [List.filter_eq_nil_iff]
  intro i hi
  simp only [decide_eq_true_eq]
  intro hg
  exact h (List.mem_of_getElem? hg)

theorem members_replicate (n g : ℕ) : members (List.replicate n g) g = List.range n := by
  unfold members
  rw [List.length_replicate, List.filter_eq_self]
  intro i hi
  simp only [decide_eq_true_eq]
  rw [List.getElem?_replicate, if_pos (by simpa using hi)]

theorem numbers_ge (ns : List ℕ) (i g : ℕ) (h : g ∈ numbers i ns) : i ≤ g := by
  induction ns generalizing i with
  | nil => simp [numbers] at h
  | cons n ns ih =>
    rw [numbers, List.mem_append] at h
    rcases h with h | h
    · rw [List.eq_of_mem_replicate h]
    · have := ih (i + 1) h; omega

/-- The positions of a group between others. -/
theorem members_numbers (pre : List ℕ) (n : ℕ) (ns : List ℕ) (i : ℕ) (hp : ∀ g ∈ pre, g < i) :
    members (pre ++ (List.replicate n i ++ numbers (i + 1) ns)) i = (List.range n).map (pre.length + ·) := by
  rw [members_append, members_none (fun h => absurd (hp i h) (lt_irrefl i)), List.nil_append, members_append,
    members_replicate, members_none (fun h => by have := numbers_ge _ _ _ h; omega)]
  simp

theorem unique_numbers (ns : List ℕ) (h : ∀ n ∈ ns, 0 < n) (i : ℕ) :
    uniqueNat (numbers i ns) = List.range' i ns.length := by
  have hmem : ∀ (ns : List ℕ) (i : ℕ), (∀ n ∈ ns, 0 < n) → ∀ g, g ∈ numbers i ns ↔ g ∈ List.range' i ns.length := by
    intro ns
    induction ns with
    | nil => intro i _ g; simp [numbers]
    | cons n ns ih =>
      intro i h g
      rw [numbers, List.mem_append, ih (i + 1) (fun n' h' => h n' (by simp [h'])), List.length_cons,
        List.range'_succ, List.mem_cons]
      have hn := h n (by simp)
      constructor
      · rintro (h | h)
        · left; exact List.eq_of_mem_replicate h
        · right; exact h
      · rintro (rfl | h)
        · left; simp; omega
        · right; exact h
  unfold uniqueNat
  have : (numbers i ns).toFinset = (List.range' i ns.length).toFinset := by
    ext g
    rw [List.mem_toFinset, List.mem_toFinset]
    exact hmem ns i h g
  rw [this, List.toFinset_sort]
  · exact (List.pairwise_lt_range' ).imp (fun h => le_of_lt h)
  · exact List.nodup_range'

/-- The quadrilaterals of one group, between others. -/
theorem group_quads {α : Type} (pt t qt pb b qb : List α) (group : List ℕ) (h : t.length = b.length)
    (hp : pb.length = pt.length) :
    (List.range (t.length - 1)).map (fun j => quadBetween ⟨pt ++ t ++ qt, pb ++ b ++ qb, group⟩ (pt.length + j)
      (pt.length + j + 1)) = (panels t b).map some := by
  apply List.ext_getElem?
  intro k
  by_cases hk : k < t.length - 1
  · rw [List.getElem?_map, List.getElem?_range hk, List.getElem?_map, panels_get t b h k (by omega)]
    simp only [Option.map_some]
    have e1 : ∀ (p m q : List α) (k : ℕ) (hk : k < m.length), (p ++ m ++ q)[p.length + k]? = some m[k] := by
      intro p m q k hk
      rw [List.append_assoc, List.getElem?_append_right (by omega), Nat.add_sub_cancel_left,
        List.getElem?_append_left hk, List.getElem?_eq_getElem hk]
    unfold quadBetween
    simp only
    have a1 := e1 pt t qt k (by omega)
    have a2 := e1 pt t qt (k + 1) (by omega)
    have a3 := e1 pb b qb k (by omega)
    have a4 := e1 pb b qb (k + 1) (by omega)
    rw [hp] at a3 a4
    rw [show pt.length + k + 1 = pt.length + (k + 1) by omega, a1, a2, a3, a4]
  · rw [List.getElem?_eq_none (by simpa using hk), List.getElem?_eq_none (by
      rw [List.length_map, panels_length t b h]; omega)]

theorem groups_quads {α : Type} (tbs : List (List α × List α))
    (h : ∀ tb ∈ tbs, tb.1.length = tb.2.length) (pt pb : List α) (pg : List ℕ) (i : ℕ)
    (hb : pb.length = pt.length) (hg : pg.length = pt.length) (hp : ∀ g ∈ pg, g < i)
    (e : Edges α) (het : e.top = pt ++ tbs.flatMap (·.1)) (heb : e.bot = pb ++ tbs.flatMap (·.2))
    (heg : e.group = pg ++ numbers i (tbs.map fun tb => tb.1.length)) :
    ((List.range' i tbs.length).flatMap fun g =>
      (List.range ((members e.group g).length - 1)).map fun j =>
        quadBetween e ((members e.group g).getD j 0) ((members e.group g).getD j 0 + 1)) =
      (tbs.flatMap fun tb => panels tb.1 tb.2).map some ∧
    ((List.range' i tbs.length).flatMap fun g =>
      (List.range ((members e.group g).length - 1)).map fun j =>
        quadBetween e ((members e.group g).getD j 0) ((members e.group g).getD (j + 1) 0)) =
      (tbs.flatMap fun tb => panels tb.1 tb.2).map some ∧
    ∀ k tb, tbs[k]? = some tb → atIdx e.top (members e.group (i + k)) = tb.1 ∧
      atIdx e.bot (members e.group (i + k)) = tb.2 ∧ (members e.group (i + k)).length = tb.1.length := by
  induction tbs generalizing pt pb pg i with
  | nil => simp
  | cons tb tbs ih =>
    have hl := h tb (by simp)
    obtain ⟨ih1, ih2, ih3⟩ := ih (fun tb' h' => h tb' (by simp [h'])) (pt ++ tb.1) (pb ++ tb.2)
      (pg ++ List.replicate tb.1.length i) (i + 1) (by simp [hb, hl]) (by simp [hg])
      (by
        intro g hgm
        rw [List.mem_append] at hgm
        rcases hgm with hgm | hgm
        · have := hp g hgm; omega
        · rw [List.eq_of_mem_replicate hgm]; omega)
      (by rw [het]; simp) (by rw [heb]; simp) (by rw [heg]; simp [numbers])
    have hm : members e.group i = (List.range tb.1.length).map (pt.length + ·) := by
      rw [heg, List.map_cons, numbers, members_numbers pg _ _ i hp, hg]
    have hq := group_quads pt tb.1 (tbs.flatMap (·.1)) pb tb.2 (tbs.flatMap (·.2)) e.group hl hb
    have hee : (⟨pt ++ tb.1 ++ tbs.flatMap (·.1), pb ++ tb.2 ++ tbs.flatMap (·.2), e.group⟩ : Edges α) = e := by
      cases e
      simp only at het heb
      simp [het, heb]
    rw [hee] at hq
    have hget : ∀ j, j < tb.1.length → ((List.range tb.1.length).map (pt.length + ·)).getD j 0 = pt.length + j := by
      intro j hj
      rw [List.getD_eq_getElem?_getD, List.getElem?_map, List.getElem?_range hj]; rfl
    refine ⟨?_, ?_, ?_⟩
    · rw [List.length_cons, List.range'_succ, List.flatMap_cons, List.flatMap_cons, List.map_append, ← ih1, hm]
      congr 1
      rw [← hq, List.length_map, List.length_range]
      apply List.map_congr_left
      intro j hj
      rw [List.mem_range] at hj
      rw [hget j (by omega)]
    · rw [List.length_cons, List.range'_succ, List.flatMap_cons, List.flatMap_cons, List.map_append, ← ih2, hm]
      congr 1
      rw [← hq, List.length_map, List.length_range]
      apply List.map_congr_left
      intro j hj
      rw [List.mem_range] at hj
      rw [hget j (by omega), hget (j + 1) (by omega)]
      rfl
    · intro k tb' hk
      cases k with
      | zero =>
        simp only [List.getElem?_cons_zero, Option.some.injEq] at hk
        subst hk
        have hat : ∀ (p m q : List α), p.length = pt.length → m.length = tb.1.length →
            atIdx (p ++ (m ++ q)) ((List.range tb.1.length).map (pt.length + ·)) = m := by
          intro p m q hp hm
          unfold atIdx
          rw [List.filterMap_map]
          have : (List.range tb.1.length).filterMap ((fun i => (p ++ (m ++ q))[i]?) ∘ (pt.length + ·)) =
              (List.range m.length).filterMap (fun i => m[i]?) := by
            rw [hm]
            apply List.filterMap_congr
            intro j hj
            rw [List.mem_range] at hj
            simp only [Function.comp]
            rw [List.getElem?_append_right (by omega), hp, Nat.add_sub_cancel_left,
              List.getElem?_append_left (by omega)]
          rw [this]
          clear this
          induction m generalizing q with
          | nil => rfl
          | cons a m _ =>
            apply List.ext_getElem?
            intro n
            have : ((List.range (a :: m).length).filterMap fun i => (a :: m)[i]?) =
                (List.range (a :: m).length).map fun i => (a :: m).getD i a := by
              apply List.filterMap_eq_map_iff_forall_eq_some.2
              intro i hi
              rw [List.mem_range] at hi
              rw [List.getD_eq_getElem?_getD, List.getElem?_eq_getElem hi]; rfl
            rw [this, List.getElem?_map]
            by_cases hn : n < (a :: m).length
            · rw [List.getElem?_range hn, List.getElem?_eq_getElem hn]
              simp only [Option.map_some]
              rw [List.getD_eq_getElem?_getD, List.getElem?_eq_getElem hn]; rfl
            · rw [List.getElem?_eq_none (by simpa using hn), List.getElem?_eq_none (by simpa using hn)]
              rfl
        rw [Nat.add_zero, hm]
        refine ⟨?_, ?_, by simp⟩
        · rw [het, List.flatMap_cons]
          exact hat pt tb.1 _ rfl rfl
        · rw [heb, List.flatMap_cons]
          exact hat pb tb.2 _ hb hl.symm
      | succ k =>
        have := ih3 k tb' (by simpa using hk)
        rw [show i + (k + 1) = i + 1 + k by omega]
        exact this

/-! ### C72: quadrilaterals -/

/-- **C72** (partial). A rupture made of polygons along a top edge and back along a bottom edge: the
quadrilaterals that length, area, strike and dip, and distances are computed from are those between
neighbouring points of each group, and the outlines are the polygons. `getQuadrilaterals` returns the same
for a rupture of one group. What is missing: `getQuadrilaterals` for more groups, see below. -/
theorem C72_quads_partial {α : Type} (tbs : List (List α × List α))
    (h : ∀ tb ∈ tbs, tb.1.length = tb.2.length ∧ tb.1 ≠ []) (e : Edges α)
    (he : e = ofPolygons (tbs.map fun tb => outline tb.1 tb.2)) :
    segQuads e = (tbs.flatMap fun tb => panels tb.1 tb.2).map some ∧
    meshQuads e = (tbs.flatMap fun tb => panels tb.1 tb.2).map some ∧
    (∀ {β : Type} (f : α → β), outlines f e = tbs.map fun tb => (outline tb.1 tb.2).map f) ∧
    (∀ tb, tbs = [tb] → getQuadrilaterals e = (panels tb.1 tb.2).map some) := by
  have he' : e = ⟨tbs.flatMap (·.1), tbs.flatMap (·.2), numbers 0 (tbs.map fun tb => tb.1.length)⟩ := by
    rw [he, ofPolygons, addPolygons_outline tbs h]; simp
  have hu : uniqueNat e.group = List.range' 0 tbs.length := by
    rw [he']
    simp only
    rw [unique_numbers]
    · simp
    · intro n hn
      obtain ⟨tb, htb, rfl⟩ := List.mem_map.1 hn
      exact List.length_pos_iff.2 (h tb htb).2
  obtain ⟨k1, k2, k3⟩ := groups_quads tbs (fun tb htb => (h tb htb).1) [] [] [] 0 rfl rfl (by simp) e
    (by rw [he']; simp) (by rw [he']; simp) (by rw [he']; simp)
  refine ⟨?_, ?_, ?_, ?_⟩
  · unfold segQuads; rw [hu]; exact k1
  · unfold meshQuads; rw [hu]; exact k2
  · intro β f
    unfold outlines
    rw [hu]
    apply List.ext_getElem?
    intro k
    by_cases hk : k < tbs.length
    · have := k3 k tbs[k] (List.getElem?_eq_getElem hk)
      rw [Nat.zero_add] at this
      rw [List.getElem?_map, List.getElem?_map, List.getElem?_eq_getElem hk, ← List.range_eq_range',
        List.getElem?_range hk]
      simp only [Option.map_some]
      rw [this.1, this.2.1]
      unfold outline
      simp only [List.map_append, List.map_reverse, List.head?_map]
      cases (tbs[k].1).head? <;> rfl
    · rw [List.getElem?_eq_none (by simpa using hk), List.getElem?_eq_none (by simpa using hk)]
  · rintro tb rfl
    have hl := (h tb (by simp)).1
    obtain ⟨-, -, hm⟩ := k3 0 tb rfl
    have hq := group_quads [] tb.1 [] [] tb.2 [] e.group hl rfl
    unfold getQuadrilaterals
    rw [hu, show List.range' 0 [tb].length = [0 + 0] from rfl, List.flatMap_singleton, hm, ← hq]
    apply List.map_congr_left
    intro j _
    rw [he']
    simp

/-- **C72** violated: with two or more groups, `getQuadrilaterals` starts again from the first point of the
first group for each further group. If the second group is no longer than the first, its points do not occur
in the result at all. -/
theorem C72_second_group_violated {α : Type} (t1 b1 t2 b2 : List α) (h1 : t1.length = b1.length)
    (h2 : t2.length = b2.length) (hne : t2 ≠ []) (hle : t2.length ≤ t1.length) :
    getQuadrilaterals (ofPolygons [outline t1 b1, outline t2 b2]) =
      (panels t1 b1 ++ (panels t1 b1).take (t2.length - 1)).map some := by
  have hne1 : t1 ≠ [] := by
    rintro rfl
    have : t2.length = 0 := by simpa using hle
    exact hne (List.length_eq_zero_iff.1 this)
  set e := ofPolygons [outline t1 b1, outline t2 b2] with he
  have hall : ∀ tb ∈ [(t1, b1), (t2, b2)], tb.1.length = tb.2.length ∧ tb.1 ≠ [] := by
    intro tb htb
    simp only [List.mem_cons, List.not_mem_nil, or_false] at htb
    rcases htb with rfl | rfl
    · exact ⟨h1, hne1⟩
    · exact ⟨h2, hne⟩
  have he' : e = ⟨t1 ++ t2, b1 ++ b2, numbers 0 [t1.length, t2.length]⟩ := by
    have := addPolygons_outline [(t1, b1), (t2, b2)] hall ⟨[], [], []⟩ 0
    rw [he]
    unfold ofPolygons
    simpa using this
  have hu : uniqueNat e.group = [0, 1] := by
    rw [he']
    simp only
    rw [unique_numbers]
    · rfl
    · intro n hn
      simp only [List.mem_cons, List.not_mem_nil, or_false] at hn
      rcases hn with rfl | rfl
      · exact List.length_pos_iff.2 hne1
      · exact List.length_pos_iff.2 hne
  obtain ⟨-, -, k3⟩ := groups_quads [(t1, b1), (t2, b2)] (fun tb htb => (hall tb htb).1) [] [] [] 0 rfl rfl
    (by simp) e (by rw [he']; simp) (by rw [he']; simp) (by rw [he']; simp)
  have m0 := (k3 0 _ rfl).2.2
  have m1 := (k3 1 _ rfl).2.2
  rw [Nat.zero_add] at m0 m1
  simp only at m0 m1
  have hq := group_quads [] t1 t2 [] b1 b2 e.group h1 rfl
  have hq' : ∀ n, n ≤ t1.length - 1 →
      (List.range n).map (fun j => quadBetween e j (j + 1)) = ((panels t1 b1).take n).map some := by
    intro n hn
    have e1 : (List.range n).map (fun j => quadBetween e j (j + 1)) =
        ((List.range (t1.length - 1)).map (fun j => quadBetween e j (j + 1))).take n := by
      rw [← List.map_take, List.take_range, min_eq_left hn]
    rw [e1, List.map_take, ← hq]
    congr 1
    apply List.map_congr_left
    intro j _
    rw [he']
    simp
  unfold getQuadrilaterals
  rw [hu]
  simp only [List.flatMap_cons, List.flatMap_nil, List.append_nil]
  rw [m0, m1, hq' _ (le_refl _), hq' _ (by omega), List.map_append]
  congr 2
  rw [List.take_of_length_le]
  rw [panels_length _ _ h1]

/-- Two groups: the second is given as the quadrilateral of the first. -/
example : ∃ q q', getQuadrilaterals (ofPolygons [outline [1, 2] [3, 4], outline [5, 6] [7, 8]]) =
    [some q, some q'] ∧ q.p0 = 1 ∧ q'.p0 = 1 := by
  rw [C72_second_group_violated [1, 2] [3, 4] [5, 6] [7, 8] rfl rfl (by simp) (by simp)]
  exact ⟨_, _, rfl, rfl, rfl⟩

/-! ### C73: area -/

theorem heron_cross (a b c : V3) :
    heron (a.distance b) (c.distance b) (c.distance a) = ((a.sub b).cross (c.sub b)).mag / 2 := by
  have key : ∀ x y z : ℝ, (x + y + z) / 2 * ((x + y + z) / 2 - x) * ((x + y + z) / 2 - y) * ((x + y + z) / 2 - z) =
      (4 * x ^ 2 * y ^ 2 - (x ^ 2 + y ^ 2 - z ^ 2) ^ 2) / 16 := by intro x y z; ring
  have hs : ∀ a b : V3, a.distance b ^ 2 = (a.x - b.x) ^ 2 + (a.y - b.y) ^ 2 + (a.z - b.z) ^ 2 := by
    intro a b; unfold V3.distance; exact Real.sq_sqrt (by positivity)
  unfold heron
  simp only
  rw [key, hs, hs, hs]
  unfold V3.mag
  rw [show (4 * ((a.x - b.x) ^ 2 + (a.y - b.y) ^ 2 + (a.z - b.z) ^ 2) * ((c.x - b.x) ^ 2 + (c.y - b.y) ^ 2 + (c.z - b.z) ^ 2) -
    ((a.x - b.x) ^ 2 + (a.y - b.y) ^ 2 + (a.z - b.z) ^ 2 + ((c.x - b.x) ^ 2 + (c.y - b.y) ^ 2 + (c.z - b.z) ^ 2) -
      ((c.x - a.x) ^ 2 + (c.y - a.y) ^ 2 + (c.z - a.z) ^ 2)) ^ 2) / 16 =
    (1 / 2) ^ 2 * (((a.sub b).cross (c.sub b)).x ^ 2 + ((a.sub b).cross (c.sub b)).y ^ 2 + ((a.sub b).cross (c.sub b)).z ^ 2) by
      simp only [V3.sub, V3.cross]; ring]
  rw [Real.sqrt_mul (by positivity), Real.sqrt_sq (by norm_num)]
  ring

/-- The area of a triangle in square km: half the cross product of two sides. -/
noncomputable def triangleKm (a b c : Point) : ℝ :=
  (((fromPoint a).sub (fromPoint b)).cross ((fromPoint c).sub (fromPoint b))).mag / 2 / 10 ^ 6

/-- **C73.** The area is the sum over all quadrilaterals of the areas of the two triangles on either side of
the diagonal from the start of the top edge to the end of the bottom edge. It is never negative, and the
width is the area divided by the length. -/
theorem C73_area (dist : Point → Point → ℝ) (qs : List (Quad Point)) :
    EdgeR.getArea qs = (qs.map fun q => triangleKm q.p1 q.p0 q.p2 + triangleKm q.p0 q.p3 q.p2).sum ∧
    0 ≤ EdgeR.getArea qs ∧
    (EdgeR.getLength dist qs ≠ 0 →
      EdgeR.getWidth dist qs * EdgeR.getLength dist qs = EdgeR.getArea qs) := by
  have h : EdgeR.getArea qs = (qs.map fun q => triangleKm q.p1 q.p0 q.p2 + triangleKm q.p0 q.p3 q.p2).sum := by
    unfold EdgeR.getArea
    rw [foldl_add_sum, zero_add]
    congr 1
    apply List.map_congr_left
    intro q _
    unfold area1 area2
    have hsym : ∀ a b : V3, a.distance b = b.distance a := by
      intro a b; unfold V3.distance; congr 1; ring
    rw [heron_cross, hsym q.ecef.p0 q.ecef.p2, heron_cross]
    unfold triangleKm Quad.ecef
    simp only
    ring
  refine ⟨h, ?_, ?_⟩
  · rw [h]
    apply List.sum_nonneg
    intro x hx
    obtain ⟨q, _, rfl⟩ := List.mem_map.1 hx
    unfold triangleKm V3.mag
    positivity
  · intro hl
    unfold EdgeR.getWidth
    field_simp

end Verif.Props
