import Verif.Model.MapDraw
import Verif.Props.Collision

/-!
# C164: drawing the cities of a map
-/

namespace Verif.Props
open Verif Verif.Cities Verif.Collision Verif.Spec

theorem bounds_exist {rows : List City} (h : rows ≠ []) : ∃ xmin xmax ymin ymax, IsBounds rows xmin xmax ymin ymax := by
  have lo : ∀ f : City → ℚ, ∃ m, IsLeast {x | ∃ c ∈ rows, f c = x} m := by
    intro f
    cases hm : (rows.map f).min? with
    | none => simp [h] at hm
    | some m =>
      obtain ⟨h1, h2⟩ := List.min?_eq_some_iff.1 hm
      refine ⟨m, by simpa using h1, ?_⟩
      rintro x ⟨c, hc, rfl⟩
      exact h2 _ (List.mem_map_of_mem hc)
  have hi : ∀ f : City → ℚ, ∃ m, IsGreatest {x | ∃ c ∈ rows, f c = x} m := by
    intro f
    cases hm : (rows.map f).max? with
    | none => simp [h] at hm
    | some m =>
      obtain ⟨h1, h2⟩ := List.max?_eq_some_iff.1 hm
      refine ⟨m, by simpa using h1, ?_⟩
      rintro x ⟨c, hc, rfl⟩
      exact h2 _ (List.mem_map_of_mem hc)
  obtain ⟨a, ha⟩ := lo City.lon
  obtain ⟨b, hb⟩ := hi City.lon
  obtain ⟨c, hc⟩ := lo City.lat
  obtain ⟨d, hd⟩ := hi City.lat
  exact ⟨a, b, c, d, ha, hb, hc, hd⟩

theorem sort_nil {sort : List City → List City} (hs : SortsDown City.pop sort) : sort [] = [] :=
  List.perm_nil.1 (hs []).1

theorem grid_empty {sort : List City → List City} (hs : SortsDown City.pop sort) (t : Table) (h : HasColumns t) (hp : "pop" ∈ t.columns)
    (he : t.rows = []) : limitByGrid sort t 2 2 15 = .ok t := by
  obtain ⟨cols, rows⟩ := t
  simp only at he hp
  subst he
  have cell : ∀ x0 y0 dx dy i j, gridCell sort ⟨cols, []⟩ x0 y0 dx dy 15 i j = .ok [] := by
    intro x0 y0 dx dy i j
    unfold gridCell limitByBounds
    simp only [List.filter_nil, (C21_constructor (⟨cols, []⟩ : Table)).1 h, bind, Except.bind, sort_nil hs]
    rfl
  unfold limitByGrid
  rw [if_neg (by simpa using hp)]
  simp only [cell]
  exact (C21_constructor (⟨cols, []⟩ : Table)).1 h

/-- The cities that may be drawn, and those that are. -/
theorem draw_spec {sort : List City → List City} (hs : SortsDown City.pop sort) (edges : City → Box) (ax : Box) (dots : Bool) (t : Table)
    (h : HasColumns t) (hp : "pop" ∈ t.columns) :
    ∃ t' pool, drawCities sort edges ax dots t = .ok (t', drawRows dots t'.rows) ∧ HasColumns t' ∧ "pop" ∈ t'.columns ∧
      limitByGrid sort t 2 2 15 = .ok ⟨t.columns, pool⟩ ∧ pool.Subperm t.rows ∧ pool.length ≤ 60 ∧
      t'.rows = (limitByMapCollision sort edges ax pool).map Prod.fst ∧
      ∀ c ∈ t.rows, (∀ d ∈ t.rows, c.lon ≤ d.lon) ∨ (∀ d ∈ t.rows, c.lat ≤ d.lat) → c ∉ pool := by
  obtain ⟨g, hg, hgc, hgs, hgl, hge⟩ : ∃ g, limitByGrid sort t 2 2 15 = .ok g ∧ g.columns = t.columns ∧ g.rows.Subperm t.rows ∧
      g.rows.length ≤ 60 ∧ ∀ c ∈ t.rows, (∀ d ∈ t.rows, c.lon ≤ d.lon) ∨ (∀ d ∈ t.rows, c.lat ≤ d.lat) → c ∉ g.rows := by
    by_cases he : t.rows = []
    · exact ⟨t, grid_empty hs t h hp he, rfl, List.Subperm.refl _, by simp [he], fun c hc => by rw [he] at hc; cases hc⟩
    · obtain ⟨a, b, c, d, hb⟩ := bounds_exist he
      obtain ⟨g, h1, h2, _, h4, h5, h6⟩ := C23_grid_partial sort hs t h hp 2 2 15 (by norm_num) (by norm_num) a b c d hb
      refine ⟨g, h1, h2, h5, by simpa using h6, ?_⟩
      intro x hx hedge
      obtain ⟨t', e1, e2⟩ := C23_edge_violated sort hs t h hp 2 2 15 (by norm_num) (by norm_num) a b c d hb x hx (by
        rcases hedge with hw | hw
        · left
          obtain ⟨y, hy, e⟩ := hb.1.1
          exact le_antisymm (e ▸ hw y hy) (hb.1.2 ⟨x, hx, rfl⟩)
        · right
          obtain ⟨y, hy, e⟩ := hb.2.2.1.1
          exact le_antisymm (e ▸ hw y hy) (hb.2.2.1.2 ⟨x, hx, rfl⟩))
      rw [h1] at e1
      obtain rfl := Except.ok.inj e1
      exact e2
  obtain ⟨gc, gr⟩ := g
  simp only at hgc hgs hgl hge
  subst hgc
  by_cases he : gr = []
  · subst he
    have hk := (C21_constructor (⟨t.columns, []⟩ : Table)).1 h
    refine ⟨⟨t.columns, []⟩, [], ?_, h, hp, hg, hgs, hgl, ?_, hge⟩
    · unfold drawCities
      rw [hg]
      simp only [bind, Except.bind, List.isEmpty_nil, if_true, pure, Except.pure, hk]
    · simp [limitByMapCollision, sort_nil hs, boundingBoxes, keepNonOverlapping]
  · have hc' : HasColumns (⟨t.columns ++ ["top", "bottom", "left", "right"], (limitByMapCollision sort edges ax gr).map Prod.fst⟩ : Table) :=
      ⟨List.mem_append_left _ h.1, List.mem_append_left _ h.2.1, List.mem_append_left _ h.2.2⟩
    refine ⟨⟨t.columns ++ ["top", "bottom", "left", "right"], (limitByMapCollision sort edges ax gr).map Prod.fst⟩, gr, ?_, hc',
      List.mem_append_left _ hp, hg, hgs, hgl, rfl, hge⟩
    have hk := (C21_constructor _).1 hc'
    have hne : gr.isEmpty = false := by simpa using he
    unfold drawCities
    rw [hg]
    simp only [bind, Except.bind, hne, Bool.false_eq_true, if_false, hk, pure, Except.pure]

theorem onMap_fst_sublist (edges : City → Box) (ax : Box) (l : List City) : ((onMap edges ax l).map Prod.fst).Sublist l := by
  cases l with
  | nil => exact List.Sublist.refl _
  | cons r rs =>
    rw [onMap, List.map_cons, List.map_map]
    refine List.Sublist.cons_cons _ ?_
    have : (Prod.fst ∘ fun r => (r, edges r)) = (id : City → City) := rfl
    rw [this, List.map_id]
    exact List.filter_sublist

theorem collision_fst (sort : List City → List City) (edges : City → Box) (ax : Box) (rows : List City) :
    ∀ p ∈ limitByMapCollision sort edges ax rows, p.2 = edges p.1 := by
  intro p hp
  unfold limitByMapCollision at hp
  rw [boxes_eq_onMap] at hp
  have hsub : (keepNonOverlapping (onMap edges ax (sort rows))).Sublist (onMap edges ax (sort rows)) := by
    cases h : onMap edges ax (sort rows) with
    | nil => exact List.Sublist.refl _
    | cons q qs => exact List.Sublist.cons_cons _ (keepLoop_sublist _ _)
  have hm := hsub.subset hp
  cases h : sort rows with
  | nil => rw [h] at hm; cases hm
  | cons r rs =>
    rw [h, onMap] at hm
    rcases List.mem_cons.1 hm with rfl | hm
    · rfl
    · obtain ⟨c, _, rfl⟩ := List.mem_map.1 hm
      rfl

theorem collision_subperm {sort : List City → List City} (hs : SortsDown City.pop sort) (edges : City → Box) (ax : Box) (rows : List City) :
    ((limitByMapCollision sort edges ax rows).map Prod.fst).Subperm rows := by
  unfold limitByMapCollision
  rw [boxes_eq_onMap]
  have hsub : (keepNonOverlapping (onMap edges ax (sort rows))).Sublist (onMap edges ax (sort rows)) := by
    cases h : onMap edges ax (sort rows) with
    | nil => exact List.Sublist.refl _
    | cons q qs => exact List.Sublist.cons_cons _ (keepLoop_sublist _ _)
  exact ((hsub.map _).trans (onMap_fst_sublist edges ax _)).subperm.trans (hs rows).1.subperm

/-- The marks of a city: a label, and before it a dot if dots are wanted. -/
def marksOf (dots : Bool) (c : City) : List Mark :=
  if dots then [.dot c.lon c.lat, .label c.name c.lon c.lat] else [.label c.name c.lon c.lat]

theorem drawRows_eq (dots : Bool) (l : List City) : drawRows dots l = l.flatMap (marksOf dots) := by
  induction l with
  | nil => rfl
  | cons c l ih =>
    rw [drawRows, List.flatMap_cons, ih, marksOf]
    cases dots <;> rfl

theorem apart_shrink {proj size : City → ℚ × ℚ} {sx sy padding : ℚ} (hx : 0 ≤ sx) (hy : 0 ≤ sy) (hp : 0 ≤ padding)
    (hsz : ∀ c, 0 ≤ (size c).1 ∧ 0 ≤ (size c).2) {a b : City}
    (h : Apart (cityEdges (labelBox proj size sx sy) padding b) (cityEdges (labelBox proj size sx sy) padding a)) :
    Apart (labelBox proj size sx sy a) (labelBox proj size sx sy b) := by
  have inside : ∀ c x y, InRect (labelBox proj size sx sy c).left (labelBox proj size sx sy c).right (labelBox proj size sx sy c).bottom
      (labelBox proj size sx sy c).top x y → InRect (cityEdges (labelBox proj size sx sy) padding c).left
        (cityEdges (labelBox proj size sx sy) padding c).right (cityEdges (labelBox proj size sx sy) padding c).bottom
        (cityEdges (labelBox proj size sx sy) padding c).top x y := by
    intro c x y ⟨h1, h2, h3, h4⟩
    obtain ⟨s1, s2⟩ := hsz c
    have p1 : 0 ≤ (size c).1 * sx * padding := by positivity
    have p2 : 0 ≤ (size c).2 * sy * padding := by positivity
    unfold cityEdges labelBox InRect at *
    simp only at *
    refine ⟨?_, ?_, ?_, ?_⟩ <;> nlinarith
  rintro x y ⟨h1, h2⟩
  exact h x y ⟨inside b x y h2, inside a x y h1⟩

/-- **C164**: `drawCities` draws exactly the cities that it returns; they are cities of the map, at most sixty, no two of their labels
touch, and all labels but the first lie on the map. -/
theorem C164_drawn_partial (sort : List City → List City) (hs : SortsDown City.pop sort) (proj size : City → ℚ × ℚ) (sx sy padding : ℚ)
    (hx : 0 ≤ sx) (hy : 0 ≤ sy) (hpad : 0 ≤ padding) (hsz : ∀ c, 0 ≤ (size c).1 ∧ 0 ≤ (size c).2) (ax : Box) (dots : Bool) (t : Table)
    (h : HasColumns t) (hp : "pop" ∈ t.columns) :
    ∃ t' marks, drawCities sort (cityEdges (labelBox proj size sx sy) padding) ax dots t = .ok (t', marks) ∧
      marks = t'.rows.flatMap (marksOf dots) ∧ t'.rows.Subperm t.rows ∧ t'.rows.length ≤ 60 ∧
      t'.rows.Pairwise (fun a b => Apart (labelBox proj size sx sy a) (labelBox proj size sx sy b)) ∧
      ∀ c ∈ t'.rows.tail, ax.left ≤ (labelBox proj size sx sy c).left ∧ (labelBox proj size sx sy c).right ≤ ax.right ∧
        ax.bottom ≤ (labelBox proj size sx sy c).bottom ∧ (labelBox proj size sx sy c).top ≤ ax.top := by
  set edges := cityEdges (labelBox proj size sx sy) padding with hedges
  obtain ⟨t', pool, h1, _, _, _, h5, h6, h7, _⟩ := draw_spec hs edges ax dots t h hp
  refine ⟨t', _, h1, drawRows_eq _ _, ?_, ?_, ?_, ?_⟩
  · rw [h7]; exact (collision_subperm hs edges ax pool).trans h5
  · rw [h7]; exact (collision_subperm hs edges ax pool).length_le.trans h6
  · rw [h7, List.pairwise_map]
    have := C24_disjoint sort edges ax pool
    refine this.imp_of_mem ?_
    intro p q hp' hq' ha
    rw [collision_fst sort edges ax pool p hp', collision_fst sort edges ax pool q hq'] at ha
    exact apart_shrink hx hy hpad hsz ha
  · intro c hc
    rw [h7] at hc
    have hin : ax.left ≤ (edges c).left ∧ (edges c).right ≤ ax.right ∧ ax.bottom ≤ (edges c).bottom ∧ (edges c).top ≤ ax.top := by
      unfold limitByMapCollision at hc
      rw [boxes_eq_onMap] at hc
      cases hso : sort pool with
      | nil => rw [hso] at hc; cases hc
      | cons r rs =>
        rw [hso, onMap, keepNonOverlapping, List.map_cons, List.tail_cons] at hc
        obtain ⟨p, hp', rfl⟩ := List.mem_map.1 hc
        have hm := (keepLoop_sublist _ _).subset hp'
        obtain ⟨d, hd, rfl⟩ := List.mem_map.1 hm
        simpa using (List.mem_filter.1 hd).2
    obtain ⟨s1, s2⟩ := hsz c
    have p1 : 0 ≤ (size c).1 * sx * padding := by positivity
    have p2 : 0 ≤ (size c).2 * sy * padding := by positivity
    rw [hedges] at hin
    unfold cityEdges labelBox at *
    simp only at *
    obtain ⟨e1, e2, e3, e4⟩ := hin
    refine ⟨?_, ?_, ?_, ?_⟩ <;> nlinarith

theorem gap_of_apart {p q : Box} (hp : p.left ≤ p.right ∧ p.bottom ≤ p.top) (hq : q.left ≤ q.right ∧ q.bottom ≤ q.top) (h : Apart p q) :
    p.right < q.left ∨ q.right < p.left ∨ p.top < q.bottom ∨ q.top < p.bottom := by
  by_contra hc
  push Not at hc
  obtain ⟨h1, h2, h3, h4⟩ := hc
  exact h (max p.left q.left) (max p.bottom q.bottom)
    ⟨⟨le_max_left _ _, max_le hp.1 h1, le_max_left _ _, max_le hp.2 h3⟩, ⟨le_max_right _ _, max_le h2 hq.1, le_max_right _ _, max_le h4 hq.2⟩⟩

/-- **C164**: around every label there is a margin of the padding times its width on the left and on the right, and of the padding times its height above and below: between two labels there is
room for both margins, and all labels but the first keep theirs to the edges of the map. -/
theorem C164_margin_partial (sort : List City → List City) (hs : SortsDown City.pop sort) (proj size : City → ℚ × ℚ) (sx sy padding : ℚ)
    (hx : 0 ≤ sx) (hy : 0 ≤ sy) (hpad : 0 ≤ padding) (hsz : ∀ c, 0 ≤ (size c).1 ∧ 0 ≤ (size c).2) (ax : Box) (dots : Bool) (t : Table)
    (h : HasColumns t) (hp : "pop" ∈ t.columns) :
    ∃ t' marks, drawCities sort (cityEdges (labelBox proj size sx sy) padding) ax dots t = .ok (t', marks) ∧
      t'.rows.Pairwise (fun a b =>
        padding * ((size a).1 * sx + (size b).1 * sx) < (labelBox proj size sx sy a).left - (labelBox proj size sx sy b).right ∨
        padding * ((size a).1 * sx + (size b).1 * sx) < (labelBox proj size sx sy b).left - (labelBox proj size sx sy a).right ∨
        padding * ((size a).2 * sy + (size b).2 * sy) < (labelBox proj size sx sy a).bottom - (labelBox proj size sx sy b).top ∨
        padding * ((size a).2 * sy + (size b).2 * sy) < (labelBox proj size sx sy b).bottom - (labelBox proj size sx sy a).top) ∧
      ∀ c ∈ t'.rows.tail, padding * ((size c).1 * sx) ≤ (labelBox proj size sx sy c).left - ax.left ∧ padding * ((size c).1 * sx) ≤ ax.right - (labelBox proj size sx sy c).right ∧
        padding * ((size c).2 * sy) ≤ (labelBox proj size sx sy c).bottom - ax.bottom ∧ padding * ((size c).2 * sy) ≤ ax.top - (labelBox proj size sx sy c).top := by
  set edges := cityEdges (labelBox proj size sx sy) padding with hedges
  obtain ⟨t', pool, h1, _, _, _, h5, h6, h7, _⟩ := draw_spec hs edges ax dots t h hp
  refine ⟨t', _, h1, ?_, ?_⟩
  · rw [h7, List.pairwise_map]
    have := C24_disjoint sort edges ax pool
    refine this.imp_of_mem ?_
    intro p q hp' hq' ha
    rw [collision_fst sort edges ax pool p hp', collision_fst sort edges ax pool q hq'] at ha
    have proper : ∀ c, (edges c).left ≤ (edges c).right ∧ (edges c).bottom ≤ (edges c).top := by
      intro c
      obtain ⟨s1, s2⟩ := hsz c
      have p1 : 0 ≤ (size c).1 * sx * padding := by positivity
      have p2 : 0 ≤ (size c).2 * sy * padding := by positivity
      have p3 : 0 ≤ (size c).1 * sx := by positivity
      have p4 : 0 ≤ (size c).2 * sy := by positivity
      rw [hedges]
      unfold cityEdges labelBox
      simp only
      constructor <;> nlinarith
    have hg := gap_of_apart (proper _) (proper _) ha
    rw [hedges] at hg
    unfold cityEdges labelBox at hg
    unfold labelBox
    simp only at hg ⊢
    rcases hg with hg | hg | hg | hg
    · left; linarith
    · right; left; linarith
    · right; right; left; linarith
    · right; right; right; linarith
  · intro c hc
    rw [h7] at hc
    have hin : ax.left ≤ (edges c).left ∧ (edges c).right ≤ ax.right ∧ ax.bottom ≤ (edges c).bottom ∧ (edges c).top ≤ ax.top := by
      unfold limitByMapCollision at hc
      rw [boxes_eq_onMap] at hc
      cases hso : sort pool with
      | nil => rw [hso] at hc; cases hc
      | cons r rs =>
        rw [hso, onMap, keepNonOverlapping, List.map_cons, List.tail_cons] at hc
        obtain ⟨p, hp', rfl⟩ := List.mem_map.1 hc
        have hm := (keepLoop_sublist _ _).subset hp'
        obtain ⟨d, hd, rfl⟩ := List.mem_map.1 hm
        simpa using (List.mem_filter.1 hd).2
    rw [hedges] at hin
    unfold cityEdges labelBox at *
    simp only at *
    obtain ⟨e1, e2, e3, e4⟩ := hin
    refine ⟨?_, ?_, ?_, ?_⟩ <;> linarith

/-- **C164**: the label of a city begins four pixels to the right of its place, is as wide and as high as its text, and is centred on the
latitude of the city. -/
theorem C164_label (proj size : City → ℚ × ℚ) (sx sy : ℚ) (c : City) :
    (labelBox proj size sx sy c).left - (proj c).1 = 4 * sx ∧
    (labelBox proj size sx sy c).right - (labelBox proj size sx sy c).left = (size c).1 * sx ∧
    (labelBox proj size sx sy c).top - (labelBox proj size sx sy c).bottom = (size c).2 * sy ∧
    (labelBox proj size sx sy c).top - (proj c).2 = (proj c).2 - (labelBox proj size sx sy c).bottom := by
  unfold labelBox
  refine ⟨?_, ?_, ?_, ?_⟩ <;> (simp only; ring)

/-- **C164**: without populations the call raises KeyError. -/
theorem C164_keyError (sort : List City → List City) (edges : City → Box) (ax : Box) (dots : Bool) (t : Table) (hp : "pop" ∉ t.columns) :
    drawCities sort edges ax dots t = .error .keyError := by
  unfold drawCities
  rw [C23_keyError sort t 2 2 15 hp]
  rfl

/-- **C164** violated: the westernmost and southernmost cities of a map are never drawn, however large they are. -/
theorem C164_edge_violated (sort : List City → List City) (hs : SortsDown City.pop sort) (edges : City → Box) (ax : Box) (dots : Bool)
    (t : Table) (h : HasColumns t) (hp : "pop" ∈ t.columns) (c : City) (hc : c ∈ t.rows)
    (he : (∀ d ∈ t.rows, c.lon ≤ d.lon) ∨ (∀ d ∈ t.rows, c.lat ≤ d.lat)) :
    ∃ t' marks, drawCities sort edges ax dots t = .ok (t', marks) ∧ c ∉ t'.rows := by
  obtain ⟨t', pool, h1, _, _, _, _, _, h7, h8⟩ := draw_spec hs edges ax dots t h hp
  refine ⟨t', _, h1, ?_⟩
  intro hm
  rw [h7] at hm
  exact h8 c hc he ((collision_subperm hs edges ax pool).subset hm)

/-- A city alone on its map is not drawn. -/
theorem C164_single_violated (sort : List City → List City) (hs : SortsDown City.pop sort) (edges : City → Box) (ax : Box) (dots : Bool)
    (t : Table) (h : HasColumns t) (hp : "pop" ∈ t.columns) (c : City) (hc : t.rows = [c]) :
    ∃ t', drawCities sort edges ax dots t = .ok (t', []) ∧ t'.rows = [] := by
  obtain ⟨t', pool, h1, _, _, _, h5, _, h7, h8⟩ := draw_spec hs edges ax dots t h hp
  have hn := h8 c (by simp [hc]) (.inl (by simp [hc]))
  have hpool : pool = [] := by
    cases pool with
    | nil => rfl
    | cons d ds =>
      have := h5.subset (List.mem_cons_self)
      rw [hc, List.mem_singleton] at this
      exact absurd (this ▸ List.mem_cons_self) hn
  have hr : t'.rows = [] := by
    have := collision_subperm hs edges ax pool
    rw [← h7, hpool] at this
    exact List.subperm_nil.1 this
  exact ⟨t', by rw [h1, hr]; rfl, hr⟩

/-- `t'` are the cities of a map with the cities `t` after `n` calls of `drawCities`. -/
inductive Draws (sort : List City → List City) (edges : City → Box) (ax : Box) : ℕ → Table → Table → Prop where
  | none (t : Table) : Draws sort edges ax 0 t t
  | more {n : ℕ} {t t' t'' : Table} (dots : Bool) (marks : List Mark) : drawCities sort edges ax dots t = .ok (t', marks) →
      Draws sort edges ax n t' t'' → Draws sort edges ax (n + 1) t t''

theorem draw_fewer {sort : List City → List City} (hs : SortsDown City.pop sort) (edges : City → Box) (ax : Box) (dots : Bool) (t : Table)
    (h : HasColumns t) (hp : "pop" ∈ t.columns) {t' : Table} {marks : List Mark} (hd : drawCities sort edges ax dots t = .ok (t', marks)) :
    t'.rows.length ≤ t.rows.length - 1 ∧ HasColumns t' ∧ "pop" ∈ t'.columns := by
  obtain ⟨u, pool, h1, h2, h3, _, h5, _, h7, h8⟩ := draw_spec hs edges ax dots t h hp
  rw [h1] at hd
  obtain ⟨rfl, _⟩ := Prod.mk.inj (Except.ok.inj hd)
  refine ⟨?_, h2, h3⟩
  have hl : u.rows.length ≤ pool.length := by rw [h7]; exact (collision_subperm hs edges ax pool).length_le
  by_cases he : t.rows = []
  · have := h5.length_le
    rw [he] at this
    simp at this
    simp [this] at hl
    simp [hl]
  · obtain ⟨a, b, c, d, hb⟩ := bounds_exist he
    obtain ⟨x, hx, e⟩ := hb.1.1
    have hn := h8 x hx (.inl fun y hy => e ▸ hb.1.2 ⟨y, hy, rfl⟩)
    have hlt : pool.length < t.rows.length := by
      refine lt_of_le_of_ne h5.length_le ?_
      intro heq
      exact hn ((h5.perm_of_length_le heq.ge).symm.subset hx)
    omega

/-- **C164** violated: every call loses cities of the map for good, so that a map of `n` cities is empty after `n` calls. -/
theorem C164_again_violated (sort : List City → List City) (hs : SortsDown City.pop sort) (edges : City → Box) (ax : Box) (n : ℕ)
    (t t' : Table) (h : HasColumns t) (hp : "pop" ∈ t.columns) (hd : Draws sort edges ax n t t') :
    t'.rows.length ≤ t.rows.length - n := by
  induction hd with
  | none => simp
  | @more n t u v dots marks h1 h2 ih =>
    obtain ⟨a, b, c⟩ := draw_fewer hs edges ax dots t h hp h1
    have := ih b c
    omega

/-- **C164** violated: a map that crosses the date line, given with its western edge east of its eastern edge, has no cities. -/
theorem C164_dateline_violated (t : Table) (h : HasColumns t) (xmin xmax ymin ymax : ℚ) (hx : xmax ≤ xmin) :
    newMap t xmin xmax ymin ymax = .ok ⟨t.columns, []⟩ := by
  unfold newMap limitByBounds
  have : t.rows.filter (fun c => decide (c.lat > ymin) && decide (c.lat ≤ ymax) && decide (c.lon > xmin) && decide (c.lon ≤ xmax)) = [] := by
    rw [List.filter_eq_nil_iff]
    intro c _ hc
    simp only [Bool.and_eq_true, decide_eq_true_eq, gt_iff_lt] at hc
    linarith [hc.1.2, hc.2]
  rw [this]
  exact (C21_constructor (⟨t.columns, []⟩ : Table)).1 h

/-- The centre of the projection lies halfway between the edges of the map, also if the map crosses the date line. -/
theorem C164_center (xmin xmax : ℚ) :
    (xmin ≤ xmax → centralLongitude xmin xmax - xmin = xmax - centralLongitude xmin xmax) ∧
      (xmax < xmin → xmax < 0 → -180 ≤ xmax → xmin ≤ 180 → centralLongitude xmin xmax - xmin = (xmax + 360) - centralLongitude xmin xmax ∧
        xmin ≤ centralLongitude xmin xmax ∧ centralLongitude xmin xmax ≤ xmax + 360) := by
  constructor
  · intro h
    have : ¬ (xmax < 0 ∧ xmax < xmin) := fun hc => not_lt.2 h hc.2
    rw [centralLongitude, if_neg this]; ring
  · intro h h0 h1 h2
    rw [centralLongitude, if_pos ⟨h0, h⟩]
    refine ⟨by ring, by linarith, by linarith⟩

/-! ### Maps that take part of their figure -/

/-- Cities for the examples. -/
def demoCities : Table :=
  ⟨["name", "lat", "lon", "pop"], [⟨"S", 0, 0, 1⟩, ⟨"A", 1, 10, 5⟩, ⟨"B", 1, 22, 4⟩, ⟨"N", 9, 40, 3⟩]⟩

/-- A sort for the examples. -/
def demoSort (xs : List City) : List City := xs.insertionSort (fun a b => b.pop ≤ a.pop)

/-- **C164** violated: the labels are compared on axes that fill the figure. If the map takes half of the figure, its pixels are twice as
long, and labels that were found to be apart touch when they are drawn. -/
theorem C164_dimensions_violated : ∃ (proj size : City → ℚ × ℚ) (ax : Box) (t' : Table) (marks : List Mark) (a b : City),
    drawCities demoSort (cityEdges (labelBox proj size 1 1) 0) ax false demoCities = .ok (t', marks) ∧
      [a, b].Sublist t'.rows ∧ a ≠ b ∧ ¬ Apart (labelBox proj size 2 2 a) (labelBox proj size 2 2 b) := by
  refine ⟨fun c => (c.lon, c.lat), fun _ => (10, 2), ⟨-100, 100, -100, 100⟩, ⟨["name", "lat", "lon", "pop", "top", "bottom", "left", "right"],
    [⟨"A", 1, 10, 5⟩, ⟨"B", 1, 22, 4⟩, ⟨"N", 9, 40, 3⟩]⟩,
    [.label "A" 10 1, .label "B" 22 1, .label "N" 40 9], ⟨"A", 1, 10, 5⟩, ⟨"B", 1, 22, 4⟩, by decide +kernel, by decide, by decide, ?_⟩
  intro h
  refine h 35 1 ⟨?_, ?_⟩ <;> (unfold labelBox InRect; norm_num)

example : SortsDown City.pop demoSort ∧ HasColumns demoCities ∧ "pop" ∈ demoCities.columns :=
  ⟨sortsDown_exists, by unfold HasColumns; decide, by decide⟩

end Verif.Props
