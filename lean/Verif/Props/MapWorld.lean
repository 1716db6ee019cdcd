import Verif.Spec.MapWorld
import Verif.Props.MapDraw

/-!
# C196: maps among other figures
-/

namespace Verif.Props
open Verif Verif.Cities Verif.Collision Verif.MapWorld Verif.Spec

/-! ### An invariant -/

/-- All axes of the maps and of the caller, in the order in which they were made; here `own` are the caller's. -/
structure Kept (w : World) (es : List Event) : Prop where
  numbered : ∀ a, w.axes[a]?.map Prod.fst = if a < w.axes.length then some a else none
  figures : w.figures = w.axes.length
  pair : ∀ m ∈ w.maps, m.hidden = m.ax + 1 ∧ m.hidden < w.axes.length
  order : w.maps.Pairwise fun m n => m.hidden < n.ax
  typed : ∀ a x, Event.typed a x ∈ es → a < w.axes.length
  drawn : ∀ k d t, Event.drawn k d t ∈ es → k < w.maps.length
  opened : ∀ a, Event.opened a ∈ es → a < w.axes.length ∧ ∀ m ∈ w.maps, a ≠ m.ax ∧ a ≠ m.hidden
  own : ∀ a, Event.opened a ∈ es → World.marks w a = es.flatMap (ownHand a)
  shown : ∀ k m, w.maps[k]? = some m → World.marks w m.ax = es.flatMap (Spec.onMap k m.ax)

theorem kept_start : Kept World.start [] := by
  constructor <;> simp [World.start]

theorem marks_newAxes (w : World) (a : ℕ) : World.marks w.newAxes a = World.marks w a := by
  unfold World.marks World.newAxes
  rcases lt_trichotomy a w.axes.length with h | h | h
  · simp [List.getElem?_append_left h]
  · simp [h]
  · rw [List.getElem?_eq_none (by simp; omega), List.getElem?_eq_none (by omega)]

theorem marks_put (w : World) (a b : ℕ) (l : List Mark) (h : a < w.axes.length) : World.marks (w.put a l) b = World.marks w b ++ (if b = a then l else []) := by
  unfold World.marks World.put
  simp only [List.getElem?_modify]
  by_cases e : b = a
  · subst e
    simp [h]
  · have e' : ¬ a = b := fun c => e c.symm
    simp [e, e']

theorem marks_none (w : World) (a : ℕ) (h : w.axes.length ≤ a) : World.marks w a = [] := by
  unfold World.marks; rw [List.getElem?_eq_none h]; rfl

theorem hand_none {es : List Event} {n a : ℕ} (h : ∀ a x, Event.typed a x ∈ es → a < n) (ha : n ≤ a) : es.flatMap (ownHand a) = [] := by
  rw [List.flatMap_eq_nil_iff]
  intro e he
  unfold ownHand
  split
  · rename_i b x
    have := h _ _ he
    rw [if_neg (by omega)]
  · rfl

theorem map_none {es : List Event} {n k a : ℕ} {m : ℕ} (h : ∀ a x, Event.typed a x ∈ es → a < n) (ha : n ≤ a)
    (h' : ∀ k d t, Event.drawn k d t ∈ es → k < m) (hk : m ≤ k) : es.flatMap (Spec.onMap k a) = [] := by
  rw [List.flatMap_eq_nil_iff]
  intro e he
  unfold Spec.onMap
  split
  · have := h _ _ he
    rw [if_neg (by omega)]
  · have := h' _ _ _ he
    rw [if_neg (by omega)]
  · rfl

/-- An event that puts nothing anywhere. -/
def Silent : Event → Prop
  | .typed _ _ => False
  | .drawn _ _ _ => False
  | .opened _ => False
  | _ => True

theorem kept_silent {w : World} {es : List Event} (h : Kept w es) {e : Event} (he : Silent e) : Kept w (es ++ [e]) := by
  have hh : ∀ a, (es ++ [e]).flatMap (ownHand a) = es.flatMap (ownHand a) := by
    intro a; cases e <;> simp_all [Silent, ownHand]
  have hm : ∀ k a, (es ++ [e]).flatMap (Spec.onMap k a) = es.flatMap (Spec.onMap k a) := by
    intro k a; cases e <;> simp_all [Silent, Spec.onMap]
  have mem : ∀ e', e' ∈ es ++ [e] → ¬ Silent e' → e' ∈ es := by
    intro e' h1 h2
    rcases List.mem_append.1 h1 with h1 | h1
    · exact h1
    · simp only [List.mem_singleton] at h1; subst h1; exact absurd he h2
  refine ⟨h.numbered, h.figures, h.pair, h.order, fun a x c => h.typed a x (mem _ c (by simp [Silent])), fun k d t c => h.drawn k d t (mem _ c (by simp [Silent])),
    fun a c => h.opened a (mem _ c (by simp [Silent])), fun a c => ?_, fun k m hk => ?_⟩
  · rw [hh]; exact h.own a (mem _ c (by simp [Silent]))
  · rw [hm]; exact h.shown k m hk

theorem kept_current {w : World} {es : List Event} (h : Kept w es) (c : Option ℕ) : Kept { w with current := c } es :=
  ⟨h.numbered, h.figures, h.pair, h.order, h.typed, h.drawn, h.opened, h.own, h.shown⟩

theorem kept_newAxes {w : World} {es : List Event} (h : Kept w es) : Kept w.newAxes es := by
  have hl : w.newAxes.axes.length = w.axes.length + 1 := by simp [World.newAxes]
  refine ⟨?_, by simp [World.newAxes, h.figures], fun m hm => ?_, h.order, fun a x c => ?_, h.drawn, fun a c => ?_, fun a c => ?_, fun k m hk => ?_⟩
  · intro a
    have := h.numbered a
    rw [hl]
    unfold World.newAxes
    rcases lt_trichotomy a w.axes.length with h' | h' | h'
    · simp only [List.getElem?_append_left h']
      rw [this, if_pos h', if_pos (by omega)]
    · subst h'; simp [h.figures]
    · rw [List.getElem?_eq_none (by simp; omega), if_neg (by omega)]; rfl
  · have := h.pair m hm; rw [hl]; omega
  · have := h.typed a x c; rw [hl]; omega
  · have := h.opened a c; rw [hl]; exact ⟨by omega, this.2⟩
  · rw [marks_newAxes]; exact h.own a c
  · rw [marks_newAxes]; exact h.shown k m hk

/-- Marks on hidden axes are nobody's. -/
theorem kept_hidden {w : World} {es : List Event} (h : Kept w es) {k : ℕ} {m : MapObj} (hk : w.maps[k]? = some m) (l : List Mark) : Kept (w.put m.hidden l) es := by
  have hm : m ∈ w.maps := List.mem_of_getElem? hk
  obtain ⟨p1, p2⟩ := h.pair m hm
  have hl : (w.put m.hidden l).axes.length = w.axes.length := by simp [World.put]
  have apart : ∀ n ∈ w.maps, n.ax ≠ m.hidden := by
    intro n hn
    by_cases e : n = m
    · subst e; omega
    · obtain ⟨i, hi⟩ := List.mem_iff_getElem?.1 hn
      have q := h.pair n hn
      rcases lt_trichotomy i k with c | c | c
      · have := List.pairwise_iff_getElem.1 h.order i k (List.getElem?_eq_some_iff.1 hi).1 (List.getElem?_eq_some_iff.1 hk).1 c
        rw [(List.getElem?_eq_some_iff.1 hi).2, (List.getElem?_eq_some_iff.1 hk).2] at this
        omega
      · subst c; rw [hi] at hk; exact absurd (Option.some.inj hk) e
      · have := List.pairwise_iff_getElem.1 h.order k i (List.getElem?_eq_some_iff.1 hk).1 (List.getElem?_eq_some_iff.1 hi).1 c
        rw [(List.getElem?_eq_some_iff.1 hi).2, (List.getElem?_eq_some_iff.1 hk).2] at this
        omega
  refine ⟨?_, by rw [hl]; exact h.figures, fun n hn => by rw [hl]; exact h.pair n hn, h.order, fun a x c => by rw [hl]; exact h.typed a x c, h.drawn,
    fun a c => by rw [hl]; exact h.opened a c, fun a c => ?_, fun j n hj => ?_⟩
  · intro a
    have := h.numbered a
    rw [hl, ← this]
    unfold World.put
    simp only [List.getElem?_modify]
    split <;> cases w.axes[a]? <;> rfl
  · rw [marks_put _ _ _ _ p2, if_neg ((h.opened a c).2 m hm).2, List.append_nil]; exact h.own a c
  · rw [marks_put _ _ _ _ p2, if_neg (apart n (List.mem_of_getElem? hj)), List.append_nil]; exact h.shown j n hj

theorem ax_apart {w : World} {es : List Event} (h : Kept w es) {i j : ℕ} {m n : MapObj} (hi : w.maps[i]? = some m) (hj : w.maps[j]? = some n) (hne : i ≠ j) :
    m.ax ≠ n.ax ∧ m.ax ≠ n.hidden ∧ m.hidden ≠ n.ax ∧ m.hidden ≠ n.hidden := by
  have p := h.pair m (List.mem_of_getElem? hi)
  have q := h.pair n (List.mem_of_getElem? hj)
  rcases lt_or_gt_of_ne hne with c | c
  · have := List.pairwise_iff_getElem.1 h.order i j (List.getElem?_eq_some_iff.1 hi).1 (List.getElem?_eq_some_iff.1 hj).1 c
    rw [(List.getElem?_eq_some_iff.1 hi).2, (List.getElem?_eq_some_iff.1 hj).2] at this
    omega
  · have := List.pairwise_iff_getElem.1 h.order j i (List.getElem?_eq_some_iff.1 hj).1 (List.getElem?_eq_some_iff.1 hi).1 c
    rw [(List.getElem?_eq_some_iff.1 hi).2, (List.getElem?_eq_some_iff.1 hj).2] at this
    omega

theorem numbered_put {w : World} {a : ℕ} {l : List Mark} (b : ℕ) : (w.put a l).axes[b]?.map Prod.fst = w.axes[b]?.map Prod.fst := by
  unfold World.put
  simp only [List.getElem?_modify]
  split <;> cases w.axes[b]? <;> rfl

theorem length_put {w : World} {a : ℕ} {l : List Mark} : (w.put a l).axes.length = w.axes.length := by simp [World.put]

theorem kept_text {w : World} {es : List Event} (h : Kept w es) {a : ℕ} (ha : a < w.axes.length) (x : Mark) : Kept (w.put a [x]) (es ++ [.typed a x]) := by
  refine ⟨fun b => by rw [numbered_put, length_put]; exact h.numbered b, by rw [length_put]; exact h.figures, fun n hn => by rw [length_put]; exact h.pair n hn, h.order,
    fun b y c => ?_, fun k d t c => ?_, fun b c => ?_, fun b c => ?_, fun j n hj => ?_⟩
  · rw [length_put]
    rcases List.mem_append.1 c with c | c
    · exact h.typed b y c
    · simp at c; rw [c.1]; exact ha
  · exact h.drawn k d t (by simpa using c)
  · rw [length_put]; exact h.opened b (by simpa using c)
  · rw [marks_put _ _ _ _ ha, List.flatMap_append, h.own b (by simpa using c)]
    congr 1
    simp only [List.flatMap_cons, List.flatMap_nil, List.append_nil, ownHand, eq_comm]
  · rw [marks_put _ _ _ _ ha, List.flatMap_append, h.shown j n hj]
    congr 1
    simp only [List.flatMap_cons, List.flatMap_nil, List.append_nil, Spec.onMap, eq_comm]

theorem cityMarks_eq (dots : Bool) (t : Table) : drawRows dots t.rows = cityMarks dots t := drawRows_eq dots t.rows

theorem kept_drawn {w : World} {es : List Event} (h : Kept w es) {k : ℕ} {m : MapObj} (hk : w.maps[k]? = some m) (dots : Bool) (t : Table) :
    Kept { w.put m.ax (cityMarks dots t) with maps := w.maps.set k { m with cities := t } } (es ++ [.drawn k dots t]) := by
  have hm : m ∈ w.maps := List.mem_of_getElem? hk
  obtain ⟨p1, p2⟩ := h.pair m hm
  have hklt := (List.getElem?_eq_some_iff.1 hk).1
  have hax : m.ax < w.axes.length := by omega
  have get : ∀ (j : ℕ) (n : MapObj), (w.maps.set k { m with cities := t })[j]? = some n → ∃ n' : MapObj, w.maps[j]? = some n' ∧ n'.ax = n.ax ∧ n'.hidden = n.hidden := by
    intro j n hj
    rw [List.getElem?_set] at hj
    split at hj
    · rename_i e; subst e
      have := Option.some.inj hj
      subst this
      exact ⟨m, hk, rfl, rfl⟩
    · exact ⟨n, hj, rfl, rfl⟩
  have getm : ∀ n ∈ w.maps.set k { m with cities := t }, ∃ n' ∈ w.maps, n'.ax = n.ax ∧ n'.hidden = n.hidden := by
    intro n hn
    obtain ⟨j, hj⟩ := List.mem_iff_getElem?.1 hn
    obtain ⟨n', h1, h2⟩ := get j n hj
    exact ⟨n', List.mem_of_getElem? h1, h2⟩
  refine ⟨fun b => by rw [numbered_put, length_put]; exact h.numbered b, by rw [length_put]; exact h.figures, fun n hn => ?_, ?_,
    fun b y c => ?_, fun j d t' c => ?_, fun b c => ?_, fun b c => ?_, fun j n hj => ?_⟩
  · obtain ⟨n', h1, h2, h3⟩ := getm n hn
    rw [length_put, ← h2, ← h3]; exact h.pair n' h1
  · rw [List.pairwise_iff_getElem]
    intro i j hi hj hij
    obtain ⟨n1, g1, a1, b1⟩ := get i _ (List.getElem?_eq_getElem hi)
    obtain ⟨n2, g2, a2, b2⟩ := get j _ (List.getElem?_eq_getElem hj)
    rw [← b1, ← a2]
    have := List.pairwise_iff_getElem.1 h.order i j (List.getElem?_eq_some_iff.1 g1).1 (List.getElem?_eq_some_iff.1 g2).1 hij
    rwa [(List.getElem?_eq_some_iff.1 g1).2, (List.getElem?_eq_some_iff.1 g2).2] at this
  · rw [length_put]; exact h.typed b y (by simpa using c)
  · simp only [List.length_set]
    rcases List.mem_append.1 c with c | c
    · exact h.drawn j d t' c
    · simp at c; rw [c.1]; exact hklt
  · have c' : Event.opened b ∈ es := by simpa using c
    refine ⟨by rw [length_put]; exact (h.opened b c').1, fun n hn => ?_⟩
    obtain ⟨n', h1, h2, h3⟩ := getm n hn
    rw [← h2, ← h3]; exact (h.opened b c').2 n' h1
  · have c' : Event.opened b ∈ es := by simpa using c
    have e : World.marks { w.put m.ax (cityMarks dots t) with maps := w.maps.set k { m with cities := t } } b = World.marks (w.put m.ax (cityMarks dots t)) b := rfl
    rw [e, marks_put _ _ _ _ hax, if_neg ((h.opened b c').2 m hm).1, List.append_nil, List.flatMap_append, h.own b c']
    simp [ownHand]
  · obtain ⟨n', g1, g2, g3⟩ := get j n hj
    have e : World.marks { w.put m.ax (cityMarks dots t) with maps := w.maps.set k { m with cities := t } } n.ax = World.marks (w.put m.ax (cityMarks dots t)) n.ax := rfl
    rw [e, marks_put _ _ _ _ hax, List.flatMap_append, ← g2, h.shown j n' g1]
    congr 1
    simp only [List.flatMap_cons, List.flatMap_nil, List.append_nil, Spec.onMap]
    by_cases c : j = k
    · subst c; rw [hk] at g1; obtain rfl := Option.some.inj g1; simp
    · rw [if_neg (ax_apart h g1 hk c).1, if_neg (fun c' => c c'.symm)]

theorem kept_made {w : World} {es : List Event} (h : Kept w es) (t : Table) (b : Bounds) (c : Option ℕ) :
    Kept { w.newAxes.newAxes with current := c, maps := w.maps ++ [⟨t, b, w.axes.length, w.axes.length + 1⟩] } (es ++ [.made w.maps.length]) := by
  have h2 := kept_newAxes (kept_newAxes h)
  have hl : w.newAxes.newAxes.axes.length = w.axes.length + 2 := by simp [World.newAxes]
  apply kept_silent (e := .made w.maps.length) _ trivial
  refine ⟨h2.numbered, h2.figures, fun n hn => ?_, ?_, h2.typed, fun k d t c => ?_, fun a c => ?_, h2.own, fun k n hk => ?_⟩
  · rcases List.mem_append.1 hn with hn | hn
    · have := h2.pair n hn; exact this
    · simp only [List.mem_singleton] at hn
      subst hn
      exact ⟨rfl, by simp only; rw [hl]; omega⟩
  · rw [List.pairwise_append]
    refine ⟨h.order, List.pairwise_singleton _ _, fun m hm n hn => ?_⟩
    simp only [List.mem_singleton] at hn
    subst hn
    exact (h.pair m hm).2
  · have := h.drawn k d t c; simp; omega
  · have c' := h.opened a c
    refine ⟨(h2.opened a c).1, fun n hn => ?_⟩
    rcases List.mem_append.1 hn with hn | hn
    · exact c'.2 n hn
    · simp only [List.mem_singleton] at hn
      subst hn
      have := c'.1
      exact ⟨by simp only; omega, by simp only; omega⟩
  · simp only at hk
    rw [List.getElem?_append] at hk
    split at hk
    · exact h2.shown k n hk
    · rename_i hge
      have hn : n = ⟨t, b, w.axes.length, w.axes.length + 1⟩ := by
        rw [List.getElem?_singleton] at hk
        split at hk
        · exact (Option.some.inj hk).symm
        · cases hk
      subst hn
      have e : World.marks { w.newAxes.newAxes with current := c, maps := w.maps ++ [⟨t, b, w.axes.length, w.axes.length + 1⟩] } w.axes.length = World.marks w.newAxes.newAxes w.axes.length := rfl
      rw [e, marks_newAxes, marks_newAxes, marks_none w _ le_rfl, map_none (n := w.axes.length) (m := w.maps.length) h.typed le_rfl h.drawn (by omega)]

theorem kept_opened {w : World} {es : List Event} (h : Kept w es) : Kept w.newAxes (es ++ [.opened w.axes.length]) := by
  have h2 := kept_newAxes h
  have hl : w.newAxes.axes.length = w.axes.length + 1 := by simp [World.newAxes]
  refine ⟨h2.numbered, h2.figures, h2.pair, h2.order, fun a x c => h2.typed a x (by simpa using c), fun k d t c => h2.drawn k d t (by simpa using c), fun a c => ?_,
    fun a c => ?_, fun k m hk => ?_⟩
  · rcases List.mem_append.1 c with c | c
    · exact h2.opened a c
    · simp at c
      subst c
      exact ⟨by omega, fun m hm => by have := h.pair m hm; omega⟩
  · rw [List.flatMap_append]
    rcases List.mem_append.1 c with c | c
    · rw [h2.own a c]; simp [ownHand]
    · simp at c
      subst c
      rw [marks_newAxes, marks_none w _ le_rfl, hand_none h.typed le_rfl]
      simp [ownHand]
  · rw [List.flatMap_append, h2.shown k m hk]; simp [Spec.onMap]

theorem draw_marks (sort : List City → List City) (edges : City → Box) (ax : Box) (dots : Bool) (t t' : Table) (marks : List Mark)
    (h : drawCities sort edges ax dots t = .ok (t', marks)) : marks = cityMarks dots t' := by
  unfold drawCities at h
  cases hg : limitByGrid sort t 2 2 15 with
  | error e => rw [hg] at h; cases h
  | ok t1 =>
    rw [hg] at h
    simp only [bind, Except.bind] at h
    have last : ∀ t2 : Table, (mk t2).bind (fun t3 => .ok (t3, drawRows dots t2.rows)) = .ok (t', marks) → marks = cityMarks dots t' := by
      intro t2 h
      unfold mk at h
      split at h
      · cases h
      · simp only [Except.bind, Except.ok.injEq, Prod.mk.injEq] at h
        obtain ⟨rfl, rfl⟩ := h
        exact cityMarks_eq _ _
    split at h
    · exact last t1 h
    · generalize mk ⟨t1.columns ++ ["top", "bottom", "left", "right"], (limitByMapCollision sort edges ax t1.rows).map Prod.fst⟩ = r at h
      cases r with
      | error e => cases h
      | ok t2 => exact last t2 h

theorem kept_step (L : Library) {w : World} {es : List Event} (h : Kept w es) (c : Call) : Kept (step L w c).1 (es ++ [(step L w c).2]) := by
  cases c with
  | figure => exact kept_opened h
  | sca a =>
    dsimp only [step]; split
    · exact kept_silent (kept_current h _) trivial
    · exact kept_silent h trivial
  | text a x =>
    dsimp only [step]; split
    · exact kept_text h ‹_› x
    · exact kept_silent h trivial
  | new t b =>
    dsimp only [step, MapWorld.newMap]
    split
    · exact kept_silent h trivial
    · split
      · exact kept_silent (kept_newAxes h) trivial
      · split
        · exact kept_silent (kept_newAxes (kept_newAxes h)) trivial
        · exact kept_made h _ _ _
  | draw k font dots =>
    dsimp only [step]
    split
    · exact kept_silent h trivial
    · rename_i m hk
      dsimp only [draw]
      split
      · exact kept_silent (kept_current h _) trivial
      · split
        · exact kept_silent (kept_current h _) trivial
        · rename_i t1 _ _ t marks hd
          obtain rfl := draw_marks _ _ _ _ _ _ _ hd
          have h1 := kept_hidden (kept_current h (some m.hidden)) (k := k) hk ((L.sort t1.rows).map trial)
          exact kept_drawn (kept_current h1 (some m.ax)) (k := k) hk dots t
  | axesClone k =>
    dsimp only [step]
    split
    · exact kept_silent h trivial
    · exact kept_silent h (by unfold axesClone; rw [if_neg (by decide)]; trivial)
  | fonts k =>
    dsimp only [step]
    split <;> exact kept_silent h trivial

theorem kept_run (L : Library) (calls : List Call) : ∀ {w : World} {es : List Event}, Kept w es → Kept (run L w calls).1 (es ++ (run L w calls).2) := by
  induction calls with
  | nil => intro w es h; simpa [run] using h
  | cons c cs ih =>
    intro w es h
    have := ih (kept_step L h c)
    simpa [run] using this

/-! ### The property -/

/-- **C196**. In every program, with any number of maps and of other figures and with exceptions in between, each map has a visible and a hidden figure of its own; on
its axes there are exactly the labels and dots of the cities that its own `drawCities` calls returned, and what the caller put there, in order; and on the caller's
own axes there is exactly what the caller put there. -/
theorem C196_own (L : Library) (calls : List Call) (w : World) (es : List Event) (h : run L World.start calls = (w, es)) :
    OwnFigures w (w.maps.map MapObj.ax ++ w.maps.map MapObj.hidden) ∧
    (∀ k m, w.maps[k]? = some m → World.marks w m.ax = es.flatMap (Spec.onMap k m.ax)) ∧
    (∀ a, Event.opened a ∈ es → World.marks w a = es.flatMap (ownHand a) ∧ a ∉ w.maps.map MapObj.ax ∧ a ∉ w.maps.map MapObj.hidden) := by
  have hk := kept_run L calls kept_start
  rw [h, List.nil_append] at hk
  simp only at hk
  have hlt : ∀ a ∈ w.maps.map MapObj.ax ++ w.maps.map MapObj.hidden, a < w.axes.length := by
    intro a ha
    rcases List.mem_append.1 ha with ha | ha <;> obtain ⟨m, hm, rfl⟩ := List.mem_map.1 ha <;> have := hk.pair m hm <;> omega
  have fig : ∀ a ∈ w.maps.map MapObj.ax ++ w.maps.map MapObj.hidden, World.figureOf w a = some a := by
    intro a ha
    unfold World.figureOf
    rw [hk.numbered a, if_pos (hlt a ha)]
  refine ⟨⟨fun a ha => by rw [fig a ha]; rfl, ?_⟩, hk.shown, fun a ha => ⟨hk.own a ha, ?_, ?_⟩⟩
  · have e : (w.maps.map MapObj.ax ++ w.maps.map MapObj.hidden).map (World.figureOf w) = (w.maps.map MapObj.ax ++ w.maps.map MapObj.hidden).map some :=
      List.map_congr_left fig
    rw [e, List.nodup_map_iff (Option.some_injective _), List.nodup_append]
    have inj : ∀ (f : MapObj → ℕ), (∀ (i j : ℕ) (m n : MapObj), w.maps[i]? = some m → w.maps[j]? = some n → i ≠ j → f m ≠ f n) → (w.maps.map f).Nodup := by
      intro f hf
      rw [List.Nodup, List.pairwise_map, List.pairwise_iff_getElem]
      intro i j hi hj hij
      exact hf i j _ _ (List.getElem?_eq_getElem hi) (List.getElem?_eq_getElem hj) (by omega)
    refine ⟨inj _ fun i j m n hi hj hne => (ax_apart hk hi hj hne).1, inj _ fun i j m n hi hj hne => (ax_apart hk hi hj hne).2.2.2, ?_⟩
    intro a ha b hb
    obtain ⟨m, hm, rfl⟩ := List.mem_map.1 ha
    obtain ⟨n, hn, rfl⟩ := List.mem_map.1 hb
    obtain ⟨i, hi⟩ := List.mem_iff_getElem?.1 hm
    obtain ⟨j, hj⟩ := List.mem_iff_getElem?.1 hn
    by_cases c : i = j
    · subst c; rw [hi] at hj; obtain rfl := Option.some.inj hj
      have := hk.pair m hm; omega
    · exact (ax_apart hk hi hj c).2.1
  · intro c
    obtain ⟨m, hm, e⟩ := List.mem_map.1 c
    exact ((hk.opened a ha).2 m hm).1 e.symm
  · intro c
    obtain ⟨m, hm, e⟩ := List.mem_map.1 c
    exact ((hk.opened a ha).2 m hm).2 e.symm

/-- **C196**. A map that was made, or whose cities were drawn, has the current axes, so that the caller's next plot goes onto it. -/
theorem C196_current_partial (L : Library) (w w' : World) (c : Call) (k : ℕ)
    (h : step L w c = (w', .made k) ∨ ∃ dots t, step L w c = (w', .drawn k dots t)) : ∃ m, w'.maps[k]? = some m ∧ w'.current = some m.ax := by
  cases c with
  | figure => simp [step] at h
  | sca a => dsimp only [step] at h; split at h <;> simp at h
  | text a x => dsimp only [step] at h; split at h <;> simp at h
  | new t b =>
    dsimp only [step, MapWorld.newMap] at h
    split at h
    · simp at h
    · rename_i cities _
      split at h
      · simp at h
      · split at h
        · simp at h
        · simp only [Prod.mk.injEq, Event.made.injEq, reduceCtorEq, and_false, exists_false, or_false] at h
          obtain ⟨rfl, rfl⟩ := h
          exact ⟨⟨cities, b, w.axes.length, w.axes.length + 1⟩, by simp [World.newAxes], rfl⟩
  | draw j font dots =>
    dsimp only [step] at h
    split at h
    · simp at h
    · rename_i m hm
      dsimp only [draw] at h
      split at h
      · simp at h
      · split at h
        · simp at h
        · simp only [Prod.mk.injEq, reduceCtorEq, and_false, false_or, Event.drawn.injEq] at h
          obtain ⟨d, t, rfl, rfl, _, rfl⟩ := h
          have hlt := (List.getElem?_eq_some_iff.1 hm).1
          exact ⟨_, List.getElem?_set_self hlt, rfl⟩
  | axesClone j =>
    dsimp only [step] at h
    split at h
    · simp at h
    · unfold axesClone at h; rw [if_neg (by decide)] at h; simp at h
  | fonts j => dsimp only [step] at h; split at h <;> simp at h

theorem bounds_ok (t : Table) (h : HasColumns t) (b : Bounds) : ∃ rows, Collision.newMap t b.xmin b.xmax b.ymin b.ymax = .ok ⟨t.columns, rows⟩ :=
  ⟨_, (C21_constructor (⟨t.columns, _⟩ : Table)).1 h⟩

theorem new_ok (L : Library) (w : World) (t : Table) (h : HasColumns t) (b : Bounds) (hg : L.geo (centralLongitude b.xmin b.xmax) b = true) : ∃ rows,
    step L w (.new t b) = ({ w.newAxes.newAxes with current := some w.axes.length, maps := w.maps ++ [⟨⟨t.columns, rows⟩, b, w.axes.length, w.axes.length + 1⟩] }, .made w.maps.length) := by
  obtain ⟨rows, hr⟩ := bounds_ok t h b
  exact ⟨rows, by simp [step, MapWorld.newMap, hr, hg, World.newAxes]⟩

/-- **C196 fails after an exception**: if the table has no populations, `drawCities` raises KeyError and leaves the hidden axes as the current ones, so that what the
caller plots next is never seen. -/
theorem C196_failure_violated (L : Library) (t : Table) (h : HasColumns t) (hp : "pop" ∉ t.columns) (b : Bounds) (hg : L.geo (centralLongitude b.xmin b.xmax) b = true)
    (font : String) (dots : Bool) : ∃ w m, run L World.start [.new t b, .draw 0 font dots] = (w, [.made 0, .keyError]) ∧ w.maps[0]? = some m ∧
      w.current = some m.hidden ∧ m.hidden ≠ m.ax := by
  obtain ⟨rows, hs⟩ := new_ok L World.start t h b hg
  have hd : limitByGrid L.sort ⟨t.columns, rows⟩ 2 2 15 = .error .keyError := C23_keyError L.sort ⟨t.columns, rows⟩ 2 2 15 hp
  refine ⟨_, ⟨⟨t.columns, rows⟩, b, 0, 1⟩, by simp only [run, hs]; simp [step, World.newAxes, World.start, draw, hd]; rfl, by simp, rfl, by simp⟩

/-- **C196 fails for extents that cannot be set in geographic coordinates**: the second try with projected coordinates never helps, for the same call on the hidden
axes fails; two figures stay open, and there is no map. -/
theorem C196_extent_violated (L : Library) (t : Table) (h : HasColumns t) (b : Bounds) (hg : L.geo (centralLongitude b.xmin b.xmax) b = false)
    (hp : L.projected (centralLongitude b.xmin b.xmax) b = true) : ∃ w, run L World.start [.new t b] = (w, [.extentError]) ∧ w.maps = [] ∧ w.figures = 2 := by
  obtain ⟨rows, hr⟩ := bounds_ok t h b
  exact ⟨_, by simp only [run, step, MapWorld.newMap, hr, hg, hp]; rfl, rfl, rfl⟩

/-- **C196 fails for fonts that are not there**: KeyError is documented, but the cities are drawn whatever the name of the font. -/
theorem C196_font_violated (L : Library) (hs : SortsDown City.pop L.sort) (t : Table) (h : HasColumns t) (hp : "pop" ∈ t.columns) (b : Bounds)
    (hg : L.geo (centralLongitude b.xmin b.xmax) b = true) (font : String) (_hf : font ∉ L.installed) (dots : Bool) :
    ∃ w t', run L World.start [.new t b, .draw 0 font dots] = (w, [.made 0, .drawn 0 dots t']) := by
  obtain ⟨rows, hn⟩ := new_ok L World.start t h b hg
  obtain ⟨t', pool, h1, _, _, h4, _⟩ := draw_spec hs (L.edges (centralLongitude b.xmin b.xmax) b font) (L.extent (centralLongitude b.xmin b.xmax) b) dots ⟨t.columns, rows⟩ h hp
  refine ⟨_, t', by simp only [run, hn]; simp [step, World.newAxes, World.start, draw, h4, h1]; rfl⟩

/-- **C196 fails for the hidden axes**: `getAxesClone` raises AttributeError for every map. -/
theorem C196_clone_violated (L : Library) (w : World) (k : ℕ) (m : MapObj) (h : w.maps[k]? = some m) : step L w (.axesClone k) = (w, .attributeError) := by
  simp only [step, h, axesClone]
  rw [if_neg (by decide)]

/-- **C196**. `getFonts` returns the names of the installed fonts, each as often as it is installed, in order. -/
theorem C196_fonts (L : Library) (w : World) (k : ℕ) (m : MapObj) (h : w.maps[k]? = some m) : ∃ l, step L w (.fonts k) = (w, .fontList l) ∧ l.Perm L.installed ∧
    l.Pairwise (· ≤ ·) := by
  refine ⟨fontList L, by simp only [step, h], List.mergeSort_perm _ _, ?_⟩
  have := List.pairwise_mergeSort (le := fun a b : String => decide (a ≤ b)) (fun a b c h1 h2 => by simpa using String.le_trans (by simpa using h1) (by simpa using h2))
    (fun a b => by simpa using String.le_total a b) L.installed
  exact this.imp fun h => by simpa using h

/-- A program with two maps, a figure of the caller's and text on it: the hypotheses of `C196_own` and what it says. -/
example : ∃ w es, run ⟨fun _ _ => true, fun _ _ => true, fun l => l.insertionSort fun a b => b.pop ≤ a.pop, fun _ _ _ c => ⟨c.lon, c.lon + 1, c.lat, c.lat + 1⟩, fun _ _ => ⟨-180, 180, -90, 90⟩, []⟩
      World.start [.new ⟨["name", "lat", "lon", "pop"], [⟨"A", 1, 1, 5⟩, ⟨"B", 5, 5, 9⟩, ⟨"C", 3, 8, 7⟩]⟩ ⟨0, 10, 0, 10⟩, .figure, .text 2 (.dot 1 1),
        .new ⟨["name", "lat", "lon", "pop"], []⟩ ⟨0, 10, 0, 10⟩, .draw 0 "Arial" true] = (w, es) ∧ w.maps.length = 2 ∧ (World.marks w 0).length = 4 ∧
      World.marks w 2 = [.dot 1 1] ∧ World.marks w 3 = [] ∧ w.current = some 0 :=
  ⟨_, _, rfl, by decide +kernel, by decide +kernel, by decide +kernel, by decide +kernel, by decide +kernel⟩

end Verif.Props
