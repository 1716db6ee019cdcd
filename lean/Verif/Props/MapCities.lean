import Verif.Spec.MapCities
import Verif.Props.CityTables

/-!
# C202: city tables with fonts
-/

namespace Verif.Props
open Verif.Csv Verif.CityHeap Verif.FontCities Verif.Spec

variable {V : Type}

theorem sorted_perm (l : List Csv.Text) : (sorted l).Perm l := List.mergeSort_perm l _

theorem sorted_pairwise (l : List Csv.Text) : (sorted l).Pairwise (· ≤ ·) := by
  have := List.pairwise_mergeSort (le := fun a b : Csv.Text => decide (a ≤ b)) (fun a b c h1 h2 => by simp only [decide_eq_true_eq] at *; exact le_trans h1 h2)
    (fun a b => by simp only [Bool.or_eq_true, decide_eq_true_eq]; exact le_total a b) l
  exact this.imp (by simp)

/-- The value of an object. -/
def fontValue (w : World V) (o : Object V) : Frame V × Option (List Csv.Text) := (o.table, o.fonts.map fun a => w.lists.getD a [])

/-- The world and the values say the same. -/
structure SameFonts (w : World V) (s : FontValues V) : Prop where
  manager : s.manager = w.manager
  objs : s.objs = w.objs.map (fontValue w)
  held : s.held = w.held.map fun a => w.lists.getD a []
  bound : ∀ o ∈ w.objs, ∀ a, o.fonts = some a → a < w.lists.length
  heldBound : ∀ a ∈ w.held, a < w.lists.length

theorem getD_append_lt {α : Type} (l : List α) (x d : α) {a : ℕ} (h : a < l.length) : (l ++ [x]).getD a d = l.getD a d := by
  simp [List.getD_eq_getElem?_getD, List.getElem?_append_left h]

theorem same_new {w : World V} {s : FontValues V} (h : SameFonts w s) (b : Bool) (g : Frame V) :
    SameFonts (w.new b g) { s with objs := s.objs ++ [(g, if b then some (sorted w.manager) else none)] } := by
  cases b with
  | false =>
    refine ⟨h.manager, ?_, h.held, ?_, h.heldBound⟩
    · simp [World.new, fontValue, h.objs]
    · intro o ho a ha
      simp only [World.new, Bool.false_eq_true, if_false, List.mem_append, List.mem_singleton] at ho
      rcases ho with ho | rfl
      · exact h.bound o ho a ha
      · cases ha
  | true =>
    refine ⟨h.manager, ?_, ?_, ?_, ?_⟩
    · simp only [World.new, if_true, List.map_append, List.map_cons, List.map_nil, h.objs]
      congr 1
      · apply List.map_congr_left
        intro o ho
        unfold fontValue
        cases ho' : o.fonts with
        | none => rfl
        | some a => simp [List.getElem?_append_left (h.bound o ho a ho')]
      · simp [fontValue]
    · simp only [World.new, if_true, h.held]
      apply List.map_congr_left
      intro a ha
      exact (getD_append_lt _ _ _ (h.heldBound a ha)).symm
    · intro o ho a ha
      simp only [World.new, if_true, List.mem_append, List.mem_singleton, List.length_append, List.length_singleton] at *
      rcases ho with ho | rfl
      · have := h.bound o ho a ha; omega
      · simp at ha; omega
    · intro a ha
      simp only [World.new, if_true, List.length_append, List.length_singleton] at *
      have := h.heldBound a ha
      omega

theorem same_obj {w : World V} {s : FontValues V} (h : SameFonts w s) (i : ℕ) : s.objs[i]? = (w.objs[i]?).map (fontValue w) := by
  rw [h.objs, List.getElem?_map]

theorem same_held {w : World V} {s : FontValues V} (h : SameFonts w s) (k : ℕ) : s.held[k]? = (w.held[k]?).map fun a => w.lists.getD a [] := by
  rw [h.held, List.getElem?_map]

theorem same_step (c : Cells V) {w : World V} {s : FontValues V} (h : SameFonts w s) (op : FontCities.Op V) (hop : ∀ k l, op ≠ .edit k l) :
    ∃ s', FontStep c s op s' (FontCities.step c w op).2 ∧ SameFonts (FontCities.step c w op).1 s' := by
  have hp : (sorted w.manager).Perm s.manager := by rw [h.manager]; exact sorted_perm _
  have hs := sorted_pairwise w.manager
  cases op with
  | addFont n => exact ⟨_, .addFont s n, ⟨by simp [FontCities.step, h.manager], h.objs, h.held, h.bound, h.heldBound⟩⟩
  | cities f =>
    dsimp only [FontCities.step, World.construct]
    cases e : CityHeap.construct f with
    | ok g => exact ⟨_, .cities s f g e, same_new h false g⟩
    | error x => exact ⟨_, .citiesFault s f x e, h⟩
  | mapCities f =>
    dsimp only [FontCities.step, World.construct]
    cases e : CityHeap.construct f with
    | ok g => exact ⟨_, .mapCities s f g _ e hp hs, same_new h true g⟩
    | error x => exact ⟨_, .mapFault s f x e, h⟩
  | limit i q =>
    have hi := same_obj h i
    dsimp only [FontCities.step]
    cases e : w.objs[i]? with
    | none => rw [e] at hi; exact ⟨_, .limitUnbound s i q hi, h⟩
    | some o =>
      rw [e] at hi
      obtain ⟨t, fo⟩ := o
      dsimp only
      cases el : limited c q t with
      | error x => exact ⟨_, .limitFault s i q t _ x hi el, h⟩
      | ok g =>
        cases fo with
        | none => exact ⟨_, .limit s i q t g hi el, same_new h false g⟩
        | some a => exact ⟨_, .limitMap s i q t g _ _ hi el hp hs, same_new h true g⟩
  | collision i =>
    have hi := same_obj h i
    dsimp only [FontCities.step]
    cases e : w.objs[i]? with
    | none => rw [e] at hi; exact ⟨_, .collisionUnbound s i hi, h⟩
    | some o =>
      rw [e] at hi
      obtain ⟨t, fo⟩ := o
      cases fo with
      | none => exact ⟨_, .noCollision s i t hi, h⟩
      | some a => exact ⟨_, .collision s i t _ hi, h⟩
  | fontList i =>
    have hi := same_obj h i
    dsimp only [FontCities.step]
    cases e : w.objs[i]? with
    | none => rw [e] at hi; exact ⟨_, .fontUnbound s i hi, h⟩
    | some o =>
      rw [e] at hi
      have hb := h.bound o (List.mem_of_getElem? e)
      obtain ⟨t, fo⟩ := o
      cases fo with
      | none => exact ⟨_, .noFonts s i t hi, h⟩
      | some a =>
        refine ⟨_, .fontList s i t _ hi, ⟨h.manager, h.objs, by simp [h.held], h.bound, ?_⟩⟩
        intro x hx
        rcases List.mem_append.1 hx with hx | hx
        · exact h.heldBound x hx
        · rw [List.mem_singleton.1 hx]; exact hb a rfl
  | edit k l => exact absurd rfl (hop k l)
  | lookFonts k =>
    have hk := same_held h k
    dsimp only [FontCities.step]
    cases e : w.held[k]? with
    | none => rw [e] at hk; exact ⟨_, .fontsUnbound s k hk, h⟩
    | some a => rw [e] at hk; exact ⟨_, .lookFonts s k _ hk, h⟩
  | look i =>
    have hi := same_obj h i
    dsimp only [FontCities.step]
    cases e : w.objs[i]? with
    | none => rw [e] at hi; exact ⟨_, .lookUnbound s i hi, h⟩
    | some o => rw [e] at hi; exact ⟨_, .look s i o.table _ hi, h⟩

theorem same_run (c : Cells V) : ∀ (ops : List (FontCities.Op V)) {w : World V} {s : FontValues V}, SameFonts w s → NoEdits ops → FontRun c s ops (FontCities.run c w ops)
  | [], _, s, _, _ => .nil s
  | op :: ops, w, s, h, hn => by
    obtain ⟨s', h1, h2⟩ := same_step c h op (fun k l e => hn k l (by simp [e]))
    exact .cons h1 (same_run c ops h2 fun k l hm => hn k l (List.mem_cons_of_mem _ hm))

/-- C202: a program that changes no list of fonts sees what it would see if objects were values: smaller tables of the class they were made from, and for each `MapCities` the fonts known when
it was made, each as often as it is known, in order, however many fonts are added later. -/
theorem C202_fonts_partial (c : Cells V) (manager : List Csv.Text) (ops : List (FontCities.Op V)) (hn : NoEdits ops) :
    FontRun c ⟨manager, [], []⟩ ops (FontCities.run c ⟨manager, [], [], []⟩ ops) :=
  same_run c ops ⟨rfl, rfl, rfl, by simp, by simp⟩ hn

/-! ### Lists of fonts that are changed -/

/-- Every `MapCities` has a list of its own. -/
structure OwnLists (w : World V) : Prop where
  bound : ∀ o ∈ w.objs, ∀ a, o.fonts = some a → a < w.lists.length
  own : w.objs.Pairwise fun o p => ∀ a, o.fonts = some a → p.fonts ≠ some a

theorem own_new {w : World V} (h : OwnLists w) (b : Bool) (g : Frame V) : OwnLists (w.new b g) := by
  cases b with
  | false =>
    refine ⟨?_, ?_⟩
    · intro o ho a ha
      simp only [World.new, Bool.false_eq_true, if_false, List.mem_append, List.mem_singleton] at ho
      rcases ho with ho | rfl
      · exact h.bound o ho a ha
      · cases ha
    · simp only [World.new, Bool.false_eq_true, if_false, List.pairwise_append, List.mem_singleton]
      exact ⟨h.own, List.pairwise_singleton _ _, by rintro o _ p rfl a _ hc; cases hc⟩
  | true =>
    refine ⟨?_, ?_⟩
    · intro o ho a ha
      simp only [World.new, if_true, List.mem_append, List.mem_singleton, List.length_append, List.length_singleton] at *
      rcases ho with ho | rfl
      · have := h.bound o ho a ha; omega
      · simp at ha; omega
    · simp only [World.new, if_true, List.pairwise_append, List.mem_singleton]
      refine ⟨h.own, List.pairwise_singleton _ _, ?_⟩
      rintro o ho p rfl a ha hc
      have := h.bound o ho a ha
      simp at hc
      omega

theorem own_step (c : Cells V) {w : World V} (h : OwnLists w) (op : FontCities.Op V) : OwnLists (FontCities.step c w op).1 := by
  have same : ∀ {w' : World V}, w'.objs = w.objs → w'.lists.length = w.lists.length → OwnLists w' := by
    intro w' h1 h2
    exact ⟨by rw [h1, h2]; exact h.bound, by rw [h1]; exact h.own⟩
  cases op with
  | addFont n => exact same rfl rfl
  | cities f =>
    dsimp only [FontCities.step, World.construct]
    split
    · exact own_new h false _
    · exact h
  | mapCities f =>
    dsimp only [FontCities.step, World.construct]
    split
    · exact own_new h true _
    · exact h
  | limit i q =>
    dsimp only [FontCities.step]
    split
    · split
      · exact own_new h _ _
      · exact h
    · exact h
  | collision i =>
    dsimp only [FontCities.step]
    split <;> exact h
  | fontList i =>
    dsimp only [FontCities.step]
    split
    · split
      · exact same rfl rfl
      · exact h
    · exact h
  | edit k l =>
    dsimp only [FontCities.step]
    split
    · exact same rfl (by simp)
    · exact h
  | lookFonts k =>
    dsimp only [FontCities.step]
    split <;> exact h
  | look i =>
    dsimp only [FontCities.step]
    split <;> exact h

theorem own_after (c : Cells V) : ∀ (ops : List (FontCities.Op V)) {w : World V}, OwnLists w → OwnLists (after c w ops)
  | [], _, h => h
  | op :: ops, _, h => own_after c ops (own_step c h op)

/-- C202: whatever a program did before, changing the list of one object changes the list of no other object. -/
theorem C202_others (c : Cells V) (manager : List Csv.Text) (ops : List (FontCities.Op V)) (i j : ℕ) (hij : i ≠ j) (l m : List Csv.Text) (n : ℕ)
    (hn : n = (after c ⟨manager, [], [], []⟩ ops).held.length)
    (hi : ∃ f a, (after c ⟨manager, [], [], []⟩ ops).objs[i]? = some ⟨f, some a⟩)
    (hj : FontCities.run c (after c ⟨manager, [], [], []⟩ ops) [.fontList j, .lookFonts n] = [.done, .fonts m]) :
    FontCities.run c (after c ⟨manager, [], [], []⟩ ops) [.fontList i, .edit n l, .fontList j, .lookFonts (n + 1)] = [.done, .done, .done, .fonts m] := by
  have own : OwnLists (after c (⟨manager, [], [], []⟩ : World V) ops) := own_after c ops ⟨by simp, by simp⟩
  generalize after c (⟨manager, [], [], []⟩ : World V) ops = w at *
  obtain ⟨f, a, hi⟩ := hi
  subst hn
  cases ej : w.objs[j]? with
  | none => simp [FontCities.run, FontCities.step, ej] at hj
  | some p =>
    obtain ⟨g, fo⟩ := p
    cases fo with
    | none => simp [FontCities.run, FontCities.step, ej] at hj
    | some b =>
      have hab : a ≠ b := by
        intro e
        subst e
        have hpi := List.getElem?_eq_some_iff.1 hi
        have hpj := List.getElem?_eq_some_iff.1 ej
        obtain ⟨li, ei⟩ := hpi
        obtain ⟨lj, ej'⟩ := hpj
        rcases Nat.lt_or_gt_of_ne hij with hlt | hlt
        · exact List.pairwise_iff_getElem.1 own.own i j li lj hlt a (by rw [ei]) (by rw [ej'])
        · exact List.pairwise_iff_getElem.1 own.own j i lj li hlt a (by rw [ej']) (by rw [ei])
      simp [FontCities.run, FontCities.step, ej] at hj
      simp [FontCities.run, FontCities.step, hi, ej, hab, hj]

/-- C202 violated: the list that `getFontList` returns is that of the object, so that changing it changes what the next call returns. -/
theorem C202_own_violated (c : Cells ℚ) : FontCities.run c ⟨["Arial".toList, "Tahoma".toList], [], [], []⟩
    [.mapCities twoCities, .fontList 0, .edit 0 [], .fontList 0, .lookFonts 1] = [.done, .done, .done, .done, .fonts []] := rfl

/-- C202 violated: `limitByMapCollision`, which is to remove the cities whose labels collide with those of larger ones, raises NotImplementedError for every table. -/
theorem C202_collision_violated (c : Cells V) (manager : List Csv.Text) (f : Frame V) (hf : GoodTable f) :
    FontCities.run c ⟨manager, [], [], []⟩ [.mapCities f, .collision 0] = [.done, .notImplemented] := by
  simp [FontCities.run, FontCities.step, World.construct, construct_good hf, World.new]

/-- Two objects of one program, the second made from the first, and a font that only the second one knows. -/
example : FontCities.run numberCells ⟨["Tahoma".toList, "Arial".toList], [], [], []⟩
    [.mapCities twoCities, .addFont "Courier".toList, .limit 0 (.population 1000 0), .fontList 0, .fontList 1, .lookFonts 0, .lookFonts 1] =
      [.done, .done, .done, .done, .done, .fonts ["Arial".toList, "Tahoma".toList], .fonts ["Arial".toList, "Courier".toList, "Tahoma".toList]] := by
  have h1 : sorted ["Tahoma".toList, "Arial".toList] = ["Arial".toList, "Tahoma".toList] :=
    (List.Perm.eq_of_pairwise (fun _ _ _ _ => le_antisymm) (sorted_pairwise _) (by decide +kernel) ((sorted_perm _).trans (by decide +kernel)))
  have h2 : sorted ["Tahoma".toList, "Arial".toList, "Courier".toList] = ["Arial".toList, "Courier".toList, "Tahoma".toList] :=
    (List.Perm.eq_of_pairwise (fun _ _ _ _ => le_antisymm) (sorted_pairwise _) (by decide +kernel) ((sorted_perm _).trans (by decide +kernel)))
  rw [← h1, ← h2]
  rfl

end Verif.Props
