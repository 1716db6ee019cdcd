import Verif.Model.PaletteFile
import Verif.Spec.PaletteText
import Verif.Props.CityFile
import Verif.Props.Palette

/-!
# C163: colour palettes from files
-/

namespace Verif.Props
open Verif Verif.Colors Verif.Spec
open Verif.Factory (strip splitWords)

/-! ### Words -/

theorem spread_words {ws : List (List Char)} {s : List Char} (h : Spread ws s) : splitWords [] s = ws := by
  induction h with
  | nil g =>
    have := splitWords_gap g []
    rw [List.append_nil] at this
    rw [this]; rfl
  | @last w a w' g ha g' =>
    rw [List.append_assoc, splitWords_gap g, splitWords_word ha.2, List.append_nil, splitWords_last g' (by simpa using ha.1),
      List.reverse_reverse]
  | @cons w a ws rest g ha hws hs hr ih =>
    rw [List.append_assoc, splitWords_gap g, splitWords_word ha.2, List.append_nil]
    cases rest with
    | nil => exact absurd (by rw [← ih]; rfl) hws
    | cons c rest =>
      have hc : White c := hr c rfl
      have g1 : Gap [c] := by intro x hx; rw [List.mem_singleton.1 hx]; exact hc
      have e := splitWords_end g1 (by simp) (cur := a.reverse) (by simpa using ha.1) rest
      have e' := splitWords_gap g1 rest
      rw [List.singleton_append] at e e'
      rw [e, List.reverse_reverse, ← e', ih]

theorem spread_head {ws : List (List Char)} {s : List Char} (h : Spread ws s) (hne : ws ≠ []) (hh : ∀ w ∈ ws, '#' ∉ w) :
    ∃ w c r, Gap w ∧ ¬ White c ∧ c ≠ '#' ∧ s = w ++ c :: r := by
  have key : ∀ (w a r : List Char) , Gap w → Word a → '#' ∉ a → ∃ w' c r', Gap w' ∧ ¬ White c ∧ c ≠ '#' ∧ w ++ a ++ r = w' ++ c :: r' := by
    intro w a r g ha hn
    cases a with
    | nil => exact absurd rfl ha.1
    | cons c a => exact ⟨w, c, a ++ r, g, ha.2 c (by simp), fun e => hn (by simp [e]), by simp⟩
  cases h with
  | nil => exact absurd rfl hne
  | last g ha g' => exact key _ _ _ g ha (hh _ (by simp))
  | cons g ha hws hs hr => exact key _ _ _ g ha (hh _ (by simp))

theorem gap_no_hash {w : List Char} (g : Gap w) : '#' ∉ w := fun h => absurd (g _ h) (by decide)

theorem spread_no_hash {ws : List (List Char)} {s : List Char} (h : Spread ws s) (hh : ∀ w ∈ ws, '#' ∉ w) : '#' ∉ s := by
  induction h with
  | nil g => exact gap_no_hash g
  | last g ha g' =>
    simp only [List.mem_append, not_or]
    exact ⟨⟨gap_no_hash g, hh _ (by simp)⟩, gap_no_hash g'⟩
  | cons g ha hws hs hr ih =>
    simp only [List.mem_append, not_or]
    exact ⟨⟨gap_no_hash g, hh _ (by simp)⟩, ih fun w hw => hh w (by simp [hw])⟩

theorem takeWhile_hash {s : List Char} (h : '#' ∉ s) (r : List Char) : (s ++ '#' :: r).takeWhile (· ≠ '#') = s := by
  rw [List.takeWhile_append_of_pos]
  · simp
  · intro c hc
    have : c ≠ '#' := fun e => h (e ▸ hc)
    simpa using this

theorem takeWhile_all {s : List Char} (h : '#' ∉ s) : s.takeWhile (· ≠ '#') = s := by
  have := List.takeWhile_append_of_pos (p := (· ≠ '#')) (l₁ := s) (l₂ := []) (by
    intro c hc
    have : c ≠ '#' := fun e => h (e ▸ hc)
    simpa using this)
  simpa using this

/-- The words of a line that is read as part of the table. -/
def itemWords : PaletteItem → List (List Char)
  | .words ws => ws
  | _ => []

theorem line_words {int : List Char → Option ℤ} {num : List Char → Option ℚ} {l : List Char} {o : PaletteItem}
    (h : PaletteLine int num l o) : splitWords [] (l.takeWhile (· ≠ '#')) = itemWords o := by
  have key : ∀ (w r : List Char), Gap w → splitWords [] ((w ++ '#' :: r).takeWhile (· ≠ '#')) = [] := by
    intro w r g
    rw [takeWhile_hash (gap_no_hash g)]
    exact spread_words (.nil g)
  cases h with
  | nothing g => rw [takeWhile_all (gap_no_hash g)]; exact spread_words (.nil g)
  | comment g _ => exact key _ _ g
  | nanColor g => simpa [itemWords] using key _ _ g
  | name g => simpa [itemWords] using key _ _ g
  | resolution g => simpa [itemWords] using key _ _ g
  | words hne hs hh ht =>
    rcases ht with rfl | ⟨r, rfl⟩
    · rw [List.append_nil, takeWhile_all (spread_no_hash hs hh)]; exact spread_words hs
    · rw [takeWhile_hash (spread_no_hash hs hh)]; exact spread_words hs

theorem wordRows_items {int : List Char → Option ℤ} {num : List Char → Option ℚ} {lines : List (List Char)} {items : List PaletteItem}
    (h : List.Forall₂ (PaletteLine int num) lines items) : wordRows lines = tableRows items := by
  induction h with
  | nil => rfl
  | @cons l o ls os h1 h2 ih =>
    have e := line_words h1
    have : wordRows (l :: ls) = if (itemWords o).isEmpty then wordRows ls else itemWords o :: wordRows ls := by
      unfold wordRows
      rw [List.map_cons, e, List.filter_cons]
      cases (itemWords o).isEmpty <;> rfl
    rw [this, ih]
    cases h1 with
    | words hne => 
      rw [if_neg (by simpa [itemWords] using hne)]; rfl
    | _ => rfl

/-! ### Settings -/

/-- What a line changes. -/
def applyItem (s : Settings) : PaletteItem → Settings
  | .nanColor c => { s with nanColor := c }
  | .name n => { s with name := n }
  | .resolution r => { s with resolution := some r }
  | _ => s

theorem strip_front {w t : List Char} (g : Gap w) : strip (w ++ t) = strip t := by
  obtain ⟨a, b, ga, gb, e, t1, t2⟩ := strip_trims t
  refine trims_strip ⟨w ++ a, b, ?_, gb, ?_, t1, t2⟩
  · intro c hc
    rcases List.mem_append.1 hc with hc | hc
    · exact g c hc
    · exact ga c hc
  · conv_lhs => rw [e]
    simp

theorem strip_back {w t : List Char} (g : Gap w) : strip (t ++ w) = strip t := by
  obtain ⟨a, b, ga, gb, e, t1, t2⟩ := strip_trims t
  refine trims_strip ⟨a, b ++ w, ga, ?_, ?_, t1, t2⟩
  · intro c hc
    rcases List.mem_append.1 hc with hc | hc
    · exact gb c hc
    · exact g c hc
  · conv_lhs => rw [e]
    simp

/-- Trimming a text that begins and goes on with characters that are kept. -/
theorem strip_mid {c d : Char} {k t : List Char} (hc : ¬ White c) (hd : ¬ White d) :
    ∃ y w, Gap w ∧ t = y ++ w ∧ strip (c :: (k ++ d :: t)) = c :: (k ++ d :: y) ∧ ∀ x, (d :: y).getLast? = some x → ¬ White x := by
  obtain ⟨a, b, ga, gb, e, t1, t2⟩ := strip_trims (d :: t)
  have ha : a = [] := by
    cases a with
    | nil => rfl
    | cons x a =>
      have : d = x := by simpa using congrArg List.head? e
      exact absurd (ga x (by simp)) (this ▸ hd)
  subst ha
  rw [List.nil_append] at e
  cases hs : strip (d :: t) with
  | nil =>
    rw [hs, List.nil_append] at e
    exact absurd (gb d (by rw [← e]; simp)) hd
  | cons z y =>
    rw [hs] at e t2
    have hz : d = z := by simpa using congrArg List.head? e
    subst hz
    have ht : t = y ++ b := by simpa using e
    refine ⟨y, b, gb, ht, ?_, t2⟩
    refine trims_strip ⟨[], b, by intro c h; simp at h, gb, by rw [ht]; simp, ?_, ?_⟩
    · intro x hx
      have : c = x := by simpa using hx
      exact this ▸ hc
    · intro x hx
      have e2 : c :: (k ++ d :: y) = (c :: k) ++ d :: y := rfl
      rw [e2, List.getLast?_append] at hx
      cases hl : (d :: y).getLast? with
      | none => simp at hl
      | some z =>
        rw [hl] at hx t2
        have : z = x := by simpa using hx
        exact this ▸ t2 z rfl

theorem afterColon_of {k more y : List Char} (hm : ':' ∉ more) (hk : ':' ∉ k) (c d : Char) :
    afterColon (c :: d :: (k ++ more) ++ ':' :: y) = .ok ((y.splitOn ':').head (List.splitOn_ne_nil _ _)) := by
  have hn : ':' ∉ k ++ more := by simp [hk, hm]
  have e : (c :: d :: (k ++ more) ++ ':' :: y).drop 2 = (k ++ more) ++ ':' :: y := by simp
  rw [afterColon, e, List.splitOn_append_cons_self_of_not_mem hn]
  have key : ∀ (q : List (List Char)) (hne : q ≠ []), (match ((k ++ more) :: q)[1]? with
      | none => Except.error FileErr.indexError
      | some v => Except.ok v) = Except.ok (q.head hne) := by
    intro q hne
    cases q with
    | nil => exact absurd rfl hne
    | cons a as => rfl
  exact key _ _

/-- The value after the colon, trimmed. -/
theorem colon_value {k more v rest : List Char} (hk : ':' ∉ k) (hm : ':' ∉ more) (hv : ':' ∉ v)
    (hr : rest = [] ∨ ∃ r, rest = ':' :: r) :
    ∃ y u, strip ('#' :: '$' :: (k ++ more) ++ ':' :: (v ++ rest)) = '#' :: '$' :: (k ++ more) ++ ':' :: y ∧
      afterColon ('#' :: '$' :: (k ++ more) ++ ':' :: y) = .ok u ∧ strip u = strip v ∧
      ((∀ c, (':' :: (v ++ rest)).getLast? = some c → ¬ White c) → u = v) := by
  obtain ⟨y, w, gw, e, h1, h2⟩ := strip_mid (c := '#') (d := ':') (k := '$' :: (k ++ more)) (t := v ++ rest) (by decide) (by decide)
  have hcw : ':' ∉ w := fun h => absurd (gw _ h) (by decide)
  refine ⟨y, _, h1, afterColon_of hm hk '#' '$', ?_⟩
  rcases hr with rfl | ⟨r, rfl⟩
  · rw [List.append_nil] at e
    have hy : ':' ∉ y := fun h => hv (by rw [e]; simp [h])
    have e1 : y.splitOn ':' = [y] := List.splitOn_eq_singleton hy
    have hu : (y.splitOn ':').head (List.splitOn_ne_nil _ _) = y := by simp [e1]
    rw [hu]
    refine ⟨by rw [e, strip_back gw], ?_⟩
    intro hl
    rw [List.append_nil] at hl
    cases hw : w.getLast? with
    | none =>
      have : w = [] := by simpa using hw
      rw [e, this, List.append_nil]
    | some x =>
      exfalso
      have hx : White x := gw x (List.mem_of_getLast? hw)
      refine hl x ?_ hx
      have e2 : ':' :: v = (':' :: y) ++ w := by rw [e]; rfl
      rw [e2, List.getLast?_append, hw]; rfl
  · obtain ⟨r', rfl⟩ : ∃ r', y = v ++ ':' :: r' := by
      have hlen : v.length < y.length := by
        by_contra hc
        have h3 : (v ++ ':' :: r)[v.length]? = some ':' := by simp
        rw [e, List.getElem?_append_right (by omega)] at h3
        exact hcw (List.mem_of_getElem? h3)
      have h4 := congrArg (List.take (v.length + 1)) e
      rw [List.take_append_of_le_length (l₁ := y) (by omega)] at h4
      have h5 : List.take (v.length + 1) (v ++ ':' :: r) = v ++ [':'] := by
        simp [List.take_append]
      rw [h5] at h4
      refine ⟨y.drop (v.length + 1), ?_⟩
      conv_lhs => rw [← List.take_append_drop (v.length + 1) y, ← h4]
      simp
    have e1 : (v ++ ':' :: r').splitOn ':' = v :: r'.splitOn ':' := List.splitOn_append_cons_self_of_not_mem hv _
    have hu : ((v ++ ':' :: r').splitOn ':').head (List.splitOn_ne_nil _ _) = v := by simp [e1]
    rw [hu]
    exact ⟨rfl, fun _ => rfl⟩

theorem readInts_of {int : List Char → Option ℤ} {vs : List (List Char)} {cs : List ℤ}
    (h : List.Forall₂ (fun x n => int x = some n) vs cs) : readInts int vs = .ok cs := by
  induction h with
  | nil => rfl
  | cons h1 h2 ih => rw [readInts, h1]; simp only [ih]; rfl

theorem settingLine_item {int : List Char → Option ℤ} {num : List Char → Option ℚ} {l : List Char} {o : PaletteItem}
    (h : PaletteLine int num l o) (s : Settings) : settingLine int num s l = .ok (applyItem s o) := by
  cases h with
  | nothing g =>
    rw [settingLine, strip_gap g]; rfl
  | @comment w body g hk =>
    have hp : ∃ b, strip ('#' :: body) = '#' :: b ∧ b <+: body := by
      obtain ⟨a, b, ga, gb, e, t1, t2⟩ := strip_trims ('#' :: body)
      have ha : a = [] := by
        cases a with
        | nil => rfl
        | cons x a =>
          have : '#' = x := by simpa using congrArg List.head? e
          exact absurd (ga x (by simp)) (this ▸ by decide)
      subst ha
      rw [List.nil_append] at e
      cases hs : strip ('#' :: body) with
      | nil =>
        rw [hs, List.nil_append] at e
        exact absurd (gb '#' (by rw [← e]; simp)) (by decide)
      | cons z y =>
        rw [hs] at e
        have hz : '#' = z := by simpa using congrArg List.head? e
        refine ⟨y, by rw [hz], b, ?_⟩
        exact (List.cons.inj e).2.symm
    obtain ⟨b, hs, hb⟩ := hp
    have no : ∀ k ∈ ["$nan_color", "$name", "$resolution"], ('#' :: k.toList).isPrefixOf ('#' :: b) = false := by
      intro k hm
      rw [Bool.eq_false_iff]
      intro hpre
      have := List.isPrefixOf_iff_prefix.1 hpre
      rw [List.cons_prefix_cons] at this
      exact hk k hm (this.2.trans hb)
    have n1 := no "$nan_color" (by simp)
    have n2 := no "$name" (by simp)
    have n3 := no "$resolution" (by simp)
    have e1 : "#$nan_color".toList = '#' :: "$nan_color".toList := rfl
    have e2 : "#$name".toList = '#' :: "$name".toList := rfl
    have e3 : "#$resolution".toList = '#' :: "$resolution".toList := rfl
    rw [settingLine, strip_front g, hs]
    simp only [e1, e2, e3, n1, n2, n3]
    rfl
  | @nanColor w more v rest w' vs cs g g' hm hv hr hl hne hc he hvs =>
    obtain ⟨y, u, h1, h2, h3, h4⟩ := colon_value (k := "nan_color".toList) (by decide) hm hv hr
    have e : w ++ "#$nan_color".toList ++ more ++ ':' :: v ++ rest ++ w' =
        w ++ (('#' :: '$' :: ("nan_color".toList ++ more) ++ ':' :: (v ++ rest)) ++ w') := by
      simp
    have hu := h4 hl
    subst hu
    rw [settingLine, e, strip_front g, strip_back g', h1]
    have hp : "#$nan_color".toList.isPrefixOf ('#' :: '$' :: ("nan_color".toList ++ more) ++ ':' :: y) = true := by
      rw [List.isPrefixOf_iff_prefix]
      exact ⟨more ++ ':' :: y, by simp⟩
    simp only [hp, if_true]
    have hsp : u.splitOn ',' = vs := by rw [he]; exact List.splitOn_intercalate _ hc hne
    simp only [h2, bind, Except.bind, hsp, readInts_of hvs]
    rfl
  | @name w more v rest t g hm hv hr ht =>
    obtain ⟨y, u, h1, h2, h3, h4⟩ := colon_value (k := "name".toList) (by decide) hm hv hr
    have e : w ++ "#$name".toList ++ more ++ ':' :: v ++ rest =
        w ++ ('#' :: '$' :: ("name".toList ++ more) ++ ':' :: (v ++ rest)) := by
      simp
    rw [settingLine, e, strip_front g, h1]
    have hp : "#$name".toList.isPrefixOf ('#' :: '$' :: ("name".toList ++ more) ++ ':' :: y) = true := by
      rw [List.isPrefixOf_iff_prefix]
      exact ⟨more ++ ':' :: y, by simp⟩
    have hn : "#$nan_color".toList.isPrefixOf ('#' :: '$' :: ("name".toList ++ more) ++ ':' :: y) = false := rfl
    simp only [hp, hn, if_true]
    simp only [h2, bind, Except.bind, h3, trims_strip ht]
    rfl
  | @resolution w more v rest t r g hm hv hr ht hn =>
    obtain ⟨y, u, h1, h2, h3, h4⟩ := colon_value (k := "resolution".toList) (by decide) hm hv hr
    have e : w ++ "#$resolution".toList ++ more ++ ':' :: v ++ rest =
        w ++ ('#' :: '$' :: ("resolution".toList ++ more) ++ ':' :: (v ++ rest)) := by
      simp
    rw [settingLine, e, strip_front g, h1]
    have hp : "#$resolution".toList.isPrefixOf ('#' :: '$' :: ("resolution".toList ++ more) ++ ':' :: y) = true := by
      rw [List.isPrefixOf_iff_prefix]
      exact ⟨more ++ ':' :: y, by simp⟩
    have n1 : "#$nan_color".toList.isPrefixOf ('#' :: '$' :: ("resolution".toList ++ more) ++ ':' :: y) = false := rfl
    have n2 : "#$name".toList.isPrefixOf ('#' :: '$' :: ("resolution".toList ++ more) ++ ':' :: y) = false := rfl
    simp only [hp, n1, n2, if_true]
    simp only [h2, bind, Except.bind, h3, trims_strip ht, hn]
    rfl
  | @words ws sp tail hne hs hh ht =>
    obtain ⟨w, c, r, g, hc, hch, rfl⟩ := spread_head hs hne hh
    have hp : ∃ b, strip (c :: (r ++ tail)) = c :: b := by
      obtain ⟨a, b, ga, gb, e, t1, t2⟩ := strip_trims (c :: (r ++ tail))
      have ha : a = [] := by
        cases a with
        | nil => rfl
        | cons x a =>
          have : c = x := by simpa using congrArg List.head? e
          exact absurd (ga x (by simp)) (this ▸ hc)
      subst ha
      rw [List.nil_append] at e
      cases hs : strip (c :: (r ++ tail)) with
      | nil =>
        rw [hs, List.nil_append] at e
        exact absurd (gb c (by rw [← e]; simp)) hc
      | cons z y =>
        rw [hs] at e
        have hz : c = z := by simpa using congrArg List.head? e
        exact ⟨y, by rw [hz]⟩
    obtain ⟨b, hb⟩ := hp
    have no : ∀ k : List Char, ('#' :: k).isPrefixOf (c :: b) = false := by
      intro k
      rw [Bool.eq_false_iff]
      intro hpre
      have := List.isPrefixOf_iff_prefix.1 hpre
      rw [List.cons_prefix_cons] at this
      exact hch this.1.symm
    have e1 : "#$nan_color".toList = '#' :: "$nan_color".toList := rfl
    have e2 : "#$name".toList = '#' :: "$name".toList := rfl
    have e3 : "#$resolution".toList = '#' :: "$resolution".toList := rfl
    rw [settingLine, List.append_assoc, strip_front g, List.cons_append, hb]
    simp only [e1, e2, e3, no]
    rfl

theorem settingLines_items {int : List Char → Option ℤ} {num : List Char → Option ℚ} {lines : List (List Char)} {items : List PaletteItem}
    (h : List.Forall₂ (PaletteLine int num) lines items) (s : Settings) : settingLines int num s lines = .ok (items.foldl applyItem s) := by
  induction h generalizing s with
  | nil => rfl
  | @cons l o ls os h1 h2 ih =>
    rw [settingLines, settingLine_item h1]
    simp only [bind, Except.bind, ih]
    rfl

theorem foldl_items (items : List PaletteItem) (s : Settings) :
    items.foldl applyItem s = ⟨lastSet (fun | .nanColor c => some c | _ => none) s.nanColor items,
      lastSet (fun | .name n => some n | _ => none) s.name items,
      lastSet (fun | .resolution r => some (some r) | _ => none) s.resolution items⟩ := by
  induction items generalizing s with
  | nil => rfl
  | cons o os ih =>
    rw [List.foldl_cons, ih]
    have key : ∀ {α : Type} (l : List α) (a d : α), (a :: l).getLast?.getD d = l.getLast?.getD a := by
      intro α l a d
      cases l with
      | nil => rfl
      | cons b l => rw [List.getLast?_cons_cons, List.getLast?_cons]; rfl
    cases o <;> simp [lastSet, applyItem, key]

/-! ### The table -/

theorem readCells_some {num : List Char → Option ℚ} {ws : List (List Char)} (h : ∀ w ∈ ws, ∃ x, num w = some x) :
    ∃ xs, readCells num ws = some xs ∧ List.Forall₂ (fun w x => num w = some x) ws xs := by
  induction ws with
  | nil => exact ⟨[], rfl, .nil⟩
  | cons w ws ih =>
    obtain ⟨x, hx⟩ := h w (by simp)
    obtain ⟨xs, h1, h2⟩ := ih fun v hv => h v (by simp [hv])
    exact ⟨x :: xs, by rw [readCells, hx, h1], .cons hx h2⟩

theorem readTable_some {num : List Char → Option ℚ} {n : ℕ} {rows : List (List (List Char))} (hl : ∀ r ∈ rows, r.length = n)
    (h : ∀ r ∈ rows, ∀ w ∈ r, ∃ x, num w = some x) :
    ∃ xs, readTable num n rows = some xs ∧ List.Forall₂ (List.Forall₂ fun w x => num w = some x) rows xs := by
  induction rows with
  | nil => exact ⟨[], rfl, .nil⟩
  | cons r rows ih =>
    obtain ⟨x, h1, h2⟩ := readCells_some (h r (by simp))
    obtain ⟨xs, h3, h4⟩ := ih (fun q hq => hl q (by simp [hq])) fun q hq => h q (by simp [hq])
    refine ⟨x :: xs, ?_, .cons h2 h4⟩
    rw [readTable, if_neg (by simpa using hl r (by simp)), h1, h3]

theorem columnOf_is {num : List Char → Option ℚ} {header : List (List Char)} {rows : List (List (List Char))} {cells : List (List ℚ)}
    (hc : List.Forall₂ (List.Forall₂ fun w x => num w = some x) rows cells) {k : String} {xs : List ℚ}
    (h : IsColumn num header rows k xs) : columnOf header cells k.toList = .ok xs := by
  obtain ⟨i, h1, h2, h3⟩ := h
  have hm : k.toList ∈ header := List.mem_of_getElem? h1
  have hi : header.idxOf k.toList = i := by
    have hlt := List.idxOf_lt_length_of_mem hm
    have hget : header[header.idxOf k.toList]? = some k.toList := by
      rw [List.getElem?_eq_getElem hlt, List.getElem_idxOf hlt]
    rcases Nat.lt_trichotomy (header.idxOf k.toList) i with hlt' | he | hgt
    · exact absurd hget (h2 _ hlt')
    · exact he
    · exfalso
      have := List.not_of_lt_findIdx (xs := header) (p := (· == k.toList)) (i := i) hgt
      rw [List.getElem?_eq_some_iff] at h1
      obtain ⟨hb, he⟩ := h1
      simp [he] at this
  rw [columnOf, if_pos hm, hi]
  congr 1
  clear h1 h2 hm hi
  induction h3 generalizing cells with
  | nil => cases hc; rfl
  | @cons r x rs xs hr _ ih =>
    cases hc with
    | @cons _ c _ cs hrc hcs =>
      rw [List.map_cons, ih hcs]
      obtain ⟨w, hw, hx⟩ := hr
      have : c[i]? = some x := by
        obtain ⟨hb, he⟩ := List.getElem?_eq_some_iff.1 hw
        have hb' : i < c.length := by rw [← hrc.length_eq]; exact hb
        have := hrc.get hb hb'
        simp only [List.get_eq_getElem, he, hx] at this
        rw [List.getElem?_eq_getElem hb', ← this]
      rw [List.getD_eq_getElem?_getD, this]
      rfl

theorem zip_maps (l : List RGB) : (l.map (·.1)).zip ((l.map (·.2.1)).zip (l.map (·.2.2))) = l := by
  induction l with
  | nil => rfl
  | cons a l ih => simp [ih]

/-- The settings that the lines of a file make. -/
def fileSettings (items : List PaletteItem) : Settings :=
  ⟨lastSet (fun | .nanColor c => some c | _ => none) [0, 0, 0, 0] items,
    lastSet (fun | .name n => some n | _ => none) "generic".toList items,
    lastSet (fun | .resolution r => some (some r) | _ => none) none items⟩

theorem settings_file {int : List Char → Option ℤ} {num : List Char → Option ℚ} {lines : List (List Char)} {items : List PaletteItem}
    (h : List.Forall₂ (PaletteLine int num) lines items) : settingLines int num startSettings lines = .ok (fileSettings items) := by
  rw [settingLines_items h, foldl_items]; rfl

/-- **C163**: a file gives the palette of the numbers under its headings, in whatever order the headings stand, with the last name, colour
and resolution that it sets. -/
theorem C163_file (int : List Char → Option ℤ) (num : List Char → Option ℚ) (lines : List (List Char)) (items : List PaletteItem)
    (h : List.Forall₂ (PaletteLine int num) lines items) (header : List (List Char)) (rows : List (List (List Char)))
    (ht : tableRows items = header :: rows) (hl : ∀ r ∈ rows, r.length = header.length) (hn : ∀ r ∈ rows, ∀ w ∈ r, ∃ x, num w = some x)
    (s : Segments) (hz0 : IsColumn num header rows "Z0" s.z0) (hz1 : IsColumn num header rows "Z1" s.z1)
    (hr0 : IsColumn num header rows "R0" (s.rgb0.map (·.1))) (hg0 : IsColumn num header rows "G0" (s.rgb0.map (·.2.1)))
    (hb0 : IsColumn num header rows "B0" (s.rgb0.map (·.2.2))) (hr1 : IsColumn num header rows "R1" (s.rgb1.map (·.1)))
    (hg1 : IsColumn num header rows "G1" (s.rgb1.map (·.2.1))) (hb1 : IsColumn num header rows "B1" (s.rgb1.map (·.2.2))) :
    (∀ p, construct s (fileSettings items).resolution false = .ok p → fromFile int num lines = .ok (fileSettings items, p)) ∧
      ∀ e, construct s (fileSettings items).resolution false = .error e → fromFile int num lines = .error (.constructor e) := by
  obtain ⟨cells, hc, hf⟩ := readTable_some hl hn
  have e : fromFile int num lines = match construct s (fileSettings items).resolution false with
      | .error e => .error (.constructor e)
      | .ok p => .ok (fileSettings items, p) := by
    rw [fromFile, settings_file h, wordRows_items h, ht]
    simp only [bind, Except.bind, hc, columnOf_is hf hz0, columnOf_is hf hz1, columnOf_is hf hr0, columnOf_is hf hg0, columnOf_is hf hb0,
      columnOf_is hf hr1, columnOf_is hf hg1, columnOf_is hf hb1, zip_maps]
    cases construct s (fileSettings items).resolution false <;> rfl
  constructor
  · intro p hp; rw [e, hp]
  · intro x hx; rw [e, hx]

/-- **C163**: without one of the eight headings the call raises AttributeError. -/
theorem C163_missing_heading (int : List Char → Option ℤ) (num : List Char → Option ℚ) (lines : List (List Char)) (items : List PaletteItem)
    (h : List.Forall₂ (PaletteLine int num) lines items) (header : List (List Char)) (rows : List (List (List Char)))
    (ht : tableRows items = header :: rows) (hl : ∀ r ∈ rows, r.length = header.length) (hn : ∀ r ∈ rows, ∀ w ∈ r, ∃ x, num w = some x)
    (k : String) (hk : k ∈ ["Z0", "Z1", "R0", "G0", "B0", "R1", "G1", "B1"]) (hm : k.toList ∉ header) :
    fromFile int num lines = .error .attributeError := by
  obtain ⟨cells, hc, hf⟩ := readTable_some hl hn
  have two : ∀ name : List Char, (∃ xs, columnOf header cells name = .ok xs) ∨ columnOf header cells name = .error .attributeError := by
    intro name
    unfold columnOf
    by_cases hmem : name ∈ header
    · exact .inl ⟨_, if_pos hmem⟩
    · exact .inr (if_neg hmem)
  have bad : columnOf header cells k.toList = .error .attributeError := if_neg hm
  rw [fromFile, settings_file h, wordRows_items h, ht]
  simp only [bind, Except.bind, hc]
  rcases two "R0".toList with ⟨x1, e1⟩ | e1
  on_goal 2 => simp only [e1]
  rcases two "G0".toList with ⟨x2, e2⟩ | e2
  on_goal 2 => simp only [e1, e2]
  rcases two "B0".toList with ⟨x3, e3⟩ | e3
  on_goal 2 => simp only [e1, e2, e3]
  rcases two "R1".toList with ⟨x4, e4⟩ | e4
  on_goal 2 => simp only [e1, e2, e3, e4]
  rcases two "G1".toList with ⟨x5, e5⟩ | e5
  on_goal 2 => simp only [e1, e2, e3, e4, e5]
  rcases two "B1".toList with ⟨x6, e6⟩ | e6
  on_goal 2 => simp only [e1, e2, e3, e4, e5, e6]
  rcases two "Z0".toList with ⟨x7, e7⟩ | e7
  on_goal 2 => simp only [e1, e2, e3, e4, e5, e6, e7]
  rcases two "Z1".toList with ⟨x8, e8⟩ | e8
  on_goal 2 => simp only [e1, e2, e3, e4, e5, e6, e7, e8]
  exfalso
  simp only [List.mem_cons, List.not_mem_nil, or_false] at hk
  rcases hk with rfl | rfl | rfl | rfl | rfl | rfl | rfl | rfl <;> simp_all

theorem fromFile_congr (int : List Char → Option ℤ) (num : List Char → Option ℚ) (pre : List (List Char)) (a b : List Char)
    (post : List (List Char)) (h1 : ∀ s, settingLine int num s a = settingLine int num s b)
    (h2 : a.takeWhile (· ≠ '#') = b.takeWhile (· ≠ '#')) :
    fromFile int num (pre ++ a :: post) = fromFile int num (pre ++ b :: post) := by
  have e1 : ∀ s, settingLines int num s (pre ++ a :: post) = settingLines int num s (pre ++ b :: post) := by
    induction pre with
    | nil => intro s; rw [List.nil_append, List.nil_append, settingLines, settingLines, h1]
    | cons l pre ih =>
      intro s
      rw [List.cons_append, List.cons_append, settingLines, settingLines]
      cases settingLine int num s l with
      | error e => rfl
      | ok t => exact ih t
  have e2 : wordRows (pre ++ a :: post) = wordRows (pre ++ b :: post) := by
    unfold wordRows
    rw [List.map_append, List.map_append, List.map_cons, List.map_cons, h2]
  rw [fromFile, fromFile, e1, e2]

/-- **C163** violated: of a name with a colon in it only the part before the colon is kept. -/
theorem C163_colon_violated (int : List Char → Option ℤ) (num : List Char → Option ℚ) (pre post : List (List Char)) (a b : List Char)
    (ha : ':' ∉ a) :
    fromFile int num (pre ++ ("#$name:".toList ++ a ++ ':' :: b) :: post) = fromFile int num (pre ++ ("#$name:".toList ++ a) :: post) := by
  have n : PaletteLine int num ("#$name:".toList ++ a ++ ':' :: b) (.name (strip a)) := by
    have := PaletteLine.name (int := int) (num := num) (w := []) (more := []) (v := a) (rest := ':' :: b) (t := strip a)
      (by intro c h; simp at h) (by simp) ha (.inr ⟨b, rfl⟩) (strip_trims a)
    simpa using this
  have m : PaletteLine int num ("#$name:".toList ++ a) (.name (strip a)) := by
    have := PaletteLine.name (int := int) (num := num) (w := []) (more := []) (v := a) (rest := []) (t := strip a)
      (by intro c h; simp at h) (by simp) ha (.inl rfl) (strip_trims a)
    simpa using this
  apply fromFile_congr
  · intro s; rw [settingLine_item n, settingLine_item m]
  · rfl

/-! ### The file of the documentation, shortened -/

/-- Lines for the examples. -/
def demoPalette : List (List Char) :=
  ["#$nan_color: 0,0\n", "#$name: test:x\n", "\n", "#$resolution: 2\n", "R0 Z0 G0 B0 Z1 R1 G1 B1\n", "0 1 0 0 2 85 85 85 # first\n",
    "85 2 85 85 0 0 0 0\n"].map String.toList

/-- A parser for the examples. -/
def demoNum (s : List Char) : Option ℚ :=
  [("0", 0), ("1", 1), ("2", 2), ("85", 85)].findSome? fun (t, x) => if s = t.toList then some x else none

/-- A parser for the examples. -/
def demoInt (s : List Char) : Option ℤ := if strip s = ['0'] then some 0 else none

example : fromFile demoInt demoNum demoPalette = .ok (⟨[0, 0], "test".toList, some 2⟩,
    ⟨false, 1, 2, [⟨0, scale255 dummyB, (0, 0, 0)⟩, ⟨1, (1 / 3, 1 / 3, 1 / 3), (1 / 3, 1 / 3, 1 / 3)⟩, ⟨-1, (0, 0, 0), scale255 dummyE⟩], 256⟩) := by
  decide +kernel

/-- The lines of the example are of the described form. -/
theorem demo_lines : List.Forall₂ (PaletteLine demoInt demoNum) demoPalette
    [.nanColor [0, 0], .name "test".toList, .nothing, .resolution 2,
      .words (["R0", "Z0", "G0", "B0", "Z1", "R1", "G1", "B1"].map String.toList),
      .words (["0", "1", "0", "0", "2", "85", "85", "85"].map String.toList),
      .words (["85", "2", "85", "85", "0", "0", "0", "0"].map String.toList)] := by
  have row : ∀ (l : List Char) (ws : List (List Char)), (∀ w ∈ ws, Word w ∧ '#' ∉ w) → ∀ (x : List Char) (tail : List Char), Word x → '#' ∉ x →
      (tail = [] ∨ ∃ r, tail = '#' :: r) → ∀ e : List Char, Gap e →
      l = (ws.map (· ++ [' '])).flatten ++ x ++ e ++ tail → PaletteLine demoInt demoNum l (.words (ws ++ [x])) := by
    intro l ws hw x tail hx hh ht e ge hl
    rw [hl]
    refine .words (by simp) ?_ ?_ ht
    · clear hl
      have : ∀ us : List (List Char), (∀ w ∈ us, Word w ∧ '#' ∉ w) → ∀ p : List Char, Gap p →
          Spread (us ++ [x]) (p ++ ((us.map (· ++ [' '])).flatten ++ x ++ e)) := by
        intro us
        induction us with
        | nil => intro _ p gp; simpa using Spread.last gp hx ge
        | cons u us ih =>
          intro hu p gp
          have h1 := ih (fun w hw => hu w (by simp [hw])) [' '] (by intro c hc; rw [List.mem_singleton.1 hc]; decide)
          have h2 := Spread.cons gp (hu u (by simp)).1 (by simp) h1 (by intro c hc; obtain rfl : ' ' = c := by simpa using hc
                                                                        decide)
          simpa using h2
      simpa using this ws hw [] (by intro c h; simp at h)
    · intro w hm
      rcases List.mem_append.1 hm with hm | hm
      · exact (hw w hm).2
      · rw [List.mem_singleton.1 hm]; exact hh
  have nl : Gap ['\n'] := by unfold Gap White; decide
  have g0 : Gap [] := by intro c h; simp at h
  have okw : ∀ w ∈ (["R0", "Z0", "G0", "B0", "Z1", "R1", "G1", "B1", "0", "1", "2", "85"].map String.toList), Word w ∧ '#' ∉ w := by
    unfold Word White; decide
  refine .cons ?_ (.cons ?_ (.cons (.nothing nl) (.cons ?_ (.cons ?_ (.cons ?_ (.cons ?_ .nil))))))
  · exact PaletteLine.nanColor (w := []) (more := []) (v := " 0,0".toList) (rest := []) (w' := ['\n']) (vs := [" 0".toList, "0".toList]) g0 nl
      (by simp) (by decide) (.inl rfl) (by unfold White; decide) (by simp) (by decide) (by decide) (.cons (by decide) (.cons (by decide) .nil))
  · exact PaletteLine.name (w := []) (more := []) (v := " test".toList) (rest := ":x\n".toList) g0 (by simp) (by decide) (.inr ⟨_, rfl⟩)
      ⟨[' '], [], by unfold Gap White; decide, g0, rfl, by unfold White; decide, by unfold White; decide⟩
  · exact PaletteLine.resolution (w := []) (more := []) (v := " 2\n".toList) (rest := []) (t := ['2']) g0 (by simp) (by decide) (.inl rfl)
      ⟨[' '], ['\n'], by unfold Gap White; decide, nl, rfl, by unfold White; decide, by unfold White; decide⟩ (by decide +kernel)
  · exact row _ (["R0", "Z0", "G0", "B0", "Z1", "R1", "G1"].map String.toList) (fun w hw => okw w (by revert w; decide)) "B1".toList []
      (okw _ (by decide)).1 (by decide) (.inl rfl) ['\n'] nl (by decide)
  · exact row _ (["0", "1", "0", "0", "2", "85", "85"].map String.toList) (fun w hw => okw w (by revert w; decide)) "85".toList "# first\n".toList
      (okw _ (by decide)).1 (by decide) (.inr ⟨_, rfl⟩) [' '] (by unfold Gap White; decide) (by decide)
  · exact row _ (["85", "2", "85", "85", "0", "0", "0"].map String.toList) (fun w hw => okw w (by revert w; decide)) "0".toList []
      (okw _ (by decide)).1 (by decide) (.inl rfl) ['\n'] nl (by decide)

end Verif.Props
