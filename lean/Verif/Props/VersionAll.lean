import Verif.Props.VersionRender

/-!
# The version of an archive (C158) and the version of the package (C159)
-/

namespace Verif.Props
open Verif.Version Verif.Spec
open Verif.Fs (Text)

/-! ### The least tag -/

theorem find_sorted {tags : List Text} {p : Text → Bool} :
    (∀ t, (sortTags tags).find? p = some t → t ∈ tags ∧ p t = true ∧ ∀ u ∈ tags, p u = true → t ≤ u) ∧
    ((sortTags tags).find? p = none ↔ ∀ u ∈ tags, p u = false) := by
  have hs : (sortTags tags).Pairwise (fun a b => a ≤ b) := by
    have := List.pairwise_mergeSort (le := fun a b : Text => decide (a ≤ b)) (by
      intro a b c h1 h2
      simp only [decide_eq_true_eq] at *
      exact le_trans h1 h2) (by
      intro a b
      simp only [Bool.or_eq_true, decide_eq_true_eq]
      exact le_total a b) tags
    unfold sortTags
    exact this.imp (by simp)
  have hm : ∀ u, u ∈ sortTags tags ↔ u ∈ tags := fun u => List.mem_mergeSort
  refine ⟨?_, ?_⟩
  · intro t ht
    obtain ⟨h1, as, bs, h2, h3⟩ := List.find?_eq_some_iff_append.1 ht
    refine ⟨(hm t).1 (by rw [h2]; simp), h1, fun u hu hpu => ?_⟩
    rw [← hm, h2] at hu
    rcases List.mem_append.1 hu with hu | hu
    · have := h3 u hu
      rw [hpu] at this
      simp at this
    · rcases List.mem_cons.1 hu with rfl | hu
      · exact le_refl _
      · rw [h2] at hs
        exact (List.pairwise_cons.1 (List.pairwise_append.1 hs).2.1).1 u hu
  · rw [List.find?_eq_none]
    constructor
    · intro h u hu
      simpa using h u ((hm u).2 hu)
    · intro h u hu
      simpa using h u ((hm u).1 hu)

/-! ### Reading the names -/

theorem intercalate_comma (a : Text) (l : List Text) :
    ", ".toList.intercalate (a :: l) = [','].intercalate (a :: l.map (' ' :: ·)) := by
  induction l generalizing a with
  | nil => simp [List.intercalate]
  | cons b l ih =>
    have e1 : ", ".toList.intercalate (a :: b :: l) = a ++ (", ".toList ++ ", ".toList.intercalate (b :: l)) := by
      simp [List.intercalate, List.intersperse]
    have e2 : [','].intercalate (a :: (b :: l).map (' ' :: ·)) = a ++ ([','] ++ [','].intercalate ((' ' :: b) :: l.map (' ' :: ·))) := by
      simp [List.intercalate]
    have e3 : [','].intercalate ((' ' :: b) :: l.map (' ' :: ·)) = ' ' :: [','].intercalate (b :: l.map (' ' :: ·)) := by
      cases l <;> simp [List.intercalate]
    rw [e1, e2, ih b, e3]
    rfl

/-- What every printed name has. -/
theorem ref_text {r : Ref} (h : r.Sound) : r.text ≠ [] ∧ ',' ∉ r.text ∧ (∀ x ∈ r.text, x ≠ '(' ∧ x ≠ ')') ∧
    (∀ x, r.text.head? = some x → Factory.isSpace x = false) ∧ (∀ x, r.text.getLast? = some x → Factory.isSpace x = false) := by
  cases r with
  | tag t =>
    obtain ⟨⟨h0, h1⟩, h2⟩ := h
    refine ⟨by simp [Ref.text], ?_, ?_, ?_, ?_⟩
    · simp only [Ref.text, List.mem_append, not_or]
      exact ⟨by decide, fun hm => h2 _ hm (by decide)⟩
    · intro x hx
      simp only [Ref.text, List.mem_append] at hx
      rcases hx with hx | hx
      · have : ∀ x ∈ "tag: ".toList, x ≠ '(' ∧ x ≠ ')' := by decide
        exact this x hx
      · have := h2 x hx
        refine ⟨?_, ?_⟩ <;> (rintro rfl; exact this (by decide))
    · intro x hx
      have : x = 't' := by simpa [Ref.text] using hx.symm
      subst this; decide
    · intro x hx
      obtain ⟨l, y, rfl⟩ := List.eq_nil_or_concat t |>.resolve_left h0
      have : y = x := by
        rw [Ref.text, List.getLast?_append] at hx
        simpa using hx
      subst this
      exact tag_space (h1 y (by simp))
  | other s =>
    obtain ⟨h0, h1, h2, -⟩ := h
    have sp : ∀ x : Char, 32 < x.toNat ∧ x.toNat < 127 → Factory.isSpace x = false := fun x hx =>
      tag_space ⟨hx.1, by omega, by omega, by omega⟩
    refine ⟨h0, fun hm => h2 _ hm (by decide), ?_, fun x hx => sp x (h1 x (Or.inl hx)), fun x hx => sp x (h1 x (Or.inr hx))⟩
    intro x hx
    have := h2 x hx
    refine ⟨?_, ?_⟩ <;> (rintro rfl; exact this (by decide))

theorem mem_intercalate' {x : Char} (sep : Text) (l : List Text) (h : x ∈ sep.intercalate l) : x ∈ sep ∨ ∃ s ∈ l, x ∈ s := by
  simp only [List.intercalate, List.mem_flatten] at h
  obtain ⟨s, h1, h2⟩ := h
  have : s = sep ∨ s ∈ l := by
    clear h2
    induction l with
    | nil => simp at h1
    | cons a l ih =>
      cases l with
      | nil => simp at h1; exact Or.inr (by simp [h1])
      | cons b l =>
        simp only [List.intersperse_cons_cons, List.mem_cons] at h1
        rcases h1 with h1 | h1 | h1
        · exact Or.inr (by simp [h1])
        · exact Or.inl h1
        · rcases ih h1 with h | h
          · exact Or.inl h
          · exact Or.inr (by simp at h ⊢; tauto)
  rcases this with rfl | h
  · exact Or.inl h2
  · exact Or.inr ⟨s, h, h2⟩

theorem strip_parens {s : Text} (h : ∀ x ∈ s, x ≠ '(' ∧ x ≠ ')') : stripParens ('(' :: (s ++ [')'])) = s := by
  unfold stripParens
  have e1 : ('(' :: (s ++ [')'])).dropWhile (fun c => c = '(' || c = ')') = (s ++ [')']).dropWhile (fun c => c = '(' || c = ')') := by
    rw [List.dropWhile_cons_of_pos (by decide)]
  cases s with
  | nil => decide
  | cons a t =>
    have ha := h a (by simp)
    have e2 : ((a :: t) ++ [')']).dropWhile (fun c => c = '(' || c = ')') = (a :: t) ++ [')'] := by
      rw [List.cons_append, List.dropWhile_cons_of_neg (by simp [ha])]
    rw [e1, e2]
    simp only [List.reverse_append, List.reverse_cons, List.reverse_nil, List.nil_append, List.singleton_append]
    rw [List.dropWhile_cons_of_pos (by decide)]
    have e3 : (t.reverse ++ [a]).dropWhile (fun c => c = '(' || c = ')') = t.reverse ++ [a] := by
      have hall : ∀ x ∈ t.reverse ++ [a], x ≠ '(' ∧ x ≠ ')' := by
        intro x hx
        refine h x ?_
        simp at hx ⊢
        tauto
      cases hr : t.reverse ++ [a] with
      | nil => rfl
      | cons y l =>
        have := hall y (by rw [hr]; simp)
        rw [List.dropWhile_cons_of_neg (by simp [this])]
    rw [e3]
    simp

/-- The names of a decoration are read back. -/
theorem refsOf_decoration {refs : List Ref} (h0 : refs ≠ []) (h : ∀ r ∈ refs, r.Sound) :
    refsOf (Factory.strip (decoration refs)) = refs.map Ref.text := by
  have e0 : decoration refs = ' ' :: ('(' :: (", ".toList.intercalate (refs.map Ref.text) ++ [')'])) := by
    simp [decoration, h0]
  have e1 : Factory.strip (decoration refs) = '(' :: (", ".toList.intercalate (refs.map Ref.text) ++ [')']) := by
    rw [e0]
    have : ∀ s : Text, Factory.strip (' ' :: s) = Factory.strip s := by
      intro s
      unfold Factory.strip Factory.lstrip
      rw [List.dropWhile_cons_of_pos (by decide)]
    rw [this]
    refine strip_id ?_ ?_
    · intro c hc
      have : c = '(' := by simpa using hc.symm
      subst this; decide
    · intro c hc
      rw [← List.cons_append, List.getLast?_append] at hc
      have : c = ')' := by simpa using hc.symm
      subst this; decide
  have hp : ∀ x ∈ ", ".toList.intercalate (refs.map Ref.text), x ≠ '(' ∧ x ≠ ')' := by
    intro x hx
    rcases mem_intercalate' _ _ hx with hx | ⟨s, hs, hx⟩
    · have : ∀ x ∈ ", ".toList, x ≠ '(' ∧ x ≠ ')' := by decide
      exact this x hx
    · obtain ⟨r, hr, rfl⟩ := List.mem_map.1 hs
      exact (ref_text (h r hr)).2.2.1 x hx
  unfold refsOf
  rw [e1, strip_parens hp]
  cases refs with
  | nil => exact absurd rfl h0
  | cons r refs =>
    rw [List.map_cons, intercalate_comma, List.splitOn_intercalate]
    · simp only [List.map_cons, List.map_map]
      have hr := ref_text (h r (by simp))
      rw [strip_id hr.2.2.2.1 hr.2.2.2.2]
      congr 1
      refine List.map_congr_left fun x hx => ?_
      have hx := ref_text (h x (by simp [hx]))
      simp only [Function.comp]
      have : ∀ s : Text, Factory.strip (' ' :: s) = Factory.strip s := by
        intro s
        unfold Factory.strip Factory.lstrip
        rw [List.dropWhile_cons_of_pos (by decide)]
      rw [this, strip_id hx.2.2.2.1 hx.2.2.2.2]
    · intro l hl
      rcases List.mem_cons.1 hl with rfl | hl
      · exact (ref_text (h r (by simp))).2.1
      · simp only [List.mem_map] at hl
        obtain ⟨s, ⟨x, hx, rfl⟩, rfl⟩ := hl
        simp only [List.mem_cons, not_or]
        exact ⟨by decide, (ref_text (h x (by simp [hx]))).2.1⟩
    · simp

theorem tagsOf_refs {refs : List Ref} (h : ∀ r ∈ refs, r.Sound) (ht : ∃ t, Ref.tag t ∈ refs) (t : Text) :
    t ∈ tagsOf (refs.map Ref.text) ↔ Ref.tag t ∈ refs := by
  have key : ∀ t, t ∈ ((refs.map Ref.text).filter (fun r => "tag: ".toList <+: r)).map (·.drop 5) ↔ Ref.tag t ∈ refs := by
    intro t
    simp only [List.mem_map, List.mem_filter, decide_eq_true_eq]
    constructor
    · rintro ⟨s, ⟨⟨r, hr, rfl⟩, hp⟩, rfl⟩
      cases r with
      | tag u => simpa [Ref.text] using hr
      | other s => exact absurd hp (h _ hr).2.2.2
    · intro hr
      exact ⟨_, ⟨⟨_, hr, rfl⟩, by simp [Ref.text]⟩, by simp [Ref.text]⟩
  unfold tagsOf
  simp only
  rw [if_neg]
  · exact key t
  · obtain ⟨u, hu⟩ := ht
    intro he
    have := (key u).2 hu
    rw [List.isEmpty_iff] at he
    rw [he] at this
    simp at this

theorem decoration_expanded {refs : List Ref} (h0 : refs ≠ []) (h : ∀ r ∈ refs, r.Sound) :
    ¬ "$Format".toList <+: Factory.strip (decoration refs) := by
  intro hp
  have e0 : decoration refs = ' ' :: ('(' :: (", ".toList.intercalate (refs.map Ref.text) ++ [')'])) := by
    simp [decoration, h0]
  obtain ⟨x, hx⟩ := hp
  have hr := refsOf_decoration h0 h
  have e1 : (Factory.strip (decoration refs)).head? = some '(' := by
    rw [e0]
    have : ∀ s : Text, Factory.strip (' ' :: s) = Factory.strip s := by
      intro s
      unfold Factory.strip Factory.lstrip
      rw [List.dropWhile_cons_of_pos (by decide)]
    rw [this, strip_id]
    · rfl
    · intro c hc
      have : c = '(' := by simpa using hc.symm
      subst this; decide
    · intro c hc
      rw [← List.cons_append, List.getLast?_append] at hc
      have : c = ')' := by simpa using hc.symm
      subst this; decide
  rw [← hx] at e1
  simp at e1

/-- **C158, the version of an archive.** For a commit with tags, the version in an archive is the one of its tags with the prefix
that comes first in the order of the characters, without the prefix, and there is no error; without such a tag it is
`0+unknown`. -/
theorem C158_archive_partial (refs : List Ref) (pre full day time zone : Text) (h : ∀ r ∈ refs, r.Sound) (ht : ∃ t, Ref.tag t ∈ refs)
    (hf : HexName full) (h0 : day ≠ []) (h1 : ∀ x ∈ day, x ∈ "0123456789-".toList) (h2 : ∀ x ∈ time, x ∈ "0123456789:".toList)
    (h3 : zone ≠ []) (h4 : ∀ x ∈ zone, x ∈ "0123456789+-".toList) :
    (∃ t, Ref.tag (pre ++ t) ∈ refs ∧ (∀ u, Ref.tag (pre ++ u) ∈ refs → pre ++ t ≤ pre ++ u) ∧
      fromKeywords ⟨some (decoration refs), some full, some (day ++ [' '] ++ time ++ [' '] ++ zone)⟩ pre =
        .ok ⟨t, some full, some false, none, some (day ++ ['T'] ++ time ++ zone)⟩) ∨
    ((∀ u, Ref.tag (pre ++ u) ∉ refs) ∧
      fromKeywords ⟨some (decoration refs), some full, some (day ++ [' '] ++ time ++ [' '] ++ zone)⟩ pre =
        .ok ⟨"0+unknown".toList, some full, some false, some "no suitable tags".toList, none⟩) := by
  have hr0 : refs ≠ [] := by
    rintro rfl
    simp at ht
  have hsf : Factory.strip full = full := (strip_hex hf).2
  have e : fromKeywords ⟨some (decoration refs), some full, some (day ++ [' '] ++ time ++ [' '] ++ zone)⟩ pre =
      match (sortTags (tagsOf (refs.map Ref.text))).find? (fun r => pre <+: r) with
      | some r => .ok ⟨r.drop pre.length, some full, some false, none, some (day ++ ['T'] ++ time ++ zone)⟩
      | none => .ok ⟨"0+unknown".toList, some full, some false, some "no suitable tags".toList, none⟩ := by
    unfold fromKeywords
    rw [if_neg (by simp)]
    simp only [if_neg (decoration_expanded hr0 h), refsOf_decoration hr0 h, Option.map_some, (date_parts h0 h1 h2 h3 h4).2.2]
    cases (sortTags (tagsOf (refs.map Ref.text))).find? (fun r => pre <+: r) <;> simp only [hsf]
  rw [e]
  obtain ⟨f1, f2⟩ := find_sorted (tags := tagsOf (refs.map Ref.text)) (p := fun r => pre <+: r)
  cases hx : (sortTags (tagsOf (refs.map Ref.text))).find? (fun r => pre <+: r) with
  | some r =>
    left
    obtain ⟨g1, g2, g3⟩ := f1 r hx
    simp only [decide_eq_true_eq] at g2
    obtain ⟨t, rfl⟩ := g2
    refine ⟨t, (tagsOf_refs h ht _).1 g1, fun u hu => g3 _ ((tagsOf_refs h ht _).2 hu) (by simp), by simp⟩
  | none =>
    right
    refine ⟨fun u hu => ?_, rfl⟩
    have := f2.1 hx _ ((tagsOf_refs h ht _).2 hu)
    simp at this

/-- The names of a commit with two tags on a branch. -/
def exRefs : List Ref := [.other "HEAD -> master".toList, .tag "2.0rc1".toList, .tag "2.0".toList, .other "origin/py36".toList]

theorem exRefs_sound : ∀ r ∈ exRefs, r.Sound := by
  intro r hr
  simp only [exRefs, List.mem_cons, List.not_mem_nil, or_false] at hr
  rcases hr with rfl | rfl | rfl | rfl
  · refine ⟨by decide, ?_, by decide, by decide⟩
    rintro x (hx | hx) <;> (simp at hx; subst hx; decide)
  · unfold Ref.Sound TagName; decide
  · unfold Ref.Sound TagName; decide
  · refine ⟨by decide, ?_, by decide, by decide⟩
    rintro x (hx | hx) <;> (simp at hx; subst hx; decide)

example : decoration exRefs = " (HEAD -> master, tag: 2.0rc1, tag: 2.0, origin/py36)".toList := by decide

example : ∃ t, Ref.tag t ∈ exRefs ∧ (∀ u, Ref.tag u ∈ exRefs → t ≤ u) ∧
    fromKeywords ⟨some (decoration exRefs), some "0f3".toList, some "2020-01-02 03:04:05 +0000".toList⟩ [] =
      .ok ⟨t, some "0f3".toList, some false, none, some "2020-01-02T03:04:05+0000".toList⟩ := by
  rcases C158_archive_partial exRefs [] "0f3".toList "2020-01-02".toList "03:04:05".toList "+0000".toList exRefs_sound
      ⟨"2.0".toList, by simp [exRefs]⟩ (by unfold HexName; decide) (by decide) (by decide) (by decide) (by decide) (by decide) with
    ⟨t, h1, h2, h3⟩ | ⟨h, -⟩
  · have e1 : "2020-01-02 03:04:05 +0000".toList = "2020-01-02".toList ++ [' '] ++ "03:04:05".toList ++ [' '] ++ "+0000".toList := by decide
    have e2 : "2020-01-02T03:04:05+0000".toList = "2020-01-02".toList ++ ['T'] ++ "03:04:05".toList ++ "+0000".toList := by decide
    rw [e1, e2]
    exact ⟨t, h1, h2, h3⟩
  · exact absurd (show Ref.tag ([] ++ "2.0".toList) ∈ exRefs by simp [exRefs]) (h _)

theorem fromKeywords_find {refs : List Ref} (hr0 : refs ≠ []) (h : ∀ r ∈ refs, r.Sound) (full : Text) (hf : HexName full) (d pre r : Text)
    (hx : (sortTags (tagsOf (refs.map Ref.text))).find? (fun r => pre <+: r) = some r) :
    fromKeywords ⟨some (decoration refs), some full, some d⟩ pre = .ok ⟨r.drop pre.length, some full, some false, none, some (isoDate d)⟩ := by
  unfold fromKeywords
  rw [if_neg (by simp)]
  simp only [if_neg (decoration_expanded hr0 h), refsOf_decoration hr0 h, hx, Option.map_some, (strip_hex hf).2]

theorem find_one (t : Text) : (sortTags [t]).find? (fun r => decide (([] : Text) <+: r)) = some t := by
  simp [sortTags]

/-- **C158, a commit without tags.** The name of its branch becomes the version, if there is a digit in it. -/
theorem C158_branch_violated :
    ∃ refs : List Ref, (∀ r ∈ refs, r.Sound) ∧ (∀ t, Ref.tag t ∉ refs) ∧ ∀ full d, HexName full →
      ∃ i, fromKeywords ⟨some (decoration refs), some full, some d⟩ [] = .ok i ∧ i.version = "HEAD -> py36".toList ∧ i.error = none := by
  have hs : ∀ r ∈ [Ref.other "HEAD -> py36".toList], r.Sound := by
    intro r hr
    simp only [List.mem_cons, List.not_mem_nil, or_false] at hr
    subst hr
    refine ⟨by decide, ?_, by decide, by decide⟩
    rintro x (hx | hx) <;> (simp at hx; subst hx; decide)
  refine ⟨[.other "HEAD -> py36".toList], hs, by simp, fun full d hf => ?_⟩
  have ht : tagsOf ([Ref.other "HEAD -> py36".toList].map Ref.text) = ["HEAD -> py36".toList] := by decide
  have hx : (sortTags (tagsOf ([Ref.other "HEAD -> py36".toList].map Ref.text))).find? (fun r => decide (([] : Text) <+: r)) =
      some "HEAD -> py36".toList := by
    rw [ht]
    exact find_one _
  have := fromKeywords_find (by simp) hs full hf d [] _ hx
  exact ⟨⟨"HEAD -> py36".toList, some full, some false, none, some (isoDate d)⟩, this, rfl, rfl⟩

/-- **C158, several releases.** A commit that is tagged `1.9` and `1.10` has the version `1.10`, and one that is tagged `1.0` and
`2.0` has the version `1.0`: neither the newer nor the older release is preferred. -/
theorem C158_order_violated (full d : Text) (hf : HexName full) :
    (∃ i, fromKeywords ⟨some (decoration [.tag "1.9".toList, .tag "1.10".toList]), some full, some d⟩ [] = .ok i ∧ i.version = "1.10".toList) ∧
    (∃ i, fromKeywords ⟨some (decoration [.tag "1.0".toList, .tag "2.0".toList]), some full, some d⟩ [] = .ok i ∧ i.version = "1.0".toList) := by
  have hs : ∀ a b : Text, Ref.Sound (.tag a) → Ref.Sound (.tag b) → ∀ r ∈ [Ref.tag a, Ref.tag b], r.Sound := by
    intro a b ha hb r hr
    simp only [List.mem_cons, List.not_mem_nil, or_false] at hr
    rcases hr with rfl | rfl
    exacts [ha, hb]
  have key : ∀ a b : Text, Ref.Sound (.tag a) → Ref.Sound (.tag b) → a < b → ∀ l : List Ref, l = [.tag a, .tag b] ∨ l = [.tag b, .tag a] →
      ∃ i, fromKeywords ⟨some (decoration l), some full, some d⟩ [] = .ok i ∧ i.version = a := by
    intro a b ha hb hab l hl
    have hl0 : l ≠ [] := by rcases hl with rfl | rfl <;> simp
    have hls : ∀ r ∈ l, r.Sound := by
      rcases hl with rfl | rfl
      exacts [hs a b ha hb, hs b a hb ha]
    have hta : Ref.tag a ∈ l := by rcases hl with rfl | rfl <;> simp
    obtain ⟨f1, f2⟩ := find_sorted (tags := tagsOf (l.map Ref.text)) (p := fun r => decide (([] : Text) <+: r))
    cases hx : (sortTags (tagsOf (l.map Ref.text))).find? (fun r => decide (([] : Text) <+: r)) with
    | none =>
      have := f2.1 hx a ((tagsOf_refs hls ⟨a, hta⟩ a).2 hta)
      simp at this
    | some r =>
      obtain ⟨g1, -, g3⟩ := f1 r hx
      have hra : r ≤ a := g3 a ((tagsOf_refs hls ⟨a, hta⟩ a).2 hta) (by simp)
      have hr := (tagsOf_refs hls ⟨a, hta⟩ r).1 g1
      have : r = a ∨ r = b := by rcases hl with rfl | rfl <;> simp at hr <;> tauto
      have hr' : r = a := by
        rcases this with h | h
        · exact h
        · rw [h] at hra
          exact absurd hab (not_lt.mpr hra)
      refine ⟨_, fromKeywords_find hl0 hls full hf d [] r hx, ?_⟩
      simp [hr']
  refine ⟨key "1.10".toList "1.9".toList ?_ ?_ ?_ _ (Or.inr rfl), key "1.0".toList "2.0".toList ?_ ?_ ?_ _ (Or.inl rfl)⟩
  · unfold Ref.Sound TagName; decide
  · unfold Ref.Sound TagName; decide
  · decide
  · unfold Ref.Sound TagName; decide
  · unfold Ref.Sound TagName; decide
  · decide

/-! ### Keywords in a file -/

theorem quoted_line {a x : Text} (ha : '=' ∉ a) (hx : '\n' ∉ x) : quoted (a ++ "= \"".toList ++ x ++ "\"\n".toList) = some x := by
  induction a with
  | nil =>
    have e : ([] : Text) ++ "= \"".toList ++ x ++ "\"\n".toList = '=' :: ' ' :: '"' :: (x ++ "\"\n".toList) := by simp
    have q : quotedAt ('=' :: ' ' :: '"' :: (x ++ "\"\n".toList)) = some x := by
      unfold quotedAt
      simp only
      rw [List.dropWhile_cons_of_pos (by decide), List.dropWhile_cons_of_neg (by decide)]
      simp only
      have h1 : (x ++ "\"\n".toList).takeWhile (fun c => decide (c ≠ '\n')) = x ++ ['"'] := by
        rw [List.takeWhile_append_of_pos]
        · simp
        · intro c hc
          simp only [ne_eq, decide_not, Bool.not_eq_true', decide_eq_false_iff_not]
          rintro rfl
          exact hx hc
      rw [h1]
      simp
    rw [e]
    unfold quoted
    rw [q]
  | cons c a ih =>
    simp only [List.mem_cons, not_or] at ha
    have q : ∀ t, quotedAt (c :: t) = none := by
      intro t
      unfold quotedAt
      split
      · rename_i h
        simp only [List.cons.injEq] at h
        exact absurd h.1.symm ha.1
      · rfl
    rw [List.cons_append, List.cons_append, List.cons_append]
    unfold quoted
    rw [q]
    exact ih ha.2

/-- A line of the module that sets a keyword. -/
def keywordText (name value : Text) : Text := "    ".toList ++ name ++ " = \"".toList ++ value ++ "\"\n".toList

/-- **C158, keywords in a file.** The keywords are read back from a file that sets them, whatever texts they are (without a line
feed), if no other line begins with `git_`. -/
theorem C158_file (x y z : Text) (hx : '\n' ∉ x) (hy : '\n' ∉ y) (hz : '\n' ∉ z) (before after : List Text)
    (hb : ∀ l ∈ before ++ after, ¬ "git_".toList <+: Factory.strip l) :
    getKeywords (some (before ++ [keywordText "git_refnames".toList x, keywordText "git_full".toList y, keywordText "git_date".toList z] ++ after)) =
      ⟨some x, some y, some z⟩ := by
  have other : ∀ l, ¬ "git_".toList <+: Factory.strip l → ∀ k, keywordLine k l = k := by
    intro l hl k
    have no : ∀ w : Text, "git_".toList <+: w → ¬ w <+: Factory.strip l := fun w hw h => hl (hw.trans h)
    unfold keywordLine
    simp only [if_neg (no "git_refnames =".toList (by decide)), if_neg (no "git_full =".toList (by decide)), if_neg (no "git_date =".toList (by decide))]
  have fold : ∀ ls : List Text, (∀ l ∈ ls, ¬ "git_".toList <+: Factory.strip l) → ∀ k, ls.foldl keywordLine k = k := by
    intro ls
    induction ls with
    | nil => intro _ k; rfl
    | cons l ls ih =>
      intro h k
      rw [List.foldl_cons, other l (h l (by simp)), ih (fun m hm => h m (by simp [hm]))]
  have strip4 : ∀ s : Text, Factory.strip ("    ".toList ++ s) = Factory.strip s := by
    intro s
    have : ∀ s : Text, Factory.strip (' ' :: s) = Factory.strip s := by
      intro s
      unfold Factory.strip Factory.lstrip
      rw [List.dropWhile_cons_of_pos (by decide)]
    show Factory.strip (' ' :: ' ' :: ' ' :: ' ' :: s) = _
    rw [this, this, this, this]
  have sline : ∀ name value : Text, (∀ c, name.head? = some c → Factory.isSpace c = false) → name ≠ [] →
      Factory.strip (keywordText name value) = name ++ " = \"".toList ++ value ++ ['"'] := by
    intro name value h h0
    unfold keywordText
    rw [List.append_assoc, List.append_assoc, List.append_assoc, strip4]
    have e : name ++ (" = \"".toList ++ (value ++ "\"\n".toList)) = (name ++ " = \"".toList ++ value ++ ['"']) ++ ['\n'] := by simp
    rw [e]
    refine strip_line (by simp) ?_ ?_
    · intro c hc
      cases name with
      | nil => exact absurd rfl h0
      | cons a t => exact h c (by simpa using hc)
    · intro c hc
      rw [List.getLast?_append] at hc
      have : c = '"' := by simpa using hc.symm
      subst this; decide
  have qline : ∀ name value : Text, '=' ∉ name → '\n' ∉ value → quoted (keywordText name value) = some value := by
    intro name value h1 h2
    have e : keywordText name value = ("    ".toList ++ name ++ [' ']) ++ "= \"".toList ++ value ++ "\"\n".toList := by
      simp [keywordText]
    rw [e]
    exact quoted_line (by simp only [List.mem_append, not_or]; exact ⟨⟨by decide, h1⟩, by decide⟩) h2
  have s1 := sline "git_refnames".toList x (by intro c hc; simp at hc; subst hc; decide) (by decide)
  have s2 := sline "git_full".toList y (by intro c hc; simp at hc; subst hc; decide) (by decide)
  have s3 := sline "git_date".toList z (by intro c hc; simp at hc; subst hc; decide) (by decide)
  have pre : ∀ (w name v : Text), w <+: name ++ " = \"".toList → w <+: name ++ " = \"".toList ++ v ++ ['"'] := by
    intro w name v h
    rw [List.append_assoc]
    exact h.trans (List.prefix_append _ _)
  have npre : ∀ (u w name v : Text), u <+: w → u.length ≤ (name ++ " = \"".toList).length → ¬ u <+: name ++ " = \"".toList →
      ¬ w <+: name ++ " = \"".toList ++ v ++ ['"'] := by
    intro u w name v hu hl h hp
    refine h ?_
    rw [List.append_assoc] at hp
    exact List.prefix_of_prefix_length_le (hu.trans hp) (List.prefix_append _ _) hl
  have nr : ∀ name v : Text, 5 ≤ (name ++ " = \"".toList).length → ¬ "git_r".toList <+: name ++ " = \"".toList →
      ¬ "git_refnames =".toList <+: name ++ " = \"".toList ++ v ++ ['"'] := fun name v h1 h2 => npre "git_r".toList _ _ _ (by decide) h1 h2
  have nf : ∀ name v : Text, 5 ≤ (name ++ " = \"".toList).length → ¬ "git_f".toList <+: name ++ " = \"".toList →
      ¬ "git_full =".toList <+: name ++ " = \"".toList ++ v ++ ['"'] := fun name v h1 h2 => npre "git_f".toList _ _ _ (by decide) h1 h2
  have nd : ∀ name v : Text, 5 ≤ (name ++ " = \"".toList).length → ¬ "git_d".toList <+: name ++ " = \"".toList →
      ¬ "git_date =".toList <+: name ++ " = \"".toList ++ v ++ ['"'] := fun name v h1 h2 => npre "git_d".toList _ _ _ (by decide) h1 h2
  have k1 : ∀ k, keywordLine k (keywordText "git_refnames".toList x) = { k with refnames := some x } := by
    intro k
    unfold keywordLine
    simp only [s1, qline "git_refnames".toList x (by decide) hx]
    simp only [if_pos (pre "git_refnames =".toList "git_refnames".toList x (by decide)), if_neg (nf "git_refnames".toList x (by decide) (by decide)),
      if_neg (nd "git_refnames".toList x (by decide) (by decide))]
  have k2 : ∀ k, keywordLine k (keywordText "git_full".toList y) = { k with full := some y } := by
    intro k
    unfold keywordLine
    simp only [s2, qline "git_full".toList y (by decide) hy]
    simp only [if_pos (pre "git_full =".toList "git_full".toList y (by decide)), if_neg (nr "git_full".toList y (by decide) (by decide)),
      if_neg (nd "git_full".toList y (by decide) (by decide))]
  have k3 : ∀ k, keywordLine k (keywordText "git_date".toList z) = { k with date := some z } := by
    intro k
    unfold keywordLine
    simp only [s3, qline "git_date".toList z (by decide) hz]
    simp only [if_pos (pre "git_date =".toList "git_date".toList z (by decide)), if_neg (nr "git_date".toList z (by decide) (by decide)),
      if_neg (nf "git_date".toList z (by decide) (by decide))]
  unfold getKeywords
  simp only [List.foldl_append, List.foldl_cons, List.foldl_nil]
  rw [fold before (fun l hl => hb l (by simp [hl])), k1, k2, k3, fold after (fun l hl => hb l (by simp [hl]))]

example : getKeywords (some ["def get_keywords():\n".toList, keywordText "git_refnames".toList "$Format:%d$".toList,
    keywordText "git_full".toList "$Format:%H$".toList, keywordText "git_date".toList "$Format:%ci$".toList, "    return keywords\n".toList]) = unexpanded :=
  C158_file _ _ _ (by decide) (by decide) (by decide) ["def get_keywords():\n".toList] ["    return keywords\n".toList] (by decide)

/-! ### C159: the version of the package -/

/-- The version of a checkout: the tag, and after it, unless this is a clean build of the tag, the distance, the name of the
commit and whether there are changes. -/
def Checkout.version (c : Checkout) : Text :=
  let rest := digits c.distance ++ ".g".toList ++ (if c.tag.isSome then c.hex else c.full.take 7) ++ (if c.dirty then ".dirty".toList else [])
  match c.tag with
  | some t => if c.distance = 0 ∧ c.dirty = false then t else t ++ (if '+' ∈ t then ['.'] else ['+']) ++ rest
  | none => "0+untagged.".toList ++ rest

theorem unexpanded_keywords (pre : Text) : fromKeywords unexpanded pre = .error .notThisMethod := by
  unfold fromKeywords unexpanded
  rw [if_neg (by simp)]
  simp only
  rw [if_pos (by decide)]

/-- **C159, a checkout.** In a checkout the version of the package is that of the checkout, with its full name, its state and its
date. -/
theorem C159_checkout (sh : Shell) (c : Checkout) (hc : c.Sound) (ha : Answers sh [] c) (path : Text) :
    getVersions unexpanded sh ["git".toList] (some path) =
      .ok ⟨Checkout.version c, some c.full, some c.dirty, none, some (c.day ++ ['T'] ++ c.time ++ c.zone)⟩ := by
  unfold getVersions
  rw [unexpanded_keywords]
  simp only
  rw [show tagPrefix = [] from rfl, C155_pieces sh [] c hc ha (fun t _ => List.nil_prefix)]
  have hr : ∀ p : Pieces, p.error = none → render p configStyle = .ok ⟨renderPep440 p, some p.long, some p.dirty, none, p.date⟩ := by
    intro p hp
    unfold render
    rw [hp]
    rfl
  simp only [Except.bind]
  rw [hr _ rfl]
  simp only
  congr 2
  unfold renderPep440 Checkout.version
  cases ht : c.tag with
  | none =>
    rw [someTag_none (by simp)]
    simp [dec_digits]
  | some t =>
    rw [someTag_some (t := t) (by simp) (hc.tag t ht).1]
    simp only [Option.isSome_some, if_true, dec_digits, plusOrDot]
    by_cases h : c.distance = 0 ∧ c.dirty = false
    · rw [if_pos h, if_neg (by simp [h.1, h.2])]
    · rw [if_neg h, if_pos (by
        by_contra hh
        simp only [not_or, ne_eq, not_not, Bool.not_eq_true] at hh
        exact h hh)]
      simp

example : getVersions unexpanded exShell ["git".toList] (some "/src/impactutils/_version.py".toList) =
    .ok ⟨"v1-2-gab-dirty+30.g0f3.dirty".toList, some "0f3aaaaaaa".toList, some true, none, some "2020-01-02T03:04:05+0000".toList⟩ := by
  rw [C159_checkout exShell exCheckout exCheckout_sound exShell_answers]
  decide

/-- **C159, an archive.** Where `git archive` has filled in the names of a commit with a tag, neither `git` nor the path matters. -/
theorem C159_archive (refs : List Ref) (full d : Text) (h : ∀ r ∈ refs, r.Sound) (ht : ∃ t, Ref.tag t ∈ refs) (hf : HexName full) :
    ∃ t, Ref.tag t ∈ refs ∧ (∀ u, Ref.tag u ∈ refs → t ≤ u) ∧ ∀ sh gits file,
      ∃ i, getVersions ⟨some (decoration refs), some full, some d⟩ sh gits file = .ok i ∧ i.version = t ∧ i.full = some full ∧ i.error = none := by
  have hr0 : refs ≠ [] := by
    rintro rfl
    simp at ht
  obtain ⟨f1, f2⟩ := find_sorted (tags := tagsOf (refs.map Ref.text)) (p := fun r => decide (([] : Text) <+: r))
  cases hx : (sortTags (tagsOf (refs.map Ref.text))).find? (fun r => decide (([] : Text) <+: r)) with
  | none =>
    obtain ⟨t, ht'⟩ := ht
    have := f2.1 hx t ((tagsOf_refs h ⟨t, ht'⟩ t).2 ht')
    simp at this
  | some r =>
    obtain ⟨g1, -, g3⟩ := f1 r hx
    refine ⟨r, (tagsOf_refs h ht r).1 g1, fun u hu => g3 u ((tagsOf_refs h ht u).2 hu) (by simp), fun sh gits file => ?_⟩
    have e := fromKeywords_find hr0 h full hf d [] r hx
    refine ⟨⟨r.drop 0, some full, some false, none, some (isoDate d)⟩, ?_, rfl, rfl, rfl⟩
    unfold getVersions
    rw [show tagPrefix = [] from rfl, e]
    rfl

/-! #### Unpacked sources -/

theorem baseName_up (d : Text) {w : Text} (h : '/' ∉ w) : Fs.baseName (d ++ '/' :: w) = w := by
  unfold Fs.baseName
  have e : (d ++ '/' :: w).reverse = w.reverse ++ '/' :: d.reverse := by simp
  rw [e, List.takeWhile_append_of_pos]
  · simp
  · intro x hx
    simp only [ne_eq, decide_not, Bool.not_eq_true', decide_eq_false_iff_not]
    rintro rfl
    exact h (by simpa using hx)

theorem dirName_up {d w : Text} (h : '/' ∉ w) (hd : d.getLast? ≠ some '/') (h0 : d ≠ []) : Fs.dirName (d ++ '/' :: w) = d := by
  unfold Fs.dirName
  have e : (d ++ '/' :: w).reverse = w.reverse ++ '/' :: d.reverse := by simp
  have e1 : (d ++ '/' :: w).reverse.dropWhile (fun x => decide (x ≠ '/')) = '/' :: d.reverse := by
    rw [e, List.dropWhile_append_of_pos]
    · simp
    · intro x hx
      simp only [ne_eq, decide_not, Bool.not_eq_true', decide_eq_false_iff_not]
      rintro rfl
      exact h (by simpa using hx)
  rw [e1]
  obtain ⟨l, y, rfl⟩ := List.eq_nil_or_concat d |>.resolve_left h0
  have hy : y ≠ '/' := by simpa using hd
  simp only [List.concat_eq_append, List.reverse_append, List.reverse_cons, List.reverse_nil, List.nil_append, List.singleton_append,
    List.reverse_reverse]
  rw [if_neg (by simp [hy])]
  simp [hy]

/-- A machine where this is not a git checkout, or `git` is not there. -/
def NoGit (sh : Shell) : Prop :=
  sh "git".toList ["rev-parse".toList, "--git-dir".toList] = .missing ∨ sh "git".toList ["rev-parse".toList, "--git-dir".toList] = .failed ∨
    ∃ out code, code ≠ 0 ∧ sh "git".toList ["rev-parse".toList, "--git-dir".toList] = .ran out code

theorem noGit_pieces {sh : Shell} (h : NoGit sh) (pre : Text) : gitPieces sh ["git".toList] pre = .error .notThisMethod := by
  unfold gitPieces
  rw [if_pos]
  unfold argsGitDir
  rcases h with h | h | ⟨out, code, h0, h⟩
  · simp only [runCommand, h]; simp
  · simp only [runCommand, h]; simp
  · simp only [runCommand, h, if_pos h0]; simp [h0]

/-- **C159, unpacked sources.** Where there is no git, the version is the rest of the name of the nearest of three directories
that begins with `impactutils-`: the root of the sources, the one above it, and the one above that. -/
theorem C159_unpacked (sh : Shell) (hn : NoGit sh) (d v : Text) (hv : '/' ∉ v) (up : List Text) (hu : up.length ≤ 2)
    (hup : ∀ w ∈ up, w ≠ [] ∧ '/' ∉ w ∧ ¬ "impactutils-".toList <+: w) :
    getVersions unexpanded sh ["git".toList] (some (d ++ "/impactutils-".toList ++ v ++ up.flatMap ('/' :: ·) ++ "/impactutils/_version.py".toList)) =
      .ok ⟨v, none, some false, none, none⟩ := by
  unfold getVersions
  rw [unexpanded_keywords]
  simp only
  rw [noGit_pieces hn]
  simp only [Except.bind]
  -- the root
  have hbase : ∀ l : Text, Fs.dirName (Fs.dirName (l ++ "/impactutils/_version.py".toList)) = l ∨ l = [] ∨ l.getLast? = some '/' := by
    intro l
    by_cases h0 : l = []
    · exact Or.inr (Or.inl h0)
    by_cases h1 : l.getLast? = some '/'
    · exact Or.inr (Or.inr h1)
    left
    have e : l ++ "/impactutils/_version.py".toList = (l ++ '/' :: "impactutils".toList) ++ '/' :: "_version.py".toList := by simp
    rw [e, dirName_up (by decide) (by rw [List.getLast?_append]; simp) (by simp), dirName_up (by decide) h1 h0]
  have hroot0 : '/' ∉ "impactutils-".toList ++ v := by
    simp only [List.mem_append, not_or]
    exact ⟨by decide, hv⟩
  have hlast : ∀ w : Text, w ≠ [] → '/' ∉ w → ∀ l : Text, (l ++ '/' :: w).getLast? ≠ some '/' ∧ l ++ '/' :: w ≠ [] := by
    intro w h0 h1 l
    obtain ⟨k, y, rfl⟩ := List.eq_nil_or_concat w |>.resolve_left h0
    refine ⟨?_, by simp⟩
    have e : l ++ '/' :: k.concat y = (l ++ '/' :: k) ++ [y] := by simp
    rw [e, List.getLast?_append]
    simp only [List.getLast?_singleton, Option.some_or, ne_eq, Option.some.injEq]
    rintro rfl
    exact h1 (by simp)
  have found : ∀ n l, fromParentLoop "impactutils-".toList (n + 1) (l ++ '/' :: ("impactutils-".toList ++ v)) = .ok ⟨v, none, some false, none, none⟩ := by
    intro n l
    unfold fromParentLoop
    rw [baseName_up l hroot0, if_pos (List.prefix_append _ _)]
    simp
  have step : ∀ n l w, w ≠ [] → '/' ∉ w → ¬ "impactutils-".toList <+: w → l.getLast? ≠ some '/' → l ≠ [] →
      fromParentLoop "impactutils-".toList (n + 1) (l ++ '/' :: w) = fromParentLoop "impactutils-".toList n l := by
    intro n l w h0 h1 h2 h3 h4
    conv_lhs => unfold fromParentLoop
    rw [baseName_up l h1, if_neg h2, dirName_up h1 h3 h4]
  have main : ∀ l : Text, l = d ++ "/impactutils-".toList ++ v ++ up.flatMap ('/' :: ·) →
      fromParentdir parentdirPrefix l = .ok ⟨v, none, some false, none, none⟩ ∧ l ≠ [] ∧ l.getLast? ≠ some '/' := by
    intro l hl
    have e : d ++ "/impactutils-".toList ++ v = d ++ '/' :: ("impactutils-".toList ++ v) := by simp
    obtain ⟨b1, b2⟩ := hlast ("impactutils-".toList ++ v) (by simp) hroot0 d
    rw [e] at hl
    unfold fromParentdir parentdirPrefix
    match up, hu, hup with
    | [], _, _ =>
      simp only [List.flatMap_nil, List.append_nil] at hl
      rw [hl]
      exact ⟨found 2 d, b2, b1⟩
    | [w], _, hup =>
      simp only [List.flatMap_cons, List.flatMap_nil, List.append_nil] at hl
      obtain ⟨w1, w2, w3⟩ := hup w (by simp)
      rw [hl]
      refine ⟨?_, (hlast w w1 w2 _).2, (hlast w w1 w2 _).1⟩
      rw [step 2 _ w w1 w2 w3 b1 b2]
      exact found 1 d
    | [w, x], _, hup =>
      simp only [List.flatMap_cons, List.flatMap_nil, List.append_nil] at hl
      obtain ⟨w1, w2, w3⟩ := hup w (by simp)
      obtain ⟨x1, x2, x3⟩ := hup x (by simp)
      rw [← List.append_assoc] at hl
      rw [hl]
      refine ⟨?_, (hlast x x1 x2 _).2, (hlast x x1 x2 _).1⟩
      rw [step 2 _ x x1 x2 x3 (hlast w w1 w2 _).1 (hlast w w1 w2 _).2, step 1 _ w w1 w2 w3 b1 b2]
      exact found 0 d
    | _ :: _ :: _ :: _, hu, _ => simp at hu
  generalize hL : d ++ "/impactutils-".toList ++ v ++ up.flatMap ('/' :: ·) = L
  obtain ⟨m1, m2, m3⟩ := main L hL.symm
  rcases hbase L with h | h | h
  · rw [h, m1]
  · exact absurd h m2
  · exact absurd h m3

example : getVersions unexpanded (fun _ _ => .missing) ["git".toList] (some "/tmp/impactutils-1.2/src/impactutils/_version.py".toList) =
    .ok ⟨"1.2".toList, none, some false, none, none⟩ :=
  C159_unpacked (fun _ _ => .missing) (Or.inl rfl) "/tmp".toList "1.2".toList (by decide) ["src".toList] (by decide) (by decide)

/-- **C159, when there is no version.** Without git and without such a directory the version is `0+unknown`, with an error; also
when the module has no file. -/
theorem C159_unknown (sh : Shell) (hn : NoGit sh) (gits : List Text) :
    (∃ i, getVersions unexpanded sh gits none = .ok i ∧ i.version = "0+unknown".toList ∧ i.error.isSome = true) ∧
    ∀ path, (∀ r ∈ [Fs.dirName (Fs.dirName path), Fs.dirName (Fs.dirName (Fs.dirName path)), Fs.dirName (Fs.dirName (Fs.dirName (Fs.dirName path)))],
        ¬ "impactutils-".toList <+: Fs.baseName r) →
      ∃ i, getVersions unexpanded sh ["git".toList] (some path) = .ok i ∧ i.version = "0+unknown".toList ∧ i.error.isSome = true := by
  refine ⟨?_, ?_⟩
  · unfold getVersions
    rw [unexpanded_keywords]
    exact ⟨_, rfl, rfl, rfl⟩
  · intro path h
    unfold getVersions
    rw [unexpanded_keywords]
    simp only
    rw [noGit_pieces hn]
    simp only [Except.bind]
    have : fromParentdir parentdirPrefix (Fs.dirName (Fs.dirName path)) = .error .notThisMethod := by
      unfold fromParentdir parentdirPrefix fromParentLoop
      rw [if_neg (h _ (by simp))]
      unfold fromParentLoop
      rw [if_neg (h _ (by simp))]
      unfold fromParentLoop
      rw [if_neg (h _ (by simp))]
      rfl
    rw [this]
    exact ⟨_, rfl, rfl, rfl⟩

theorem fromParentLoop_error (pre : Text) (n : ℕ) (root : Text) (e : Err) (h : fromParentLoop pre n root = .error e) : e = .notThisMethod := by
  induction n generalizing root with
  | zero => simpa [fromParentLoop] using h.symm
  | succ n ih =>
    unfold fromParentLoop at h
    split at h
    · simp at h
    · exact ih _ h

/-- **C159, exceptions.** Computing the version raises an exception only in three cases, in all of which `git` has described the
checkout: the number of commits cannot be had (`TypeError`), it is not a number (`ValueError`), or the date cannot be had
(`AttributeError`). -/
theorem C159_raises_partial (sh : Shell) (gits : List Text) (file : Option Text) (e : Err)
    (h : getVersions unexpanded sh gits file = .error e) :
    (∃ out, (runCommand sh (argsDescribe []) gits).1 = some out) ∧
    ((e = .typeError ∧ (runCommand sh argsCount gits).1 = none) ∨
     (e = .valueError ∧ ∃ out, (runCommand sh argsCount gits).1 = some out ∧ ¬ (out ≠ [] ∧ ∀ x ∈ out, x.isDigit = true)) ∨
     (e = .attributeError ∧ (runCommand sh argsShow gits).1 = none)) := by
  unfold getVersions at h
  rw [unexpanded_keywords] at h
  cases file with
  | none => simp at h
  | some path =>
    simp only at h
    rw [show tagPrefix = [] from rfl] at h
    have hr : ∀ p : Pieces, ∃ i, render p configStyle = .ok i := by
      intro p
      unfold render
      cases p.error with
      | none => exact ⟨_, rfl⟩
      | some e => exact ⟨_, rfl⟩
    cases hg : gitPieces sh gits [] with
    | ok p =>
      rw [hg] at h
      obtain ⟨i, hi⟩ := hr p
      simp only [Except.bind, hi] at h
      exact absurd h (by simp)
    | error e' =>
      rw [hg] at h
      have he : e' = e ∧ e' ≠ .notThisMethod := by
        simp only [Except.bind] at h
        cases e' with
        | notThisMethod =>
          simp only at h
          cases hp : fromParentdir parentdirPrefix (Fs.dirName (Fs.dirName path)) with
          | ok i => rw [hp] at h; simp at h
          | error e'' =>
            have := fromParentLoop_error _ _ _ _ hp
            rw [hp, this] at h
            simp at h
        | _ => exact ⟨by simpa using h, by simp⟩
      obtain ⟨rfl, hne⟩ := he
      unfold gitPieces at hg
      split at hg
      · simp only [Except.error.injEq] at hg; exact absurd hg.symm hne
      cases hd : (runCommand sh (argsDescribe []) gits).1 with
      | none => rw [hd] at hg; simp only [Except.error.injEq] at hg; exact absurd hg.symm hne
      | some out =>
        rw [hd] at hg
        simp only at hg
        cases hf : (runCommand sh argsHead gits).1 with
        | none => rw [hf] at hg; simp only [Except.error.injEq] at hg; exact absurd hg.symm hne
        | some f =>
          rw [hf] at hg
          simp only at hg
          refine ⟨⟨out, rfl⟩, ?_⟩
          have date : ∀ e, commitDate sh gits = .error e → e = .attributeError ∧ (runCommand sh argsShow gits).1 = none := by
            intro e he
            unfold commitDate at he
            cases hs : (runCommand sh argsShow gits).1 with
            | none => rw [hs] at he; exact ⟨by simpa using he.symm, rfl⟩
            | some d => rw [hs] at he; simp at he
          by_cases hh : '-' ∈ withoutDirty (Factory.strip out)
          · rw [if_pos hh] at hg
            cases hm : describeMatch (withoutDirty (Factory.strip out)) with
            | none => rw [hm] at hg; simp at hg
            | some tnh =>
              rw [hm] at hg
              simp only [List.nil_prefix, if_true] at hg
              cases hdt : commitDate sh gits with
              | ok d => rw [hdt] at hg; simp [Bind.bind, Except.bind] at hg
              | error e =>
                rw [hdt] at hg
                simp only [Bind.bind, Except.bind, Except.error.injEq] at hg
                subst hg
                exact Or.inr (Or.inr (date _ hdt))
          · rw [if_neg hh] at hg
            cases hn : pyInt (runCommand sh argsCount gits).1 with
            | error e =>
              rw [hn] at hg
              simp only [Bind.bind, Except.bind, Except.error.injEq] at hg
              subst hg
              unfold pyInt at hn
              cases hc : (runCommand sh argsCount gits).1 with
              | none => rw [hc] at hn; exact Or.inl ⟨by simpa using hn.symm, rfl⟩
              | some s =>
                rw [hc] at hn
                simp only at hn
                split at hn
                · simp at hn
                · rename_i hcond
                  refine Or.inr (Or.inl ⟨by simpa using hn.symm, s, rfl, ?_⟩)
                  simpa using hcond
            | ok n =>
              rw [hn] at hg
              cases hdt : commitDate sh gits with
              | ok d => rw [hdt] at hg; simp [Bind.bind, Except.bind] at hg
              | error e =>
                rw [hdt] at hg
                simp only [Bind.bind, Except.bind, Except.error.injEq] at hg
                subst hg
                exact Or.inr (Or.inr (date _ hdt))

/-- **C159, exceptions do happen.** `get_versions` is to return a default if it cannot compute a version; when `git show` fails
after `git describe` has worked there is an `AttributeError` instead, and the package cannot be imported. -/
theorem C159_raises_violated :
    ∃ sh : Shell, ∀ path, getVersions unexpanded sh ["git".toList] (some path) = .error .attributeError := by
  refine ⟨fun x args => if args = argsShow then .failed else exShell x args, fun path => ?_⟩
  have hp : gitPieces (fun x args => if args = argsShow then .failed else exShell x args) ["git".toList] tagPrefix = .error .attributeError := by
    decide +kernel
  unfold getVersions
  rw [unexpanded_keywords]
  simp only
  rw [hp]
  rfl

/-- **C159, sources in another checkout.** Sources unpacked in a directory `impactutils-1.2` within a checkout of another project
get the version of that project. -/
theorem C159_nested_violated (sh : Shell) (other : Checkout) (hc : other.Sound) (ha : Answers sh [] other) (ht : other.tag = some "7.0".toList)
    (d : Text) :
    ∃ i, getVersions unexpanded sh ["git".toList] (some (d ++ "/impactutils-1.2/impactutils/_version.py".toList)) = .ok i ∧
      "7.0".toList <+: i.version ∧ i.version ≠ "1.2".toList := by
  refine ⟨_, C159_checkout sh other hc ha _, ?_⟩
  have hp : "7.0".toList <+: Checkout.version other := by
    unfold Checkout.version
    rw [ht]
    simp only
    split
    · exact List.prefix_refl _
    · rw [List.append_assoc]; exact List.prefix_append _ _
  refine ⟨hp, ?_⟩
  intro h
  simp only at h
  rw [h] at hp
  revert hp; decide

example : NoGit (fun _ _ => .missing) ∧ NoGit (fun _ _ => .ran [] 128) :=
  ⟨Or.inl rfl, Or.inr (Or.inr ⟨[], 128, by decide, rfl⟩)⟩

end Verif.Props
