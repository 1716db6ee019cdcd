import Verif.Props.Version

/-!
# Rendered versions (C156, C157)
-/

namespace Verif.Props
open Verif.Version Verif.Spec
open Verif.Fs (Text)

/-! ### C155: examples -/

/-- A checkout three commits after the tag `v1-2-gab`, with changes. -/
def exCheckout : Checkout :=
  ⟨some "v1-2-gab-dirty".toList, 30, "0f3".toList, "0f3aaaaaaa".toList, true, "2020-01-02".toList, "03:04:05".toList, "+0000".toList⟩

theorem exCheckout_sound : exCheckout.Sound := by
  refine ⟨?_, ?_, ?_, ?_, ?_, ?_⟩
  · intro t ht
    simp only [exCheckout, Option.some.injEq] at ht
    subst ht
    unfold TagName
    decide
  all_goals
    first
    | (unfold HexName; decide)
    | decide

/-- A machine with `git` in this checkout. -/
def exShell : Shell := fun c args =>
  if c ≠ "git".toList then .missing
  else if args = argsGitDir then .ran ".git\n".toList 0
  else if args = argsDescribe [] then .ran "v1-2-gab-dirty-30-g0f3-dirty\n".toList 0
  else if args = argsHead then .ran "0f3aaaaaaa\n".toList 0
  else if args = argsShow then .ran "2020-01-02 03:04:05 +0000\n".toList 0
  else .failed

theorem exShell_answers : Answers exShell [] exCheckout := by
  refine ⟨⟨".git\n".toList, by decide⟩, by decide, by decide, ?_, by decide⟩
  intro h
  simp [exCheckout] at h

example : ∃ p, gitPieces exShell ["git".toList] [] = .ok p ∧ p.tag = some "v1-2-gab-dirty".toList ∧ p.distance = 30 ∧
    p.short = "0f3".toList ∧ p.dirty = true ∧ p.date = some "2020-01-02T03:04:05+0000".toList ∧
    renderPep440 p = "v1-2-gab-dirty+30.g0f3.dirty".toList :=
  ⟨_, C155_pieces exShell [] exCheckout exCheckout_sound exShell_answers (fun _ _ => List.nil_prefix), by decide⟩

example : ∃ p, gitPieces exShell ["git".toList] [] = .ok p ∧ renderDescribeLong p = "v1-2-gab-dirty-30-g0f3-dirty".toList := by
  obtain ⟨p, h1, h2, -⟩ := C155_describe exShell exCheckout exCheckout_sound exShell_answers (by simp [exCheckout])
  exact ⟨p, h1, by rw [h2]; decide⟩

/-- **C155, not for longer abbreviations.** In a checkout without tags where git abbreviates to eight digits, the styles that
should be like `git describe` give another name than `git describe` does. -/
theorem C155_abbreviation_violated :
    ∃ (sh : Shell) (c : Checkout), c.Sound ∧ Answers sh [] c ∧
      ∃ p, gitPieces sh ["git".toList] [] = .ok p ∧ renderDescribeLong p ≠ c.describeLong ∧ renderDescribe p ≠ c.describe := by
  let c : Checkout :=
    ⟨none, 5, "0f3aaaaa".toList, "0f3aaaaabb".toList, false, "2020-01-02".toList, "03:04:05".toList, "+0000".toList⟩
  let sh : Shell := fun x args =>
    if x ≠ "git".toList then .missing
    else if args = argsGitDir then .ran ".git\n".toList 0
    else if args = argsDescribe [] then .ran "0f3aaaaa\n".toList 0
    else if args = argsHead then .ran "0f3aaaaabb\n".toList 0
    else if args = argsCount then .ran "5\n".toList 0
    else if args = argsShow then .ran "2020-01-02 03:04:05 +0000\n".toList 0
    else .failed
  have hc : c.Sound := by
    refine ⟨by intro t ht; simp [c] at ht, ?_, ?_, ?_, ?_, ?_⟩
    all_goals
      first
      | (unfold HexName; decide)
      | decide
  have ha : Answers sh [] c := ⟨⟨".git\n".toList, by decide⟩, by decide, by decide, fun _ => by decide, by decide⟩
  exact ⟨sh, c, hc, ha, _, C155_pieces sh [] c hc ha (fun _ _ => List.nil_prefix), by decide, by decide⟩

/-! ### C156: the version tells what was built -/

theorem split_first {x : Char} {a b a' b' : Text} (h : x ∉ a) (h' : x ∉ a') (e : a ++ x :: b = a' ++ x :: b') : a = a' ∧ b = b' := by
  induction a generalizing a' with
  | nil =>
    cases a' with
    | nil => simpa using e
    | cons y a' =>
      simp only [List.nil_append, List.cons_append, List.cons.injEq] at e
      exact absurd e.1 (by simp only [List.mem_cons, not_or] at h'; exact h'.1)
  | cons z a ih =>
    cases a' with
    | nil =>
      simp only [List.nil_append, List.cons_append, List.cons.injEq] at e
      exact absurd e.1.symm (by simp only [List.mem_cons, not_or] at h; exact h.1)
    | cons y a' =>
      simp only [List.cons_append, List.cons.injEq] at e
      simp only [List.mem_cons, not_or] at h h'
      obtain ⟨e1, e2⟩ := ih h.2 h'.2 e.2
      exact ⟨by rw [e.1, e1], e2⟩

theorem hexName_no {h : Text} (hh : HexName h) {x : Char} (hx : isHex x = false) : x ∉ h := fun hm => by
  rw [hex_isHex hh x hm] at hx
  simp at hx

theorem dec_no {n : ℕ} {x : Char} (hx : x.isDigit = false) : x ∉ dec n := fun hm => by
  rw [dec_digit hm] at hx
  simp at hx

/-- The end of a local version determines the distance, the name of the commit and whether there are changes. -/
theorem tail_inj {m n : ℕ} {s t : Text} {d e : Bool} (hs : HexName s) (ht : HexName t)
    (h : dec m ++ ".g".toList ++ s ++ (if d then ".dirty".toList else []) = dec n ++ ".g".toList ++ t ++ (if e then ".dirty".toList else [])) :
    m = n ∧ s = t ∧ d = e := by
  have h' : dec m ++ '.' :: ('g' :: (s ++ (if d then ".dirty".toList else []))) =
      dec n ++ '.' :: ('g' :: (t ++ (if e then ".dirty".toList else []))) := by simpa using h
  obtain ⟨h1, h2⟩ := split_first (dec_no (by decide)) (dec_no (by decide)) h'
  simp only [List.cons.injEq, true_and] at h2
  refine ⟨dec_inj h1, ?_⟩
  have ns := hexName_no hs (x := '.') (by decide)
  have nt := hexName_no ht (x := '.') (by decide)
  cases d <;> cases e
  · simpa using h2
  · exfalso
    simp only [Bool.false_eq_true, if_false, if_true, List.append_nil] at h2
    exact ns (by rw [h2]; simp)
  · exfalso
    simp only [Bool.false_eq_true, if_false, if_true, List.append_nil] at h2
    exact nt (by rw [← h2]; simp)
  · simp only [if_true] at h2
    exact ⟨List.append_cancel_right h2, rfl⟩

/-- The tag, if there is one, is not empty and has no plus sign; the name of the commit is hexadecimal. -/
structure Plain (p : Pieces) : Prop where
  tag : ∀ t, p.tag = some t → t ≠ [] ∧ '+' ∉ t
  short : HexName p.short

/-- The parts of a version of the style `pep440`. -/
theorem pep440_form {p : Pieces} (hp : Plain p) :
    (∃ t, p.tag = some t ∧ '+' ∉ t ∧
      ((p.distance = 0 ∧ p.dirty = false ∧ renderPep440 p = t) ∨
        renderPep440 p = t ++ '+' :: (dec p.distance ++ ".g".toList ++ p.short ++ (if p.dirty then ".dirty".toList else [])))) ∨
    (p.tag = none ∧ renderPep440 p = ['0'] ++ '+' ::
      ("untagged.".toList ++ (dec p.distance ++ ".g".toList ++ p.short ++ (if p.dirty then ".dirty".toList else [])))) := by
  cases ht : p.tag with
  | none =>
    right
    refine ⟨rfl, ?_⟩
    unfold renderPep440
    rw [someTag_none ht]
    simp
  | some t =>
    left
    obtain ⟨h0, h1⟩ := hp.tag t ht
    refine ⟨t, rfl, h1, ?_⟩
    unfold renderPep440
    rw [someTag_some ht h0]
    simp only [plusOrDot, if_neg h1]
    by_cases h : p.distance ≠ 0 ∨ p.dirty = true
    · rw [if_pos h]
      right
      simp
    · rw [if_neg h]
      left
      simp only [not_or, ne_eq, not_not, Bool.not_eq_true] at h
      exact ⟨h.1, h.2, rfl⟩

/-- **C156, the default style identifies the build.** As long as tags have no plus sign, two builds with the same version have
the same tag (or both none), the same number of commits since it and the same state of changes; and they are the same commit,
unless they are clean builds of the tag itself. -/
theorem C156_identifies_partial (p q : Pieces) (hp : Plain p) (hq : Plain q) (h : renderPep440 p = renderPep440 q) :
    p.tag = q.tag ∧ p.distance = q.distance ∧ p.dirty = q.dirty ∧
      (p.short = q.short ∨ (p.tag.isSome = true ∧ p.distance = 0 ∧ p.dirty = false)) := by
  have hu : ∀ (n : ℕ) (a b : Text), dec n ++ a ≠ "untagged.".toList ++ b := by
    intro n a b e
    cases hx : dec n with
    | nil => exact dec_ne_nil n hx
    | cons x l =>
      have hd := dec_digit (n := n) (c := x) (by rw [hx]; simp)
      rw [hx] at e
      have hxu : x = 'u' := by
        have := congrArg List.head? e
        simpa using this
      subst hxu
      revert hd; decide
  have n0 : '+' ∉ ['0'] := by decide
  rcases pep440_form hp with ⟨t, ht, nt, ⟨d0, c0, e⟩ | e⟩ | ⟨ht, e⟩ <;>
    rcases pep440_form hq with ⟨t', ht', nt', ⟨d0', c0', e'⟩ | e'⟩ | ⟨ht', e'⟩
  · rw [e, e'] at h
    exact ⟨by rw [ht, ht', h], by rw [d0, d0'], by rw [c0, c0'], Or.inr ⟨by rw [ht]; rfl, d0, c0⟩⟩
  · rw [e, e'] at h
    exact absurd (by rw [h]; simp) nt
  · rw [e, e'] at h
    exact absurd (by rw [h]; simp) nt
  · rw [e, e'] at h
    exact absurd (by rw [← h]; simp) nt'
  · rw [e, e'] at h
    obtain ⟨h1, h2⟩ := split_first nt nt' h
    obtain ⟨h3, h4, h5⟩ := tail_inj hp.short hq.short h2
    exact ⟨by rw [ht, ht', h1], h3, h5, Or.inl h4⟩
  · rw [e, e'] at h
    obtain ⟨-, h2⟩ := split_first nt n0 h
    simp only [List.append_assoc] at h2
    exact absurd h2 (hu _ _ _)
  · rw [e, e'] at h
    exact absurd (by rw [← h]; simp) nt'
  · rw [e, e'] at h
    obtain ⟨-, h2⟩ := split_first n0 nt' h
    simp only [List.append_assoc] at h2
    exact absurd h2.symm (hu _ _ _)
  · rw [e, e'] at h
    obtain ⟨-, h2⟩ := split_first n0 n0 h
    obtain ⟨h3, h4, h5⟩ := tail_inj hp.short hq.short (List.append_cancel_left h2)
    exact ⟨by rw [ht, ht'], h3, h5, Or.inl h4⟩

/-- **C156, not with a plus sign in a tag.** A clean build of the tag `1+2.gab` and a build two commits after the tag `1`
have the same version. -/
theorem C156_plus_violated :
    ∃ p q : Pieces, HexName p.short ∧ HexName q.short ∧ renderPep440 p = renderPep440 q ∧ p.tag ≠ q.tag ∧ p.distance ≠ q.distance := by
  refine ⟨⟨"cd".toList, "cd".toList, none, false, some "1+2.gab".toList, 0, none⟩, ⟨"ab".toList, "ab".toList, none, false, some "1".toList, 2, none⟩, ?_⟩
  unfold HexName
  decide

/-- The styles. -/
def styles : List Text :=
  ["pep440".toList, "pep440-pre".toList, "pep440-post".toList, "pep440-old".toList, "git-describe".toList, "git-describe-long".toList]

/-- **C156, releases.** A clean build of a tag has the tag itself as its version, in every style but `git-describe-long`. -/
theorem C156_release (p : Pieces) (t : Text) (ht : p.tag = some t) (h0 : t ≠ []) (hd : p.distance = 0) (hc : p.dirty = false)
    (style : Text) (hs : style ∈ styles) (hl : style ≠ "git-describe-long".toList) : renderStyle p style = .ok t := by
  have e := someTag_some ht h0
  simp only [styles, List.mem_cons, List.not_mem_nil, or_false] at hs
  rcases hs with rfl | rfl | rfl | rfl | rfl | rfl
  · have : renderPep440 p = t := by simp [renderPep440, e, hd, hc]
    rw [← this]; rfl
  · have : renderPre p = t := by simp [renderPre, e, hd]
    rw [← this]; rfl
  · have : renderPost p = t := by simp [renderPost, e, hd, hc]
    rw [← this]; rfl
  · have : renderOld p = t := by simp [renderOld, e, hd, hc]
    rw [← this]; rfl
  · have : renderDescribe p = t := by simp [renderDescribe, e, hd, hc]
    rw [← this]; rfl
  · exact absurd rfl hl

/-- **C156, changes show.** In every style but `pep440-pre` a build with local changes has another version than the clean
build of the same commit. -/
theorem C156_changes (p q : Pieces) (ht : p.tag = q.tag) (hn : p.distance = q.distance) (hs : p.short = q.short)
    (hp : p.dirty = true) (hq : q.dirty = false) (style : Text) (hm : style ∈ styles) (hl : style ≠ "pep440-pre".toList) :
    renderStyle p style ≠ renderStyle q style := by
  have e : someTag p = someTag q := by unfold someTag; rw [ht]
  have key : ∀ a b : Text, a.length ≠ b.length → (Except.ok a : Except Err Text) ≠ .ok b := by
    intro a b h hab
    rw [Except.ok.injEq] at hab
    exact h (by rw [hab])
  simp only [styles, List.mem_cons, List.not_mem_nil, or_false] at hm
  rcases hm with rfl | rfl | rfl | rfl | rfl | rfl
  · refine key (renderPep440 p) (renderPep440 q) ?_
    unfold renderPep440
    rw [e, hp, hq, hn, hs]
    cases someTag q with
    | none => simp
    | some t =>
      simp only [or_true, if_true, Bool.false_eq_true, or_false, if_false]
      split <;> simp
  · exact absurd rfl hl
  · refine key (renderPost p) (renderPost q) ?_
    unfold renderPost
    rw [e, hp, hq, hn, hs]
    cases someTag q with
    | none => simp; omega
    | some t =>
      simp only [or_true, if_true, Bool.false_eq_true, or_false, if_false]
      split
      · simp; omega
      · simp
  · refine key (renderOld p) (renderOld q) ?_
    unfold renderOld
    rw [e, hp, hq, hn]
    cases someTag q with
    | none => simp
    | some t =>
      simp only [or_true, if_true, Bool.false_eq_true, or_false, if_false]
      split <;> simp
  · refine key (renderDescribe p) (renderDescribe q) ?_
    unfold renderDescribe
    rw [e, hp, hq, hn, hs]
    simp
  · refine key (renderDescribeLong p) (renderDescribeLong q) ?_
    unfold renderDescribeLong
    rw [e, hp, hq, hn, hs]
    simp

/-- **C156, the style that hides changes.** With `pep440-pre` a build of a release with local changes is called like the
release. -/
theorem C156_pre_violated (t : Text) (h : t ≠ []) :
    ∃ p : Pieces, p.dirty = true ∧ p.tag = some t ∧ renderStyle p "pep440-pre".toList = .ok t := by
  refine ⟨⟨[], [], none, true, some t, 0, none⟩, rfl, rfl, ?_⟩
  have : renderPre ⟨[], [], none, true, some t, 0, none⟩ = t := by
    unfold renderPre
    rw [someTag_some rfl h]
    simp
  show Except.ok (renderPre _) = _
  rw [this]

/-- **C156, other styles.** Any other style is a `ValueError`, except the empty one and `default`, which mean `pep440`. -/
theorem C156_style (p : Pieces) (style : Text) :
    (style ∈ styles → ∃ v, renderStyle p style = .ok v) ∧
    ((style = [] ∨ style = "default".toList) → renderStyle p style = renderStyle p "pep440".toList) ∧
    (style ∉ styles → style ≠ [] → style ≠ "default".toList → renderStyle p style = .error .valueError) := by
  refine ⟨?_, ?_, ?_⟩
  · intro h
    simp only [styles, List.mem_cons, List.not_mem_nil, or_false] at h
    rcases h with rfl | rfl | rfl | rfl | rfl | rfl
    exacts [⟨_, rfl⟩, ⟨_, rfl⟩, ⟨_, rfl⟩, ⟨_, rfl⟩, ⟨_, rfl⟩, ⟨_, rfl⟩]
  · rintro (rfl | rfl) <;> rfl
  · intro h h1 h2
    simp only [styles, List.mem_cons, List.not_mem_nil, or_false, not_or] at h
    unfold renderStyle
    simp only [if_neg (show ¬ (style = [] ∨ style = "default".toList) by simp only [h1, h2, or_self, not_false_eq_true])]
    simp only [h, if_false]

example : renderStyle ⟨[], "ab".toList, none, true, some "1.0".toList, 0, none⟩ "pep440".toList = .ok "1.0+0.gab.dirty".toList := by decide

/-! ### C157: the versions are versions -/

theorem intercalate_cons2 (a b : Text) (l : List Text) : ['.'].intercalate (a :: b :: l) = a ++ '.' :: ['.'].intercalate (b :: l) := by
  simp [List.intercalate, List.intersperse]

theorem intercalate_append {l m : List Text} (hl : l ≠ []) (hm : m ≠ []) :
    ['.'].intercalate (l ++ m) = ['.'].intercalate l ++ '.' :: ['.'].intercalate m := by
  induction l with
  | nil => exact absurd rfl hl
  | cons a l ih =>
    cases l with
    | nil =>
      cases m with
      | nil => exact absurd rfl hm
      | cons b m => simp only [List.singleton_append, intercalate_cons2]; simp [List.intercalate]
    | cons b l =>
      rw [List.cons_append, List.cons_append, intercalate_cons2, ← List.cons_append, ih (by simp), intercalate_cons2]
      simp

theorem mem_intercalate {x : Char} (l : List Text) (h : x ∈ ['.'].intercalate l) : x = '.' ∨ ∃ s ∈ l, x ∈ s := by
  induction l with
  | nil => simp [List.intercalate] at h
  | cons a l ih =>
    cases l with
    | nil => exact Or.inr ⟨a, by simp, by simpa [List.intercalate] using h⟩
    | cons b l =>
      rw [intercalate_cons2] at h
      simp only [List.mem_append, List.mem_cons] at h
      rcases h with h | h | h
      · exact Or.inr ⟨a, by simp, h⟩
      · exact Or.inl h
      · rcases ih h with h | ⟨s, h1, h2⟩
        · exact Or.inl h
        · exact Or.inr ⟨s, by simp at h1 ⊢; tauto, h2⟩

theorem public_no_plus {v : V440} (hv : v.Good) : '+' ∉ v.public := by
  have hd : ∀ n : ℕ, '+' ∉ digits n := fun n => by rw [← dec_digits]; exact dec_no (by decide)
  unfold V440.public
  simp only [List.mem_append, not_or]
  refine ⟨⟨⟨⟨?_, ?_⟩, ?_⟩, ?_⟩, ?_⟩
  · cases v.epoch with
    | none => simp
    | some n => simp only [List.mem_append, not_or]; exact ⟨hd n, by decide⟩
  · intro h
    rcases mem_intercalate _ h with h | ⟨s, h1, h2⟩
    · exact absurd h (by decide)
    · simp only [List.mem_map] at h1
      obtain ⟨n, -, rfl⟩ := h1
      exact hd n h2
  · cases hp : v.pre with
    | none => simp
    | some kn =>
      obtain ⟨k, n⟩ := kn
      have := hv.pre _ hp
      simp only [List.mem_append, not_or]
      refine ⟨?_, hd n⟩
      simp only [List.mem_cons, List.not_mem_nil, or_false] at this
      rcases this with rfl | rfl | rfl <;> decide
  · rcases v.post with _ | _ | n
    · simp
    · simp
    · simp only [List.mem_append, not_or]; exact ⟨by decide, hd n⟩
  · cases v.dev with
    | none => simp
    | some n => simp only [List.mem_append, not_or]; exact ⟨by decide, hd n⟩

/-- A local segment. -/
def Seg (s : Text) : Prop := s ≠ [] ∧ ∀ c ∈ s, c ∈ "0123456789abcdefghijklmnopqrstuvwxyz".toList

theorem hex_alnum {s : Text} (h : ∀ c ∈ s, isHex c = true) : ∀ c ∈ s, c ∈ "0123456789abcdefghijklmnopqrstuvwxyz".toList := by
  intro c hc
  have := isHex_mem (h c hc)
  have all : ∀ c ∈ "0123456789abcdef".toList, c ∈ "0123456789abcdefghijklmnopqrstuvwxyz".toList := by decide
  exact all c this

theorem seg_dec (n : ℕ) : Seg (dec n) := ⟨dec_ne_nil n, hex_alnum fun _ h => digit_isHex (dec_digit h)⟩

theorem seg_word (w s : Text) (hw : w ≠ [] ∧ ∀ c ∈ w, c ∈ "0123456789abcdefghijklmnopqrstuvwxyz".toList)
    (hs : ∀ c ∈ s, isHex c = true) : Seg (w ++ s) := by
  refine ⟨by simp [hw.1], ?_⟩
  intro c hc
  rcases List.mem_append.1 hc with h | h
  · exact hw.2 c h
  · exact hex_alnum hs c h

/-- Adding segments after a version: with a plus sign, or with a dot if there are segments already. -/
theorem add_segments {v : V440} (hv : v.Good) (segs : List Text) (h0 : segs ≠ []) (hs : ∀ s ∈ segs, Seg s) :
    IsPep440 (v.text ++ plusOrDot v.text ++ ['.'].intercalate segs) := by
  refine ⟨{ v with loc := v.loc ++ segs }, ⟨hv.release, hv.pre, ?_⟩, ?_⟩
  · intro s h
    rcases List.mem_append.1 h with h | h
    · exact hv.loc s h
    · exact hs s h
  · have hpub : V440.public { v with loc := v.loc ++ segs } = v.public := rfl
    unfold V440.text
    rw [hpub]
    by_cases hl : v.loc = []
    · have hp : plusOrDot v.public = ['+'] := by unfold plusOrDot; rw [if_neg (public_no_plus hv)]
      simp [hl, h0, hp]
    · have : '+' ∈ v.public ++ '+' :: ['.'].intercalate v.loc := by simp
      simp only [if_neg hl, if_neg (show ¬ (v.loc ++ segs = []) by simp [hl])]
      unfold plusOrDot
      rw [if_pos this, intercalate_append hl h0]
      simp

theorem text_ne_nil {v : V440} (hv : v.Good) : v.text ≠ [] := by
  intro h
  have h1 : v.public = [] := (List.append_eq_nil_iff.1 h).1
  unfold V440.public at h1
  simp only [List.append_eq_nil_iff] at h1
  obtain ⟨⟨⟨⟨-, h2⟩, -⟩, -⟩, -⟩ := h1
  cases hr : v.release with
  | nil => exact hv.release hr
  | cons n l =>
    rw [hr] at h2
    have hn : digits n ≠ [] := by rw [← dec_digits]; exact dec_ne_nil n
    cases l with
    | nil => simp [List.intercalate] at h2; exact hn h2
    | cons m l =>
      rw [List.map_cons, List.map_cons, intercalate_cons2] at h2
      simp at h2

/-- **C157, the default style.** If the tags are versions of PEP 440, so is every version the default style makes. -/
theorem C157_pep440 (p : Pieces) (hs : HexName p.short) (ht : ∀ t, p.tag = some t → IsPep440 t) : IsPep440 (renderPep440 p) := by
  have segs : ∀ w : List Text, (∀ s ∈ w, Seg s) →
      ∀ s ∈ w ++ (if p.dirty then [dec p.distance, ['g'] ++ p.short, "dirty".toList] else [dec p.distance, ['g'] ++ p.short]), Seg s := by
    intro w hw s hm
    rcases List.mem_append.1 hm with h | h
    · exact hw s h
    · have hg : Seg (['g'] ++ p.short) := seg_word _ _ (by decide) (hex_isHex hs)
      have hd : Seg "dirty".toList := by unfold Seg; decide
      split at h
      · simp only [List.mem_cons, List.not_mem_nil, or_false] at h
        rcases h with rfl | rfl | rfl
        exacts [seg_dec _, hg, hd]
      · simp only [List.mem_cons, List.not_mem_nil, or_false] at h
        rcases h with rfl | rfl
        exacts [seg_dec _, hg]
  cases htag : p.tag with
  | none =>
    have hv : V440.Good ⟨none, [0], none, none, none, []⟩ := ⟨by simp, by simp, by simp⟩
    have := add_segments hv ("untagged".toList :: (if p.dirty then [dec p.distance, ['g'] ++ p.short, "dirty".toList] else [dec p.distance, ['g'] ++ p.short]))
      (by simp) (by
        refine segs ["untagged".toList] ?_
        simp only [List.mem_singleton, forall_eq]
        unfold Seg; decide)
    convert this using 1
    unfold renderPep440
    rw [someTag_none htag]
    have e : V440.text ⟨none, [0], none, none, none, []⟩ = ['0'] := by decide
    rw [e]
    cases p.dirty <;> simp [plusOrDot, List.intercalate, List.intersperse]
  | some t =>
    obtain ⟨v, hv, rfl⟩ := ht t htag
    unfold renderPep440
    rw [someTag_some htag (text_ne_nil hv)]
    simp only
    split
    · have := add_segments hv (if p.dirty then [dec p.distance, ['g'] ++ p.short, "dirty".toList] else [dec p.distance, ['g'] ++ p.short])
        (by split <;> simp) (segs [] (by simp))
      convert this using 1
      cases p.dirty <;> simp [List.intercalate, List.intersperse]
    · exact ⟨v, hv, rfl⟩

/-- A version without segments, with a post-release and a development release put after it. -/
theorem add_post {v : V440} (hl : v.loc = []) (h1 : v.post = none) (h2 : v.dev = none) (post : Option ℕ) (dev : Option ℕ) :
    V440.text { v with post := some post, dev := dev } = v.text ++
      (match post with | some n => ".post".toList ++ digits n | none => ".post".toList) ++
      (match dev with | some n => ".dev".toList ++ digits n | none => []) := by
  unfold V440.text V440.public
  simp only [hl, h1, h2, if_true, List.append_nil]
  cases post <;> cases dev <;> simp

theorem plus_text {v : V440} (hv : v.Good) : '+' ∈ v.text ↔ v.loc ≠ [] := by
  unfold V440.text
  by_cases h : v.loc = []
  · simp [h, public_no_plus hv]
  · simp [h]

/-- A tag that is a version of PEP 440 and not itself a post-release or a development release. -/
def ReleaseTag (t : Text) : Prop := ∃ v : V440, v.Good ∧ v.post = none ∧ v.dev = none ∧ v.text = t

/-- **C157, the other styles.** If the tags are versions of PEP 440 that are neither post-releases nor development releases, the
versions of the styles `pep440-pre`, `pep440-post` and `pep440-old` are versions of PEP 440. -/
theorem C157_others_partial (p : Pieces) (hs : HexName p.short) (ht : ∀ t, p.tag = some t → ReleaseTag t) :
    IsPep440 (renderPre p) ∧ IsPep440 (renderPost p) ∧ IsPep440 (renderOld p) := by
  have hg : Seg (['g'] ++ p.short) := seg_word _ _ (by decide) (hex_isHex hs)
  have hpost : Seg ("post".toList ++ dec p.distance) := seg_word _ _ (by decide) fun _ h => digit_isHex (dec_digit h)
  have hdev : Seg ("dev".toList ++ dec p.distance) := seg_word _ _ (by decide) fun _ h => digit_isHex (dec_digit h)
  have hdev0 : Seg "dev0".toList := by unfold Seg; decide
  have hpost0 : Seg "post".toList := by unfold Seg; decide
  have d0 : digits 0 = ['0'] := by decide
  -- the parts that are put after a version `v` without post-release, development release
  have key : ∀ v : V440, v.Good → v.post = none → v.dev = none →
      IsPep440 (v.text ++ ".post.dev".toList ++ dec p.distance) ∧
      IsPep440 (v.text ++ ".post".toList ++ dec p.distance ++ (if p.dirty then ".dev0".toList else []) ++ plusOrDot v.text ++ ['g'] ++ p.short) ∧
      IsPep440 (v.text ++ ".post".toList ++ dec p.distance ++ (if p.dirty then ".dev0".toList else [])) := by
    intro v hv hvp hvd
    by_cases hl : v.loc = []
    · have hn : plusOrDot v.text = ['+'] := by
        unfold plusOrDot
        rw [if_neg (by rw [plus_text hv]; simp [hl])]
      let w : V440 := { v with post := some (some p.distance), dev := if p.dirty then some 0 else none }
      have hw : w.Good := ⟨hv.release, hv.pre, hv.loc⟩
      have ew : w.text = v.text ++ ".post".toList ++ dec p.distance ++ (if p.dirty then ".dev0".toList else []) := by
        have := add_post hl hvp hvd (some p.distance) (if p.dirty then some 0 else none)
        rw [show w.text = _ from this, dec_digits]
        cases p.dirty <;> simp [d0]
      refine ⟨⟨{ v with post := some none, dev := some p.distance }, ⟨hv.release, hv.pre, hv.loc⟩, ?_⟩, ?_, ⟨w, hw, ew⟩⟩
      · rw [add_post hl hvp hvd none (some p.distance), dec_digits]
        simp
      · have := add_segments hw [['g'] ++ p.short] (by simp) (by simpa using hg)
        have hn' : plusOrDot w.text = ['+'] := by
          unfold plusOrDot
          rw [if_neg (by rw [plus_text hw]; simp [w, hl])]
        rw [hn', ew] at this
        rw [hn]
        convert this using 1
        simp [List.intercalate]
    · have hn : plusOrDot v.text = ['.'] := by
        unfold plusOrDot
        rw [if_pos (by rw [plus_text hv]; exact hl)]
      refine ⟨?_, ?_, ?_⟩
      · have := add_segments hv ["post".toList, "dev".toList ++ dec p.distance] (by simp) (by
          simp only [List.mem_cons, List.not_mem_nil, or_false, forall_eq_or_imp, forall_eq]
          exact ⟨hpost0, hdev⟩)
        rw [hn] at this
        convert this using 1
        simp [List.intercalate, List.intersperse]
      · rw [hn]
        cases p.dirty with
        | true =>
          have := add_segments hv ["post".toList ++ dec p.distance, "dev0".toList, ['g'] ++ p.short] (by simp) (by
            simp only [List.mem_cons, List.not_mem_nil, or_false, forall_eq_or_imp, forall_eq]
            exact ⟨hpost, hdev0, hg⟩)
          rw [hn] at this
          convert this using 1
          simp [List.intercalate, List.intersperse]
        | false =>
          have := add_segments hv ["post".toList ++ dec p.distance, ['g'] ++ p.short] (by simp) (by
            simp only [List.mem_cons, List.not_mem_nil, or_false, forall_eq_or_imp, forall_eq]
            exact ⟨hpost, hg⟩)
          rw [hn] at this
          convert this using 1
          simp [List.intercalate, List.intersperse]
      · cases p.dirty with
        | true =>
          have := add_segments hv ["post".toList ++ dec p.distance, "dev0".toList] (by simp) (by
            simp only [List.mem_cons, List.not_mem_nil, or_false, forall_eq_or_imp, forall_eq]
            exact ⟨hpost, hdev0⟩)
          rw [hn] at this
          convert this using 1
          simp [List.intercalate, List.intersperse]
        | false =>
          have := add_segments hv ["post".toList ++ dec p.distance] (by simp) (by simpa using hpost)
          rw [hn] at this
          convert this using 1
          simp [List.intercalate]
  cases htag : p.tag with
  | none =>
    have hv : V440.Good ⟨none, [0], none, none, none, []⟩ := ⟨by simp, by simp, by simp⟩
    obtain ⟨k1, k2, k3⟩ := key _ hv rfl rfl
    have e : V440.text ⟨none, [0], none, none, none, []⟩ = ['0'] := by decide
    have e' : plusOrDot ['0'] = ['+'] := by decide
    rw [e] at k1 k2 k3
    rw [e'] at k2
    unfold renderPre renderPost renderOld
    simp only [someTag_none htag]
    exact ⟨by simpa using k1, by simpa using k2, by simpa using k3⟩
  | some t =>
    obtain ⟨v, hv, h1, h2, rfl⟩ := ht t htag
    obtain ⟨k1, k2, k3⟩ := key v hv h1 h2
    have hself : IsPep440 v.text := ⟨v, hv, rfl⟩
    unfold renderPre renderPost renderOld
    simp only [someTag_some htag (text_ne_nil hv)]
    refine ⟨?_, ?_, ?_⟩
    · split
      exacts [k1, hself]
    · split
      exacts [k2, hself]
    · split
      exacts [k3, hself]

/-- How often a letter occurs before the plus sign of a version: the `p` of `.post` is the only one. -/
theorem count_p {v : V440} (hv : v.Good) : v.public.count 'p' ≤ 1 := by
  have hd : ∀ n : ℕ, (digits n).count 'p' = 0 := fun n => by
    rw [← dec_digits]
    exact List.count_eq_zero.2 (dec_no (by decide))
  have hr : (['.'].intercalate (v.release.map (fun n : ℕ => digits n))).count 'p' = 0 := by
    refine List.count_eq_zero.2 fun h => ?_
    rcases mem_intercalate _ h with h | ⟨s, h1, h2⟩
    · exact absurd h (by decide)
    · simp only [List.mem_map] at h1
      obtain ⟨n, -, rfl⟩ := h1
      exact List.count_eq_zero.1 (hd n) h2
  have hk : ∀ x, v.pre = some x → x.1.count 'p' = 0 := by
    rintro ⟨k, n⟩ hp
    have := hv.pre _ hp
    simp only [List.mem_cons, List.not_mem_nil, or_false] at this
    simp only
    rcases this with rfl | rfl | rfl <;> decide
  unfold V440.public
  simp only [List.count_append, hr]
  rcases v.epoch with _ | e <;> rcases hp : v.pre with _ | ⟨k, m⟩ <;> rcases v.post with _ | _ | n <;> rcases v.dev with _ | d <;>
    simp [hd] <;> (have := hk _ hp; simp only at this; omega)

/-- **C157, not for post-releases.** Two commits after the tag `1.0.post1` the versions of the styles `pep440-post` and
`pep440-old` are not versions of PEP 440, although the tag is one. -/
theorem C157_post_violated :
    ∃ p : Pieces, HexName p.short ∧ (∀ t, p.tag = some t → IsPep440 t) ∧ ¬ IsPep440 (renderPost p) ∧ ¬ IsPep440 (renderOld p) := by
  have no : ∀ t : Text, 2 ≤ (t.takeWhile (· ≠ '+')).count 'p' → ¬ IsPep440 t := by
    rintro t h ⟨v, hv, rfl⟩
    have hc := count_p hv
    have hn := public_no_plus hv
    have : v.text.takeWhile (· ≠ '+') = v.public := by
      unfold V440.text
      rw [List.takeWhile_append_of_pos]
      · split <;> simp
      · intro x hx
        simp only [ne_eq, decide_not, Bool.not_eq_true', decide_eq_false_iff_not]
        rintro rfl
        exact hn hx
    rw [this] at h
    omega
  refine ⟨⟨"ab".toList, "ab".toList, none, false, some "1.0.post1".toList, 2, none⟩, by unfold HexName; decide, ?_, no _ (by decide), no _ (by decide)⟩
  intro t ht
  simp only [Option.some.injEq] at ht
  subst ht
  exact ⟨⟨none, [1, 0], none, some (some 1), none, []⟩, ⟨by simp, by simp, by simp⟩, by decide⟩

example : IsPep440 "1.2rc1+3.gab.dirty".toList := by
  have := C157_pep440 ⟨"ab".toList, "ab".toList, none, true, some "1.2rc1".toList, 3, none⟩ (by unfold HexName; decide) (by
    intro t ht
    simp only [Option.some.injEq] at ht
    subst ht
    exact ⟨⟨none, [1, 2], some ("rc".toList, 1), none, none, []⟩, ⟨by simp, by simp, by simp⟩, by decide⟩)
  have e : renderPep440 ⟨"ab".toList, "ab".toList, none, true, some "1.2rc1".toList, 3, none⟩ = "1.2rc1+3.gab.dirty".toList := by decide
  rwa [e] at this

example : ReleaseTag "1.2+x".toList :=
  ⟨⟨none, [1, 2], none, none, none, ["x".toList]⟩, ⟨by simp, by simp, by simp⟩, rfl, rfl, by decide⟩

example : Plain ⟨"ab".toList, "ab".toList, none, true, some "1.2".toList, 3, none⟩ := by
  refine ⟨?_, by unfold HexName; decide⟩
  intro t ht
  simp only [Option.some.injEq] at ht
  subst ht
  decide

end Verif.Props
