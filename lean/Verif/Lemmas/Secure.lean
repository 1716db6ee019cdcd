import Verif.Lemmas.Sender
import Verif.Spec.Remote
import Verif.Props.ScpQuote
import Verif.Props.CopySender

/-!
# Lemmas about the secure sender
-/

namespace Verif.Secure
open Verif.Fs Verif.Sender Verif.Spec Verif.Props

/-! ### Words -/

theorem shellSafe_safe {s : Text} (h : ShellSafe s) : ∀ c ∈ s,
    ¬ (c = ' ' ∨ c = '\t') ∧ c ≠ '\'' ∧ c ≠ '"' ∧ c ≠ '\\' ∧ c ≠ '#' ∧ c ≠ '~' ∧ c ∉ shellSpecial := by
  intro c hc
  have key : ∀ d ∈ [' ', '\t', '\'', '"', '\\', '#', '~'] ++ shellSpecial,
      ¬ (d.isAlphanum = true ∨ d ∈ ['/', '.', '_', '-', '+', '=', ',']) := by decide +kernel
  have hne : c ∉ [' ', '\t', '\'', '"', '\\', '#', '~'] ++ shellSpecial := fun hm => key c hm (h c hc)
  simp only [List.cons_append, List.nil_append, List.mem_cons, not_or] at hne
  obtain ⟨h1, h2, h3, h4, h5, h6, h7, h8⟩ := hne
  exact ⟨by simp [h1, h2], h3, h4, h5, h6, h7, h8⟩

theorem lex_shellSafe {home : Text} {s : Text} (h : ShellSafe s) (w : Text) :
    lex home .unquoted (some w) s = some [w ++ s] := by
  induction s generalizing w with
  | nil => simp [lex]
  | cons c s ih =>
    obtain ⟨h1, h2, h3, h4, h5, h6, h7⟩ := shellSafe_safe h c (by simp)
    rw [lex, if_neg h1, if_neg h2, if_neg h3, if_neg h4, if_neg (by simp), if_neg (by simp), if_neg h7,
      ih (fun c hc => h c (by simp [hc]))]
    simp

theorem word {home : Text} {s : Text} (h : ShellSafe s) (hn : s ≠ []) : shellWords home s = some [s] := by
  cases s with
  | nil => exact absurd rfl hn
  | cons c s =>
    obtain ⟨h1, h2, h3, h4, h5, h6, h7⟩ := shellSafe_safe h c (by simp)
    rw [shellWords, lex, if_neg h1, if_neg h2, if_neg h3, if_neg h4, if_neg (by simp [h6]),
      if_neg (by simp [h5]), if_neg h7, lex_shellSafe (fun c hc => h c (by simp [hc]))]
    simp

theorem absolute_ne {s : Text} (h : Absolute s) : s ≠ [] := by
  rintro rfl; simp [Absolute] at h

theorem words_rm {home s : Text} (h : ShellSafe s) (ha : Absolute s) :
    shellWords home ("rm ".toList ++ s) = some ["rm".toList, s] :=
  shellWords_append (pre := "rm".toList) (word (by unfold ShellSafe; decide) (by decide))
    (word h (absolute_ne ha))

theorem words_mkdir {home s : Text} (h : ShellSafe s) (ha : Absolute s) :
    shellWords home ("mkdir -p ".toList ++ s) = some ["mkdir".toList, "-p".toList, s] := by
  have h1 := shellWords_append (home := home) (pre := "mkdir".toList) (s := "-p".toList)
    (word (by unfold ShellSafe; decide) (by decide)) (word (by unfold ShellSafe; decide) (by decide))
  have := shellWords_append h1 (word (home := home) h (absolute_ne ha))
  exact this

theorem words_mv {home s t : Text} (h : ShellSafe s) (ha : Absolute s) (h' : ShellSafe t)
    (ha' : Absolute t) :
    shellWords home ("mv ".toList ++ s ++ ' ' :: t) = some ["mv".toList, s, t] := by
  have h1 := shellWords_append (home := home) (pre := "mv".toList) (s := s)
    (word (by unfold ShellSafe; decide) (by decide)) (word h (absolute_ne ha))
  have := shellWords_append h1 (word (home := home) h' (absolute_ne ha'))
  exact this

theorem safe_append {s t : Text} (h : ShellSafe s) (h' : ShellSafe t) : ShellSafe (s ++ t) := by
  intro c hc
  rcases List.mem_append.1 hc with hc | hc
  · exact h c hc
  · exact h' c hc

theorem safe_sub {s t : Text} (h : ShellSafe s) (hs : t ⊆ s) : ShellSafe t := fun c hc => h c (hs hc)

theorem safe_slash : ShellSafe ['/'] := by unfold ShellSafe; decide

theorem safe_join {a b : Text} (h : ShellSafe a) (h' : ShellSafe b) : ShellSafe (join a b) := by
  unfold join
  split
  · exact h'
  · split
    · exact safe_append h h'
    · exact safe_append h (safe_append (s := ['/']) safe_slash h')

theorem safe_joins {ws : List Text} (h : ∀ w ∈ ws, ShellSafe w) : ∀ {a : Text}, ShellSafe a →
    ShellSafe (joins a ws) := by
  induction ws with
  | nil => intro a ha; exact ha
  | cons w ws ih =>
    intro a ha
    simp only [joins, List.foldl_cons]
    exact ih (fun x hx => h x (by simp [hx])) (safe_join ha (h w (by simp)))

theorem mem_of_mem_split {s w : Text} (h : w ∈ split s) : w ⊆ s := by
  induction s generalizing w with
  | nil => simp [split_nil] at h; subst h; simp
  | cons c s ih =>
    by_cases hc : c = '/'
    · subst hc
      have : split ('/' :: s) = [] :: split s := by
        have := split_append [] s
        simpa [split_nil] using this
      rw [this] at h
      rcases List.mem_cons.1 h with rfl | h
      · simp
      · exact fun x hx => List.mem_cons_of_mem _ (ih h hx)
    · unfold split at *
      rw [Hdf.splitSlash] at h
      simp only [hc, if_false] at h
      cases hs : Hdf.splitSlash s with
      | nil =>
        rw [hs] at h
        simp at h
        subst h
        simp
      | cons v vs =>
        rw [hs] at h ih
        rcases List.mem_cons.1 h with rfl | h
        · exact List.cons_subset_cons _ (ih (by simp))
        · exact fun x hx => List.mem_cons_of_mem _ (ih (by simp [h]) hx)

theorem strip_subset (s : Text) : strip s ⊆ s := by
  intro c hc
  unfold strip at hc
  simp only [List.mem_reverse] at hc
  have := (List.dropWhile_suffix _).subset hc
  simp only [List.mem_reverse] at this
  exact (List.dropWhile_suffix _).subset this

theorem dirName_subset (s : Text) : dirName s ⊆ s := by
  intro c hc
  have key : ∀ x, x ∈ (s.reverse.dropWhile (· ≠ '/')).reverse → x ∈ s := by
    intro x hx
    simp only [List.mem_reverse] at hx
    simpa using (List.dropWhile_suffix _).subset hx
  unfold dirName at hc
  simp only at hc
  split at hc
  · exact key c hc
  · simp only [List.mem_reverse] at hc
    exact key c (by simpa using (List.dropWhile_suffix _).subset hc)

/-- The text of a target: absolute, safe, and made of a folder and a name. -/
structure Target (t : Text) (p : Path) : Prop where
  safe : ShellSafe t
  split : ∃ a w, t = join a w ∧ PlainWord w ∧ Absolute a ∧ p = parts a ++ [w]

theorem Target.absolute {t : Text} {p : Path} (h : Target t p) : Absolute t := by
  obtain ⟨a, w, rfl, hw, ha, -⟩ := h.split
  unfold Absolute
  rw [head?_join (plain_head hw) (absolute_ne ha)]
  exact ha

theorem Target.parts {t : Text} {p : Path} (h : Target t p) : parts t = p := by
  obtain ⟨a, w, rfl, hw, ha, rfl⟩ := h.split
  rw [parts_join (plain_head hw), parts_word hw]

theorem Target.ne {t : Text} {p : Path} (h : Target t p) : p ≠ [] := by
  obtain ⟨a, w, rfl, hw, ha, rfl⟩ := h.split
  simp

theorem stamp_safe {env : Env} (henv : env.Ok) (i : ℕ) : ShellSafe (suffix env i) := by
  unfold suffix
  refine safe_append (by unfold ShellSafe; decide) ?_
  intro c hc
  have := henv.stamp i c hc
  left
  simp [Char.isAlphanum, this]

theorem Target.tmp {env : Env} (henv : env.Ok) (i : ℕ) {t : Text} {p : Path} (h : Target t p) :
    ShellSafe (tmpName env i t) ∧ Absolute (tmpName env i t) ∧
    Fs.parts (tmpName env i t) = tmpPath env i p := by
  have e : tmpName env i t = t ++ suffix env i := by simp [tmpName, suffix]
  have ha' : Absolute (tmpName env i t) := by
    unfold Absolute
    rw [e, List.head?_append_of_ne_nil _ (absolute_ne h.absolute)]
    exact h.absolute
  refine ⟨by rw [e]; exact safe_append h.safe (stamp_safe henv i), ha', ?_⟩
  obtain ⟨a, w, rfl, hw, ha, rfl⟩ := h.split
  rw [tmpPath_append, ← resolve_absolute [] ha', e,
    resolve_join_ext [] hw (suffix_no_slash henv i) (plain_ext i), resolve_absolute [] ha]

/-- The folder of a target. -/
theorem Target.folder {t : Text} {p : Path} (h : Target t p) :
    ShellSafe (dirName t) ∧ Absolute (dirName t) ∧ Fs.parts (dirName t) = p.dropLast := by
  refine ⟨safe_sub h.safe (dirName_subset t), ?_, ?_⟩
  · have hab := h.absolute
    unfold Absolute at hab ⊢
    cases t with
    | nil => simp at hab
    | cons c t =>
      simp only [List.head?_cons, Option.some.injEq] at hab
      subst hab
      have hh : ∃ r, (('/' :: t).reverse.dropWhile (· ≠ '/')).reverse = '/' :: r := by
        rw [List.reverse_cons]
        cases hd : t.reverse.dropWhile (· ≠ '/') with
        | nil =>
          rw [List.dropWhile_append_of_pos (by
            have := List.dropWhile_eq_nil_iff.1 hd
            exact fun x hx => this x hx)]
          exact ⟨[], by simp⟩
        | cons x xs =>
          rw [List.dropWhile_append, hd]
          simp
      obtain ⟨r, hr⟩ := hh
      unfold dirName
      simp only
      rw [hr]
      split
      · rfl
      · rename_i hn
        rw [head?_rstrip hn]
        rfl
  · obtain ⟨a, w, rfl, hw, ha, rfl⟩ := h.split
    rw [List.dropLast_concat, ← resolve_absolute [] ha]
    have : Fs.parts (dirName (join a w)) = resolve [] (dirName (join a w)) := by
      unfold resolve; split <;> simp
    rw [this, resolve_dirName_join [] hw]

/-- Targets of listed files. -/
theorem target_listed {remote : Text} (ha : Absolute remote) (hs : ShellSafe remote) {w : Text}
    (hw : PlainWord w) (hws : ShellSafe w) : Target (join remote w) (parts remote ++ [w]) :=
  ⟨safe_join hs hws, remote, w, rfl, hw, ha, rfl⟩

/-- Targets of files of the directory. -/
theorem target_dir {remote d : Text} (hs : ShellSafe remote) (hd : d ≠ []) {rel : List Text}
    (h : ∀ w ∈ rel, PlainWord w ∧ ShellSafe w) (hn : rel ≠ [])
    (hrec : ¬ d <:+: (joins d rel).drop d.length) :
    Target (dirTarget remote d (joins d rel)) (parts remote ++ rel) := by
  have hp : ∀ w ∈ rel, PlainWord w := fun w hw => (h w hw).1
  rw [dirTarget_eq hd hp hn hrec]
  obtain ⟨r, w, rfl⟩ : ∃ r w, rel = r ++ [w] :=
    ⟨rel.dropLast, rel.getLast hn, (List.dropLast_append_getLast hn).symm⟩
  have hw : PlainWord w := hp w (by simp)
  have hr : ∀ x ∈ r, PlainWord x := fun x hx => hp x (by simp [hx])
  have hj : joins ['/'] (pieces remote (r ++ [w])) = join (joins ['/'] (pieces remote r)) w := by
    simp [joins, pieces, List.foldl_append]
  have hab : Absolute (joins ['/'] (pieces remote r)) := by
    unfold Absolute
    rw [(joins_head (by simp) (pieces_no_slash hr)).1]; rfl
  refine ⟨?_, joins ['/'] (pieces remote r), w, hj, hw, hab, ?_⟩
  · refine safe_joins ?_ safe_slash
    intro x hx
    rcases List.mem_append.1 hx with hx | hx
    · exact safe_sub hs (fun c hc => strip_subset _ (mem_of_mem_split hx hc))
    · exact (h x hx).2
  · rw [← resolve_absolute [] hab, resolve_pieces [] hr, List.append_assoc]

/-! ### Commands -/

theorem test_e {home : Text} {m : Machine} (hm : Unix home m) (fs : FS) {p : Text} (hs : ShellSafe p)
    (ha : Absolute p) : ∃ b : Bool, test m fs 'e' p = ⟨[fs], fs, .ok b⟩ ∧
      (b = true ↔ (get fs (parts p)).isSome ∨ parts p = []) := by
  have := hm.exists_ fs p p (word hs (absolute_ne ha)) ha
  have e : testCmd 'e' p = "[ -e ".toList ++ p ++ " ]".toList := rfl
  refine ⟨(if (get fs (parts p)).isSome ∨ parts p = [] then 0 else 1) == 0, ?_, ?_⟩
  · unfold test command
    rw [e, this]
    rfl
  · by_cases h : (get fs (parts p)).isSome ∨ parts p = [] <;> simp [h]

theorem test_d {home : Text} {m : Machine} (hm : Unix home m) (fs : FS) {p : Text} (hs : ShellSafe p)
    (ha : Absolute p) : test m fs 'd' p = ⟨[fs], fs, .ok (isDir fs (parts p))⟩ := by
  have := hm.isDir_ fs p p (word hs (absolute_ne ha)) ha
  have e : testCmd 'd' p = "[ -d ".toList ++ p ++ " ]".toList := rfl
  unfold test command
  rw [e, this]
  cases isDir fs (parts p) <;> rfl

theorem checkFolder_eq {home : Text} {m : Machine} (hm : Unix home m) (fs : FS) {p : Text}
    (hs : ShellSafe p) (ha : Absolute p) : ∃ b : Bool,
    checkFolder m fs p = ⟨[fs, fs], fs, .ok (b, isDir fs (parts p))⟩ ∧
      (b = true ↔ (get fs (parts p)).isSome ∨ parts p = []) := by
  obtain ⟨b, h1, h2⟩ := test_e hm fs hs ha
  refine ⟨b, ?_, h2⟩
  unfold checkFolder
  rw [h1]
  simp only [andThen, test_d hm fs hs ha, done]
  rfl

/-- Every state of a run satisfies an invariant, if the first does. -/
def Keeps {α : Type} (I : FS → Prop) (fs : FS) (r : Run α) : Prop := I fs → ∀ s, Visits r s → I s

theorem keeps_done {α : Type} {I : FS → Prop} {fs : FS} (a : α) : Keeps I fs (done fs a) := by
  intro h s hs
  rw [visits_done hs]; exact h

theorem keeps_fail {α : Type} {I : FS → Prop} {fs : FS} : Keeps I fs (fail (α := α) fs) := by
  intro h s hs
  rcases hs with hs | rfl
  · cases hs
  · exact h

theorem keeps_andThen {α β : Type} {I : FS → Prop} {fs : FS} {r : Run α} {f : FS → α → Run β}
    (h1 : Keeps I fs r) (h2 : ∀ a, r.out = .ok a → Keeps I r.fs (f r.fs a)) :
    Keeps I fs (andThen r f) := by
  intro h s hs
  rcases visits_andThen hs with hs | ⟨a, ha, hs⟩
  · exact h1 h s hs
  · exact h2 a ha (h1 h _ (Or.inr rfl)) s hs

theorem keeps_command {I : FS → Prop} {m : Machine} {fs : FS} {cmd : Text}
    (h : I fs → I (m.run fs cmd).1) : Keeps I fs (command m fs cmd) := by
  intro hI s hs
  rcases hs with hs | rfl
  · have : s = (m.run fs cmd).1 := by simpa [command] using hs
    rw [this]; exact h hI
  · exact h hI

theorem keeps_check {home : Text} {m : Machine} (hm : Unix home m) {I : FS → Prop} (fs : FS) {p : Text}
    (hs : ShellSafe p) (ha : Absolute p) : Keeps I fs (checkFolder m fs p) := by
  obtain ⟨b, h1, -⟩ := checkFolder_eq hm fs hs ha
  rw [h1]
  intro hI s hv
  have : s = fs := by
    rcases hv with hv | hv
    · simpa using hv
    · exact hv
  rw [this]; exact hI

/-- The invariant of safety. -/
structure Safe (cwd : Path) (c : Config) (loc rem : FS) (s : FS) : Prop where
  files : ∀ q, contents s q = contents rem q ∨ (TempPath q ∧ parts c.remote <+: q) ∨
    (∃ b, Sends cwd c loc q b ∧ contents s q = some b) ∨
    (Folder cwd c loc q ∧ contents s q = none)
  temp : NoTempDirs c s

theorem sends_target {cwd : Path} {c : Config} {loc : FS} (hp : Plain cwd c loc) {p : Path} {b : Bytes}
    (h : Sends cwd c loc p b) : ∃ rel, rel ≠ [] ∧ p = parts c.remote ++ rel ∧
      ∀ w ∈ rel, PlainWord w ∧ ShellSafe w ∧ ¬ TempWord w := by
  rcases h with ⟨d, rel, hd, hn, hb, rfl⟩ | ⟨f, hf, hb, rfl⟩
  · exact ⟨rel, hn, by rw [resolve_absolute cwd hp.absolute],
      hp.names d rel ⟨hd, hn, by simp [hb]⟩⟩
  · exact ⟨[baseName f], by simp, by rw [resolve_absolute cwd hp.absolute], by
      intro w hw
      simp only [List.mem_singleton] at hw
      subst hw
      exact hp.listed f hf⟩

theorem folder_words {cwd : Path} {c : Config} {loc : FS} (hp : Plain cwd c loc) {q : Path}
    (h : Folder cwd c loc q) : parts c.remote <+: q ∧ ∀ w ∈ q, ¬ TempWord w := by
  rcases h with rfl | ⟨p, b, hs, rfl⟩
  · exact ⟨List.prefix_refl _, hp.remote_temp⟩
  · obtain ⟨rel, hn, rfl, hw⟩ := sends_target hp hs
    rw [List.dropLast_append_of_ne_nil hn]
    refine ⟨List.prefix_append _ _, fun w hm => ?_⟩
    rcases List.mem_append.1 hm with hm | hm
    · exact hp.remote_temp w hm
    · exact (hw w (List.dropLast_subset _ hm)).2.2

theorem sends_not_temp {cwd : Path} {c : Config} {loc : FS} (hp : Plain cwd c loc) {p : Path} {b : Bytes}
    (h : Sends cwd c loc p b) : ¬ TempPath p := by
  obtain ⟨rel, hn, rfl, hw⟩ := sends_target hp h
  rw [tempPath_append hn]
  rintro ⟨w, hl, ht⟩
  exact (hw w (List.mem_of_getLast? hl)).2.2 ht

theorem newDirs_contents {fs fs' : FS} {p : Path} (h : NewDirs fs fs' p) (q : Path) :
    contents fs' q = contents fs q := by
  unfold contents
  rcases h q with h | ⟨_, h1, h2⟩
  · rw [h]
  · rw [h1, h2]

theorem prefix_temp {q p : Path} (h : q <+: p) (hp : ∀ w ∈ p, ¬ TempWord w) : ¬ TempPath q := by
  rintro ⟨w, hl, ht⟩
  exact hp w (h.subset (List.mem_of_getLast? hl)) ht

theorem safe_mkdir {cwd : Path} {c : Config} {loc rem : FS} (hp : Plain cwd c loc) {fs fs' : FS}
    {q : Path} (hq : Folder cwd c loc q) (h : NewDirs fs fs' q) (hs : Safe cwd c loc rem fs) :
    Safe cwd c loc rem fs' where
  files x := by rw [newDirs_contents h]; exact hs.files x
  temp x hx ht := by
    rcases h x with h | ⟨h1, _, _⟩
    · rw [h]; exact hs.temp x hx ht
    · exact absurd ht (prefix_temp h1 (folder_words hp hq).2)

theorem exec_remove {fs fs' : FS} {p : Path} (h : exec fs (.remove p) = .ok fs') :
    isFile fs p = true ∧ fs' = del fs p := by
  unfold exec at h
  simp only at h
  split at h
  · rename_i hf
    exact ⟨hf, by cases h; rfl⟩
  · cases h

theorem exec_rename {fs fs' : FS} {p q : Path} (h : exec fs (.rename p q) = .ok fs') :
    ∃ b, contents fs p = some b ∧ isDir fs q = false ∧ isDir fs q.dropLast = true ∧
      fs' = set (del fs p) q (.file b) := by
  unfold exec at h
  simp only at h
  cases hg : get fs p with
  | none => rw [hg] at h; cases h
  | some n =>
    cases n with
    | dir => rw [hg] at h; cases h
    | file b =>
      rw [hg] at h
      simp only at h
      split at h
      · cases h
      · rename_i hc
        simp only [Bool.or_eq_true, Bool.not_eq_true', not_or, Bool.not_eq_true, Bool.not_eq_false] at hc
        exact ⟨b, contents_eq_some.2 hg, hc.1, hc.2, by cases h; rfl⟩

theorem safe_rm {cwd : Path} {c : Config} {loc rem : FS} {fs fs' : FS}
    {q : Path} (hq : Folder cwd c loc q) (h : exec fs (.remove q) = .ok fs')
    (hs : Safe cwd c loc rem fs) : Safe cwd c loc rem fs' := by
  obtain ⟨_, rfl⟩ := exec_remove h
  refine ⟨fun x => ?_, fun x hx ht => ?_⟩
  · by_cases hx : x = q
    · right; right; right
      rw [contents_del, if_pos hx, hx]
      exact ⟨hq, rfl⟩
    · rw [contents_del, if_neg hx]; exact hs.files x
  · rw [get_del]
    split
    · simp
    · exact hs.temp x hx ht

theorem keeps_makeFolder {home : Text} {m : Machine} (hm : Unix home m) {cwd : Path} {c : Config}
    {loc rem : FS} (hp : Plain cwd c loc) (fs : FS) {t : Text} (hs : ShellSafe t) (ha : Absolute t)
    (hf : Folder cwd c loc (parts t)) : Keeps (Safe cwd c loc rem) fs (makeFolder m fs t) := by
  unfold makeFolder
  refine keeps_andThen (keeps_check hm fs hs ha) fun ei _ => ?_
  split
  · exact keeps_done _
  · refine keeps_andThen ?_ fun e _ => ?_
    · split
      · unfold clearFolder
        refine keeps_andThen (keeps_command fun hI => ?_) fun _ _ => ?_
        · rcases hm.rm (checkFolder m fs t).fs _ t (words_rm hs ha) ha with h | h
          · rw [h]; exact hI
          · exact safe_rm hf h hI
        · rw [test_d hm _ hs ha]
          intro hI s hv
          rcases hv with hv | rfl
          · simp only [List.mem_singleton] at hv; rw [hv]; exact hI
          · exact hI
      · exact keeps_done _
    · by_cases he : e = true
      · rw [if_pos he]; exact keeps_done _
      · rw [if_neg he]
        refine keeps_andThen (keeps_command fun hI => ?_) fun _ _ => ?_
        · exact safe_mkdir hp hf (hm.mkdir _ _ t (words_mkdir hs ha) ha) hI
        · exact keeps_andThen (keeps_check hm _ hs ha) fun _ _ => keeps_done _

theorem keeps_ensure {home : Text} {m : Machine} (hm : Unix home m) {cwd : Path} {c : Config}
    {loc rem : FS} (hp : Plain cwd c loc) (fs : FS) {t : Text} (hs : ShellSafe t) (ha : Absolute t)
    (hf : Folder cwd c loc (parts t)) : Keeps (Safe cwd c loc rem) fs (ensureFolder m fs t) := by
  unfold ensureFolder
  refine keeps_andThen (keeps_check hm fs hs ha) fun ei _ => ?_
  split
  · exact keeps_done _
  · refine keeps_andThen (keeps_makeFolder hm hp _ hs ha hf) fun res _ => ?_
    split
    · exact keeps_done _
    · exact keeps_fail

theorem tmp_facts {env : Env} (henv : env.Ok) (i : ℕ) {cwd : Path} {c : Config} {loc : FS}
    (hp : Plain cwd c loc) {p : Path} {b : Bytes} (hsend : Sends cwd c loc p b) :
    TempPath (tmpPath env i p) ∧ parts c.remote <+: tmpPath env i p ∧ tmpPath env i p ≠ [] := by
  refine ⟨tmpPath_temp henv i p, ?_, by simp [tmpPath]⟩
  obtain ⟨rel, hn, rfl, _⟩ := sends_target hp hsend
  exact under_tmpPath env i hn

theorem isDir_false {fs : FS} {p : Path} (h : p ≠ []) (h' : get fs p ≠ some .dir) :
    isDir fs p = false := by
  unfold isDir
  simp [h, h']

theorem keeps_upload {env : Env} (henv : env.Ok) {home : Text} {m : Machine} (hm : Unix home m)
    {cwd : Path} {c : Config} {loc rem : FS} (hp : Plain cwd c loc) (i : ℕ) (fs : FS) {f t : Text}
    {p : Path} (ht : Target t p)
    (hsend : ∀ b, contents loc (resolve cwd f) = some b → Sends cwd c loc p b) :
    Keeps (Safe cwd c loc rem) fs (upload env m cwd loc i fs f t) := by
  unfold upload
  split
  · rename_i b hb
    have hS := hsend b (contents_eq_some.2 hb)
    obtain ⟨t1, t2, t3⟩ := tmp_facts henv i hp hS
    obtain ⟨u1, u2, u3⟩ := ht.tmp henv i
    intro hI
    have hnd : isDir fs (parts (tmpName env i t)) = false := by
      rw [u3]; exact isDir_false t3 (hI.temp _ t2 t1)
    obtain ⟨p1, p2, p3⟩ := hm.put fs (tmpName env i t) b u2 hnd
    rw [u3] at p1 p2 p3
    have hput : Keeps (Safe cwd c loc rem) fs (m.put fs (tmpName env i t) b) := by
      intro hI s hs
      refine ⟨fun q => ?_, fun q hq hqt => ?_⟩
      · by_cases hq : q = tmpPath env i p
        · right; left; rw [hq]; exact ⟨t1, t2⟩
        · have : contents s q = contents fs q := by unfold contents; rw [p1 s hs q hq]
          rw [this]; exact hI.files q
      · by_cases hq' : q = tmpPath env i p
        · rw [hq']; exact p2 s hs
        · rw [p1 s hs q hq']; exact hI.temp q hq hqt
    refine keeps_andThen hput (fun u hu => ?_) hI
    have hc := p3 hu
    refine keeps_andThen (keeps_command fun hI => ?_) fun _ _ => keeps_done _
    rcases hm.mv (m.put fs (tmpName env i t) b).fs _ _ _ (words_mv u1 u2 ht.safe ht.absolute) u2
      ht.absolute with h | h
    · rw [h]; exact hI
    · rw [u3, ht.parts] at h
      obtain ⟨b', hb', hd, _, he⟩ := exec_rename h
      rw [hc] at hb'
      cases hb'
      have hl : (tmpPath env i p).getLast?.toList = [p.getLast?.getD [] ++ suffix env i] := by
        simp [tmpPath]
      rw [he]
      split
      · -- moved into a directory
        rw [hl]
        have hT : TempPath (p ++ [p.getLast?.getD [] ++ suffix env i]) := by
          rw [tempPath_append (by simp)]
          exact ⟨_, rfl, p.getLast?.getD [], env.stamp i, by simp [suffix], henv.stamp i⟩
        have hR : parts c.remote <+: p ++ [p.getLast?.getD [] ++ suffix env i] := by
          obtain ⟨rel, _, rfl, _⟩ := sends_target hp hS
          rw [List.append_assoc]; exact List.prefix_append _ _
        refine ⟨fun q => ?_, fun q hq hqt => ?_⟩
        · rw [contents_set_file]
          split
          · rename_i hq
            right; left; rw [hq]; exact ⟨hT, hR⟩
          · rw [contents_del]
            split
            · rename_i hq; right; left; rw [hq]; exact ⟨t1, t2⟩
            · exact hI.files q
        · rw [get_set]
          split
          · simp
          · rw [get_del]
            split
            · simp
            · exact hI.temp q hq hqt
      · refine ⟨fun q => ?_, fun q hq hqt => ?_⟩
        · rw [contents_set_file]
          split
          · rename_i hq
            right; right; left; rw [hq]; exact ⟨b, hS, rfl⟩
          · rw [contents_del]
            split
            · rename_i hq; right; left; rw [hq]; exact ⟨t1, t2⟩
            · exact hI.files q
        · rw [get_set]
          split
          · simp
          · rw [get_del]
            split
            · simp
            · exact hI.temp q hq hqt
  · exact keeps_fail

theorem keeps_loop {I : FS → Prop} {copy : ℕ → FS → Text → Run Unit} {files : List Text}
    (h : ∀ f ∈ files, ∀ i fs, Keeps I fs (copy i fs f)) (i : ℕ) (fs : FS) :
    Keeps I fs (loop copy i fs files) := by
  induction files generalizing i fs with
  | nil => exact keeps_done _
  | cons f files ih =>
    rw [loop]
    exact keeps_andThen (h f (by simp) i fs) fun _ _ => ih (fun g hg => h g (by simp [hg])) _ _

/-- The files of the local directory. -/
theorem mem_allLocalFiles {env : Env} (henv : env.Ok) {cwd : Path} {c : Config} {loc : FS} {d f : Text}
    (hd : c.localDir = some d) (hf : f ∈ allLocalFiles env cwd loc (some d)) :
    ∃ rel, LocalFile cwd c loc d rel ∧ f = joins d rel := by
  unfold allLocalFiles at hf
  simp only at hf
  split at hf
  · cases hf
  · unfold walk at hf
    obtain ⟨rel, hr, rfl⟩ := List.mem_map.1 hf
    rw [(henv.order _).mem_iff, mem_filesBelow] at hr
    exact ⟨rel, ⟨hd, hr.1, hr.2⟩, rfl⟩

theorem dir_target {cwd : Path} {c : Config} {loc : FS} (hp : Plain cwd c loc) {d : Text}
    {rel : List Text} (h : LocalFile cwd c loc d rel) :
    Target (dirTarget c.remote d (joins d rel)) (parts c.remote ++ rel) ∧
    (∀ b, contents loc (resolve cwd (joins d rel)) = some b →
      Sends cwd c loc (parts c.remote ++ rel) b) ∧
    Folder cwd c loc (parts c.remote ++ rel).dropLast := by
  have hn : ∀ w ∈ rel, PlainWord w := fun w hw => (hp.names d rel h w hw).1
  have hsend : ∀ b, contents loc (resolve cwd (joins d rel)) = some b →
      Sends cwd c loc (parts c.remote ++ rel) b := by
    intro b hb
    rw [resolve_joins cwd d hn] at hb
    exact Or.inl ⟨d, rel, h.1, h.2.1, hb, by rw [resolve_absolute cwd hp.absolute]⟩
  refine ⟨target_dir hp.remote_safe (hp.dir_nonempty d h.1)
    (fun w hw => ⟨hn w hw, (hp.names d rel h w hw).2.1⟩) h.2.1 (hp.once d rel h), hsend, ?_⟩
  obtain ⟨b, hb⟩ := Option.isSome_iff_exists.1 h.2.2
  exact Or.inr ⟨_, b, hsend b (by rw [resolve_joins cwd d hn]; exact hb), rfl⟩

theorem listed_target {cwd : Path} {c : Config} {loc : FS} (hp : Plain cwd c loc) {f : Text}
    (hf : f ∈ c.localFiles) :
    Target (join c.remote (baseName f)) (parts c.remote ++ [baseName f]) ∧
    (∀ b, contents loc (resolve cwd f) = some b →
      Sends cwd c loc (parts c.remote ++ [baseName f]) b) :=
  ⟨target_listed hp.absolute hp.remote_safe (hp.listed f hf).1 (hp.listed f hf).2.1,
   fun b hb => Or.inr ⟨f, hf, hb, by rw [resolve_absolute cwd hp.absolute]⟩⟩

/-- Every state of a transfer is safe. -/
theorem keeps_send {env : Env} (henv : env.Ok) {home : Text} {m : Machine} (hm : Unix home m)
    {cwd : Path} {c : Config} {loc rem : FS} (hp : Plain cwd c loc) :
    Keeps (Safe cwd c loc rem) rem (send env m cwd loc c rem) := by
  unfold send
  refine keeps_andThen (keeps_makeFolder hm hp rem hp.remote_safe hp.absolute (Or.inl rfl))
    fun res _ => ?_
  split
  · refine keeps_andThen (keeps_loop (fun f hf i fs => ?_) _ _) fun _ _ => ?_
    · exact keeps_upload henv hm hp i fs (listed_target hp hf).1 (listed_target hp hf).2
    · refine keeps_andThen ?_ fun _ _ => keeps_done _
      unfold sendDir
      split
      · exact keeps_done _
      · rename_i d hd
        refine keeps_loop (fun f hf i fs => ?_) _ _
        obtain ⟨rel, hl, rfl⟩ := mem_allLocalFiles henv hd hf
        obtain ⟨h1, h2, h3⟩ := dir_target hp hl
        obtain ⟨g1, g2, g3⟩ := h1.folder
        unfold copyDirFile
        exact keeps_andThen (keeps_ensure hm hp fs g1 g2 (by rw [g3]; exact h3))
          fun _ _ => keeps_upload henv hm hp i _ h1 h2
  · exact keeps_fail

/-! ### A reliable machine -/

/-- The invariant of a transfer to a reliable machine. -/
structure Going (cwd : Path) (c : Config) (loc rem : FS) (s : FS) : Prop where
  no_dir : ∀ p b, Sends cwd c loc p b → get s p ≠ some .dir
  no_file : ∀ p q, Folder cwd c loc p → q <+: p → q ≠ p → q ≠ parts c.remote → contents s q = none
  root : contents s [] = none
  temp : NoTempDirs c s
  clean : ∀ q, TempPath q → contents s q = none ∨ contents s q = contents rem q

/-- What has been sent stays. -/
def Stays (cwd : Path) (c : Config) (loc s s' : FS) : Prop :=
  ∀ p b, Sends cwd c loc p b → contents s p = some b → contents s' p = some b

theorem Stays.refl {cwd : Path} {c : Config} {loc s : FS} : Stays cwd c loc s s := fun _ _ _ h => h

theorem Stays.trans {cwd : Path} {c : Config} {loc s s' s'' : FS} (h : Stays cwd c loc s s')
    (h' : Stays cwd c loc s' s'') : Stays cwd c loc s s'' := fun p b hs hc => h' p b hs (h p b hs hc)

/-- The place of a file is not needed as a directory. -/
theorem sends_not_above {cwd : Path} {c : Config} {loc rem : FS} (hp : Plain cwd c loc)
    (hr : Room cwd c loc rem) {p q : Path} {b : Bytes} (hs : Sends cwd c loc p b)
    (hq : Folder cwd c loc q) : ¬ p <+: q := by
  intro h
  obtain ⟨rel, hn, hpe, _⟩ := sends_target hp hs
  rcases hq with rfl | ⟨p', b', hs', rfl⟩
  · have := h.length_le
    rw [hpe, List.length_append] at this
    have : 0 < rel.length := List.length_pos_iff.2 hn
    omega
  · have e := hr.apart p b p' b' hs hs' (h.trans (List.dropLast_prefix _))
    rw [e] at h
    have h1 := h.length_le
    obtain ⟨rel', hn', he', _⟩ := sends_target hp hs'
    have : 0 < p'.length := by
      rw [he', List.length_append]
      have := List.length_pos_iff.2 hn'
      omega
    rw [List.length_dropLast] at h1
    omega

theorem going_mkdir {cwd : Path} {c : Config} {loc rem : FS} (hp : Plain cwd c loc)
    (hr : Room cwd c loc rem) {fs fs' : FS} {q : Path} (hq : Folder cwd c loc q)
    (h : NewDirs fs fs' q) (hg : Going cwd c loc rem fs) :
    Going cwd c loc rem fs' ∧ Stays cwd c loc fs fs' := by
  refine ⟨⟨fun p b hs => ?_, fun p x hf hx hn hR => ?_, by rw [newDirs_contents h]; exact hg.root,
    fun x hx ht => ?_, fun x ht => ?_⟩,
    fun p b _ hc => by rw [newDirs_contents h]; exact hc⟩
  · rcases h p with h | ⟨h1, _, _⟩
    · rw [h]; exact hg.no_dir p b hs
    · exact absurd h1 (sends_not_above hp hr hs hq)
  · rw [newDirs_contents h]; exact hg.no_file p x hf hx hn hR
  · rcases h x with h | ⟨h1, _, _⟩
    · rw [h]; exact hg.temp x hx ht
    · exact absurd ht (prefix_temp h1 (folder_words hp hq).2)
  · rw [newDirs_contents h]; exact hg.clean x ht

theorem going_rm {cwd : Path} {c : Config} {loc rem : FS} (hp : Plain cwd c loc)
    (hr : Room cwd c loc rem) {fs : FS} {q : Path} (hq : Folder cwd c loc q)
    (hg : Going cwd c loc rem fs) :
    Going cwd c loc rem (del fs q) ∧ Stays cwd c loc fs (del fs q) := by
  refine ⟨⟨fun p b hs => ?_, fun p x hf hx hn hR => ?_, ?_, fun x hx ht => ?_, fun x ht => ?_⟩,
    fun p b hs hc => ?_⟩
  · rw [get_del]
    split
    · simp
    · exact hg.no_dir p b hs
  · rw [contents_del]
    split
    · rfl
    · exact hg.no_file p x hf hx hn hR
  · rw [contents_del]
    split
    · rfl
    · exact hg.root
  · rw [get_del]
    split
    · simp
    · exact hg.temp x hx ht
  · rw [contents_del]
    split
    · exact Or.inl rfl
    · exact hg.clean x ht
  · rw [contents_del, if_neg]
    · exact hc
    · rintro rfl
      exact sends_not_above hp hr hs hq (List.prefix_refl _)

/-- Making a folder succeeds. -/
theorem makeFolder_ok {home : Text} {m : Machine} (hm : Unix home m) (hrel : Reliable home m)
    {cwd : Path} {c : Config} {loc rem : FS} (hp : Plain cwd c loc) (hr : Room cwd c loc rem)
    {fs : FS} {t : Text} (hs : ShellSafe t) (ha : Absolute t) (hf : Folder cwd c loc (parts t))
    (hR : parts t = parts c.remote ∨ isDir fs (parts c.remote) = true)
    (hg : Going cwd c loc rem fs) :
    (makeFolder m fs t).out = .ok true ∧ isDir (makeFolder m fs t).fs (parts t) = true ∧
    Going cwd c loc rem (makeFolder m fs t).fs ∧ Stays cwd c loc fs (makeFolder m fs t).fs ∧
    (∀ q, isDir fs q = true → isDir (makeFolder m fs t).fs q = true) := by
  have hRn : ∀ fs1, Going cwd c loc rem fs1 → isDir fs1 (parts c.remote) = true →
      contents fs1 (parts c.remote) = none := by
    intro fs1 hg1 hd
    by_cases h0 : parts c.remote = []
    · rw [h0]; exact hg1.root
    · exact contents_of_isDir (by simpa [isDir, h0] using hd)
  have mk : ∀ fs1, Going cwd c loc rem fs1 → contents fs1 (parts t) = none →
      (parts t = parts c.remote ∨ isDir fs1 (parts c.remote) = true) →
      isDir (m.run fs1 ("mkdir -p ".toList ++ t)).1 (parts t) = true ∧
      Going cwd c loc rem (m.run fs1 ("mkdir -p ".toList ++ t)).1 ∧
      Stays cwd c loc fs1 (m.run fs1 ("mkdir -p ".toList ++ t)).1 ∧
      (∀ q, isDir fs1 q = true → isDir (m.run fs1 ("mkdir -p ".toList ++ t)).1 q = true) := by
    intro fs1 hg1 hn hR1
    have hnew := hm.mkdir fs1 _ t (words_mkdir hs ha) ha
    obtain ⟨h1, h2⟩ := going_mkdir hp hr hf hnew hg1
    refine ⟨hrel.mkdir fs1 _ t (words_mkdir hs ha) ha fun q hq => ?_, h1, h2, fun q hq => ?_⟩
    · by_cases hqe : q = parts t
      · rw [hqe]; exact hn
      · by_cases hqR : q = parts c.remote
        · rw [hqR]
          rcases hR1 with h | h
          · exact absurd (hqR.trans h.symm) hqe
          · exact hRn fs1 hg1 h
        · exact hg1.no_file _ q hf hq hqe hqR
    · unfold isDir at hq ⊢
      rcases hnew q with h | ⟨_, _, h⟩
      · rw [h]; exact hq
      · rw [h]; simp
  obtain ⟨b, c1, c2⟩ := checkFolder_eq hm fs hs ha
  unfold makeFolder
  rw [c1]
  by_cases hd : isDir fs (parts t) = true
  · simp only [andThen, hd, if_true, done]
    exact ⟨trivial, trivial, hg, Stays.refl, fun _ h => h⟩
  · simp only [Bool.not_eq_true] at hd
    by_cases hb : b = true
    · -- a file is in the way
      have hne : parts t ≠ [] := by
        intro h0; simp [isDir, h0] at hd
      have hsome : (get fs (parts t)).isSome := by
        rcases c2.1 hb with h | h
        · exact h
        · exact absurd h hne
      have hfile : (contents fs (parts t)).isSome := by
        cases hgt : get fs (parts t) with
        | none => simp [hgt] at hsome
        | some n =>
          cases n with
          | dir => simp [isDir, hgt] at hd
          | file x => rw [contents_eq_some.2 hgt]; rfl
      have hex := hrel.rm fs _ t (words_rm hs ha) ha hfile
      obtain ⟨_, he⟩ := exec_remove hex
      obtain ⟨g1, g2⟩ := going_rm hp hr hf hg
      have hd' : isDir (del fs (parts t)) (parts t) = false := by
        unfold isDir
        rw [get_del]
        simp [hne]
      have hR' : parts t = parts c.remote ∨ isDir (del fs (parts t)) (parts c.remote) = true := by
        by_cases he' : parts t = parts c.remote
        · exact Or.inl he'
        · right
          have := hR.resolve_left he'
          unfold isDir at this ⊢
          rw [get_del, if_neg (Ne.symm he')]; exact this
      obtain ⟨k1, k2, k3, k4⟩ := mk (del fs (parts t)) g1 (by rw [contents_del]; simp) hR'
      obtain ⟨b', c1', c2'⟩ := checkFolder_eq hm
        (m.run (del fs (parts t)) ("mkdir -p ".toList ++ t)).1 hs ha
      have hcl : clearFolder m fs t = ⟨[del fs (parts t), del fs (parts t)], del fs (parts t),
          .ok false⟩ := by
        unfold clearFolder command
        rw [he]
        simp only [andThen]
        rw [test_d hm _ hs ha, hd']
        rfl
      simp only [andThen, hd, hb, hcl, command, c1', done, Bool.false_eq_true, if_false, if_true]
      rw [k1]
      refine ⟨rfl, rfl, k2, g2.trans k3, fun q hq => k4 q ?_⟩
      unfold isDir at hq ⊢
      rw [get_del]
      by_cases hqe : q = parts t
      · subst hqe; exact absurd hq (by unfold isDir at hd; rw [hd]; simp)
      · rw [if_neg hqe]; exact hq
    · have hnone : contents fs (parts t) = none := by
        cases hgt : get fs (parts t) with
        | none => unfold contents; rw [hgt]
        | some n =>
          exact absurd (c2.2 (Or.inl (by simp [hgt]))) hb
      obtain ⟨k1, k2, k3, k4⟩ := mk fs hg hnone hR
      obtain ⟨b', c1', c2'⟩ := checkFolder_eq hm (m.run fs ("mkdir -p ".toList ++ t)).1 hs ha
      simp only [andThen, hd, hb, command, c1', done, Bool.false_eq_true, if_false]
      rw [k1]
      exact ⟨rfl, rfl, k2, k3, k4⟩

theorem ensure_ok {home : Text} {m : Machine} (hm : Unix home m) (hrel : Reliable home m)
    {cwd : Path} {c : Config} {loc rem : FS} (hp : Plain cwd c loc) (hr : Room cwd c loc rem)
    {fs : FS} {t : Text} (hs : ShellSafe t) (ha : Absolute t) (hf : Folder cwd c loc (parts t))
    (hR : parts t = parts c.remote ∨ isDir fs (parts c.remote) = true)
    (hg : Going cwd c loc rem fs) :
    (ensureFolder m fs t).out = .ok () ∧ isDir (ensureFolder m fs t).fs (parts t) = true ∧
    Going cwd c loc rem (ensureFolder m fs t).fs ∧ Stays cwd c loc fs (ensureFolder m fs t).fs ∧
    (∀ q, isDir fs q = true → isDir (ensureFolder m fs t).fs q = true) := by
  obtain ⟨b, c1, c2⟩ := checkFolder_eq hm fs hs ha
  obtain ⟨k1, k2, k3, k4, k5⟩ := makeFolder_ok hm hrel hp hr hs ha hf hR hg
  unfold ensureFolder
  rw [c1]
  by_cases hd : isDir fs (parts t) = true
  · simp only [andThen, hd, if_true, done]
    exact ⟨trivial, trivial, hg, Stays.refl, fun _ h => h⟩
  · simp only [Bool.not_eq_true] at hd
    simp only [andThen, hd, k1, done, Bool.false_eq_true, if_false, if_true]
    exact ⟨trivial, k2, k3, k4, k5⟩

/-- An upload into a folder that is there succeeds. -/
theorem upload_ok {env : Env} (henv : env.Ok) {home : Text} {m : Machine} (hm : Unix home m)
    (hrel : Reliable home m) {cwd : Path} {c : Config} {loc rem : FS} (hp : Plain cwd c loc)
    (hr : Room cwd c loc rem) (i : ℕ) {fs : FS} {f t : Text} {p : Path} (ht : Target t p) {b : Bytes}
    (hb : contents loc (resolve cwd f) = some b) (hS : Sends cwd c loc p b)
    (hd : isDir fs p.dropLast = true) (hg : Going cwd c loc rem fs) :
    (upload env m cwd loc i fs f t).out = .ok () ∧
    contents (upload env m cwd loc i fs f t).fs p = some b ∧
    Going cwd c loc rem (upload env m cwd loc i fs f t).fs ∧
    Stays cwd c loc fs (upload env m cwd loc i fs f t).fs ∧
    (∀ q, Folder cwd c loc q → isDir fs q = true →
      isDir (upload env m cwd loc i fs f t).fs q = true) := by
  obtain ⟨t1, t2, t3⟩ := tmp_facts henv i hp hS
  obtain ⟨u1, u2, u3⟩ := ht.tmp henv i
  have hnd : isDir fs (parts (tmpName env i t)) = false := by
    rw [u3]; exact isDir_false t3 (hg.temp _ t2 t1)
  have hpar : (tmpPath env i p).dropLast = p.dropLast := by simp [tmpPath]
  have hput := hrel.put fs (tmpName env i t) b u2 hnd (by rw [u3, hpar]; exact hd)
  obtain ⟨p1, p2, p3⟩ := hm.put fs (tmpName env i t) b u2 hnd
  have hc := p3 hput
  have p1' := p1 _ (Or.inr rfl)
  rw [u3] at p1' hc
  have hne : tmpPath env i p ≠ p := by
    intro h; exact sends_not_temp hp hS (by rw [← h]; exact t1)
  have hplast : p.dropLast ≠ tmpPath env i p := by
    intro h
    have h1 := congrArg List.length h
    have hpl : 0 < p.length := List.length_pos_iff.2 ht.ne
    simp [tmpPath] at h1
  have hmv := hrel.mv (m.put fs (tmpName env i t) b).fs _ _ _ (words_mv u1 u2 ht.safe ht.absolute) u2
    ht.absolute (by rw [u3, hc]; rfl)
    (by
      rw [ht.parts]
      refine isDir_false ht.ne ?_
      rw [p1' p hne.symm]; exact hg.no_dir p b hS)
    (by
      rw [ht.parts]
      unfold isDir at hd ⊢
      rw [p1' _ hplast]; exact hd)
  rw [u3, ht.parts] at hmv
  obtain ⟨b', hb', hd', _, he⟩ := exec_rename hmv
  rw [hc] at hb'
  cases hb'
  have hgl := contents_eq_some.1 hb
  unfold upload
  rw [hgl]
  simp only [andThen, hput, command, he, done]
  set fs1 := (m.put fs (tmpName env i t) b).fs with hfs1
  have hget : ∀ q, q ≠ p → q ≠ tmpPath env i p →
      get (set (del fs1 (tmpPath env i p)) p (.file b)) q = get fs q := by
    intro q h1 h2
    rw [get_set, if_neg h1, get_del, if_neg h2, p1' q h2]
  have hcon : ∀ q, q ≠ p → q ≠ tmpPath env i p →
      contents (set (del fs1 (tmpPath env i p)) p (.file b)) q = contents fs q := by
    intro q h1 h2; unfold contents; rw [hget q h1 h2]
  have hcp : contents (set (del fs1 (tmpPath env i p)) p (.file b)) p = some b := by
    rw [contents_set_file, if_pos rfl]
  have hct : contents (set (del fs1 (tmpPath env i p)) p (.file b)) (tmpPath env i p) = none := by
    rw [contents_set_file, if_neg hne, contents_del, if_pos rfl]
  refine ⟨trivial, hcp, ⟨fun x bx hx => ?_, fun x q hf hq hn hqR => ?_,
    by rw [hcon [] (Ne.symm ht.ne) (Ne.symm t3)]; exact hg.root, fun q hq hqt => ?_,
    fun q hqt => ?_⟩, fun x bx hx hxc => ?_, fun q hf hq => ?_⟩
  · by_cases h1 : x = p
    · rw [h1, get_set, if_pos rfl]; simp
    · rw [hget x h1 (fun h => sends_not_temp hp hx (by rw [h]; exact t1))]
      exact hg.no_dir x bx hx
  · have h1 : q ≠ p := by
      rintro rfl; exact sends_not_above hp hr hS hf hq
    have h2 : q ≠ tmpPath env i p := by
      rintro rfl; exact prefix_temp hq (folder_words hp hf).2 t1
    rw [hcon q h1 h2]
    exact hg.no_file x q hf hq hn hqR
  · by_cases h1 : q = p
    · rw [h1, get_set, if_pos rfl]; simp
    · rw [get_set, if_neg h1, get_del]
      split
      · simp
      · rename_i h2
        rw [p1' q h2]; exact hg.temp q hq hqt
  · have h1 : q ≠ p := by
      rintro rfl; exact sends_not_temp hp hS hqt
    by_cases h2 : q = tmpPath env i p
    · left; rw [h2]; exact hct
    · rw [hcon q h1 h2]; exact hg.clean q hqt
  · by_cases h1 : x = p
    · subst h1
      rw [hcp, hr.same x b bx hS hx]
    · rw [hcon x h1 (fun h => sends_not_temp hp hx (by rw [h]; exact t1))]
      exact hxc
  · have h1 : q ≠ p := by
      rintro rfl; exact sends_not_above hp hr hS hf (List.prefix_refl _)
    have h2 : q ≠ tmpPath env i p := by
      rintro rfl; exact prefix_temp (List.prefix_refl _) (folder_words hp hf).2 t1
    unfold isDir at hq ⊢
    rw [hget q h1 h2]; exact hq

/-- A loop of copies each of which succeeds. -/
theorem loop_ok {cwd : Path} {c : Config} {loc : FS} {G : FS → Prop}
    {copy : ℕ → FS → Text → Run Unit} {files : List Text} {dst : Text → Path} {src : Text → Bytes}
    (hsend : ∀ f ∈ files, Sends cwd c loc (dst f) (src f))
    (h : ∀ f ∈ files, ∀ i fs, G fs → (copy i fs f).out = .ok () ∧
      contents (copy i fs f).fs (dst f) = some (src f) ∧ G (copy i fs f).fs ∧
      Stays cwd c loc fs (copy i fs f).fs) (i : ℕ) {fs : FS} (hg : G fs) :
    (loop copy i fs files).out = .ok () ∧ G (loop copy i fs files).fs ∧
    Stays cwd c loc fs (loop copy i fs files).fs ∧
    ∀ f ∈ files, contents (loop copy i fs files).fs (dst f) = some (src f) := by
  induction files generalizing i fs with
  | nil => exact ⟨rfl, hg, Stays.refl, by simp⟩
  | cons f files ih =>
    obtain ⟨h1, h2, h3, h4⟩ := h f (by simp) i fs hg
    obtain ⟨k1, k2, k3, k4⟩ := ih (fun g hg => hsend g (by simp [hg]))
      (fun g hg => h g (by simp [hg])) (i + 1) h3
    rw [loop]
    simp only [andThen, h1]
    refine ⟨k1, k2, h4.trans k3, fun g hgm => ?_⟩
    rcases List.mem_cons.1 hgm with rfl | hgm
    · exact k3 _ _ (hsend g (by simp)) h2
    · exact k4 g hgm

/-- A transfer to a reliable machine. -/
theorem send_ok {env : Env} (henv : env.Ok) {home : Text} {m : Machine} (hm : Unix home m)
    (hrel : Reliable home m) {cwd : Path} {c : Config} {loc rem : FS} (hp : Plain cwd c loc)
    (hr : Room cwd c loc rem) (htmp : NoTempDirs c rem) :
    (send env m cwd loc c rem).out = .ok (count env cwd loc c) ∧
    Going cwd c loc rem (send env m cwd loc c rem).fs ∧
    isDir (send env m cwd loc c rem).fs (parts c.remote) = true ∧
    ∀ p b, Sends cwd c loc p b → contents (send env m cwd loc c rem).fs p = some b := by
  have hg0 : Going cwd c loc rem rem := ⟨hr.no_dir, hr.no_file, hr.root, htmp, fun _ _ => Or.inr rfl⟩
  obtain ⟨m1, m2, m3, m4, m5⟩ := makeFolder_ok hm hrel hp hr hp.remote_safe hp.absolute (Or.inl rfl)
    (Or.inl rfl) hg0
  have hR : Folder cwd c loc (parts c.remote) := Or.inl rfl
  let G : FS → Prop := fun s => Going cwd c loc rem s ∧ isDir s (parts c.remote) = true
  -- the listed files
  have hl := loop_ok (G := G) (cwd := cwd) (c := c) (loc := loc)
    (copy := fun i fs f => copyListed env m cwd loc c.remote i fs f) (files := c.localFiles)
    (dst := fun f => parts c.remote ++ [baseName f])
    (src := fun f => (contents loc (resolve cwd f)).getD [])
    (by
      intro f hf
      obtain ⟨b, hb⟩ := Option.isSome_iff_exists.1 (hr.listed f hf)
      rw [hb]
      exact (listed_target hp hf).2 b hb)
    (by
      intro f hf i fs hG
      obtain ⟨b, hb⟩ := Option.isSome_iff_exists.1 (hr.listed f hf)
      obtain ⟨k1, k2, k3, k4, k5⟩ := upload_ok henv hm hrel hp hr i (fs := fs)
        (listed_target hp hf).1 hb ((listed_target hp hf).2 b hb)
        (by rw [List.dropLast_concat]; exact hG.2) hG.1
      rw [hb]
      exact ⟨k1, k2, ⟨k3, k5 _ hR hG.2⟩, k4⟩) 0 (fs := (makeFolder m rem c.remote).fs) ⟨m3, m2⟩
  obtain ⟨l1, l2, l3, l4⟩ := hl
  -- the local directory
  have hdir : ∀ i fs, G fs → (sendDir env m cwd loc c i fs).out = .ok () ∧
      G (sendDir env m cwd loc c i fs).fs ∧ Stays cwd c loc fs (sendDir env m cwd loc c i fs).fs ∧
      ∀ d rel b, c.localDir = some d → rel ≠ [] → contents loc (resolve cwd d ++ rel) = some b →
        contents (sendDir env m cwd loc c i fs).fs (parts c.remote ++ rel) = some b := by
    intro i fs hG
    unfold sendDir
    cases hd : c.localDir with
    | none => exact ⟨rfl, hG, Stays.refl, by intro d rel b h; cases h⟩
    | some d =>
      have hdn := hp.dir_nonempty d hd
      have hparts : ∀ rel, LocalFile cwd c loc d rel →
          parts (dirTarget c.remote d (joins d rel)) = parts c.remote ++ rel :=
        fun rel h => (dir_target hp h).1.parts
      have hres : ∀ rel, LocalFile cwd c loc d rel → resolve cwd (joins d rel) = resolve cwd d ++ rel :=
        fun rel h => resolve_joins cwd d (fun w hw => (hp.names d rel h w hw).1)
      obtain ⟨k1, k2, k3, k4⟩ := loop_ok (G := G) (cwd := cwd) (c := c) (loc := loc)
        (copy := fun i fs f => copyDirFile env m cwd loc c.remote d i fs f)
        (files := allLocalFiles env cwd loc (some d))
        (dst := fun f => parts (dirTarget c.remote d f))
        (src := fun f => (contents loc (resolve cwd f)).getD [])
        (by
          intro f hf
          obtain ⟨rel, hlf, rfl⟩ := mem_allLocalFiles henv hd hf
          obtain ⟨b, hb⟩ := Option.isSome_iff_exists.1 hlf.2.2
          rw [hparts rel hlf, hres rel hlf, hb]
          exact (dir_target hp hlf).2.1 b (by rw [hres rel hlf]; exact hb))
        (by
          intro f hf i fs hG
          obtain ⟨rel, hlf, rfl⟩ := mem_allLocalFiles henv hd hf
          obtain ⟨b, hb⟩ := Option.isSome_iff_exists.1 hlf.2.2
          obtain ⟨h1, h2, h3⟩ := dir_target hp hlf
          obtain ⟨g1, g2, g3⟩ := h1.folder
          obtain ⟨e1, e2, e3, e4, e5⟩ := ensure_ok hm hrel hp hr (fs := fs) g1 g2
            (by rw [g3]; exact h3) (Or.inr hG.2) hG.1
          rw [g3] at e2
          rw [← hres rel hlf] at hb
          obtain ⟨u1, u2, u3, u4, u5⟩ := upload_ok henv hm hrel hp hr i h1 hb (h2 b hb) e2 e3
          unfold copyDirFile
          simp only [andThen, e1]
          rw [hparts rel hlf, hb]
          exact ⟨u1, u2, ⟨u3, u5 _ hR (e5 _ hG.2)⟩, e4.trans u4⟩) i hG
      refine ⟨k1, k2, k3, fun d' rel b hd' hn hb => ?_⟩
      cases hd'
      have hlf : LocalFile cwd c loc d rel := ⟨hd, hn, by simp [hb]⟩
      have := k4 (joins d rel) (by
        unfold allLocalFiles
        simp only
        rw [if_neg hdn]
        unfold walk
        exact List.mem_map.2 ⟨rel, by rw [(henv.order _).mem_iff, mem_filesBelow]; exact hlf.2, rfl⟩)
      rw [hparts rel hlf, hres rel hlf, hb] at this
      exact this
  obtain ⟨d1, d2, d3, d4⟩ := hdir c.localFiles.length _ l2
  unfold send
  simp only [andThen, m1, if_true, l1, d1, done]
  refine ⟨trivial, d2.1, d2.2, fun p b hS => ?_⟩
  rcases hS with ⟨d, rel, hd, hn, hb, rfl⟩ | ⟨f, hf, hb, rfl⟩
  · rw [resolve_absolute cwd hp.absolute]
    exact d4 d rel b hd hn hb
  · have := l4 f hf
    rw [resolve_absolute cwd hp.absolute]
    rw [hb] at this
    exact d3 _ _ ((listed_target hp hf).2 b hb) this

end Verif.Secure
