import Verif.Lemmas.Fs
import Verif.Model.Sender

/-!
# Lemmas on the copy sender
-/

namespace Verif.Sender
open Verif.Fs Verif.Spec

/-! ### Names of the files of a directory -/

/-- Names joined by slashes. -/
def slashText : List Text → Text
  | [] => []
  | [w] => w
  | w :: v :: ws => w ++ '/' :: slashText (v :: ws)

theorem split_slashText {ws : List Text} (h : ∀ w ∈ ws, PlainWord w) (hn : ws ≠ []) :
    split (slashText ws) = ws := by
  induction ws with
  | nil => exact absurd rfl hn
  | cons w ws ih =>
    cases ws with
    | nil => exact split_word (h w (by simp)).2.1
    | cons v ws =>
      rw [slashText, split_append, split_word (h w (by simp)).2.1,
        ih (fun x hx => h x (by simp [hx])) (by simp)]
      rfl

theorem plain_getLast {w : Text} (h : PlainWord w) : w.getLast? ≠ some '/' := by
  intro hc
  exact h.2.1 (List.mem_of_getLast? hc)

theorem slashText_ne_nil {ws : List Text} (h : ∀ w ∈ ws, PlainWord w) (hn : ws ≠ []) :
    slashText ws ≠ [] := by
  cases ws with
  | nil => exact absurd rfl hn
  | cons w ws =>
    cases ws with
    | nil => exact (h w (by simp)).1
    | cons v ws => rw [slashText]; simp

theorem slashText_head {ws : List Text} (h : ∀ w ∈ ws, PlainWord w) :
    (slashText ws).head? ≠ some '/' := by
  cases ws with
  | nil => simp [slashText]
  | cons w ws =>
    have hw := h w (by simp)
    cases ws with
    | nil => exact plain_head hw
    | cons v ws =>
      rw [slashText, List.head?_append_of_ne_nil _ hw.1]
      exact plain_head hw

theorem slashText_getLast {ws : List Text} (h : ∀ w ∈ ws, PlainWord w) :
    (slashText ws).getLast? ≠ some '/' := by
  induction ws with
  | nil => simp [slashText]
  | cons w ws ih =>
    cases ws with
    | nil => exact plain_getLast (h w (by simp))
    | cons v ws =>
      have h' : ∀ x ∈ v :: ws, PlainWord x := fun x hx => h x (by simp [hx])
      have hne := slashText_ne_nil h' (by simp)
      rw [slashText, List.getLast?_append_of_ne_nil _ (by simp)]
      rw [List.getLast?_cons]
      have := ih h'
      cases hs : (slashText (v :: ws)).getLast? with
      | none => simp [List.getLast?_eq_none_iff] at hs; exact absurd hs hne
      | some c => rw [hs] at this; simpa using this

theorem strip_slashes (n : ℕ) {s : Text} (h1 : s.head? ≠ some '/') (h2 : s.getLast? ≠ some '/') :
    strip (List.replicate n '/' ++ s) = s := by
  unfold strip
  rw [dropWhile_slash_append n h1]
  have := dropWhile_slash_append 0 (s := s.reverse) (by rwa [List.head?_reverse])
  simp only [List.replicate_zero, List.nil_append] at this
  rw [this, List.reverse_reverse]

theorem join_plain_getLast {a w : Text} (h : PlainWord w) : (join a w).getLast? ≠ some '/' := by
  unfold join
  rw [if_neg (plain_head h)]
  split
  · rw [List.getLast?_append_of_ne_nil _ h.1]; exact plain_getLast h
  · rw [List.getLast?_append_of_ne_nil _ (by simp), List.getLast?_cons]
    have := plain_getLast h
    cases hs : w.getLast? with
    | none => simp [List.getLast?_eq_none_iff] at hs; exact absurd hs h.1
    | some c => rw [hs] at this; simpa using this

theorem joins_text {a : Text} (ha : a ≠ []) {ws : List Text} (h : ∀ w ∈ ws, PlainWord w)
    (hn : ws ≠ []) : ∃ k, joins a ws = a ++ (List.replicate k '/' ++ slashText ws) := by
  induction ws generalizing a with
  | nil => exact absurd rfl hn
  | cons w ws ih =>
    have hw := h w (by simp)
    have hj : ∃ k, join a w = a ++ (List.replicate k '/' ++ w) := by
      unfold join
      rw [if_neg (plain_head hw)]
      split
      · exact ⟨0, by simp⟩
      · exact ⟨1, by simp⟩
    obtain ⟨k, hk⟩ := hj
    cases ws with
    | nil => exact ⟨k, by simpa [joins, slashText] using hk⟩
    | cons v ws =>
      have h' : ∀ x ∈ v :: ws, PlainWord x := fun x hx => h x (by simp [hx])
      have hne : join a w ≠ [] := by rw [hk]; simp [hw.1]
      have key : joins (join a w) (v :: ws) = join a w ++ '/' :: slashText (v :: ws) := by
        clear ih hk
        generalize hj : join a w = b at *
        have hb : b.getLast? ≠ some '/' := by rw [← hj]; exact join_plain_getLast hw
        clear hj h hn
        induction ws generalizing b v with
        | nil =>
          have hv := h' v (by simp)
          simp only [joins, List.foldl_cons, List.foldl_nil, slashText]
          unfold join
          rw [if_neg (plain_head hv), if_neg (by simp [hne, hb])]
        | cons u us ih =>
          have hv := h' v (by simp)
          have e1 : join b v = b ++ '/' :: v := by
            unfold join
            rw [if_neg (plain_head hv), if_neg (by simp [hne, hb])]
          have := ih u (fun x hx => h' x (by simp only [List.mem_cons] at hx ⊢; tauto)) (join b v)
            (by rw [e1]; simp) (join_plain_getLast hv)
          simp only [joins, List.foldl_cons] at this ⊢
          rw [this, e1, slashText]
          simp
      refine ⟨k, ?_⟩
      have : joins a (w :: v :: ws) = joins (join a w) (v :: ws) := by simp [joins]
      rw [this, key, hk, slashText]
      simp

/-- The relative name is recovered when the text of the directory does not occur again. -/
theorem relative_parts {d : Text} (hd : d ≠ []) {ws : List Text} (h : ∀ w ∈ ws, PlainWord w)
    (hn : ws ≠ []) (hrec : ¬ d <:+: (joins d ws).drop d.length) :
    split (strip (replaceAll d [] (joins d ws))) = ws := by
  obtain ⟨k, hk⟩ := joins_text hd h hn
  rw [hk] at hrec ⊢
  rw [List.drop_left] at hrec
  rw [replaceAll_prefix hd, replaceAll_not_infix hrec, List.nil_append,
    strip_slashes k (slashText_head h) (slashText_getLast h), split_slashText h hn]

theorem filter_plain {ws : List Text} (h : ∀ w ∈ ws, PlainWord w) :
    ws.filter (fun w => w ≠ [] ∧ w ≠ ['.']) = ws := by
  rw [List.filter_eq_self]
  intro w hw
  have := h w hw
  simp [this.1, this.2.2]

theorem joins_head {a : Text} (ha : a ≠ []) {ws : List Text} (h : ∀ w ∈ ws, '/' ∉ w) :
    (joins a ws).head? = a.head? ∧ joins a ws ≠ [] := by
  induction ws generalizing a with
  | nil => exact ⟨rfl, ha⟩
  | cons w ws ih =>
    have hw := head?_no_slash (h w (by simp))
    have hj : join a w ≠ [] := by
      intro h0
      have := head?_join hw ha
      rw [h0] at this
      cases a with
      | nil => exact ha rfl
      | cons c t => simp at this
    have := ih hj (fun x hx => h x (by simp [hx]))
    simp only [joins, List.foldl_cons] at this ⊢
    rw [this.1, head?_join hw ha]
    exact ⟨rfl, this.2⟩

theorem resolve_slash_joins (cwd : Path) {ws : List Text} (h : ∀ w ∈ ws, '/' ∉ w) :
    resolve cwd (joins ['/'] ws) = ws.filter (fun w => w ≠ [] ∧ w ≠ ['.']) := by
  unfold resolve
  rw [(joins_head (by simp) h).1, if_pos (by simp), parts_joins _ h]
  have : parts ['/'] = [] := by
    have := parts_slash_start []
    rw [this, parts_nil]
  rw [this, List.nil_append]

/-- The pieces of the remote name of a file of the directory. -/
def pieces (remote : Text) (rel : List Text) : List Text := split (strip remote) ++ rel

theorem pieces_no_slash {remote : Text} {rel : List Text} (h : ∀ w ∈ rel, PlainWord w) :
    ∀ w ∈ pieces remote rel, '/' ∉ w := by
  intro w hw
  rcases List.mem_append.1 hw with hw | hw
  · exact mem_split_no_slash hw
  · exact (h w hw).2.1

theorem resolve_pieces (cwd : Path) {remote : Text} {rel : List Text} (h : ∀ w ∈ rel, PlainWord w) :
    resolve cwd (joins ['/'] (pieces remote rel)) = parts remote ++ rel := by
  rw [resolve_slash_joins cwd (pieces_no_slash h), pieces, List.filter_append, filter_plain h]
  congr 1
  exact parts_strip remote

theorem dirTarget_eq {remote d : Text} (hd : d ≠ []) {rel : List Text}
    (h : ∀ w ∈ rel, PlainWord w) (hn : rel ≠ []) (hrec : ¬ d <:+: (joins d rel).drop d.length) :
    dirTarget remote d (joins d rel) = joins ['/'] (pieces remote rel) := by
  unfold dirTarget
  rw [relative_parts hd h hn hrec]
  rfl

theorem resolve_dirTarget (cwd : Path) {remote d : Text} (hd : d ≠ []) {rel : List Text}
    (h : ∀ w ∈ rel, PlainWord w) (hn : rel ≠ []) (hrec : ¬ d <:+: (joins d rel).drop d.length) :
    resolve cwd (dirTarget remote d (joins d rel)) = parts remote ++ rel := by
  rw [dirTarget_eq hd h hn hrec, resolve_pieces cwd h]

/-- The suffix of temporary names. -/
def suffix (env : Env) (i : ℕ) : Text := ".tmp_".toList ++ env.stamp i

theorem suffix_no_slash {env : Env} (henv : env.Ok) (i : ℕ) : '/' ∉ suffix env i := by
  unfold suffix
  intro h
  rcases List.mem_append.1 h with h | h
  · revert h; decide
  · have := henv.stamp i _ h
    revert this; decide

/-- The temporary path next to `dst`. -/
def tmpPath (env : Env) (i : ℕ) (dst : Path) : Path :=
  dst.dropLast ++ [(dst.getLast?.getD []) ++ suffix env i]

theorem tmpPath_append (env : Env) (i : ℕ) (p : Path) (w : Text) :
    tmpPath env i (p ++ [w]) = p ++ [w ++ suffix env i] := by
  simp [tmpPath]

theorem tmpPath_ne {env : Env} (i : ℕ) (p : Path) (w : Text) :
    tmpPath env i (p ++ [w]) ≠ p ++ [w] := by
  rw [tmpPath_append]
  simp [suffix]

theorem plain_ext {env : Env} (i : ℕ) {w : Text} : w ++ suffix env i ≠ ['.'] := by
  intro hc
  have : (w ++ suffix env i).length = 1 := by rw [hc]; rfl
  have h5 : 5 ≤ (suffix env i).length := by simp [suffix]
  rw [List.length_append] at this
  omega

theorem tmpPath_temp {env : Env} (henv : env.Ok) (i : ℕ) (dst : Path) :
    TempPath (tmpPath env i dst) := by
  refine ⟨(dst.getLast?.getD []) ++ suffix env i, by simp [tmpPath], dst.getLast?.getD [],
    env.stamp i, by simp [suffix], henv.stamp i⟩

/-- A copy: from where to where, and whether missing directories are made. -/
structure Job where
  src : Path
  dst : Path
  dirs : Bool

/-- Carry out a copy. -/
def runJob (env : Env) (i : ℕ) (fs : FS) (j : Job) : Run Unit :=
  andThen (if j.dirs = false ∨ isDir fs j.dst.dropLast then done fs ()
      else makedirs fs j.dst.dropLast) fun fs _ =>
    copyRename env fs j.src (tmpPath env i j.dst) j.dst

theorem copyDirFile_job {env : Env} (henv : env.Ok) (cwd : Path) {remote d : Text} (hd : d ≠ [])
    {rel : List Text} (h : ∀ w ∈ rel, PlainWord w) (hn : rel ≠ [])
    (hrec : ¬ d <:+: (joins d rel).drop d.length) (i : ℕ) (fs : FS) :
    copyDirFile env cwd remote d i fs (joins d rel) =
      runJob env i fs ⟨resolve cwd d ++ rel, parts remote ++ rel, true⟩ := by
  obtain ⟨r, w, rfl⟩ : ∃ r w, rel = r ++ [w] := by
    exact ⟨rel.dropLast, rel.getLast hn, (List.dropLast_append_getLast hn).symm⟩
  have hw : PlainWord w := h w (by simp)
  have hr : ∀ x ∈ r, PlainWord x := fun x hx => h x (by simp [hx])
  have hj : joins ['/'] (pieces remote (r ++ [w])) = join (joins ['/'] (pieces remote r)) w := by
    simp [joins, pieces, List.foldl_append]
  unfold copyDirFile runJob
  simp only
  rw [dirTarget_eq hd h hn hrec]
  have e1 : resolve cwd (dirName (joins ['/'] (pieces remote (r ++ [w])))) = parts remote ++ r := by
    rw [hj, resolve_dirName_join cwd hw, resolve_pieces cwd hr]
  have e2 : resolve cwd (tmpName env i (joins ['/'] (pieces remote (r ++ [w])))) =
      tmpPath env i (parts remote ++ (r ++ [w])) := by
    unfold tmpName
    have := resolve_join_ext cwd (a := joins ['/'] (pieces remote r)) hw (suffix_no_slash henv i)
      (plain_ext i)
    rw [hj, List.append_assoc, ← List.append_assoc (parts remote), tmpPath_append,
      ← resolve_pieces cwd hr, ← this]
    rfl
  rw [e1, e2, resolve_pieces cwd h, resolve_joins cwd d h]
  have e3 : (parts remote ++ (r ++ [w])).dropLast = parts remote ++ r := by
    rw [← List.append_assoc, List.dropLast_concat]
  simp only [e3, Bool.true_eq_false, false_or]

theorem copyListed_job {env : Env} (henv : env.Ok) (cwd : Path) {remote f : Text}
    (h : PlainWord (baseName f)) (i : ℕ) (fs : FS) :
    copyListed env cwd remote i fs f =
      runJob env i fs ⟨resolve cwd f, resolve cwd remote ++ [baseName f], false⟩ := by
  unfold copyListed runJob
  simp only
  have e2 : resolve cwd (tmpName env i (join remote (baseName f))) =
      tmpPath env i (resolve cwd remote ++ [baseName f]) := by
    unfold tmpName
    rw [tmpPath_append, List.append_assoc]
    exact resolve_join_ext cwd h (suffix_no_slash henv i) (plain_ext i)
  rw [e2, resolve_join cwd (plain_head h), parts_word h]
  simp [andThen, done]

/-! ### Runs -/

theorem visits_andThen {α β : Type} {r : Run α} {f : FS → α → Run β} {s : FS}
    (h : Visits (andThen r f) s) : Visits r s ∨ ∃ a, r.out = .ok a ∧ Visits (f r.fs a) s := by
  unfold andThen at h
  cases ho : r.out with
  | error e => rw [ho] at h; exact Or.inl h
  | ok a =>
    rw [ho] at h
    rcases h with h | h
    · rcases List.mem_append.1 h with h | h
      · exact Or.inl (Or.inl h)
      · exact Or.inr ⟨a, rfl, Or.inl h⟩
    · exact Or.inr ⟨a, rfl, Or.inr h⟩

theorem andThen_ok {α β : Type} {r : Run α} {f : FS → α → Run β} {b : β}
    (h : (andThen r f).out = .ok b) :
    ∃ a, r.out = .ok a ∧ (f r.fs a).out = .ok b ∧ (andThen r f).fs = (f r.fs a).fs := by
  unfold andThen at h ⊢
  cases ho : r.out with
  | error e => rw [ho] at h; cases h
  | ok a => rw [ho] at h; exact ⟨a, rfl, h, rfl⟩

theorem visits_done {α : Type} {fs s : FS} {a : α} (h : Visits (done fs a) s) : s = fs := by
  rcases h with h | h
  · cases h
  · exact h

/-- One copy. -/
theorem runJob_spec {env : Env} (henv : env.Ok) (i : ℕ) (fs : FS) {j : Job}
    (hne : tmpPath env i j.dst ≠ j.dst) :
    (∀ s, Visits (runJob env i fs j) s →
      (∀ q, q ≠ tmpPath env i j.dst → q ≠ j.dst → contents s q = contents fs q) ∧
      (contents s j.dst = contents fs j.dst ∨
        ((contents fs j.src).isSome ∧ contents s j.dst = contents fs j.src))) ∧
    (∀ u, (runJob env i fs j).out = .ok u → (contents fs j.src).isSome ∧
      contents (runJob env i fs j).fs j.dst = contents fs j.src ∧
      contents (runJob env i fs j).fs (tmpPath env i j.dst) = none) := by
  unfold runJob
  generalize hr : (if j.dirs = false ∨ isDir fs j.dst.dropLast = true then done fs ()
      else makedirs fs j.dst.dropLast) = r
  have hfree : (∀ s ∈ r.trace, ∀ q, contents s q = contents fs q) ∧
      ∀ q, contents r.fs q = contents fs q := by
    rw [← hr]
    split
    · simp [done]
    · exact ⟨fun s hs q => (makedirs_contents fs _ q).1 s hs, fun q => (makedirs_contents fs _ q).2⟩
  obtain ⟨h1, h2, h3⟩ := copyRename_spec henv r.fs (src := j.src) hne
  have hc := hfree.2
  simp only [hc] at h1 h2 h3
  refine ⟨?_, ?_⟩
  · intro s hs
    rcases visits_andThen hs with hs | ⟨a, _, hs⟩
    · rcases hs with hs | rfl
      · exact ⟨fun q _ _ => hfree.1 s hs q, Or.inl (hfree.1 s hs _)⟩
      · exact ⟨fun q _ _ => hc q, Or.inl (hc _)⟩
    · rcases hs with hs | rfl
      · exact h1 s hs
      · exact h2
  · intro u hu
    obtain ⟨a, _, h5, h6⟩ := andThen_ok hu
    rw [h6]
    exact h3 u h5

/-- A loop of copies whose sources are not disturbed. -/
theorem copyLoop_spec {env : Env} (henv : env.Ok) {copy : ℕ → FS → Text → Run Unit}
    {job : Text → Job} {files : List Text}
    (hcopy : ∀ f ∈ files, ∀ i fs, copy i fs f = runJob env i fs (job f))
    (h1 : ∀ f ∈ files, ∀ g ∈ files, (job f).src ≠ (job g).dst)
    (h2 : ∀ f ∈ files, ∀ g ∈ files, ∀ i, (job f).src ≠ tmpPath env i (job g).dst)
    (h3 : ∀ f ∈ files, ∀ g ∈ files, ∀ i, (job f).dst ≠ tmpPath env i (job g).dst)
    (i : ℕ) (fs : FS) :
    (∀ s, Visits (copyLoop copy i fs files) s →
      ∀ q, (∀ f ∈ files, ∀ i, q ≠ tmpPath env i (job f).dst) →
        contents s q = contents fs q ∨ ∃ f ∈ files, (job f).dst = q ∧
          (contents fs (job f).src).isSome ∧ contents s q = contents fs (job f).src) ∧
    (∀ n, (copyLoop copy i fs files).out = .ok n → n = files.length ∧
      (∀ f ∈ files, (contents fs (job f).src).isSome) ∧
      (files.Pairwise (fun f g => (job f).dst ≠ (job g).dst) → ∀ f ∈ files,
        contents (copyLoop copy i fs files).fs (job f).dst = contents fs (job f).src)) := by
  induction files generalizing i fs with
  | nil =>
    refine ⟨?_, ?_⟩
    · intro s hs q _
      rw [visits_done hs]; exact Or.inl rfl
    · intro n hn
      simp [copyLoop, done] at hn ⊢
      exact hn.symm
  | cons f files ih =>
    have hf : f ∈ f :: files := by simp
    have hsub : ∀ g ∈ files, g ∈ f :: files := fun g hg => by simp [hg]
    have hne : tmpPath env i (job f).dst ≠ (job f).dst := (h3 f hf f hf i).symm
    have ihh := fun i fs => ih (fun g hg => hcopy g (hsub g hg))
      (fun g hg k hk => h1 g (hsub g hg) k (hsub k hk))
      (fun g hg k hk => h2 g (hsub g hg) k (hsub k hk))
      (fun g hg k hk => h3 g (hsub g hg) k (hsub k hk)) i fs
    obtain ⟨hv, ho⟩ := runJob_spec henv i fs hne
    rw [← hcopy f hf i fs] at hv ho
    simp only [copyLoop]
    -- the state after the first copy, as seen from the sources
    have hsrc : ∀ g ∈ f :: files, contents (copy i fs f).fs (job g).src = contents fs (job g).src :=
      fun g hg => (hv _ (Or.inr rfl)).1 _ (h2 g hg f hf i) (h1 g hg f hf)
    -- one state of the first copy
    have hfirst : ∀ s, Visits (copy i fs f) s →
        ∀ q, (∀ g ∈ f :: files, ∀ i, q ≠ tmpPath env i (job g).dst) →
        contents s q = contents fs q ∨ ∃ g ∈ f :: files, (job g).dst = q ∧
          (contents fs (job g).src).isSome ∧ contents s q = contents fs (job g).src := by
      intro s hs q hq
      obtain ⟨ha, hb⟩ := hv s hs
      by_cases hd : q = (job f).dst
      · subst hd
        rcases hb with hb | hb
        · exact Or.inl hb
        · exact Or.inr ⟨f, hf, rfl, hb.1, hb.2⟩
      · exact Or.inl (ha q (hq f hf i) hd)
    obtain ⟨ihv, iho⟩ := ihh (i + 1) (copy i fs f).fs
    -- states of the rest
    have hrest : ∀ s, Visits (copyLoop copy (i + 1) (copy i fs f).fs files) s →
        ∀ q, (∀ g ∈ f :: files, ∀ i, q ≠ tmpPath env i (job g).dst) →
        contents s q = contents fs q ∨ ∃ g ∈ f :: files, (job g).dst = q ∧
          (contents fs (job g).src).isSome ∧ contents s q = contents fs (job g).src := by
      intro s hs q hq
      rcases ihv s hs q (fun g hg => hq g (hsub g hg)) with h | ⟨g, hg, e1, e2, e3⟩
      · rw [h]; exact hfirst _ (Or.inr rfl) q hq
      · rw [hsrc g (hsub g hg)] at e2 e3
        exact Or.inr ⟨g, hsub g hg, e1, e2, e3⟩
    refine ⟨?_, ?_⟩
    · intro s hs q hq
      rcases visits_andThen hs with hs | ⟨u, _, hs⟩
      · exact hfirst s hs q hq
      · rcases visits_andThen hs with hs | ⟨n, _, hs⟩
        · exact hrest s hs q hq
        · rw [visits_done hs]
          exact hrest _ (Or.inr rfl) q hq
    · intro n hn
      obtain ⟨u, e1, e2, e3⟩ := andThen_ok hn
      obtain ⟨m, e4, e5, e6⟩ := andThen_ok e2
      obtain ⟨r1, r2, r3⟩ := iho m e4
      have hn' : n = m + 1 := by simp [done] at e5; omega
      rw [e3, e6]
      obtain ⟨j1, j2, _⟩ := ho u e1
      refine ⟨by rw [hn', r1]; simp, ?_, ?_⟩
      · intro g hg
        rcases List.mem_cons.1 hg with rfl | hg'
        · exact j1
        · have := r2 g hg'
          rwa [hsrc g hg] at this
      · intro hp g hg
        rw [List.pairwise_cons] at hp
        rcases List.mem_cons.1 hg with rfl | hg'
        · have hfin := ihv _ (Or.inr rfl) (job g).dst
            (fun k hk i => h3 g hf k (hsub k hk) i)
          rcases hfin with h | ⟨k, hk, e7, _, _⟩
          · simp only [done]; rw [h, j2]
          · exact absurd e7.symm (hp.1 k hk)
        · have := r3 hp.2 g hg'
          simp only [done]
          rw [this, hsrc g hg]

end Verif.Sender
