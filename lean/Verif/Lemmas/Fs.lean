import Verif.Spec.Files
import Mathlib.Data.List.TakeWhile

/-!
# Lemmas on path texts and on the file system
-/

namespace Verif.Fs
open Verif Verif.Spec

/-! ### Path texts -/

theorem split_nil : split [] = [[]] := rfl

theorem split_ne_nil (a : Text) : split a ≠ [] := by
  unfold split
  cases a with
  | nil => simp [Hdf.splitSlash]
  | cons c t =>
    rw [Hdf.splitSlash]
    split
    · simp
    · split <;> simp

theorem split_append (a b : Text) : split (a ++ '/' :: b) = split a ++ split b := by
  induction a with
  | nil => simp [split, Hdf.splitSlash]
  | cons c t ih =>
    have ih' : Hdf.splitSlash (t ++ '/' :: b) = Hdf.splitSlash t ++ Hdf.splitSlash b := ih
    simp only [split, List.cons_append]
    rw [Hdf.splitSlash, Hdf.splitSlash, ih']
    by_cases hc : c = '/'
    · simp [hc]
    · simp only [hc, if_false]
      have := split_ne_nil t
      unfold split at this
      cases h : Hdf.splitSlash t with
      | nil => exact absurd h this
      | cons w ws => simp

theorem split_word {w : Text} (h : '/' ∉ w) : split w = [w] := by
  induction w with
  | nil => rfl
  | cons c t ih =>
    simp only [List.mem_cons, not_or] at h
    have := ih h.2
    unfold split at this ⊢
    rw [Hdf.splitSlash, this]
    simpa using fun e : c = '/' => h.1 e.symm

theorem parts_nil : parts [] = [] := by simp [parts, split_nil]

theorem parts_append (a b : Text) : parts (a ++ '/' :: b) = parts a ++ parts b := by
  simp [parts, split_append]

theorem parts_word {w : Text} (h : PlainWord w) : parts w = [w] := by
  obtain ⟨h1, h2, h3⟩ := h
  simp [parts, split_word h2, h1, h3]

theorem parts_slash_end (a : Text) : parts (a ++ ['/']) = parts a := by
  rw [parts_append, parts_nil, List.append_nil]

theorem parts_slash_start (a : Text) : parts ('/' :: a) = parts a := by
  have := parts_append [] a
  simpa [parts_nil] using this

theorem eq_of_getLast? {a : Text} {c : Char} (h : a.getLast? = some c) : ∃ t, a = t ++ [c] := by
  exact ⟨a.dropLast, (List.dropLast_append_getLast? c h).symm⟩

theorem parts_join {a b : Text} (hb : b.head? ≠ some '/') : parts (join a b) = parts a ++ parts b := by
  unfold join
  rw [if_neg hb]
  split
  · rename_i h
    rcases h with h | h
    · subst h; simp [parts_nil]
    · obtain ⟨t, rfl⟩ := eq_of_getLast? h
      rw [parts_slash_end, List.append_assoc, List.singleton_append, parts_append]
  · exact parts_append a b

theorem head?_join {a b : Text} (hb : b.head? ≠ some '/') (ha : a ≠ []) :
    (join a b).head? = a.head? := by
  unfold join
  rw [if_neg hb]
  cases a with
  | nil => exact absurd rfl ha
  | cons c t => split <;> simp

theorem resolve_join (cwd : Path) {a b : Text} (hb : b.head? ≠ some '/') :
    resolve cwd (join a b) = resolve cwd a ++ parts b := by
  unfold resolve
  by_cases ha : a = []
  · subst ha
    have : join [] b = b := by unfold join; rw [if_neg hb]; simp
    rw [this, if_neg hb]
    simp [parts_nil]
  · rw [head?_join hb ha, parts_join hb]
    split <;> simp

theorem plain_head {w : Text} (h : PlainWord w) : w.head? ≠ some '/' := by
  intro hc
  cases w with
  | nil => simp at hc
  | cons c t =>
    simp at hc
    exact h.2.1 (by simp [hc])

theorem resolve_joins (cwd : Path) (a : Text) {ws : List Text} (h : ∀ w ∈ ws, PlainWord w) :
    resolve cwd (joins a ws) = resolve cwd a ++ ws := by
  induction ws generalizing a with
  | nil => simp [joins]
  | cons w ws ih =>
    have hw := h w (by simp)
    have := ih (join a w) (fun x hx => h x (by simp [hx]))
    simp only [joins, List.foldl_cons] at this ⊢
    rw [this, resolve_join cwd (plain_head hw), parts_word hw]
    simp

theorem head?_no_slash {b : Text} (h : '/' ∉ b) : b.head? ≠ some '/' := by
  cases b with
  | nil => simp
  | cons c t => simp at h ⊢; exact fun e => h.1 e.symm

theorem parts_joins (a : Text) {ws : List Text} (h : ∀ w ∈ ws, '/' ∉ w) :
    parts (joins a ws) = parts a ++ ws.filter (fun w => w ≠ [] ∧ w ≠ ['.']) := by
  induction ws generalizing a with
  | nil => simp [joins]
  | cons w ws ih =>
    have hw := h w (by simp)
    have := ih (join a w) (fun x hx => h x (by simp [hx]))
    simp only [joins, List.foldl_cons] at this ⊢
    rw [this, parts_join (head?_no_slash hw)]
    simp only [parts, split_word hw, List.append_assoc]
    congr 1
    rw [← List.filter_append]; rfl

theorem mem_split_no_slash {a w : Text} (h : w ∈ split a) : '/' ∉ w := by
  induction a generalizing w with
  | nil => simp [split_nil] at h; simp [h]
  | cons c t ih =>
    unfold split at h
    rw [Hdf.splitSlash] at h
    by_cases hc : c = '/'
    · simp [hc] at h
      rcases h with h | h
      · simp [h]
      · exact ih h
    · simp only [hc, if_false] at h
      cases hs : Hdf.splitSlash t with
      | nil => exact absurd hs (split_ne_nil t)
      | cons v vs =>
        rw [hs] at h
        simp at h
        rcases h with h | h
        · subst h
          have := ih (w := v) (by unfold split; simp [hs])
          simp [this]; exact fun e => hc e.symm
        · exact ih (by unfold split; simp [hs, h])

theorem dropWhile_slash_append (n : ℕ) {s : Text} (h : s.head? ≠ some '/') :
    (List.replicate n '/' ++ s).dropWhile (· = '/') = s := by
  induction n with
  | zero =>
    cases s with
    | nil => simp
    | cons c t =>
      simp at h
      simp [h]
  | succ n ih => simp only [List.replicate_succ, List.cons_append]; simpa using ih

theorem exists_slashes (s : Text) : ∃ n t, s = List.replicate n '/' ++ t ∧ t.head? ≠ some '/' := by
  induction s with
  | nil => exact ⟨0, [], by simp⟩
  | cons c s ih =>
    by_cases hc : c = '/'
    · obtain ⟨n, t, h1, h2⟩ := ih
      exact ⟨n + 1, t, by simp [List.replicate_succ, hc, ← h1], h2⟩
    · exact ⟨0, c :: s, by simp, by simp [hc]⟩

theorem parts_replicate_start (n : ℕ) (s : Text) : parts (List.replicate n '/' ++ s) = parts s := by
  induction n with
  | zero => simp
  | succ n ih => rw [List.replicate_succ, List.cons_append, parts_slash_start, ih]

theorem parts_replicate_end (n : ℕ) (s : Text) : parts (s ++ List.replicate n '/') = parts s := by
  induction n with
  | zero => simp
  | succ n ih => rw [List.replicate_succ', ← List.append_assoc, parts_slash_end, ih]

theorem parts_rstrip (s : Text) : parts (s.reverse.dropWhile (· = '/')).reverse = parts s := by
  obtain ⟨n, t, h1, h2⟩ := exists_slashes s.reverse
  rw [h1, dropWhile_slash_append n h2]
  have : s = t.reverse ++ List.replicate n '/' := by
    rw [← List.reverse_reverse s, h1]; simp
  rw [this, parts_replicate_end]

theorem parts_strip (s : Text) : parts (strip s) = parts s := by
  unfold strip
  rw [parts_rstrip]
  obtain ⟨n, t, h1, h2⟩ := exists_slashes s
  rw [h1, dropWhile_slash_append n h2, parts_replicate_start]

/-! ### Base and directory names -/

theorem baseName_append {a w : Text} (h : '/' ∉ w) : baseName (a ++ '/' :: w) = w := by
  unfold baseName
  have : (a ++ '/' :: w).reverse = w.reverse ++ '/' :: a.reverse := by simp
  rw [this, List.takeWhile_append_of_pos (by
    intro x hx; simp at hx; simp; rintro rfl; exact h hx)]
  simp

theorem baseName_word {w : Text} (h : '/' ∉ w) : baseName w = w := by
  unfold baseName
  rw [List.takeWhile_eq_self_iff.2 (by
    intro x hx; simp at hx; simp; rintro rfl; exact h hx)]
  simp

theorem parts_dirName_aux (head : Text) :
    parts (if head.all (· = '/') then head else (head.reverse.dropWhile (· = '/')).reverse)
      = parts head := by
  split
  · rfl
  · exact parts_rstrip head

theorem head?_rstrip {s : Text} (h : ¬ s.all (· = '/') = true) :
    ((s.reverse.dropWhile (· = '/')).reverse).head? = s.head? := by
  obtain ⟨n, t, h1, h2⟩ := exists_slashes s.reverse
  rw [h1, dropWhile_slash_append n h2]
  have hs : s = t.reverse ++ List.replicate n '/' := by
    rw [← List.reverse_reverse s, h1]; simp
  have ht : t ≠ [] := by
    rintro rfl
    apply h
    rw [hs]; simp
  rw [hs]
  have : t.reverse ≠ [] := by simpa using ht
  rw [List.head?_append_of_ne_nil _ this]

theorem resolve_dirName_aux (cwd : Path) (head : Text) :
    resolve cwd (if head.all (· = '/') then head else (head.reverse.dropWhile (· = '/')).reverse)
      = resolve cwd head := by
  by_cases h : head.all (· = '/') = true
  · rw [if_pos h]
  · rw [if_neg h]
    unfold resolve
    rw [head?_rstrip h, parts_rstrip]

theorem resolve_slash_end (cwd : Path) {a : Text} (h : a ≠ []) :
    resolve cwd (a ++ ['/']) = resolve cwd a := by
  unfold resolve
  rw [List.head?_append_of_ne_nil _ h, parts_slash_end]

theorem resolve_dirName_join (cwd : Path) {a w : Text} (h : PlainWord w) :
    resolve cwd (dirName (join a w)) = resolve cwd a := by
  have hw : w.reverse.dropWhile (· ≠ '/') = [] := by
    rw [List.dropWhile_eq_nil_iff]
    intro x hx; simp at hx; simp; rintro rfl; exact h.2.1 hx
  have key : ∀ b : Text, ((b ++ '/' :: w).reverse.dropWhile (· ≠ '/')).reverse = b ++ ['/'] := by
    intro b
    have : (b ++ '/' :: w).reverse = w.reverse ++ '/' :: b.reverse := by simp
    rw [this, List.dropWhile_append_of_pos (by
      intro x hx; simp at hx; simp; rintro rfl; exact h.2.1 hx)]
    simp
  unfold dirName
  simp only
  rw [resolve_dirName_aux]
  unfold join
  rw [if_neg (plain_head h)]
  split
  · rename_i hc
    rcases hc with rfl | hc
    · rw [List.nil_append, hw]; rfl
    · obtain ⟨t, rfl⟩ := eq_of_getLast? hc
      rw [List.append_assoc, List.singleton_append, key]
  · rename_i hc
    rw [key, resolve_slash_end]
    intro h0; exact hc (Or.inl h0)

theorem resolve_join_ext (cwd : Path) {a w : Text} (h : PlainWord w) {e : Text} (he : '/' ∉ e)
    (hd : w ++ e ≠ ['.']) : resolve cwd (join a w ++ e) = resolve cwd a ++ [w ++ e] := by
  have : join a w ++ e = join a (w ++ e) := by
    unfold join
    have h1 := (plain_head h)
    have h2 : (w ++ e).head? ≠ some '/' := by
      rw [List.head?_append_of_ne_nil _ h.1]; exact h1
    rw [if_neg h1, if_neg h2]
    split <;> simp
  have hp : PlainWord (w ++ e) := ⟨by simp [h.1], by simp [h.2.1, he], hd⟩
  rw [this, resolve_join cwd (plain_head hp), parts_word hp]

/-! ### Replacing text -/

theorem replaceAll_not_infix {old new s : Text} (h : ¬ old <:+: s) : replaceAll old new s = s := by
  induction s with
  | nil => simp [replaceAll]
  | cons c t ih =>
    rw [replaceAll]
    have h1 : ¬ (old ≠ [] ∧ old <+: c :: t) := fun hh => h hh.2.isInfix
    rw [dif_neg h1, ih (fun hh => h (hh.trans (List.suffix_cons c t).isInfix))]

theorem replaceAll_prefix {old new s : Text} (h : old ≠ []) :
    replaceAll old new (old ++ s) = new ++ replaceAll old new s := by
  cases old with
  | nil => exact absurd rfl h
  | cons c t =>
    rw [List.cons_append, replaceAll]
    have h1 : (c :: t) ≠ [] ∧ (c :: t) <+: c :: (t ++ s) := ⟨h, by simp⟩
    rw [dif_pos h1]
    simp

/-! ### Nodes -/

theorem get_set (fs : FS) (p q : Path) (n : Node) :
    get (set fs p n) q = if q = p then some n else get fs q := by
  unfold get set
  rw [List.lookup_cons]
  by_cases h : q = p
  · simp [h]
  · simp [h, beq_false_of_ne h]

theorem get_del (fs : FS) (p q : Path) : get (del fs p) q = if q = p then none else get fs q := by
  unfold get del
  induction fs with
  | nil => simp
  | cons e fs ih =>
    obtain ⟨x, n⟩ := e
    by_cases hx : x = p
    · subst hx
      simp only [ne_eq, not_true_eq_false, decide_false, Bool.false_eq_true, not_false_eq_true,
        List.filter_cons_of_neg]
      rw [ih, List.lookup_cons]
      by_cases hq : q = x
      · simp [hq]
      · simp [hq, beq_false_of_ne hq]
    · rw [List.filter_cons_of_pos (by simpa using hx), List.lookup_cons, List.lookup_cons, ih]
      by_cases hqx : q = x
      · subst hqx; simp [hx]
      · simp [beq_false_of_ne hqx]

theorem contents_set_file (fs : FS) (p q : Path) (b : Bytes) :
    contents (set fs p (.file b)) q = if q = p then some b else contents fs q := by
  unfold contents
  rw [get_set]
  by_cases h : q = p <;> simp [h]

theorem contents_del (fs : FS) (p q : Path) :
    contents (del fs p) q = if q = p then none else contents fs q := by
  unfold contents
  rw [get_del]
  by_cases h : q = p <;> simp [h]

theorem contents_mkdir {fs : FS} {p : Path} (h : get fs p = none) (q : Path) :
    contents (set fs p .dir) q = contents fs q := by
  unfold contents
  rw [get_set]
  by_cases hq : q = p
  · subst hq; simp [h]
  · simp [hq]

theorem isFile_iff (fs : FS) (p : Path) : isFile fs p = true ↔ ∃ b, contents fs p = some b := by
  unfold isFile contents
  cases get fs p with
  | none => simp
  | some n => cases n <;> simp

theorem contents_eq_some {fs : FS} {p : Path} {b : Bytes} :
    contents fs p = some b ↔ get fs p = some (.file b) := by
  unfold contents
  cases h : get fs p with
  | none => simp
  | some n => cases n <;> simp

theorem contents_of_isDir {fs : FS} {p : Path} (h : get fs p = some .dir) : contents fs p = none := by
  simp [contents, h]

/-! ### Runs -/

theorem exec_mkdir {fs fs' : FS} {p : Path} (h : exec fs (.mkdir p) = .ok fs') :
    get fs p = none ∧ p ≠ [] ∧ fs' = set fs p .dir := by
  unfold exec at h
  simp only at h
  split at h
  · cases h
  · rename_i hc
    cases h
    simp only [Bool.or_eq_true, not_or] at hc
    refine ⟨by simpa using hc.1.1, by simpa using hc.1.2, rfl⟩

theorem runAll_mkdirs (ps : List Path) (fs : FS) (q : Path) :
    (∀ s ∈ (runAll (ps.map .mkdir) fs).trace, contents s q = contents fs q) ∧
      contents (runAll (ps.map .mkdir) fs).fs q = contents fs q := by
  induction ps generalizing fs with
  | nil => simp [runAll, done]
  | cons p ps ih =>
    simp only [List.map_cons, runAll]
    cases h : exec fs (.mkdir p) with
    | error e => simp [fail]
    | ok fs' =>
      obtain ⟨h1, _, rfl⟩ := exec_mkdir h
      have := ih (set fs p .dir)
      rw [contents_mkdir h1] at this
      simp only [List.mem_cons, forall_eq_or_imp, contents_mkdir h1, true_and]
      exact this

theorem makedirs_contents (fs : FS) (p q : Path) :
    (∀ s ∈ (makedirs fs p).trace, contents s q = contents fs q) ∧
      contents (makedirs fs p).fs q = contents fs q :=
  runAll_mkdirs _ fs q

/-- What the pieces appended to a temporary file leave alone. -/
theorem runAll_appends (tmp : Path) (bs : List Bytes) (rest : List Prim) (fs : FS) (c : Bytes)
    (h : contents fs tmp = some c) :
    ∃ fs', contents fs' tmp = some (c ++ bs.flatten) ∧
      (∀ q, q ≠ tmp → contents fs' q = contents fs q) ∧
      (∃ tr, (runAll (bs.map (.append tmp) ++ rest) fs).trace = tr ++ (runAll rest fs').trace ∧
        ∀ s ∈ tr, ∀ q, q ≠ tmp → contents s q = contents fs q) ∧
      (runAll (bs.map (.append tmp) ++ rest) fs).fs = (runAll rest fs').fs ∧
      (runAll (bs.map (.append tmp) ++ rest) fs).out = (runAll rest fs').out := by
  induction bs generalizing fs c with
  | nil => exact ⟨fs, by simpa using h, by simp, ⟨[], by simp⟩, by simp, by simp⟩
  | cons b bs ih =>
    have hg := contents_eq_some.1 h
    have he : exec fs (.append tmp b) = .ok (set fs tmp (.file (c ++ b))) := by simp [exec, hg]
    have hc : contents (set fs tmp (.file (c ++ b))) tmp = some (c ++ b) := by
      rw [contents_set_file]; simp
    obtain ⟨fs', h1, h2, ⟨tr, h3, h4⟩, h5, h6⟩ := ih _ _ hc
    have hs : ∀ q, q ≠ tmp → contents (set fs tmp (.file (c ++ b))) q = contents fs q := by
      intro q hq; rw [contents_set_file]; simp [hq]
    refine ⟨fs', by simpa using h1, fun q hq => (h2 q hq).trans (hs q hq), ?_, ?_, ?_⟩
    · refine ⟨set fs tmp (.file (c ++ b)) :: tr, ?_, ?_⟩
      · simp only [List.map_cons, List.cons_append, runAll, he, h3]
      · intro s hmem q hq
        rcases List.mem_cons.1 hmem with rfl | hmem
        · exact hs q hq
        · exact (h4 s hmem q hq).trans (hs q hq)
    · simp only [List.map_cons, List.cons_append, runAll, he, h5]
    · simp only [List.map_cons, List.cons_append, runAll, he, h6]

/-- Copying to a temporary file and renaming it. -/
theorem copyRename_spec {env : Env} (henv : env.Ok) (fs : FS) {src tmp dst : Path}
    (hne : tmp ≠ dst) :
    (∀ s ∈ (copyRename env fs src tmp dst).trace,
      (∀ q, q ≠ tmp → q ≠ dst → contents s q = contents fs q) ∧
      (contents s dst = contents fs dst ∨
        ((contents fs src).isSome ∧ contents s dst = contents fs src))) ∧
    ((∀ q, q ≠ tmp → q ≠ dst → contents (copyRename env fs src tmp dst).fs q = contents fs q) ∧
      (contents (copyRename env fs src tmp dst).fs dst = contents fs dst ∨
        ((contents fs src).isSome ∧
          contents (copyRename env fs src tmp dst).fs dst = contents fs src))) ∧
    (∀ u, (copyRename env fs src tmp dst).out = .ok u →
      (contents fs src).isSome ∧
      contents (copyRename env fs src tmp dst).fs dst = contents fs src ∧
      contents (copyRename env fs src tmp dst).fs tmp = none) := by
  unfold copyRename
  cases hg : get fs src with
  | none => simp [fail]
  | some n =>
    cases n with
    | dir => simp [fail]
    | file c =>
      simp only
      by_cases hst : src = tmp
      · simp [hst, fail]
      · rw [if_neg hst]
        have hc : contents fs src = some c := contents_eq_some.2 hg
        rw [List.cons_append, runAll]
        cases h : exec fs (.create tmp) with
        | error e => simp [fail]
        | ok fs1 =>
          have hfs1 : fs1 = set fs tmp (.file []) := by
            unfold exec at h
            simp only at h
            split at h <;> cases h
            rfl
          subst hfs1
          have ht : contents (set fs tmp (.file [])) tmp = some [] := by
            rw [contents_set_file]; simp
          obtain ⟨fs', h1, h2, ⟨tr, h3, h4⟩, h5, h6⟩ :=
            runAll_appends tmp (env.chunks c) [.rename tmp dst] _ _ ht
          have hs : ∀ q, q ≠ tmp → contents (set fs tmp (.file [])) q = contents fs q := by
            intro q hq; rw [contents_set_file]; simp [hq]
          rw [List.nil_append, henv.chunks] at h1
          simp only [h3, h5, h6]
          have hg' := contents_eq_some.1 h1
          by_cases hbad : (isDir fs' dst || !isDir fs' dst.dropLast) = true
          · have hr : runAll [.rename tmp dst] fs' = fail fs' := by simp [runAll, exec, hg', hbad]
            rw [hr]
            refine ⟨?_, ?_, ?_⟩
            · intro s hmem
              simp only [fail, List.append_nil, List.mem_cons] at hmem
              rcases hmem with rfl | hmem
              · exact ⟨fun q hq _ => hs q hq, Or.inl (hs dst hne.symm)⟩
              · exact ⟨fun q hq _ => (h4 s hmem q hq).trans (hs q hq),
                  Or.inl ((h4 s hmem dst hne.symm).trans (hs dst hne.symm))⟩
            · refine ⟨fun q hq _ => ?_, Or.inl ?_⟩
              · exact (h2 q hq).trans (hs q hq)
              · exact (h2 dst hne.symm).trans (hs dst hne.symm)
            · intro u hu; cases hu
          · have hr : runAll [.rename tmp dst] fs' =
                ⟨[set (del fs' tmp) dst (.file c)], set (del fs' tmp) dst (.file c), .ok ()⟩ := by
              simp [runAll, exec, hg', hbad, done]
            rw [hr]
            have hf : ∀ q, contents (set (del fs' tmp) dst (.file c)) q =
                if q = dst then some c else if q = tmp then none else contents fs' q := by
              intro q; rw [contents_set_file, contents_del]
            refine ⟨?_, ?_, ?_⟩
            · intro s hmem
              simp only [List.mem_cons, List.mem_append, List.not_mem_nil, or_false] at hmem
              rcases hmem with rfl | hmem | rfl
              · exact ⟨fun q hq _ => hs q hq, Or.inl (hs dst hne.symm)⟩
              · exact ⟨fun q hq _ => (h4 s hmem q hq).trans (hs q hq),
                  Or.inl ((h4 s hmem dst hne.symm).trans (hs dst hne.symm))⟩
              · refine ⟨fun q hq hd => ?_, Or.inr ⟨by simp [hc], ?_⟩⟩
                · rw [hf]; simp only [hd, hq, if_false]; exact (h2 q hq).trans (hs q hq)
                · rw [hf]; simp [hc]
            · refine ⟨fun q hq hd => ?_, Or.inr ⟨by simp [hc], ?_⟩⟩
              · simp only
                rw [hf]; simp only [hd, hq, if_false]; exact (h2 q hq).trans (hs q hq)
              · simp only; rw [hf]; simp [hc]
            · intro u _
              refine ⟨by simp [hc], ?_, ?_⟩
              · simp only; rw [hf]; simp [hc]
              · simp only; rw [hf]; simp [hne]

end Verif.Fs
