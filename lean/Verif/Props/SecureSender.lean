import Verif.Lemmas.Secure

/-!
# Secure sender: C136, C137, C138, C139
-/

namespace Verif.Props
open Verif.Fs Verif.Sender Verif.Spec Verif.Secure

/-! ### C136 -/

/-- **C136** (partial). During a transfer to a Unix machine, however commands and uploads fail, and at
every moment: a remote path has its old contents, or it is the place of a file to be sent and has its
complete new contents, or it is a temporary name in the remote directory, or it is the place of a folder
and the plain file that was there is gone. What is missing: names that are not plain, see
`C136_backslash_violated`, and the removal of plain files, see `C139_file_removed_violated`. -/
theorem C136_atomic_partial {env : Env} (henv : env.Ok) {home : Text} {m : Machine} (hm : Unix home m)
    {cwd : Path} {c : Config} {loc rem : FS} (hp : Plain cwd c loc) (htmp : NoTempDirs c rem)
    {s : FS} (hs : Visits (Secure.send env m cwd loc c rem) s) (q : Path) :
    contents s q = contents rem q ∨
    (∃ b, Sends cwd c loc q b ∧ contents s q = some b) ∨
    (TempPath q ∧ parts c.remote <+: q) ∨
    (Folder cwd c loc q ∧ contents s q = none) := by
  rcases (keeps_send henv hm hp (rem := rem) ⟨fun _ => Or.inl rfl, htmp⟩ s hs).files q with
    h | h | h | h
  · exact Or.inl h
  · exact Or.inr (Or.inr (Or.inl h))
  · exact Or.inr (Or.inl h)
  · exact Or.inr (Or.inr (Or.inr h))

/-! ### C137 -/

/-- **C137** (partial). A transfer of plain names to a reliable machine with room for the files returns
normally and reports the number of files: those listed and those of the local directory. Then every file
is in its place with its contents; every other path has its old contents, or is empty and was a temporary
name in the remote directory or a plain file at the place of a folder. What is missing: `send` returns
normally also when a rename failed, see `C137_silent_failure_violated`, and names that mean something
to a shell, see `C137_blank_violated`. -/
theorem C137_delivery_partial {env : Env} (henv : env.Ok) {home : Text} {m : Machine}
    (hm : Unix home m) (hrel : Reliable home m) {cwd : Path} {c : Config} {loc rem : FS}
    (hp : Plain cwd c loc) (hr : Room cwd c loc rem) (htmp : NoTempDirs c rem)
    {files : List (Text × List Text)} (hnd : files.Nodup)
    (hfiles : ∀ d rel, (d, rel) ∈ files ↔ LocalFile cwd c loc d rel) :
    (Secure.send env m cwd loc c rem).out = .ok (c.localFiles.length + files.length) ∧
    (∀ p b, Sends cwd c loc p b → contents (Secure.send env m cwd loc c rem).fs p = some b) ∧
    (∀ q, (∀ b, ¬ Sends cwd c loc q b) →
      contents (Secure.send env m cwd loc c rem).fs q = contents rem q ∨
      (contents (Secure.send env m cwd loc c rem).fs q = none ∧
        ((TempPath q ∧ parts c.remote <+: q) ∨ Folder cwd c loc q))) := by
  obtain ⟨h1, h2, -, h3⟩ := send_ok henv hm hrel hp hr htmp
  refine ⟨?_, h3, fun q hq => ?_⟩
  · rw [h1]
    congr 1
    unfold count
    congr 1
    cases hd : c.localDir with
    | none =>
      simp only
      cases files with
      | nil => rfl
      | cons x xs =>
        have := (hfiles x.1 x.2).1 (by simp)
        rw [LocalFile, hd] at this
        simp at this
    | some d =>
      simp only
      unfold walk
      rw [List.length_map, (henv.order _).length_eq]
      have : files.Perm ((filesBelow loc (resolve cwd d)).map fun rel => (d, rel)) := by
        rw [List.perm_ext_iff_of_nodup hnd ((nodup_filesBelow _ _).map fun a b h => by simpa using h)]
        rintro ⟨d', rel⟩
        rw [hfiles, LocalFile, hd]
        simp only [List.mem_map, Prod.mk.injEq, mem_filesBelow, Option.some.injEq]
        constructor
        · rintro ⟨rfl, h⟩; exact ⟨rel, h, rfl, rfl⟩
        · rintro ⟨_, h, rfl, rfl⟩; exact ⟨rfl, h⟩
      rw [this.length_eq, List.length_map]
  · rcases C136_atomic_partial henv hm hp htmp (Or.inr rfl) q with h | ⟨b, hb, _⟩ | h | h
    · exact Or.inl h
    · exact absurd hb (hq b)
    · rcases h2.clean q h.1 with hc | hc
      · exact Or.inr ⟨hc, Or.inl h⟩
      · exact Or.inl hc
    · exact Or.inr ⟨h.2, Or.inr h.1⟩

/-! ### A machine for the examples -/

/-- Carry out an operation if it is possible. -/
def tryOp (fs : FS) (op : Prim) : FS :=
  match exec fs op with
  | .ok fs' => fs'
  | .error _ => fs

/-- Make directories. -/
def mkdirs (fs : FS) (ps : List Path) : FS := ps.foldl (fun fs q => tryOp fs (.mkdir q)) fs

/-- Where `mv` moves a file. -/
def mvTarget (fs : FS) (a b : Text) : Path :=
  if isDir fs (parts b) then parts b ++ (parts a).getLast?.toList else parts b

/-- A plain Unix machine with tests, `mkdir -p`, `rm` and `mv`; other commands do nothing. `moves` says
whether `mv` works. -/
def unixRun (moves : Bool) (fs : FS) (cmd : Text) : FS × ℕ :=
  if cmd.take 5 = "[ -e ".toList then
    match shellWords [] (cmd.drop 5).dropLast.dropLast with
    | some [w] => (fs, if (get fs (parts w)).isSome ∨ parts w = [] then 0 else 1)
    | _ => (fs, 2)
  else if cmd.take 5 = "[ -d ".toList then
    match shellWords [] (cmd.drop 5).dropLast.dropLast with
    | some [w] => (fs, if isDir fs (parts w) then 0 else 1)
    | _ => (fs, 2)
  else match shellWords [] cmd with
    | some [c, a, b] =>
      if c = "mv".toList then (if moves then tryOp fs (.rename (parts a) (mvTarget fs a b)) else fs, 0)
      else if c = "mkdir".toList ∧ a = "-p".toList then (mkdirs fs (prefixes (parts b)), 0)
      else (fs, 1)
    | some [c, a] => if c = "rm".toList then (tryOp fs (.remove (parts a)), 0) else (fs, 1)
    | _ => (fs, 1)

/-- The machine; uploads are written in one piece. -/
def unixMachine (moves : Bool) : Machine where
  run := unixRun moves
  put fs p b := runAll [.create (parts p), .append (parts p) b] fs

theorem tryOp_mkdir (fs : FS) (p q : Path) : get (tryOp fs (.mkdir p)) q = get fs q ∨
    (q = p ∧ get fs q = none ∧ get (tryOp fs (.mkdir p)) q = some .dir) := by
  unfold tryOp
  cases he : exec fs (.mkdir p) with
  | error e => exact Or.inl rfl
  | ok fs' =>
    obtain ⟨h1, -, h2⟩ := exec_mkdir he
    simp only
    rw [h2, get_set]
    by_cases hq : q = p
    · right; subst hq; exact ⟨rfl, h1, by simp⟩
    · left; rw [if_neg hq]

theorem mkdirs_new (ps : List Path) (fs : FS) (q : Path) : get (mkdirs fs ps) q = get fs q ∨
    (q ∈ ps ∧ get fs q = none ∧ get (mkdirs fs ps) q = some .dir) := by
  induction ps generalizing fs with
  | nil => exact Or.inl rfl
  | cons p ps ih =>
    simp only [mkdirs, List.foldl_cons] at ih ⊢
    rcases tryOp_mkdir fs p q with h | ⟨h1, h2, h3⟩
    · rcases ih (tryOp fs (.mkdir p)) with h' | ⟨k1, k2, k3⟩
      · left; rw [h', h]
      · right; exact ⟨by simp [k1], by rw [← h]; exact k2, k3⟩
    · right
      refine ⟨by simp [h1], h2, ?_⟩
      rcases ih (tryOp fs (.mkdir p)) with h' | ⟨k1, k2, k3⟩
      · rw [h', h3]
      · exact k3

theorem mem_prefixes {p q : Path} (h : q ∈ prefixes p) : q <+: p := by
  unfold prefixes at h
  obtain ⟨n, _, rfl⟩ := List.mem_map.1 h
  exact List.take_prefix _ _

theorem prefixes_concat (p : Path) (w : Text) : prefixes (p ++ [w]) = prefixes p ++ [p ++ [w]] := by
  unfold prefixes
  rw [List.length_append, List.length_singleton, List.range_succ, List.map_append]
  congr 1
  · apply List.map_congr_left
    intro n hn
    simp only [List.mem_range] at hn
    rw [List.take_append_of_le_length (by omega)]
  · simp

theorem mkdirs_isDir (p : Path) : ∀ fs : FS, (∀ q, q <+: p → contents fs q = none) →
    isDir (mkdirs fs (prefixes p)) p = true := by
  induction p using List.reverseRecOn with
  | nil => intro fs _; rfl
  | append_singleton p w ih =>
    intro fs h
    have h1 := ih fs fun q hq => h q (hq.trans (List.prefix_append _ _))
    rw [prefixes_concat]
    unfold mkdirs at h1 ⊢
    rw [List.foldl_append]
    simp only [List.foldl_cons, List.foldl_nil]
    have hc : contents (mkdirs fs (prefixes p)) (p ++ [w]) = none := by
      have h0 := h _ (List.prefix_refl _)
      unfold contents at h0 ⊢
      rcases mkdirs_new (prefixes p) fs (p ++ [w]) with h' | ⟨_, _, h'⟩
      · rw [h']; exact h0
      · rw [h']
    unfold mkdirs at hc
    generalize List.foldl (fun fs q => tryOp fs (.mkdir q)) fs (prefixes p) = fs1 at h1 hc
    unfold tryOp exec
    cases hg : get fs1 (p ++ [w]) with
    | some n =>
      cases n with
      | dir => simp [isDir, hg]
      | file b => rw [contents_eq_some.2 hg] at hc; cases hc
    | none =>
      simp only [hg, List.dropLast_concat, h1]
      simp [isDir, get_set]

theorem drop_test (flag : Text) (hf : flag.length = 5) (p : Text) :
    ((flag ++ p ++ " ]".toList).drop 5).dropLast.dropLast = p := by
  rw [List.append_assoc, ← hf, List.drop_left]
  have : p ++ " ]".toList = (p ++ [' ']) ++ [']'] := by simp
  rw [this, List.dropLast_concat, List.dropLast_concat]

theorem not_test {cmd : Text} {ws : List Text} (h : shellWords [] cmd = some ws) :
    cmd.take 5 ≠ "[ -e ".toList ∧ cmd.take 5 ≠ "[ -d ".toList := by
  have key : cmd.head? ≠ some '[' := by
    intro hh
    cases cmd with
    | nil => simp at hh
    | cons c s =>
      simp only [List.head?_cons, Option.some.injEq] at hh
      subst hh
      rw [shellWords, lex, if_neg (by decide), if_neg (by decide), if_neg (by decide),
        if_neg (by decide), if_neg (by decide), if_neg (by decide), if_pos (by decide)] at h
      cases h
  constructor <;>
  · intro h5
    apply key
    have := congrArg List.head? h5
    rw [List.head?_take] at this
    simpa using this

theorem unixMachine_unix (moves : Bool) : Unix [] (unixMachine moves) where
  exists_ fs p w hw _ := by
    rw [show (unixMachine moves).run = unixRun moves from rfl]
    unfold unixRun
    have h5 : ("[ -e ".toList ++ p ++ " ]".toList).take 5 = "[ -e ".toList := by
      rw [List.append_assoc]; exact List.take_left' (by decide)
    rw [if_pos h5, drop_test _ (by decide), hw]
  isDir_ fs p w hw _ := by
    rw [show (unixMachine moves).run = unixRun moves from rfl]
    unfold unixRun
    have h5 : ("[ -d ".toList ++ p ++ " ]".toList).take 5 = "[ -d ".toList := by
      rw [List.append_assoc]; exact List.take_left' (by decide)
    rw [h5, if_neg (by decide), if_pos rfl, drop_test _ (by decide), hw]
  mv fs cmd a b hw _ _ := by
    show (unixRun moves fs cmd).1 = _ ∨ exec _ _ = .ok (unixRun moves fs cmd).1
    unfold unixRun
    rw [if_neg (not_test hw).1, if_neg (not_test hw).2, hw]
    simp only [if_true]
    cases moves with
    | false => exact Or.inl rfl
    | true =>
      simp only [if_true]
      unfold tryOp
      show _ ∨ exec fs (.rename (parts a) (mvTarget fs a b)) = _
      cases exec fs (.rename (parts a) (mvTarget fs a b)) with
      | error e => exact Or.inl rfl
      | ok fs' => exact Or.inr rfl
  mkdir fs cmd p hw _ := by
    show NewDirs fs (unixRun moves fs cmd).1 _
    unfold unixRun
    rw [if_neg (not_test hw).1, if_neg (not_test hw).2, hw]
    simp only
    rw [if_neg (by decide), if_pos (by simp)]
    intro q
    rcases mkdirs_new (prefixes (parts p)) fs q with h | ⟨h1, h2, h3⟩
    · exact Or.inl h
    · exact Or.inr ⟨mem_prefixes h1, h2, h3⟩
  rm fs cmd p hw _ := by
    show (unixRun moves fs cmd).1 = _ ∨ exec _ _ = .ok (unixRun moves fs cmd).1
    unfold unixRun
    rw [if_neg (not_test hw).1, if_neg (not_test hw).2, hw]
    simp only [if_true]
    unfold tryOp
    cases exec fs (.remove (parts p)) with
    | error e => exact Or.inl rfl
    | ok fs' => exact Or.inr rfl
  put fs p b _ hd := by
    show (∀ s, Visits (runAll _ fs) s → _) ∧ (∀ s, Visits (runAll _ fs) s → _) ∧
      ((runAll _ fs).out = _ → contents (runAll _ fs).fs _ = _)
    simp only [runAll]
    cases he : exec fs (.create (parts p)) with
    | error e =>
      refine ⟨fun s hs q _ => ?_, fun s hs h => ?_, fun h => by cases h⟩
      · rcases hs with hs | rfl
        · cases hs
        · rfl
      · have : s = fs := by
          rcases hs with hs | rfl
          · cases hs
          · rfl
        rw [this] at h
        simp [isDir, h] at hd
    | ok fs1 =>
      have e1 : fs1 = Fs.set fs (parts p) (.file []) := by
        unfold exec at he
        simp only at he
        split at he
        · cases he
        · cases he; rfl
      have e2 : exec fs1 (.append (parts p) b) = .ok (Fs.set fs1 (parts p) (.file b)) := by
        have hg1 : get fs1 (parts p) = some (.file []) := by rw [e1, get_set, if_pos rfl]
        simp [exec, hg1]
      simp only [e2, done]
      have hv : ∀ s, Visits (⟨[fs1, Fs.set fs1 (parts p) (.file b)], Fs.set fs1 (parts p) (.file b),
          .ok ()⟩ : Run Unit) s → s = fs1 ∨ s = Fs.set fs1 (parts p) (.file b) := by
        intro s hs
        rcases hs with hs | rfl
        · simpa using hs
        · exact Or.inr rfl
      refine ⟨fun s hs q hq => ?_, fun s hs => ?_, fun _ => ?_⟩
      · rcases hv s hs with rfl | rfl
        · rw [e1, get_set, if_neg hq]
        · rw [get_set, if_neg hq, e1, get_set, if_neg hq]
      · rcases hv s hs with rfl | rfl
        · rw [e1, get_set, if_pos rfl]; simp
        · rw [get_set, if_pos rfl]; simp
      · rw [contents_set_file, if_pos rfl]

theorem unixMachine_reliable : Reliable [] (unixMachine true) where
  mv fs cmd a b hw _ _ hc hd hp := by
    show _ = Except.ok (unixRun true fs cmd).1
    unfold unixRun
    rw [if_neg (not_test hw).1, if_neg (not_test hw).2, hw]
    simp only [if_true]
    unfold tryOp mvTarget
    rw [hd]
    simp only [Bool.false_eq_true, if_false]
    obtain ⟨x, hx⟩ := Option.isSome_iff_exists.1 hc
    have hx := contents_eq_some.1 hx
    unfold exec
    simp [hx, hd, hp]
  mkdir fs cmd p hw _ h := by
    show isDir (unixRun true fs cmd).1 _ = true
    unfold unixRun
    rw [if_neg (not_test hw).1, if_neg (not_test hw).2, hw]
    simp only
    rw [if_neg (by decide), if_pos (by simp)]
    exact mkdirs_isDir (parts p) fs h
  rm fs cmd p hw _ hc := by
    show _ = Except.ok (unixRun true fs cmd).1
    unfold unixRun
    rw [if_neg (not_test hw).1, if_neg (not_test hw).2, hw]
    simp only [if_true]
    obtain ⟨x, hx⟩ := Option.isSome_iff_exists.1 hc
    unfold tryOp exec
    simp [(isFile_iff fs (parts p)).2 ⟨x, hx⟩]
  put fs p b _ hd hp := by
    show (runAll _ fs).out = _
    simp only [runAll, exec, hd, hp]
    simp [get_set, done]

/-- Two files below `/a` and one listed, sent to `/out`. -/
def secureConfig : Config := ⟨"/out".toList, some "/a".toList, ["/b/h".toList], "CANCEL".toList⟩

/-- The local files. -/
def secureLocal : FS :=
  [(["a".toList], .dir), (["a".toList, "f".toList], .file [1]), (["a".toList, "s".toList], .dir),
   (["a".toList, "s".toList, "g".toList], .file [2]), (["b".toList], .dir),
   (["b".toList, "h".toList], .file [3])]

theorem secureLocal_files (d : Text) (rel : List Text)
    (h : LocalFile [] secureConfig secureLocal d rel) :
    d = "/a".toList ∧ (rel = ["f".toList] ∨ rel = ["s".toList, "g".toList]) := by
  obtain ⟨h1, h2, h3⟩ := h
  simp only [secureConfig, Option.some.injEq] at h1
  subst h1
  refine ⟨rfl, ?_⟩
  have hm : rel ∈ filesBelow secureLocal (resolve [] "/a".toList) := mem_filesBelow.2 ⟨h2, h3⟩
  have : filesBelow secureLocal (resolve [] "/a".toList) = [["f".toList], ["s".toList, "g".toList]] := by
    decide +kernel
  rw [this] at hm
  simpa using hm

theorem securePlain : Plain [] secureConfig secureLocal where
  absolute := rfl
  remote_safe := by unfold ShellSafe; decide
  remote_temp w hw := by
    have : parts secureConfig.remote = ["out".toList] := by decide +kernel
    rw [this] at hw
    simp only [List.mem_singleton] at hw
    subst hw
    exact not_tempWord (by decide)
  dir_nonempty d hd := by
    simp only [secureConfig, Option.some.injEq] at hd
    subst hd; decide
  names d rel h w hw := by
    obtain ⟨rfl, rfl | rfl⟩ := secureLocal_files d rel h
    · simp only [List.mem_singleton] at hw
      subst hw
      exact ⟨by unfold PlainWord; decide, by unfold ShellSafe; decide, not_tempWord (by decide)⟩
    · simp only [List.mem_cons, List.not_mem_nil, or_false] at hw
      rcases hw with rfl | rfl <;>
      exact ⟨by unfold PlainWord; decide, by unfold ShellSafe; decide, not_tempWord (by decide)⟩
  once d rel h := by
    obtain ⟨rfl, rfl | rfl⟩ := secureLocal_files d rel h <;> decide +kernel
  listed f hf := by
    simp only [secureConfig, List.mem_singleton] at hf
    subst hf
    exact ⟨by unfold PlainWord; decide +kernel, by unfold ShellSafe; decide +kernel,
      not_tempWord (by decide +kernel)⟩

theorem secure_sends {p : Path} {b : Bytes} (h : Sends [] secureConfig secureLocal p b) :
    (p = ["out".toList, "f".toList] ∧ b = [1]) ∨
    (p = ["out".toList, "s".toList, "g".toList] ∧ b = [2]) ∨
    (p = ["out".toList, "h".toList] ∧ b = [3]) := by
  rcases h with ⟨d, rel, hd, hn, hb, rfl⟩ | ⟨f, hf, hb, rfl⟩
  · obtain ⟨rfl, rfl | rfl⟩ := secureLocal_files d rel ⟨hd, hn, by simp [hb]⟩
    · left
      refine ⟨by decide +kernel, ?_⟩
      have : contents secureLocal (resolve [] "/a".toList ++ ["f".toList]) = some [1] := by
        decide +kernel
      rw [this] at hb; cases hb; rfl
    · right; left
      refine ⟨by decide +kernel, ?_⟩
      have : contents secureLocal (resolve [] "/a".toList ++ ["s".toList, "g".toList]) = some [2] := by
        decide +kernel
      rw [this] at hb; cases hb; rfl
  · simp only [secureConfig, List.mem_singleton] at hf
    subst hf
    right; right
    refine ⟨by decide +kernel, ?_⟩
    have : contents secureLocal (resolve [] "/b/h".toList) = some [3] := by decide +kernel
    rw [this] at hb; cases hb; rfl

/-- A remote machine on which a plain file is at the place of the remote directory. -/
def secureRemote : FS := [(["out".toList], .file [9])]

theorem secure_folder {q : Path} (h : Folder [] secureConfig secureLocal q) :
    q = ["out".toList] ∨ q = ["out".toList, "s".toList] := by
  rcases h with rfl | ⟨p, b, hs, rfl⟩
  · left; decide +kernel
  · rcases secure_sends hs with ⟨rfl, _⟩ | ⟨rfl, _⟩ | ⟨rfl, _⟩
    · left; rfl
    · right; rfl
    · left; rfl

/-- There is room on an empty machine. -/
theorem secureRoom : Room [] secureConfig secureLocal [] where
  listed f hf := by
    simp only [secureConfig, List.mem_singleton] at hf
    subst hf; decide +kernel
  same p b b' h h' := by
    rcases secure_sends h with ⟨rfl, rfl⟩ | ⟨rfl, rfl⟩ | ⟨rfl, rfl⟩ <;>
    rcases secure_sends h' with ⟨h1, rfl⟩ | ⟨h1, rfl⟩ | ⟨h1, rfl⟩ <;>
    first | rfl | (exfalso; revert h1; decide)
  apart p b q b' h h' hpq := by
    rcases secure_sends h with ⟨rfl, rfl⟩ | ⟨rfl, rfl⟩ | ⟨rfl, rfl⟩ <;>
    rcases secure_sends h' with ⟨rfl, rfl⟩ | ⟨rfl, rfl⟩ | ⟨rfl, rfl⟩ <;>
    first | rfl | (exfalso; revert hpq; decide)
  no_dir p b _ := by simp [Fs.get]
  no_file p q _ _ _ _ := by simp [contents, Fs.get]
  root := rfl

/-- The hypotheses of C136 and C137 are met. -/
example : exEnv.Ok ∧ Unix [] (unixMachine true) ∧ Reliable [] (unixMachine true) ∧
    Plain [] secureConfig secureLocal ∧ Room [] secureConfig secureLocal [] ∧
    NoTempDirs secureConfig [] ∧
    (Secure.send exEnv (unixMachine true) [] secureLocal secureConfig []).out = .ok 3 :=
  ⟨exEnv_ok, unixMachine_unix true, unixMachine_reliable, securePlain, secureRoom,
   fun q _ _ => by simp [Fs.get], by decide +kernel⟩

/-- **C137** violated: the outcome of the rename is not looked at. On a Unix machine on which uploads
work and renames fail, `send` reports three files sent, and none of them is there. -/
theorem C137_silent_failure_violated : ∃ m : Machine, Unix [] m ∧
    (Secure.send exEnv m [] secureLocal secureConfig []).out = .ok 3 ∧
    ∀ p b, Sends [] secureConfig secureLocal p b →
      contents (Secure.send exEnv m [] secureLocal secureConfig []).fs p = none := by
  refine ⟨unixMachine false, unixMachine_unix false, by decide +kernel, fun p b h => ?_⟩
  rcases secure_sends h with ⟨rfl, _⟩ | ⟨rfl, _⟩ | ⟨rfl, _⟩ <;> decide +kernel

/-- **C137** violated for a file name with a blank: the commands are not quoted, `mv` gets four words,
and the file stays under its temporary name although `send` reports it as sent. The machine is
reliable. -/
theorem C137_blank_violated : ∃ m : Machine, Unix [] m ∧ Reliable [] m ∧
    ∃ (c : Config) (loc : FS), c.localFiles = ["/b/x y".toList] ∧
      contents loc ["b".toList, "x y".toList] = some [7] ∧
      (Secure.send exEnv m [] loc c []).out = .ok 1 ∧
      contents (Secure.send exEnv m [] loc c []).fs ["out".toList, "x y".toList] = none ∧
      contents (Secure.send exEnv m [] loc c []).fs
        ["out".toList, "x y.tmp_20260101000000".toList] = some [7] :=
  ⟨unixMachine true, unixMachine_unix true, unixMachine_reliable,
   ⟨"/out".toList, none, ["/b/x y".toList], "CANCEL".toList⟩,
   [(["b".toList], .dir), (["b".toList, "x y".toList], .file [7])], by decide +kernel⟩

/-- **C136** violated for a remote directory with a backslash in its name: the shell drops the backslash,
so the tests and `rm` are about another path, and a file that has nothing to do with the transfer is
removed. The machine is reliable. -/
theorem C136_backslash_violated : ∃ m : Machine, Unix [] m ∧ Reliable [] m ∧
    ∃ (c : Config) (loc rem : FS) (q : Path), c.remote = "/x\\y".toList ∧
      contents loc ["b".toList, "f".toList] = some [7] ∧ c.localFiles = ["/b/f".toList] ∧
      NoTempDirs c rem ∧ contents rem q = some [9] ∧
      Visits (Secure.send exEnv m [] loc c rem) (Secure.send exEnv m [] loc c rem).fs ∧
      ¬ (contents (Secure.send exEnv m [] loc c rem).fs q = contents rem q ∨
        (∃ b, Sends [] c loc q b ∧ contents (Secure.send exEnv m [] loc c rem).fs q = some b) ∨
        (TempPath q ∧ parts c.remote <+: q) ∨
        (Folder [] c loc q ∧ contents (Secure.send exEnv m [] loc c rem).fs q = none)) := by
  refine ⟨unixMachine true, unixMachine_unix true, unixMachine_reliable,
    ⟨"/x\\y".toList, none, ["/b/f".toList], "CANCEL".toList⟩,
    [(["b".toList], .dir), (["b".toList, "f".toList], .file [7])],
    [(["xy".toList], .file [9])], ["xy".toList], rfl, by decide +kernel, rfl, ?_, by decide +kernel,
    Or.inr rfl, ?_⟩
  · intro q _ _ h
    unfold Fs.get at h
    rw [List.lookup_cons] at h
    split at h <;> simp at h
  · have hsend : ∀ p b, Sends [] ⟨"/x\\y".toList, none, ["/b/f".toList], "CANCEL".toList⟩
        [(["b".toList], .dir), (["b".toList, "f".toList], .file [7])] p b →
        p = ["x\\y".toList, "f".toList] := by
      intro p b h
      rcases h with ⟨d, rel, h, _⟩ | ⟨f, hf, _, rfl⟩
      · cases h
      · simp only [List.mem_singleton] at hf
        subst hf
        decide +kernel
    rintro (h | ⟨b, h, _⟩ | ⟨_, h⟩ | ⟨h, _⟩)
    · revert h; decide +kernel
    · have := hsend _ _ h
      revert this; decide
    · revert h; decide +kernel
    · rcases h with h | ⟨p, b, hp, h⟩
      · revert h; decide +kernel
      · rw [hsend _ _ hp] at h
        revert h; decide

/-! ### C138 -/

/-- **C138** violated: unlike the other senders, `send` does not remove the marker of an earlier cancel.
On every Unix machine the marker is as it was at every moment of the transfer. -/
theorem C138_marker_stays_violated {env : Env} (henv : env.Ok) {home : Text} {m : Machine}
    (hm : Unix home m) {cwd : Path} {c : Config} {loc rem : FS} (hp : Plain cwd c loc)
    (htmp : NoTempDirs c rem) (hc : ¬ TempWord c.cancelFile)
    (hno : ∀ b, ¬ Sends cwd c loc (parts c.remote ++ [c.cancelFile]) b)
    (hnf : ¬ Folder cwd c loc (parts c.remote ++ [c.cancelFile]))
    {s : FS} (hs : Visits (Secure.send env m cwd loc c rem) s) :
    contents s (parts c.remote ++ [c.cancelFile]) =
      contents rem (parts c.remote ++ [c.cancelFile]) := by
  rcases C136_atomic_partial henv hm hp htmp hs (parts c.remote ++ [c.cancelFile]) with
    h | ⟨b, hb, _⟩ | ⟨⟨w, hw, ht⟩, _⟩ | ⟨h, _⟩
  · exact h
  · exact absurd hb (hno b)
  · simp only [List.getLast?_append, List.getLast?_singleton, Option.some_or, Option.some.injEq] at hw
    rw [← hw] at ht
    exact absurd ht hc
  · exact absurd h hnf

/-- The marker of the example stays, and `send` returns normally. -/
example : ¬ TempWord secureConfig.cancelFile ∧
    (∀ b, ¬ Sends [] secureConfig secureLocal
      (parts secureConfig.remote ++ [secureConfig.cancelFile]) b) ∧
    ¬ Folder [] secureConfig secureLocal (parts secureConfig.remote ++ [secureConfig.cancelFile]) ∧
    contents (Secure.send exEnv (unixMachine true) [] secureLocal secureConfig
      [(["out".toList], .dir), (["out".toList, "CANCEL".toList], .file [5])]).fs
        ["out".toList, "CANCEL".toList] = some [5] ∧
    (Secure.send exEnv (unixMachine true) [] secureLocal secureConfig
      [(["out".toList], .dir), (["out".toList, "CANCEL".toList], .file [5])]).out = .ok 3 := by
  refine ⟨?_, fun b h => ?_, fun h => ?_, by decide +kernel, by decide +kernel⟩
  · rintro ⟨a, ds, h, _⟩
    have h1 : '_' ∈ secureConfig.cancelFile := by rw [h]; simp
    revert h1; decide
  · rcases secure_sends h with ⟨h, _⟩ | ⟨h, _⟩ | ⟨h, _⟩ <;> (revert h; decide +kernel)
  · rcases secure_folder h with h | h <;> (revert h; decide +kernel)

/-! ### C139 -/

/-- **C139** violated: a plain file at the place of the remote directory is deleted. On every reliable
machine its contents are gone after the transfer. -/
theorem C139_file_removed_violated {env : Env} (henv : env.Ok) {home : Text} {m : Machine}
    (hm : Unix home m) (hrel : Reliable home m) {cwd : Path} {c : Config} {loc rem : FS}
    (hp : Plain cwd c loc) (hr : Room cwd c loc rem) (htmp : NoTempDirs c rem)
    (hne : parts c.remote ≠ []) :
    contents (Secure.send env m cwd loc c rem).fs (parts c.remote) = none ∧
    isDir (Secure.send env m cwd loc c rem).fs (parts c.remote) = true := by
  obtain ⟨-, -, h, -⟩ := send_ok henv hm hrel hp hr htmp
  refine ⟨?_, h⟩
  unfold isDir at h
  have : get (Secure.send env m cwd loc c rem).fs (parts c.remote) = some .dir := by
    simpa [hne] using h
  exact contents_of_isDir this

/-- There is room on the machine with a plain file at the place of the remote directory. -/
example : Room [] secureConfig secureLocal secureRemote ∧ NoTempDirs secureConfig secureRemote ∧
    contents secureRemote (parts secureConfig.remote) = some [9] := by
  have hget : ∀ q, get secureRemote q ≠ some .dir := by
    intro q h
    unfold secureRemote Fs.get at h
    rw [List.lookup_cons] at h
    split at h <;> simp at h
  refine ⟨⟨secureRoom.listed, secureRoom.same, secureRoom.apart, fun p b _ => hget p,
    fun p q hf hq hn hR => ?_, by decide +kernel⟩, fun q _ _ => hget q, by decide +kernel⟩
  have hne : q ≠ ["out".toList] := by
    rintro rfl
    exact hR (by decide +kernel)
  unfold contents secureRemote Fs.get
  rw [List.lookup_cons, beq_false_of_ne hne]
  rfl

/-! ### C140 -/

theorem words_blankJoin {home : Text} {ws : List Text} (h : ∀ w ∈ ws, ShellSafe w ∧ w ≠ []) :
    shellWords home (blankJoin ws) = some ws := by
  induction ws with
  | nil => simp [blankJoin, shellWords, lex]
  | cons w ws ih =>
    have hw := word (home := home) (h w (by simp)).1 (h w (by simp)).2
    cases ws with
    | nil => exact hw
    | cons v vs => exact shellWords_append hw (ih fun x hx => h x (by simp [hx]))

theorem marker_target {c : Config} (ha : Absolute c.remote) (hs : ShellSafe c.remote)
    (hw : PlainWord c.cancelFile) (hws : ShellSafe c.cancelFile) :
    Target (join c.remote c.cancelFile) (parts c.remote ++ [c.cancelFile]) :=
  target_listed ha hs hw hws

/-- The marker after a cancel on a machine where `echo` works. -/
theorem cancel_echo {home : Text} {m : Machine} (hm : Unix home m) (hecho : Echoes home m)
    {c : Config} (ha : Absolute c.remote) (hs : ShellSafe c.remote) (hw : PlainWord c.cancelFile)
    (hws : ShellSafe c.cancelFile) {rem : FS} (hdir : isDir rem (parts c.remote) = true)
    (hnd : get rem (parts c.remote ++ [c.cancelFile]) ≠ some .dir) {text : Option Text}
    {ws : List Text} (ht : shellWords home (text.getD "None".toList) = some ws) :
    (Secure.cancel m c text rem).out = .ok () ∧
    contents (Secure.cancel m c text rem).fs (parts c.remote ++ [c.cancelFile]) =
      some (utf8 (blankJoin ws ++ ['\n'])) := by
  have hT := marker_target ha hs hw hws
  have hp := hT.parts
  have he := hecho rem _ ws _ ht hT.safe hT.absolute
    (by rw [hp]; exact isDir_false (by simp) hnd)
    (by rw [hp, List.dropLast_concat]; exact hdir)
  rw [hp] at he
  obtain ⟨b, h1, h2⟩ := test_e hm
    (Fs.set rem (parts c.remote ++ [c.cancelFile]) (.file (utf8 (blankJoin ws ++ ['\n']))))
    hT.safe hT.absolute
  have hb : b = true := by
    rw [h2, hp, get_set, if_pos rfl]; exact Or.inl rfl
  subst hb
  unfold Secure.cancel
  simp only [andThen, command, he, h1, if_true, done]
  exact ⟨trivial, by rw [contents_set_file, if_pos rfl]⟩

/-- **C140** (partial). `cancel` that returns normally has left something at the place of the marker, on
every Unix machine. On a machine on which `echo` works, `cancel` with a text of plain words with single
blanks between them returns normally, and the marker holds the text and a line end. What is missing:
other texts, and no text, see the violations below. -/
theorem C140_cancel_partial {home : Text} {m : Machine} (hm : Unix home m)
    {c : Config} (ha : Absolute c.remote) (hs : ShellSafe c.remote) (hw : PlainWord c.cancelFile)
    (hws : ShellSafe c.cancelFile) {rem : FS} :
    (∀ text, (Secure.cancel m c text rem).out = .ok () →
      (get (Secure.cancel m c text rem).fs (parts c.remote ++ [c.cancelFile])).isSome) ∧
    (Echoes home m → isDir rem (parts c.remote) = true →
      get rem (parts c.remote ++ [c.cancelFile]) ≠ some .dir →
      ∀ ws, (∀ w ∈ ws, ShellSafe w ∧ w ≠ []) →
        (Secure.cancel m c (some (blankJoin ws)) rem).out = .ok () ∧
        contents (Secure.cancel m c (some (blankJoin ws)) rem).fs (parts c.remote ++ [c.cancelFile]) =
          some (utf8 (blankJoin ws ++ ['\n']))) := by
  refine ⟨fun text hok => ?_, fun hecho hdir hnd ws hsafe => ?_⟩
  · have hT := marker_target ha hs hw hws
    unfold Secure.cancel at hok ⊢
    generalize "echo ".toList ++ text.getD "None".toList ++ " > ".toList ++ join c.remote c.cancelFile
      = cmd at hok ⊢
    obtain ⟨b, h1, h2⟩ := test_e hm (m.run rem cmd).1 hT.safe hT.absolute
    simp only [andThen, command, h1] at hok ⊢
    cases b with
    | false => simp [fail] at hok
    | true =>
      have := h2.1 rfl
      rw [hT.parts] at this
      simpa [done] using this
  · exact cancel_echo hm hecho ha hs hw hws hdir hnd (words_blankJoin hsafe)

/-- **C140** violated: `cancel()` without a text writes the text `None`. -/
theorem C140_default_text_violated {home : Text} {m : Machine} (hm : Unix home m)
    (hecho : Echoes home m) {c : Config} (ha : Absolute c.remote) (hs : ShellSafe c.remote)
    (hw : PlainWord c.cancelFile) (hws : ShellSafe c.cancelFile) {rem : FS}
    (hdir : isDir rem (parts c.remote) = true)
    (hnd : get rem (parts c.remote ++ [c.cancelFile]) ≠ some .dir) :
    (Secure.cancel m c none rem).out = .ok () ∧
    contents (Secure.cancel m c none rem).fs (parts c.remote ++ [c.cancelFile]) =
      some (utf8 "None\n".toList) :=
  cancel_echo hm hecho ha hs hw hws hdir hnd (ws := ["None".toList])
    (word (by unfold ShellSafe; decide) (by decide))

/-- **C140** violated: the text is not quoted. Two blanks become one, and quotes vanish. -/
theorem C140_unquoted_violated {home : Text} {m : Machine} (hm : Unix home m)
    (hecho : Echoes home m) {c : Config} (ha : Absolute c.remote) (hs : ShellSafe c.remote)
    (hw : PlainWord c.cancelFile) (hws : ShellSafe c.cancelFile) {rem : FS}
    (hdir : isDir rem (parts c.remote) = true)
    (hnd : get rem (parts c.remote ++ [c.cancelFile]) ≠ some .dir) :
    contents (Secure.cancel m c (some "it  \"is\" over".toList) rem).fs
      (parts c.remote ++ [c.cancelFile]) = some (utf8 "it is over\n".toList) :=
  (cancel_echo hm hecho ha hs hw hws hdir hnd (text := some "it  \"is\" over".toList)
    (ws := ["it".toList, "is".toList, "over".toList]) (by
      show shellWords home _ = _
      unfold shellWords
      simp [lex, shellSpecial])).2

/-- The machine of the examples with `echo`. -/
def echoMachine : Machine where
  run fs cmd :=
    if cmd.take 5 = "echo ".toList then
      let file := (cmd.reverse.takeWhile (· ≠ ' ')).reverse
      match shellWords [] ((cmd.drop 5).dropLast.take (cmd.length - 8 - file.length)) with
      | some ws => if isDir fs (parts file) = false ∧ isDir fs (parts file).dropLast = true
          then (Fs.set fs (parts file) (.file (utf8 (blankJoin ws ++ ['\n']))), 0) else (fs, 1)
      | none => (fs, 1)
    else unixRun true fs cmd
  put := (unixMachine true).put

theorem echoMachine_echoes : Echoes [] echoMachine := by
  intro fs text ws file hw hs ha hd hp
  have hne : ∀ x ∈ file.reverse, decide (x ≠ ' ') = true := by
    intro x hx
    have := (shellSafe_safe hs x (by simpa using hx)).1
    simp only [decide_eq_true_eq]
    exact fun h => this (Or.inl h)
  have hf : (("echo ".toList ++ text ++ " > ".toList ++ file).reverse.takeWhile (· ≠ ' ')).reverse =
      file := by
    rw [List.reverse_append, List.takeWhile_append_of_pos hne]
    simp
  have ht : ((("echo ".toList ++ text ++ " > ".toList ++ file).drop 5).dropLast.take
      (("echo ".toList ++ text ++ " > ".toList ++ file).length - 8 - file.length)) = text := by
    have hl : ("echo ".toList ++ text ++ " > ".toList ++ file).length - 8 - file.length =
        text.length := by
      simp only [List.length_append]
      have h1 : "echo ".toList.length = 5 := rfl
      have h2 : " > ".toList.length = 3 := rfl
      omega
    have hdrop : ("echo ".toList ++ text ++ " > ".toList ++ file).drop 5 =
        text ++ (" > ".toList ++ file) := by
      rw [List.append_assoc, List.append_assoc]
      exact List.drop_left' rfl
    rw [hl, hdrop, List.dropLast_append_of_ne_nil (by simp), List.take_left' rfl]
  have h5 : ("echo ".toList ++ text ++ " > ".toList ++ file).take 5 = "echo ".toList := by
    rw [List.append_assoc, List.append_assoc]; exact List.take_left' rfl
  simp only [echoMachine]
  rw [if_pos h5, hf, ht, hw]
  simp [hd, hp]

theorem echoMachine_unix : Unix [] echoMachine := by
  have hU := unixMachine_unix true
  have key : ∀ fs cmd, cmd.take 5 ≠ "echo ".toList →
      echoMachine.run fs cmd = (unixMachine true).run fs cmd := by
    intro fs cmd h
    simp only [echoMachine]
    rw [if_neg h]
    rfl
  have hws : ∀ cmd w ws, shellWords [] cmd = some (w :: ws) → w ≠ "echo".toList →
      cmd.take 5 ≠ "echo ".toList := by
    intro cmd w ws h hw h5
    have hc : cmd = "echo".toList ++ ' ' :: cmd.drop 5 := by
      have := List.take_append_drop 5 cmd
      rw [h5] at this
      exact this.symm
    cases hr : shellWords [] (cmd.drop 5) with
    | none =>
      rw [hc, shellWords, lex_append _ _ _ _ _ (word (home := []) (s := "echo".toList)
        (by unfold ShellSafe; decide) (by decide))] at h
      unfold shellWords at hr
      rw [hr] at h
      cases h
    | some vs =>
      have := shellWords_append (home := []) (pre := "echo".toList)
        (word (by unfold ShellSafe; decide) (by decide)) hr
      rw [← hc, h] at this
      simp only [List.cons_append, Option.some.injEq, List.cons.injEq] at this
      exact hw this.1
  refine ⟨fun fs p w h1 h2 => ?_, fun fs p w h1 h2 => ?_, fun fs cmd a b h => ?_, fun fs cmd p h => ?_,
    fun fs cmd p h => ?_, hU.put⟩
  · rw [key _ _ (by
      have : ("[ -e ".toList ++ p ++ " ]".toList).take 5 = "[ -e ".toList := by
        rw [List.append_assoc]; exact List.take_left' rfl
      rw [this]; decide)]
    exact hU.exists_ fs p w h1 h2
  · rw [key _ _ (by
      have : ("[ -d ".toList ++ p ++ " ]".toList).take 5 = "[ -d ".toList := by
        rw [List.append_assoc]; exact List.take_left' rfl
      rw [this]; decide)]
    exact hU.isDir_ fs p w h1 h2
  · rw [key _ _ (hws cmd _ _ h (by decide))]; exact hU.mv fs cmd a b h
  · rw [key _ _ (hws cmd _ _ h (by decide))]; exact hU.mkdir fs cmd p h
  · rw [key _ _ (hws cmd _ _ h (by decide))]; exact hU.rm fs cmd p h

/-- The hypotheses of C140 are met. -/
example : Unix [] echoMachine ∧ Echoes [] echoMachine ∧ Absolute secureConfig.remote ∧
    ShellSafe secureConfig.remote ∧ PlainWord secureConfig.cancelFile ∧
    ShellSafe secureConfig.cancelFile ∧ isDir [(["out".toList], .dir)] (parts secureConfig.remote) = true :=
  ⟨echoMachine_unix, echoMachine_echoes, rfl, securePlain.remote_safe, by unfold PlainWord; decide,
   by unfold ShellSafe; decide, by decide +kernel⟩

/-! ### C137: a remote folder that cannot be made -/

theorem makeFolder_true {home : Text} {m : Machine} (hm : Unix home m) (fs : FS) {t : Text} (hs : ShellSafe t) (ha : Absolute t)
    (h : (makeFolder m fs t).out = .ok true) : isDir (makeFolder m fs t).fs (parts t) = true := by
  unfold makeFolder at h ⊢
  obtain ⟨b, e, -⟩ := checkFolder_eq hm fs hs ha
  obtain ⟨ei, h1, h2, h3⟩ := andThen_ok h
  rw [h3]
  rw [e] at h1 h2 ⊢
  simp only [Except.ok.injEq] at h1
  subst h1
  simp only at h2 ⊢
  by_cases hd : isDir fs (parts t) = true
  · rw [if_pos hd]; exact hd
  · rw [if_neg hd] at h2 ⊢
    obtain ⟨ex, g1, g2, g3⟩ := andThen_ok h2
    rw [g3]
    cases ex with
    | true =>
      simp only [if_true] at g2 ⊢
      cases b with
      | false => simp [done] at g1
      | true =>
        simp only [if_true] at g1 ⊢
        unfold clearFolder at g1 ⊢
        obtain ⟨x, k1, k2, k3⟩ := andThen_ok g1
        rw [show (done (andThen (command m fs ("rm ".toList ++ t)) fun fs _ => Secure.test m fs 'd' t).fs true).fs =
          (andThen (command m fs ("rm ".toList ++ t)) fun fs _ => Secure.test m fs 'd' t).fs from rfl, k3]
        rw [test_d hm _ hs ha] at k2 ⊢
        simpa using k2
    | false =>
      simp only [Bool.false_eq_true, if_false] at g2 ⊢
      obtain ⟨x, k1, k2, k3⟩ := andThen_ok g2
      rw [k3]
      obtain ⟨y, l1, l2, l3⟩ := andThen_ok k2
      rw [l3]
      obtain ⟨b', e', -⟩ := checkFolder_eq hm (command m (if b = true then clearFolder m fs t else done fs false).fs ("mkdir -p ".toList ++ t)).fs hs ha
      rw [e'] at l1 l2 ⊢
      simp only [Except.ok.injEq] at l1
      subst l1
      simpa [done] using l2

theorem seen_andThen {α β : Type} {fs : FS} {r : Run α} {f : FS → α → Run β} (h1 : r.fs ∈ r.trace ∨ r.fs = fs)
    (h2 : ∀ fs a, (f fs a).fs ∈ (f fs a).trace ∨ (f fs a).fs = fs) :
    (andThen r f).fs ∈ (andThen r f).trace ∨ (andThen r f).fs = fs := by
  unfold andThen
  cases ho : r.out with
  | error e => exact h1
  | ok a =>
    simp only [List.mem_append]
    rcases h2 r.fs a with h | h
    · exact Or.inl (Or.inr h)
    · rw [h]
      rcases h1 with h1 | h1
      · exact Or.inl (Or.inl h1)
      · exact Or.inr h1

theorem seen_command (m : Machine) (fs : FS) (cmd : Text) : (command m fs cmd).fs ∈ (command m fs cmd).trace := by simp [command]

theorem seen_check (m : Machine) (fs : FS) (t : Text) : (checkFolder m fs t).fs ∈ (checkFolder m fs t).trace ∨ (checkFolder m fs t).fs = fs := by
  have ht : ∀ fs f, (Secure.test m fs f t).fs ∈ (Secure.test m fs f t).trace ∨ (Secure.test m fs f t).fs = fs := fun fs f =>
    seen_andThen (Or.inl (seen_command _ _ _)) fun _ _ => Or.inr rfl
  exact seen_andThen (ht _ _) fun _ _ => seen_andThen (ht _ _) fun _ _ => Or.inr rfl

theorem seen_makeFolder {home : Text} {m : Machine} (hm : Unix home m) (fs : FS) {t : Text} (hs : ShellSafe t) (ha : Absolute t) :
    (makeFolder m fs t).fs ∈ (makeFolder m fs t).trace := by
  have h : (makeFolder m fs t).fs ∈ (makeFolder m fs t).trace ∨ (makeFolder m fs t).fs = fs := by
    unfold makeFolder
    refine seen_andThen (seen_check _ _ _) fun fs ei => ?_
    split
    · exact Or.inr rfl
    · refine seen_andThen ?_ fun fs ex => ?_
      · split
        · exact seen_andThen (Or.inl (seen_command _ _ _)) fun fs _ => seen_andThen (Or.inl (seen_command _ _ _)) fun _ _ => Or.inr rfl
        · exact Or.inr rfl
      · split
        · exact Or.inr rfl
        · exact seen_andThen (Or.inl (seen_command _ _ _)) fun fs _ => seen_andThen (seen_check _ _ _) fun _ _ => Or.inr rfl
  rcases h with h | h
  · exact h
  · rw [h]
    obtain ⟨b, e, -⟩ := checkFolder_eq hm fs hs ha
    unfold makeFolder
    rw [e]
    simp [andThen]

/-- **C137, the remote directory.** Whatever else fails, `send` ends without an exception only if the remote directory was
there: when it cannot be made, there is an exception. -/
theorem C137_folder {env : Env} {home : Text} {m : Machine} (hm : Unix home m) {cwd : Path} {c : Config} {loc rem : FS}
    (hs : ShellSafe c.remote) (ha : Absolute c.remote) {n : ℕ} (h : (Secure.send env m cwd loc c rem).out = .ok n) :
    ∃ s, Visits (Secure.send env m cwd loc c rem) s ∧ isDir s (parts c.remote) = true := by
  unfold Secure.send at h ⊢
  obtain ⟨res, h1, h2, h3⟩ := andThen_ok h
  cases res with
  | false => simp [fail] at h2
  | true =>
    refine ⟨(makeFolder m rem c.remote).fs, ?_, makeFolder_true hm rem hs ha h1⟩
    left
    unfold andThen
    rw [h1]
    exact List.mem_append_left _ (seen_makeFolder hm rem hs ha)

/-- The hypotheses are met, and the machine of the example sends its files. -/
example : ∃ s, Visits (Secure.send exEnv (unixMachine true) [] secureLocal secureConfig []) s ∧ isDir s (parts secureConfig.remote) = true :=
  C137_folder (n := 3) (unixMachine_unix true) securePlain.remote_safe securePlain.absolute (by decide +kernel)

end Verif.Props
