import Verif.Props.SecureSender
import Verif.Spec.SecureRetry

/-!
# Interrupted secure transfers that are repeated (C212)
-/

namespace Verif.Props
open Verif.Fs Verif.Sender Verif.Secure Verif.Spec

namespace SecureRetry

/-- There is still room. -/
def Fine (cwd : Path) (c : Config) (loc s : FS) : Prop := Room cwd c loc s ∧ NoTempDirs c s

theorem fine_going {cwd : Path} {c : Config} {loc s : FS} (h : Fine cwd c loc s) : Going cwd c loc s s :=
  ⟨h.1.no_dir, h.1.no_file, h.1.root, h.2, fun _ _ => Or.inr rfl⟩

theorem going_fine {cwd : Path} {c : Config} {loc rem rem' s : FS} (hr : Room cwd c loc rem) (h : Going cwd c loc rem' s) : Fine cwd c loc s :=
  ⟨⟨hr.listed, hr.same, hr.apart, h.no_dir, h.no_file, h.root⟩, h.temp⟩

theorem fine_mkdir {cwd : Path} {c : Config} {loc : FS} (hp : Plain cwd c loc) {fs fs' : FS} {q : Path} (hq : Folder cwd c loc q)
    (h : NewDirs fs fs' q) (hg : Fine cwd c loc fs) : Fine cwd c loc fs' :=
  going_fine hg.1 (going_mkdir hp hg.1 hq h (fine_going hg)).1

theorem fine_rm {cwd : Path} {c : Config} {loc : FS} (hp : Plain cwd c loc) {fs fs' : FS} {q : Path} (hq : Folder cwd c loc q)
    (h : exec fs (.remove q) = .ok fs') (hg : Fine cwd c loc fs) : Fine cwd c loc fs' := by
  obtain ⟨_, rfl⟩ := exec_remove h
  exact going_fine hg.1 (going_rm hp hg.1 hq (fine_going hg)).1

/-- Room is left when files appear or vanish at places that are not above a folder. -/
theorem fine_of {cwd : Path} {c : Config} {loc fs fs' : FS} (hg : Fine cwd c loc fs)
    (h : ∀ q, get fs' q = get fs q ∨ (get fs' q ≠ some .dir ∧ q ≠ [] ∧ ∀ p, Folder cwd c loc p → ¬ q <+: p)) : Fine cwd c loc fs' := by
  obtain ⟨hr, ht⟩ := hg
  refine ⟨⟨hr.listed, hr.same, hr.apart, fun p b hs => ?_, fun p q hf hq hn hR => ?_, ?_⟩, fun q hq hqt => ?_⟩
  · rcases h p with k | ⟨k, _⟩
    · rw [k]; exact hr.no_dir p b hs
    · exact k
  · rcases h q with k | ⟨_, _, k⟩
    · have := hr.no_file p q hf hq hn hR
      unfold contents at this ⊢; rw [k]; exact this
    · exact absurd hq (k p hf)
  · rcases h [] with k | ⟨_, k, _⟩
    · have := hr.root
      unfold contents at this ⊢; rw [k]; exact this
    · exact absurd rfl k
  · rcases h q with k | ⟨k, _⟩
    · rw [k]; exact ht q hq hqt
    · exact k

theorem keeps_makeFolder {home : Text} {m : Machine} (hm : Unix home m) {cwd : Path} {c : Config}
    {loc : FS} (hp : Plain cwd c loc) (fs : FS) {t : Text} (hs : ShellSafe t) (ha : Absolute t)
    (hf : Folder cwd c loc (parts t)) : Keeps (Fine cwd c loc) fs (makeFolder m fs t) := by
  unfold makeFolder
  refine keeps_andThen (keeps_check hm fs hs ha) fun ei _ => ?_
  split
  · exact keeps_done _
  · refine keeps_andThen ?_ fun e _ => ?_
    · split
      · unfold clearFolder
        refine keeps_andThen (keeps_command fun hI => ?_) fun _ _ => ?_
        · rcases hm.rm (checkFolder m fs t).fs _ t (words_rm hs ha) ha with h | h
          · rw [h]; exact hI
          · exact fine_rm hp hf h hI
        · rw [test_d hm _ hs ha]
          intro hI s hv
          rcases hv with hv | rfl
          · simp only [List.mem_singleton] at hv; rw [hv]; exact hI
          · exact hI
      · exact keeps_done _
    · by_cases he : e = true
      · rw [if_pos he]; exact keeps_done _
      · rw [if_neg he]
        refine keeps_andThen (keeps_command fun hI => ?_) fun _ _ => ?_
        · exact fine_mkdir hp hf (hm.mkdir _ _ t (words_mkdir hs ha) ha) hI
        · exact keeps_andThen (keeps_check hm _ hs ha) fun _ _ => keeps_done _

theorem keeps_ensure {home : Text} {m : Machine} (hm : Unix home m) {cwd : Path} {c : Config}
    {loc : FS} (hp : Plain cwd c loc) (fs : FS) {t : Text} (hs : ShellSafe t) (ha : Absolute t)
    (hf : Folder cwd c loc (parts t)) : Keeps (Fine cwd c loc) fs (ensureFolder m fs t) := by
  unfold ensureFolder
  refine keeps_andThen (keeps_check hm fs hs ha) fun ei _ => ?_
  split
  · exact keeps_done _
  · refine keeps_andThen (keeps_makeFolder hm hp _ hs ha hf) fun res _ => ?_
    split
    · exact keeps_done _
    · exact keeps_fail

theorem keeps_upload {env : Env} (henv : env.Ok) {home : Text} {m : Machine} (hm : Unix home m)
    {cwd : Path} {c : Config} {loc : FS} (hp : Plain cwd c loc) (i : ℕ) (fs : FS) {f t : Text}
    {p : Path} (ht : Target t p)
    (hsend : ∀ b, contents loc (resolve cwd f) = some b → Sends cwd c loc p b) :
    Keeps (Fine cwd c loc) fs (upload env m cwd loc i fs f t) := by
  unfold upload
  split
  · rename_i b hb
    have hS := hsend b (contents_eq_some.2 hb)
    obtain ⟨t1, t2, t3⟩ := tmp_facts henv i hp hS
    obtain ⟨u1, u2, u3⟩ := ht.tmp henv i
    have tfold : ∀ q, Folder cwd c loc q → ¬ tmpPath env i p <+: q := fun q hq hpre =>
      prefix_temp hpre (folder_words hp hq).2 t1
    intro hI
    have hnd : isDir fs (parts (tmpName env i t)) = false := by
      rw [u3]; exact isDir_false t3 (hI.2 _ t2 t1)
    obtain ⟨p1, p2, p3⟩ := hm.put fs (tmpName env i t) b u2 hnd
    rw [u3] at p1 p2 p3
    have hput : Keeps (Fine cwd c loc) fs (m.put fs (tmpName env i t) b) := by
      intro hI s hs
      refine fine_of hI fun q => ?_
      by_cases hq : q = tmpPath env i p
      · subst hq
        exact Or.inr ⟨p2 s hs, t3, tfold⟩
      · exact Or.inl (p1 s hs q hq)
    refine keeps_andThen hput (fun u hu => ?_) hI
    refine keeps_andThen (keeps_command fun hI => ?_) fun _ _ => keeps_done _
    rcases hm.mv (m.put fs (tmpName env i t) b).fs _ _ _ (words_mv u1 u2 ht.safe ht.absolute) u2
      ht.absolute with h | h
    · rw [h]; exact hI
    · have hpne : p ≠ [] := ht.ne
      rw [u3, ht.parts, isDir_false hpne (hI.1.no_dir p b hS)] at h
      simp only [Bool.false_eq_true, if_false] at h
      obtain ⟨b', hb', hd, _, he⟩ := exec_rename h
      rw [he]
      refine fine_of hI fun q => ?_
      rw [get_set, get_del]
      split
      · rename_i hq
        subst hq
        exact Or.inr ⟨by simp, hpne, fun x hx => sends_not_above hp hI.1 hS hx⟩
      · split
        · rename_i hq
          subst hq
          exact Or.inr ⟨by simp, t3, tfold⟩
        · exact Or.inl rfl
  · exact keeps_fail

theorem keeps_send {env : Env} (henv : env.Ok) {home : Text} {m : Machine} (hm : Unix home m)
    {cwd : Path} {c : Config} {loc : FS} (hp : Plain cwd c loc) (rem : FS) :
    Keeps (Fine cwd c loc) rem (Secure.send env m cwd loc c rem) := by
  unfold Secure.send
  refine keeps_andThen (keeps_makeFolder hm hp rem hp.remote_safe hp.absolute (Or.inl rfl))
    fun res _ => ?_
  split
  · refine keeps_andThen (keeps_loop (fun f hf i fs => ?_) _ _) fun _ _ => ?_
    · exact keeps_upload henv hm hp i fs (listed_target hp hf).1 (listed_target hp hf).2
    · refine keeps_andThen ?_ fun _ _ => keeps_done _
      unfold Secure.sendDir
      split
      · exact keeps_done _
      · rename_i d hd
        refine keeps_loop (fun f hf i fs => ?_) _ _
        obtain ⟨rel, hl, rfl⟩ := mem_allLocalFiles henv hd hf
        obtain ⟨h1, h2, h3⟩ := dir_target hp hl
        obtain ⟨g1, g2, g3⟩ := h1.folder
        unfold Secure.copyDirFile
        exact keeps_andThen (keeps_ensure hm hp fs g1 g2 (by rw [g3]; exact h3))
          fun _ _ => keeps_upload henv hm hp i _ h1 h2
  · exact keeps_fail

theorem tries_fine {home : Text} {cwd : Path} {c : Config} {loc rem s : FS} (hp : Plain cwd c loc) (hr : Room cwd c loc rem) (htmp : NoTempDirs c rem)
    (h : SecureTries home cwd c loc rem s) : Fine cwd c loc s := by
  induction h with
  | start => exact ⟨hr, htmp⟩
  | again env henv m hm _ hv ih => exact keeps_send henv hm hp _ ih _ hv

end SecureRetry

/-! ### C212 -/

/-- **C212**, whatever was left behind: after any number of transfers to machines on which commands and uploads may fail,
each cut off at any moment, a remote path has its old contents, or is the place of a file to be sent and has its complete
contents, or is a temporary name in the remote directory, or is the place of a folder and the plain file that was there is
gone. -/
theorem C212_whole {home : Text} {cwd : Path} {c : Config} {loc rem s : FS} (hp : Plain cwd c loc) (hr : Room cwd c loc rem) (htmp : NoTempDirs c rem)
    (h : SecureTries home cwd c loc rem s) (q : Path) :
    contents s q = contents rem q ∨ (∃ b, Sends cwd c loc q b ∧ contents s q = some b) ∨ (TempPath q ∧ parts c.remote <+: q) ∨
      (Folder cwd c loc q ∧ contents s q = none) := by
  induction h with
  | start => exact Or.inl rfl
  | @again s s' env henv m hm h hv ih =>
    rcases C136_atomic_partial henv hm hp (SecureRetry.tries_fine hp hr htmp h).2 hv q with k | k | k | k
    · rw [k]; exact ih
    · exact Or.inr (Or.inl k)
    · exact Or.inr (Or.inr (Or.inl k))
    · exact Or.inr (Or.inr (Or.inr k))

/-- **C212**: after any number of transfers to machines on which commands and uploads may fail, each cut off at any
moment, a transfer to a reliable machine returns the number of all files (`files` lists those of the local directory), and
every file is in its place with its contents. Every other path has the contents it had before the first transfer, unless
it is a temporary name in the remote directory, or the place of a folder, where no file is left. -/
theorem C212_repeat {env : Env} (henv : env.Ok) {home : Text} {m : Machine} (hm : Unix home m) (hrel : Reliable home m) {cwd : Path} {c : Config}
    {loc rem s : FS} (hp : Plain cwd c loc) (hr : Room cwd c loc rem) (htmp : NoTempDirs c rem) (h : SecureTries home cwd c loc rem s)
    {files : List (Text × List Text)} (hnd : files.Nodup) (hfiles : ∀ d rel, (d, rel) ∈ files ↔ LocalFile cwd c loc d rel) :
    (Secure.send env m cwd loc c s).out = .ok (c.localFiles.length + files.length) ∧
    (∀ p b, Sends cwd c loc p b → contents (Secure.send env m cwd loc c s).fs p = some b) ∧
    ∀ q, (∀ b, ¬ Sends cwd c loc q b) → ¬ (TempPath q ∧ parts c.remote <+: q) →
      contents (Secure.send env m cwd loc c s).fs q = contents rem q ∨
      (Folder cwd c loc q ∧ contents (Secure.send env m cwd loc c s).fs q = none) := by
  obtain ⟨h1, h2⟩ := SecureRetry.tries_fine hp hr htmp h
  obtain ⟨k1, k2, _⟩ := C137_delivery_partial henv hm hrel hp h1 h2 hnd hfiles
  refine ⟨k1, k2, fun q hq ht => ?_⟩
  rcases C212_whole hp hr htmp (.again env henv m hm h (Or.inr rfl)) q with k | ⟨b, k, _⟩ | k | k
  · exact Or.inl k
  · exact absurd k (hq b)
  · exact absurd k ht
  · exact Or.inr k

/-- A machine without `mv`: after a transfer, the files are there under temporary names only, although `send` returned. -/
def exStuck : FS := (Secure.send exEnv (unixMachine false) [] secureLocal secureConfig []).fs

theorem exSecureTries : SecureTries [] [] secureConfig secureLocal [] exStuck :=
  .again exEnv exEnv_ok (unixMachine false) (unixMachine_unix false) .start (Or.inr rfl)

/-- The hypotheses of C212 are met by a state with a left-over file that is not in its place. The next transfer, to a
machine that works, delivers all three. -/
example : Plain [] secureConfig secureLocal ∧ Room [] secureConfig secureLocal [] ∧ NoTempDirs secureConfig [] ∧
    SecureTries [] [] secureConfig secureLocal [] exStuck ∧ Unix [] (unixMachine true) ∧ Reliable [] (unixMachine true) ∧
    contents exStuck (parts (tmpName exEnv 0 "/out/h".toList)) = some [3] ∧ contents exStuck ["out".toList, "h".toList] = none ∧
    (Secure.send exEnv (unixMachine true) [] secureLocal secureConfig exStuck).out = .ok 3 ∧
    contents (Secure.send exEnv (unixMachine true) [] secureLocal secureConfig exStuck).fs ["out".toList, "h".toList] = some [3] :=
  ⟨securePlain, secureRoom, fun q _ _ => by simp [Fs.get], exSecureTries, unixMachine_unix true, unixMachine_reliable,
   by decide +kernel, by decide +kernel, by decide +kernel, by decide +kernel⟩

end Verif.Props
