import Verif.Props.CopyRetry
import Verif.Props.FtpLive
import Verif.Spec.FtpRetry

/-!
# Interrupted FTP transfers that are repeated (C211)
-/

namespace Verif.Props
open Verif.Fs Verif.Sender Verif.Ftp Verif.Spec

namespace FtpRetry

/-- `Inv` survives the steps of a transfer of a file to `dst`. -/
structure FileSteps (Inv : FS → Prop) (dst : Path) : Prop where
  create : ∀ s s', Inv s → exec s (.create (tmpOf dst)) = .ok s' → Inv s'
  append : ∀ b s s', Inv s → exec s (.append (tmpOf dst) b) = .ok s' → Inv s'
  rename : ∀ s s', Inv s → exec s (.rename (tmpOf dst) dst) = .ok s' → Inv s'

theorem command_steps {Inv : FS → Prop} (fault : Faults) (c : Conn) {ops : List Prim} (h : ∀ p ∈ ops, ∀ s s', Inv s → exec s p = .ok s' → Inv s') :
    Keeps Inv c (command fault c ops).conn := by
  apply keeps_command
  intro k h0
  have := Retry.runAll_keeps (ops.take k) (fun p hp => h p (List.mem_of_mem_take hp)) c.fs h0
  exact ⟨this _ (Or.inr rfl), fun s hs => this s (Or.inl hs)⟩

theorem sendFile_steps {Inv : FS → Prop} (fault : Faults) (l : Local) (c : Conn) {f : Text} (hf : PlainWord (baseName f))
    (h : (contents l.fs (resolve l.cwd f)).isSome → FileSteps Inv (c.cwd ++ [baseName f])) : Keeps Inv c (sendFile fault l c f).conn := by
  unfold sendFile
  rw [readLocal_eq]
  cases hb : contents l.fs (resolve l.cwd f) with
  | none => exact Keeps.refl c
  | some b =>
    have hs := h (by rw [hb]; rfl)
    have htmp : resolve c.cwd (baseName f ++ ".tmp".toList) = tmpOf (c.cwd ++ [baseName f]) := by
      rw [resolve_plain _ (plain_tmp hf), tmpOf_append]
    have hdst : resolve c.cwd (baseName f) = c.cwd ++ [baseName f] := resolve_plain _ hf
    refine keeps_andThen (command_steps fault c ?_) fun _ _ => command_steps fault _ ?_
    · intro p hp
      rw [htmp] at hp
      simp only [List.mem_cons, List.mem_map] at hp
      rcases hp with rfl | ⟨x, _, rfl⟩
      · exact hs.create
      · exact hs.append x
    · have hcw : (stor fault l.chunks c (baseName f ++ ".tmp".toList) b).conn.cwd = c.cwd := command_cwd _ _ _
      intro p hp
      rw [hcw, htmp, hdst] at hp
      simp only [List.mem_singleton] at hp
      subst hp
      exact hs.rename

theorem copyWithPath_steps {Inv : FS → Prop} (fault : Faults) (l : Local) (c : Conn) {remote d : Text} (hd : d ≠ []) {rel : List Text} (hne : rel ≠ [])
    (h : ∀ x ∈ rel, PlainWord x) (hrec : ¬ d <:+: (joins d rel).drop d.length) (hdirs : OfDirs (parts remote ++ rel.dropLast) Inv)
    (hs : FileSteps Inv (parts remote ++ rel)) : Keeps Inv c (copyWithPath fault l c remote d (joins d rel)).conn := by
  obtain ⟨r, w, rfl⟩ : ∃ r w, rel = r ++ [w] :=
    ⟨rel.dropLast, rel.getLast hne, (List.dropLast_append_getLast hne).symm⟩
  have hfold := parts_folder (remote := remote) hd h hrec
  have hbase := baseName_joins hd h
  have hw := h w (by simp)
  have hpf : ∀ cwd, resolve cwd (pathFolder (remoteFile remote d (joins d (r ++ [w])))) =
      parts remote ++ r := fun cwd => by rw [pathFolder_resolve, hfold]
  rw [List.dropLast_concat] at hdirs
  unfold copyWithPath
  generalize pathFolder (remoteFile remote d (joins d (r ++ [w]))) = folder at *
  have hcd : ∀ u, (onPerm (changeDir fault c folder) fun c => createDir fault c folder).out = .ok u →
      (onPerm (changeDir fault c folder) fun c => createDir fault c folder).conn.cwd =
        parts remote ++ r := by
    intro u hu
    rcases onPerm_ok hu with ⟨h1, h2⟩ | ⟨_, h2, h3⟩
    · rw [h2, (changeDir_ok h1).2, hpf]
    · rw [h3, (createDir_ok h2).1, hfold]
  refine keeps_andThen (keeps_onPerm (keeps_changeDir _ _ _) (keeps_createDir_dirs (by rw [hfold]; exact hdirs) _ _)) fun u hu => ?_
  refine keeps_andThen (sendFile_steps fault l _ (by rw [hbase]; exact hw) fun _ => ?_) fun _ _ => keeps_changeDir _ _ _
  rw [hcd u hu, hbase, List.append_assoc]
  exact hs

theorem sendListed_steps {Inv : FS → Prop} (fault : Faults) {l : Local} (hl : l.Ok) {fs : List Text} (hf : ∀ f ∈ fs, PlainWord (baseName f)) (c : Conn)
    (h : ∀ f ∈ fs, (contents l.fs (resolve l.cwd f)).isSome → FileSteps Inv (c.cwd ++ [baseName f])) :
    Keeps Inv c (sendListed fault l c fs).conn := by
  induction fs generalizing c with
  | nil => exact Keeps.refl c
  | cons f fs ih =>
    rw [sendListed]
    refine keeps_andThen (sendFile_steps fault l c (hf f (by simp)) (h f (by simp))) fun _ _ => ?_
    refine keeps_andThen (ih (fun g hg => hf g (by simp [hg])) _ ?_) fun _ _ => Keeps.refl _
    rw [(sendFile_spec (fault := fault) hl c (hf f (by simp))).2.1]
    exact fun g hg => h g (by simp [hg])

theorem sendDir_steps {Inv : FS → Prop} (fault : Faults) (l : Local) {remote d : Text} {rels : List (List Text)} (hok : DirOk remote d rels) (c : Conn)
    (h : ∀ rel ∈ rels, OfDirs (parts remote ++ rel.dropLast) Inv ∧ FileSteps Inv (parts remote ++ rel)) :
    Keeps Inv c (Ftp.sendDir fault l c remote d (rels.map (joins d))).2 := by
  induction rels generalizing c with
  | nil => exact Keeps.refl c
  | cons rel rels ih =>
    rw [List.map_cons, Ftp.sendDir]
    have h1 := copyWithPath_steps fault l c (remote := remote) hok.dir (hok.ne rel (by simp)) (hok.names rel (by simp)) (hok.once rel (by simp))
      (h rel (by simp)).1 (h rel (by simp)).2
    have h2 := ih hok.tail (copyWithPath fault l c remote d (joins d rel)).conn (fun r hr => h r (by simp [hr]))
    split
    · exact h1.trans h2
    · exact h1.trans h2

theorem send_steps {Inv : FS → Prop} (fault : Faults) {l : Local} (hl : l.Ok) {cfg : Config} (hord : FtpOrdinary l cfg) (c : Conn)
    (hdirs : ∀ f, FtpFolder l cfg f → OfDirs f Inv) (hfiles : ∀ p b, FtpSends l cfg p b → FileSteps Inv p) :
    Keeps Inv c (Ftp.send fault l cfg c).conn := by
  have hR : resolve [] cfg.remote = parts cfg.remote := resolve_root _
  have hcreate : ∀ c, Keeps Inv c (createDir fault c cfg.remote).conn := fun c =>
    keeps_createDir_dirs (by rw [← hR]; exact hdirs _ (Or.inl rfl)) fault c
  unfold Ftp.send
  refine keeps_andThen ?_ fun u hu => ?_
  · unfold setup
    refine keeps_andThen (keeps_idle _ _) fun _ _ => ?_
    split
    · exact hcreate _
    · exact (hcreate _).trans (keeps_idle _ _)
  have hcw := setup_ok hu
  refine keeps_andThen ?_ fun n hn => ?_
  · refine sendListed_steps fault hl hord.listed_plain _ ?_
    intro f hf hb
    obtain ⟨b, hb⟩ := Option.isSome_iff_exists.1 hb
    rw [hcw, ← hR]
    exact hfiles _ b (Or.inr ⟨f, hf, hb, rfl⟩)
  · simp only
    refine keeps_andThen ?_ fun _ _ => Keeps.refl _
    refine Keeps.trans ?_ (keeps_idle _ _)
    cases hd : cfg.localDir with
    | none => simp only [localFiles, Ftp.sendDir]; exact Keeps.refl _
    | some d =>
      obtain ⟨rels, h1, _, h3, h4⟩ := localFiles_rels hl hord hd
      rw [← hd, h1, hd]
      refine sendDir_steps fault l h4 _ ?_
      intro rel hrel
      obtain ⟨k1, k2, k3⟩ := (h3 rel).1 hrel
      obtain ⟨b, hb⟩ := Option.isSome_iff_exists.1 k3
      have hs : FtpSends l cfg (parts cfg.remote ++ rel) b := Or.inl ⟨d, rel, k1, k2, hb, by rw [hR]⟩
      refine ⟨hdirs _ (Or.inr ⟨_, b, hs, ?_⟩), hfiles _ b hs⟩
      rw [List.dropLast_append_of_ne_nil k2]

/-! ### There is still room -/

theorem room_dirs {l : Local} {cfg : Config} (hord : FtpOrdinary l cfg) {f : Path} (hf : FtpFolder l cfg f) : OfDirs f (FtpRoom l cfg) := by
  intro s q hq hnone h
  have hfit := ftp_fits hord h
  refine ⟨h.listed, h.names, h.other, h.apart, h.no_tmp, fun p b hp => ?_, fun r w b hp => ?_, fun g p hg hp => ?_⟩
  · rw [get_set, if_neg (hfit.ne ⟨b, hp⟩ hf hq).1]
    exact h.no_dir p b hp
  · have := (hfit.ne ⟨b, hp⟩ hf hq).2
    rw [tmpOf_append] at this
    rw [get_set, if_neg this]
    exact h.no_tmp_dir r w b hp
  · unfold contents
    rw [get_set]
    by_cases he : p = q
    · simp [he]
    · rw [if_neg he]; exact h.no_file g p hg hp

/-- Room is left when only files appear or vanish, at places of files or at their temporary names. -/
theorem room_of {l : Local} {cfg : Config} {s s' : FS} (h : FtpRoom l cfg s)
    (hk : ∀ q, Fs.get s' q = Fs.get s q ∨ (Fs.get s' q ≠ some .dir ∧ ∀ f, FtpFolder l cfg f → ¬ q <+: f)) : FtpRoom l cfg s' := by
  refine ⟨h.listed, h.names, h.other, h.apart, h.no_tmp, fun p b hp => ?_, fun r w b hp => ?_, fun g p hg hp => ?_⟩
  · rcases hk p with k | ⟨k, _⟩
    · rw [k]; exact h.no_dir p b hp
    · exact k
  · rcases hk (r ++ [w ++ ".tmp".toList]) with k | ⟨k, _⟩
    · rw [k]; exact h.no_tmp_dir r w b hp
    · exact k
  · rcases hk p with k | ⟨_, k⟩
    · have := h.no_file g p hg hp
      unfold contents at this ⊢; rw [k]; exact this
    · exact absurd hp (k g hg)

theorem room_files {l : Local} {cfg : Config} (hord : FtpOrdinary l cfg) {dst : Path} {b : Bytes} (hd : FtpSends l cfg dst b) :
    FileSteps (FtpRoom l cfg) dst := by
  refine ⟨fun s s' h he => ?_, fun x s s' h he => ?_, fun s s' h he => ?_⟩
  all_goals
    have hfit := ftp_fits hord h
    refine room_of h fun q => ?_
    unfold exec at he
    simp only at he
    split at he
  · cases he
  · cases he
    rw [get_set]
    split
    · rename_i hq
      subst hq
      exact Or.inr ⟨by simp, fun f hf => hfit.temp dst f ⟨b, hd⟩ hf⟩
    · exact Or.inl rfl
  · cases he
    rw [get_set]
    split
    · rename_i hq
      subst hq
      exact Or.inr ⟨by simp, fun f hf => hfit.temp dst f ⟨b, hd⟩ hf⟩
    · exact Or.inl rfl
  · cases he
  · split at he
    · cases he
    · cases he
      rw [get_set, get_del]
      split
      · rename_i hq
        subst hq
        exact Or.inr ⟨by simp, fun f hf => hfit.file _ f ⟨b, hd⟩ hf⟩
      · split
        · rename_i hq
          subst hq
          exact Or.inr ⟨by simp, fun f hf => hfit.temp dst f ⟨b, hd⟩ hf⟩
        · exact Or.inl rfl
  · cases he

/-- A local side with the same files. -/
theorem same_sends {l l' : Local} (h1 : l'.fs = l.fs) (h2 : l'.cwd = l.cwd) (cfg : Config) (p : Path) (b : Bytes) :
    FtpSends l' cfg p b ↔ FtpSends l cfg p b := by
  unfold FtpSends; rw [h1, h2]

theorem same_local {l l' : Local} (h1 : l'.fs = l.fs) (h2 : l'.cwd = l.cwd) (cfg : Config) (d : Text) (rel : List Text) :
    FtpLocalFile l' cfg d rel ↔ FtpLocalFile l cfg d rel := by
  unfold FtpLocalFile; rw [h1, h2]

theorem same_ordinary {l l' : Local} (h1 : l'.fs = l.fs) (h2 : l'.cwd = l.cwd) {cfg : Config} (h : FtpOrdinary l cfg) : FtpOrdinary l' cfg := by
  have k := same_local h1 h2 cfg
  exact ⟨h.dir_nonempty, fun d rel x => h.names d rel ((k d rel).1 x), fun d rel x => h.once d rel ((k d rel).1 x),
    fun d rel x => h.no_tmp d rel ((k d rel).1 x), h.listed_plain, h.listed_no_tmp⟩

theorem same_folder {l l' : Local} (h1 : l'.fs = l.fs) (h2 : l'.cwd = l.cwd) (cfg : Config) (f : Path) : FtpFolder l' cfg f ↔ FtpFolder l cfg f := by
  unfold FtpFolder; simp only [same_sends h1 h2]

theorem same_room {l l' : Local} (h1 : l'.fs = l.fs) (h2 : l'.cwd = l.cwd) {cfg : Config} {s : FS} (h : FtpRoom l cfg s) : FtpRoom l' cfg s := by
  have k := same_local h1 h2 cfg
  have m := same_sends h1 h2 cfg
  have n := same_folder h1 h2 cfg
  exact ⟨by rw [h1, h2]; exact h.listed, h.names, fun d rel x => h.other d rel ((k d rel).1 x),
    fun p b q b' x y => h.apart p b q b' ((m p b).1 x) ((m q b').1 y), fun d rel x => h.no_tmp d rel ((k d rel).1 x),
    fun p b x => h.no_dir p b ((m p b).1 x), fun r w b x => h.no_tmp_dir r w b ((m _ b).1 x), fun f q x => h.no_file f q ((n f).1 x)⟩

theorem tries_room {l : Local} {cfg : Config} (hord : FtpOrdinary l cfg) {fs s : FS} (hroom : FtpRoom l cfg fs) (h : FtpTries l cfg fs s) :
    FtpRoom l cfg s := by
  induction h with
  | start => exact hroom
  | @again s s' fault l' hl hfs hcwd cwd n _ hv ih =>
    have hord' := same_ordinary hfs hcwd hord
    have key := send_steps (Inv := FtpRoom l' cfg) fault hl hord' ⟨s, [], cwd, n⟩ (fun f hf => room_dirs hord' hf) (fun p b hp => room_files hord' hp)
    obtain ⟨k1, k2⟩ := key (same_room hfs hcwd ih)
    have : FtpRoom l' cfg s' := by
      rcases hv with hv | rfl
      · rcases k2 s' hv with k | k
        · cases k
        · exact k
      · exact k1
    exact same_room hfs.symm hcwd.symm this

end FtpRetry

/-! ### C211 -/

/-- **C211**, whatever was left behind: after any number of transfers, with any commands failing and cut off at any
moment, every path that does not end with `.tmp` has its previous contents or the complete contents of a file that is to
be delivered there. -/
theorem C211_whole {l : Local} {cfg : Config} (hord : FtpOrdinary l cfg) {fs s : FS} (h : FtpTries l cfg fs s) {q : Path} (hq : ¬ DotTmp q) :
    contents s q = contents fs q ∨ ∃ b, FtpSends l cfg q b ∧ contents s q = some b := by
  induction h with
  | start => exact Or.inl rfl
  | @again s s' fault l' hl hfs hcwd cwd n _ hv ih =>
    rcases C43_ftp_atomic hl (FtpRetry.same_ordinary hfs hcwd hord) fault (c := ⟨s, [], cwd, n⟩) rfl hv hq with k | ⟨b, k, k'⟩
    · rw [k]; exact ih
    · exact Or.inr ⟨b, (FtpRetry.same_sends hfs hcwd cfg q b).1 k, k'⟩

/-- **C211**: after any number of transfers, with any commands failing and cut off at any moment, a transfer in which no
command fails returns the number of all files (`rels` lists those of the local directory); then every one of them is on
the server with its complete contents, and every other path that does not end with `.tmp` has the contents it had before
the first transfer. -/
theorem C211_repeat {l : Local} (hl : l.Ok) {cfg : Config} (hord : FtpOrdinary l cfg) (habs : cfg.remote.head? = some '/') {fs s : FS}
    (hroom : FtpRoom l cfg fs) (h : FtpTries l cfg fs s) {rels : List (List Text)} (hnd : rels.Nodup)
    (hrels : ∀ rel, rel ∈ rels ↔ ∃ d, FtpLocalFile l cfg d rel) (cwd : Path) (n : ℕ) :
    (Ftp.send (fun _ => none) l cfg ⟨s, [], cwd, n⟩).out = .ok (cfg.localFiles.length + rels.length) ∧
    (∀ p b, FtpSends l cfg p b → contents (Ftp.send (fun _ => none) l cfg ⟨s, [], cwd, n⟩).conn.fs p = some b) ∧
    ∀ q, ¬ DotTmp q → (∀ b, ¬ FtpSends l cfg q b) → contents (Ftp.send (fun _ => none) l cfg ⟨s, [], cwd, n⟩).conn.fs q = contents fs q := by
  obtain ⟨k1, k2⟩ := C141_ftp_delivers hl hord habs (c := ⟨s, [], cwd, n⟩) (FtpRetry.tries_room hord hroom h) hnd hrels
  refine ⟨k1, k2, fun q hq hno => ?_⟩
  rcases C211_whole hord (.again (fun _ => none) l hl rfl rfl cwd n h (Or.inr rfl)) hq with k | ⟨b, k, _⟩
  · exact k
  · exact absurd k (hno b)

/-- The connection is lost in the seventh command, while `a` is sent: one of its two bytes is on the server. -/
def exLost : Faults := fun k => if k = 6 then some (.lost 2) else none

def exAfter : FS := (Ftp.send exLost exLocal exConfig ⟨exServer, [], [], 0⟩).conn.fs

theorem exFtpTries : FtpTries exLocal exConfig exServer exAfter :=
  .again exLost exLocal exLocal_ok rfl rfl [] 0 .start (Or.inr rfl)

example : (Ftp.send exLost exLocal exConfig ⟨exServer, [], [], 0⟩).out = .ok 2 ∧
    contents exAfter ["out".toList, "a".toList] = some [9] ∧ contents exAfter ["out".toList, "a.tmp".toList] = some [1] := by decide +kernel

/-- The hypotheses of C211 are met: the transfer is repeated. -/
example : (Ftp.send (fun _ => none) exLocal exConfig ⟨exAfter, [], [], 0⟩).out = .ok 3 ∧
    contents (Ftp.send (fun _ => none) exLocal exConfig ⟨exAfter, [], [], 0⟩).conn.fs ["out".toList, "a".toList] = some [1, 2] := by
  have h := C211_repeat exLocal_ok exFtpOrdinary rfl exFtpRoom exFtpTries (rels := [["a".toList], ["sub".toList, "b".toList]]) (by decide) (by
    intro rel
    constructor
    · intro h
      simp at h
      refine ⟨"/in".toList, rfl, ?_⟩
      rcases h with rfl | rfl <;> decide +kernel
    · rintro ⟨d, h⟩
      obtain ⟨_, rfl | rfl⟩ := exConfig_files d rel h <;> simp) [] 0
  exact ⟨h.1, h.2.1 _ _ (Or.inl ⟨_, ["a".toList], rfl, by simp, by decide +kernel, by decide +kernel⟩)⟩

end Verif.Props
