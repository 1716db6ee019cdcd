import Mathlib.Data.List.Perm.Subperm
import Verif.Lemmas.FtpLive
import Verif.Props.FtpSender

/-!
# FTP sender: C141 (everything is delivered), C142 (cancel)
-/

namespace Verif.Props
open Verif.Fs Verif.Sender Verif.Ftp Verif.Spec

/-! ### C141 -/

theorem ftpSends_below {l : Local} {cfg : Config} {p : Path} {b : Bytes} (h : FtpSends l cfg p b) :
    ∃ rel, rel ≠ [] ∧ p = resolve [] cfg.remote ++ rel := by
  rcases h with ⟨d, rel, _, h1, _, h2⟩ | ⟨f, _, _, h2⟩
  · exact ⟨rel, h1, h2⟩
  · exact ⟨_, by simp, h2⟩

theorem ftpSends_words {l : Local} {cfg : Config} (hord : FtpOrdinary l cfg) {fs : FS}
    (hroom : FtpRoom l cfg fs) {rel : List Text} {b : Bytes}
    (h : FtpSends l cfg (resolve [] cfg.remote ++ rel) b) : ∀ w ∈ rel, ¬ DotTmp [w] := by
  rcases h with ⟨d, rel', h0, h1, hb, h2⟩ | ⟨f, hf, _, h2⟩
  · rw [List.append_cancel_left h2]
    exact hroom.no_tmp d rel' ⟨h0, h1, by rw [hb]; rfl⟩
  · rw [List.append_cancel_left h2]
    intro w hw
    rw [List.mem_singleton.1 hw]
    exact hord.listed_no_tmp f hf

theorem tmpOf_below {r rel : Path} (h : rel ≠ []) : tmpOf (r ++ rel) = r ++ tmpOf rel := by
  unfold tmpOf
  rw [List.dropLast_append_of_ne_nil h, List.getLast?_append_of_ne_nil _ h, List.append_assoc]

theorem ftp_fits {l : Local} {cfg : Config} (hord : FtpOrdinary l cfg) {fs : FS}
    (hroom : FtpRoom l cfg fs) :
    Fits (fun p => ∃ b, FtpSends l cfg p b) (FtpFolder l cfg) (resolve [] cfg.remote) := by
  refine ⟨?_, ?_, Or.inl rfl⟩
  · rintro p f ⟨b, hb⟩ hf hpf
    obtain ⟨rel, hne, rfl⟩ := ftpSends_below hb
    rcases hf with rfl | ⟨q, b', hq, rfl⟩
    · have := hpf.length_le
      have h2 : 0 < rel.length := List.length_pos_iff.2 hne
      simp only [List.length_append] at this
      omega
    · have := hroom.apart _ _ _ _ hb hq (hpf.trans (List.dropLast_prefix q))
      rw [← this] at hpf
      have := hpf.length_le
      have h2 : 0 < rel.length := List.length_pos_iff.2 hne
      simp only [List.length_dropLast, List.length_append] at this
      omega
  · rintro p f ⟨b, hb⟩ hf hpf
    obtain ⟨rel, hne, rfl⟩ := ftpSends_below hb
    rw [tmpOf_below hne] at hpf
    rcases hf with rfl | ⟨q, b', hq, rfl⟩
    · have := hpf.length_le
      simp only [tmpOf, List.length_append, List.length_cons] at this
      omega
    · obtain ⟨rel', _, rfl⟩ := ftpSends_below hq
      have h1 := hpf.trans (List.dropLast_prefix _)
      rw [List.prefix_append_right_inj] at h1
      have h2 : rel.getLast?.getD [] ++ ".tmp".toList ∈ rel' := h1.subset (by simp [tmpOf])
      exact ftpSends_words hord hroom hq _ h2 ⟨[], _, rfl⟩

/-- **C141.** When no command fails, for every local side and every state of the server with room for the
files, and a remote directory given by an absolute path: `send` returns the number of all files that
were to be sent (`rels` lists those of the local directory), and every one of them is on the server
with its complete contents. -/
theorem C141_ftp_delivers {l : Local} (hl : l.Ok) {cfg : Config} (hord : FtpOrdinary l cfg)
    (habs : cfg.remote.head? = some '/') {c : Conn} (hroom : FtpRoom l cfg c.fs)
    {rels : List (List Text)} (hnd : rels.Nodup)
    (hrels : ∀ rel, rel ∈ rels ↔ ∃ d, FtpLocalFile l cfg d rel) :
    (Ftp.send (fun _ => none) l cfg c).out = .ok (cfg.localFiles.length + rels.length) ∧
    ∀ p b, FtpSends l cfg p b → contents (Ftp.send (fun _ => none) l cfg c).conn.fs p = some b := by
  have hfit := ftp_fits hord hroom
  rw [resolve_root] at hfit
  have hout : (Ftp.send quiet l cfg c).out = .ok (cfg.localFiles.length + rels.length) := by
    obtain ⟨s1, s2, s3⟩ := setup_quiet c hfit
      (fun p ⟨b, hb⟩ => ⟨hroom.no_dir p b hb, by
        obtain ⟨rel, hne, rfl⟩ := ftpSends_below hb
        obtain ⟨r, w, rfl⟩ : ∃ r w, rel = r ++ [w] :=
          ⟨rel.dropLast, rel.getLast hne, (List.dropLast_append_getLast hne).symm⟩
        rw [← List.append_assoc, tmpOf_append]
        exact hroom.no_tmp_dir _ w b (by rw [List.append_assoc]; exact hb)⟩)
      hroom.no_file
    have hlist : ∀ f ∈ cfg.localFiles, ∃ b, FtpSends l cfg (parts cfg.remote ++ [baseName f]) b := by
      intro f hf
      obtain ⟨b, hb⟩ := Option.isSome_iff_exists.1 (hroom.listed f hf)
      exact ⟨b, Or.inr ⟨f, hf, hb, by rw [resolve_root]⟩⟩
    obtain ⟨t1, t2, t3⟩ := sendListed_quiet hl (setup quiet c cfg.remote).conn hfit hord.listed_plain
      hroom.listed hlist s2 s3
    unfold Ftp.send Ftp.andThen
    rw [s1]
    simp only
    rw [t1]
    simp only
    rw [(idle_quiet _).1]
    simp only [Ftp.ok, Except.ok.injEq, Nat.add_left_cancel_iff]
    cases hd : cfg.localDir with
    | none =>
      have : rels = [] := by
        rw [List.eq_nil_iff_forall_not_mem]
        intro rel hrel
        obtain ⟨d, h1, _⟩ := (hrels rel).1 hrel
        rw [hd] at h1; cases h1
      rw [this]; rfl
    | some d =>
      obtain ⟨rs, r1, r2, r3, r4⟩ := localFiles_rels hl hord hd
      have hmem : ∀ rel, rel ∈ rs ↔ rel ∈ rels := by
        intro rel
        rw [r3, hrels]
        refine ⟨fun h => ⟨d, h⟩, fun ⟨d', h⟩ => ?_⟩
        have := h.1
        rw [hd] at this
        rw [Option.some.inj this]; exact h
      have hlen : rs.length = rels.length := ((List.perm_ext_iff_of_nodup r2 hnd).2 hmem).length_eq
      rw [← hlen]
      rw [hd] at r1
      rw [r1]
      simp only [Option.getD_some]
      have hs : ∀ rel ∈ rs, ∃ b, FtpSends l cfg (parts cfg.remote ++ rel) b := by
        intro rel hrel
        obtain ⟨h1, h2, h3⟩ := (r3 rel).1 hrel
        obtain ⟨b, hb⟩ := Option.isSome_iff_exists.1 h3
        exact ⟨b, Or.inl ⟨d, rel, h1, h2, hb, by rw [resolve_root]⟩⟩
      apply sendDir_quiet hl habs hfit r4
      · exact fun rel hrel => ((r3 rel).1 hrel).2.2
      · intro rel hrel
        obtain ⟨b, hb⟩ := hs rel hrel
        refine ⟨⟨b, hb⟩, Or.inr ⟨_, b, hb, ?_⟩⟩
        rw [List.dropLast_append_of_ne_nil ((r3 rel).1 hrel).2.1]
      · exact t3
  refine ⟨hout, ?_⟩
  obtain ⟨counted, k1, k2, k3, k4⟩ := C46_count_partial hl hord quiet hroom.names hroom.other hout
  intro p b hb
  rcases hb with ⟨d, rel, h0, h1, h2, rfl⟩ | ⟨f, hf, h2, rfl⟩
  · have hsub : counted ⊆ rels := by
      intro r hr
      obtain ⟨d, _, h, _⟩ := k4 r hr
      exact (hrels r).2 ⟨d, h⟩
    have hperm : counted.Perm rels :=
      (List.Nodup.subperm k1 hsub).perm_of_length_le (by omega)
    have hin : rel ∈ counted := hperm.mem_iff.2 ((hrels rel).2 ⟨d, h0, h1, by rw [h2]; rfl⟩)
    obtain ⟨d', b', ⟨e1, _, _⟩, e2, e3⟩ := k4 rel hin
    rw [h0] at e1
    rw [← Option.some.inj e1, h2] at e2
    rw [Option.some.inj e2]
    exact e3
  · obtain ⟨b', e1, e2⟩ := k3 f hf
    rw [h2] at e1
    rw [Option.some.inj e1]
    exact e2

/-- The server of the example: an old file, and no folder `sub`. -/
def exServer : FS := [(["out".toList], .dir), (["out".toList, "a".toList], .file [9])]

theorem exFtpSends {p : Path} {b : Bytes} (h : FtpSends exLocal exConfig p b) :
    p = ["out".toList, "a".toList] ∨ p = ["out".toList, "sub".toList, "b".toList] ∨
      p = ["out".toList, "x".toList] := by
  have hr : resolve [] exConfig.remote = ["out".toList] := by decide +kernel
  rcases h with ⟨d, rel, h1, h2, h3, rfl⟩ | ⟨f, hf, _, rfl⟩
  · obtain ⟨_, rfl | rfl⟩ := exConfig_files d rel ⟨h1, h2, by
      have : contents exFs (resolve [] d ++ rel) = some b := h3
      rw [this]; rfl⟩
    · exact Or.inl (by rw [hr]; rfl)
    · exact Or.inr (Or.inl (by rw [hr]; rfl))
  · simp [exConfig] at hf
    subst hf
    refine Or.inr (Or.inr ?_)
    decide +kernel

theorem exFtpRoom : FtpRoom exLocal exConfig exServer where
  listed := by intro f hf; simp [exConfig] at hf; subst hf; decide +kernel
  names := by decide
  other := by
    intro d rel h f hf
    simp [exConfig] at hf
    subst hf
    obtain ⟨_, rfl | rfl⟩ := exConfig_files d rel h <;> decide
  apart := by
    intro p b q b' hp hq
    rcases exFtpSends hp with rfl | rfl | rfl <;> rcases exFtpSends hq with rfl | rfl | rfl <;> decide
  no_tmp := by
    intro d rel h
    obtain ⟨_, rfl | rfl⟩ := exConfig_files d rel h <;> intro w hw <;> apply not_dotTmp <;>
      simp at hw ⊢
    · subst hw; decide
    · rcases hw with rfl | rfl <;> decide
  no_dir := by
    intro p b hp
    rcases exFtpSends hp with rfl | rfl | rfl <;> decide
  no_tmp_dir := by
    intro r w b hp h
    have hm : ∀ q, Fs.get exServer q = some .dir → q = ["out".toList] := by
      intro q hq
      unfold Fs.get exServer at hq
      simp only [List.lookup_cons, List.lookup_nil] at hq
      split at hq
      · rename_i he; exact beq_iff_eq.1 he
      · split at hq <;> simp at hq
    have := hm _ h
    have := congrArg List.getLast? this
    simp only [List.getLast?_concat, List.getLast?_singleton, Option.some.injEq] at this
    have := congrArg List.length this
    simp at this
  no_file := by
    intro f q hf hq
    have hq' : q <+: ["out".toList, "sub".toList] := by
      rcases hf with rfl | ⟨p, b, hp, rfl⟩
      · exact hq.trans (by decide +kernel)
      · refine hq.trans ?_
        rcases exFtpSends hp with rfl | rfl | rfl <;> decide
    rw [← List.mem_inits] at hq'
    simp at hq'
    rcases hq' with rfl | rfl | rfl <;> decide

/-- The hypotheses of C141 are met, and all three files arrive. -/
example : exLocal.Ok ∧ FtpOrdinary exLocal exConfig ∧ exConfig.remote.head? = some '/' ∧
    FtpRoom exLocal exConfig exServer ∧
    (∀ rel, rel ∈ [["a".toList], ["sub".toList, "b".toList]] ↔
      ∃ d, FtpLocalFile exLocal exConfig d rel) ∧
    (Ftp.send (fun _ => none) exLocal exConfig ⟨exServer, [], [], 0⟩).out = .ok 3 := by
  refine ⟨exLocal_ok, exFtpOrdinary, rfl, exFtpRoom, ?_, by decide +kernel⟩
  intro rel
  constructor
  · intro h
    simp at h
    refine ⟨"/in".toList, rfl, ?_⟩
    rcases h with rfl | rfl <;> decide +kernel
  · rintro ⟨d, h⟩
    obtain ⟨_, rfl | rfl⟩ := exConfig_files d rel h <;> simp

/-! ### C142 -/

theorem asOther_ok {r : Res Unit} {u : Unit} (h : (asOther r).out = .ok u) :
    asOther r = r ∧ r.out = .ok u := by
  unfold asOther at h ⊢
  cases hr : r.out with
  | error e => rw [hr] at h; simp at h
  | ok a => exact ⟨rfl, rfl⟩

theorem asOther_conn (r : Res Unit) : (asOther r).conn = r.conn := by
  unfold asOther
  split <;> rfl

theorem resolve_join_plain (cwd : Path) {a w : Text} (hw : PlainWord w) :
    resolve cwd (join a w) = resolve cwd a ++ [w] := by
  have := resolve_joins cwd a (ws := [w]) (by simpa using hw)
  simpa [joins] using this

/-- The states of a call of `cancel`. -/
theorem ftp_cancel_keeps {l : Local} (hl : l.Ok) {cfg : Config} (hw : PlainWord cfg.cancelFile)
    {tempdir : Text} (ht : tempdir ≠ []) (fault : Faults) (c : Conn) {Inv : FS → Prop}
    (hI : OfContents Inv)
    (hI2 : OfFile (resolve (parts cfg.remote) cfg.remote ++ [cfg.cancelFile]) [] Inv) :
    Keeps Inv c (Ftp.cancel fault l cfg tempdir c).conn := by
  unfold Ftp.cancel
  refine keeps_andThen (keeps_setup hI _ _ _) fun u hu => ?_
  have hcw := setup_ok hu
  cases he : exec l.fs (.create (resolve l.cwd (join tempdir cfg.cancelFile))) with
  | error e => exact Keeps.refl _
  | ok fs =>
    simp only
    rw [asOther_conn]
    refine keeps_andThen (keeps_changeDir _ _ _) fun _ hu2 => ?_
    have hb : baseName (join tempdir cfg.cancelFile) = cfg.cancelFile := baseName_join ht hw
    apply (sendFile_spec (l := { l with fs := fs }) ⟨hl.chunks, hl.order⟩ _ (by rw [hb]; exact hw)).1
    rw [hb, exec_create he, (changeDir_ok hu2).2, hcw]
    intro b h
    simp only at h
    rw [contents_set_file, if_pos rfl] at h
    rw [← Option.some.inj h]
    exact hI2

/-- **C142** (partial). For every pattern of failing commands, every local side and every state of the
server, and a remote directory given by an absolute path. `tempdir` is the new local directory.

* Whenever `cancel` returns normally, the marker is in the remote directory, and it is empty.
* At every moment, whatever the outcome, every other file of the server, except the marker with `.tmp`
  added, has the contents it had before, and the marker is as it was before or empty.

What is missing: relative remote directories, for which `cancel` fails; the text of the marker, which
cannot be given; the removal of the marker by a later `send`. See below. -/
theorem C142_cancel_partial {l : Local} (hl : l.Ok) {cfg : Config} (hw : PlainWord cfg.cancelFile)
    (habs : cfg.remote.head? = some '/') {tempdir : Text} (ht : tempdir ≠ []) (fault : Faults)
    {c : Conn} (hc : c.trace = []) :
    (∀ u, (Ftp.cancel fault l cfg tempdir c).out = .ok u →
      contents (Ftp.cancel fault l cfg tempdir c).conn.fs
        (resolve [] cfg.remote ++ [cfg.cancelFile]) = some []) ∧
    ∀ s, s ∈ (Ftp.cancel fault l cfg tempdir c).conn.trace ∨
        s = (Ftp.cancel fault l cfg tempdir c).conn.fs →
      (∀ q, q ≠ resolve [] cfg.remote ++ [cfg.cancelFile] →
        q ≠ resolve [] cfg.remote ++ [cfg.cancelFile ++ ".tmp".toList] →
        contents s q = contents c.fs q) ∧
      (contents s (resolve [] cfg.remote ++ [cfg.cancelFile]) =
          contents c.fs (resolve [] cfg.remote ++ [cfg.cancelFile]) ∨
        contents s (resolve [] cfg.remote ++ [cfg.cancelFile]) = some []) := by
  have hrem : ∀ cwd, resolve cwd cfg.remote = parts cfg.remote := by
    intro cwd; unfold resolve; rw [if_pos habs]
  have hb : baseName (join tempdir cfg.cancelFile) = cfg.cancelFile := baseName_join ht hw
  rw [hrem]
  refine ⟨?_, ?_⟩
  · intro u hu
    unfold Ftp.cancel at hu ⊢
    obtain ⟨_, h1, h2, h3⟩ := andThen_ok hu
    rw [h3]
    cases he : exec l.fs (.create (resolve l.cwd (join tempdir cfg.cancelFile))) with
    | error e => rw [he] at h2; simp at h2
    | ok fs =>
      rw [he] at h2
      simp only at h2 ⊢
      obtain ⟨k1, k2⟩ := asOther_ok h2
      rw [k1]
      obtain ⟨_, m1, m2, m3⟩ := andThen_ok k2
      rw [m3]
      obtain ⟨_, _, s3⟩ := sendFile_spec (fault := fault) (l := { l with fs := fs })
        ⟨hl.chunks, hl.order⟩ (changeDir fault (setup fault c cfg.remote).conn cfg.remote).conn
        (f := join tempdir cfg.cancelFile) (by rw [hb]; exact hw)
      obtain ⟨b, b1, b2⟩ := s3 _ m2
      rw [exec_create he] at b1
      simp only at b1
      rw [contents_set_file, if_pos rfl] at b1
      rw [hb, (changeDir_ok m1).2, hrem] at b2
      rw [← Option.some.inj b1] at b2
      exact b2
  · have key := ftp_cancel_keeps hl hw ht fault c (Inv := fun s =>
      (∀ q, q ≠ parts cfg.remote ++ [cfg.cancelFile] →
        q ≠ parts cfg.remote ++ [cfg.cancelFile ++ ".tmp".toList] →
        contents s q = contents c.fs q) ∧
      (contents s (parts cfg.remote ++ [cfg.cancelFile]) =
          contents c.fs (parts cfg.remote ++ [cfg.cancelFile]) ∨
        contents s (parts cfg.remote ++ [cfg.cancelFile]) = some []))
      (fun s s' hs h => by simpa only [hs] using h)
      (by
        rw [hrem]
        rintro s s' hs hd ⟨h1, h2⟩
        rw [tmpOf_append] at hs
        refine ⟨fun q hq hq' => by rw [hs q hq' hq, h1 q hq hq'], ?_⟩
        rcases hd with hd | hd
        · rw [hd]; exact h2
        · exact Or.inr hd)
      ⟨fun _ _ _ => rfl, Or.inl rfl⟩
    rintro s (hs | rfl)
    · rcases key.2 s hs with h | h
      · rw [hc] at h; cases h
      · exact h
    · exact key.1

/-- **C142**, without failing commands: if no file is in the way at or above the remote directory and no
directory at the place of the marker and its temporary name, `cancel` returns normally. The new local
directory is there, and empty. -/
theorem C142_cancel_returns {l : Local} (hl : l.Ok) {cfg : Config} (hw : PlainWord cfg.cancelFile)
    (habs : cfg.remote.head? = some '/') {tempdir : Text} (ht : tempdir ≠ [])
    (htmp : isDir l.fs (resolve l.cwd tempdir) = true)
    (hempty : ∀ q, resolve l.cwd tempdir <+: q → q ≠ resolve l.cwd tempdir → Fs.get l.fs q = none)
    {c : Conn} (hfile : ∀ q, q <+: resolve [] cfg.remote → contents c.fs q = none)
    (hdir : Fs.get c.fs (resolve [] cfg.remote ++ [cfg.cancelFile]) ≠ some .dir)
    (hdir2 : Fs.get c.fs (resolve [] cfg.remote ++ [cfg.cancelFile ++ ".tmp".toList]) ≠ some .dir) :
    (Ftp.cancel (fun _ => none) l cfg tempdir c).out = .ok () := by
  have hrem : ∀ cwd, resolve cwd cfg.remote = parts cfg.remote := by
    intro cwd; unfold resolve; rw [if_pos habs]
  have hb : baseName (join tempdir cfg.cancelFile) = cfg.cancelFile := baseName_join ht hw
  rw [hrem] at hfile hdir hdir2
  have hfit : Fits (fun p => p = parts cfg.remote ++ [cfg.cancelFile]) (fun f => f = parts cfg.remote)
      (parts cfg.remote) := by
    refine ⟨?_, ?_, rfl⟩
    · rintro p f rfl rfl h
      have := h.length_le
      simp at this
    · rintro p f rfl rfl h
      rw [tmpOf_append] at h
      have := h.length_le
      simp at this
  obtain ⟨s1, s2, s3⟩ := setup_quiet c hfit
    (by rintro p rfl; rw [tmpOf_append]; exact ⟨hdir, hdir2⟩)
    (by rintro f q rfl hq; exact hfile q hq)
  show (Ftp.cancel quiet l cfg tempdir c).out = .ok ()
  unfold Ftp.cancel Ftp.andThen
  rw [s1]
  simp only
  have hloc := resolve_join_plain l.cwd (a := tempdir) hw
  have hex : exec l.fs (.create (resolve l.cwd (join tempdir cfg.cancelFile))) =
      .ok (Fs.set l.fs (resolve l.cwd (join tempdir cfg.cancelFile)) (.file [])) := by
    rw [hloc]
    have h1 : isDir l.fs (resolve l.cwd tempdir ++ [cfg.cancelFile]) = false := by
      unfold isDir
      rw [hempty _ (List.prefix_append _ _) (by simp)]
      simp
    unfold exec
    simp only [h1, List.dropLast_concat, htmp]
    rfl
  rw [hex]
  simp only
  rw [changeDir_quiet _ (by rw [hrem]; exact s3.remote)]
  simp only [hrem]
  obtain ⟨t1, _, _⟩ := sendFile_quiet (b := [])
    (l := { l with fs := Fs.set l.fs (resolve l.cwd (join tempdir cfg.cancelFile)) (.file []) })
    ⟨hl.chunks, hl.order⟩
    { (setup quiet c cfg.remote).conn with
      cwd := parts cfg.remote, count := (setup quiet c cfg.remote).conn.count + 1 }
    (f := join tempdir cfg.cancelFile)
    (by rw [hb]; exact hw) (by simp only; rw [contents_set_file, if_pos rfl]) s3.remote
    (by rw [hb]; exact (s3.clear _ rfl).1) (by rw [hb]; exact (s3.clear _ rfl).2)
  unfold asOther
  rw [t1]
  exact t1

/-- **C142** violated for a relative remote directory: without any failing command `cancel` raises an
exception and leaves no marker, unless the remote directory happens to contain itself. -/
theorem C142_relative_violated {l : Local} {cfg : Config} (hrel : cfg.remote.head? ≠ some '/')
    (hne : resolve [] cfg.remote ≠ []) {tempdir : Text} {c : Conn}
    (hself : Fs.get c.fs (resolve [] cfg.remote ++ resolve [] cfg.remote) ≠ some .dir)
    (hmark : contents c.fs (resolve [] cfg.remote ++ [cfg.cancelFile]) = none) :
    (∃ e, (Ftp.cancel (fun _ => none) l cfg tempdir c).out = .error e) ∧
      contents (Ftp.cancel (fun _ => none) l cfg tempdir c).conn.fs
        (resolve [] cfg.remote ++ [cfg.cancelFile]) = none := by
  show (∃ e, (Ftp.cancel quiet l cfg tempdir c).out = .error e) ∧
    contents (Ftp.cancel quiet l cfg tempdir c).conn.fs _ = none
  have hk : contents (setup quiet c cfg.remote).conn.fs
      (resolve [] cfg.remote ++ [cfg.cancelFile]) = none :=
    keeps_out (Inv := fun s => contents s (resolve [] cfg.remote ++ [cfg.cancelFile]) = none)
      (keeps_setup (fun s s' hs h => by rw [hs, h]) quiet c cfg.remote) hmark
  unfold Ftp.cancel Ftp.andThen
  cases hs : (setup quiet c cfg.remote).out with
  | error e => exact ⟨⟨e, rfl⟩, hk⟩
  | ok u =>
    simp only
    cases he : exec l.fs (.create (resolve l.cwd (join tempdir cfg.cancelFile))) with
    | error e => exact ⟨⟨_, rfl⟩, hk⟩
    | ok fs =>
      simp only
      have hcw := setup_ok hs
      have hres : resolve (setup quiet c cfg.remote).conn.cwd cfg.remote =
          resolve [] cfg.remote ++ resolve [] cfg.remote := by
        unfold resolve at hcw ⊢
        rw [if_neg hrel, if_neg hrel, hcw, List.nil_append]
      have hno : isDir (setup quiet c cfg.remote).conn.fs
          (resolve [] cfg.remote ++ resolve [] cfg.remote) = false := by
        have hI : OfDirs (parts cfg.remote) (fun s =>
            Fs.get s (resolve [] cfg.remote ++ resolve [] cfg.remote) ≠ some .dir) := by
          intro s q hq _ h
          rw [get_set, if_neg]
          · exact h
          · intro e
            rw [← e, ← resolve_root] at hq
            have h1 := hq.length_le
            have h2 := List.length_pos_iff.2 hne
            simp only [List.length_append] at h1
            omega
        have hset : Keeps (fun s =>
            Fs.get s (resolve [] cfg.remote ++ resolve [] cfg.remote) ≠ some .dir) c
            (setup quiet c cfg.remote).conn := by
          unfold setup
          refine keeps_andThen (keeps_idle _ _) fun _ _ => ?_
          split
          · exact keeps_createDir_dirs hI _ _
          · exact (keeps_createDir_dirs hI _ _).trans (keeps_idle _ _)
        have := keeps_out hset hself
        unfold isDir
        simp only [Bool.or_eq_false_iff, beq_eq_false_iff_ne]
        exact ⟨by simp [hne], this⟩
      rw [changeDir_quiet_no _ (by rw [hres]; exact hno)]
      exact ⟨⟨_, rfl⟩, hk⟩

/-- **C142** violated by `send`: for every pattern of failing commands, a later `send` leaves the marker
where it is, unless a file of that name is to be sent. (The copy sender removes it, see C44.) -/
theorem C142_send_keeps_marker_violated {l : Local} (hl : l.Ok) {cfg : Config}
    (hord : FtpOrdinary l cfg) (hname : ¬ DotTmp [cfg.cancelFile])
    (hfile : ∀ b, ¬ FtpSends l cfg (resolve [] cfg.remote ++ [cfg.cancelFile]) b) (fault : Faults)
    (c : Conn) :
    contents (Ftp.send fault l cfg c).conn.fs (resolve [] cfg.remote ++ [cfg.cancelFile]) =
      contents c.fs (resolve [] cfg.remote ++ [cfg.cancelFile]) := by
  refine keeps_out (Inv := fun s => contents s (resolve [] cfg.remote ++ [cfg.cancelFile]) =
    contents c.fs (resolve [] cfg.remote ++ [cfg.cancelFile]))
    (ftp_send_keeps hl hord fault c (fun s s' hs h => by rw [hs, h]) ?_) rfl
  intro p b hp s s' hs _ h
  rw [hs _ _ _, h]
  · intro e
    obtain ⟨rel, hne, rfl⟩ := ftpSends_below hp
    rw [tmpOf_below hne] at e
    rw [List.append_cancel_left e] at hname
    exact hname (tmpOf_dotTmp rel)
  · intro e
    rw [← e] at hp
    exact hfile b hp

/-- The hypotheses of C142 are met: a local side with an empty directory `/tmp`, an absolute remote
directory that has to be made, with and without failing commands; and a relative one. -/
example :
    let l : Local := ⟨[(["tmp".toList], .dir)], [], fun b => b.map fun x => [x], id⟩
    let cfg : Config := ⟨"/pub/out".toList, none, [], "CANCEL".toList⟩
    let c : Conn := ⟨[(["pub".toList], .dir)], [], [], 0⟩
    l.Ok ∧ PlainWord cfg.cancelFile ∧ cfg.remote.head? = some '/' ∧
    isDir l.fs (resolve l.cwd "/tmp".toList) = true ∧
    (Ftp.cancel (fun _ => none) l cfg "/tmp".toList c).out = .ok () ∧
    (Ftp.cancel (fun n => if n = 8 then some (.lost 1) else none) l cfg "/tmp".toList c).out =
      .error .other ∧
    (Ftp.cancel (fun _ => none) l { cfg with remote := "pub/out".toList } "/tmp".toList c).out =
      .error .other ∧
    ¬ DotTmp [cfg.cancelFile] := by
  refine ⟨⟨exEnv_ok.chunks, fun l => List.Perm.refl l⟩, by unfold PlainWord; decide, rfl, by decide,
    by decide +kernel, by decide +kernel, by decide +kernel, ?_⟩
  rintro ⟨r, w, h⟩
  have := congrArg List.getLast? h
  simp only [List.getLast?_concat, List.getLast?_singleton, Option.some.injEq] at this
  have h2 : '.' ∈ "CANCEL".toList := by rw [this]; simp
  revert h2; decide

end Verif.Props
