import Verif.Lemmas.Ftp
import Verif.Spec.FtpDelivery
import Verif.Props.CopySender

/-!
# FTP sender: C43 (FTP), C45, C46
-/

namespace Verif.Props
open Verif.Fs Verif.Sender Verif.Ftp Verif.Spec

/-! ### C45 -/

/-- **C45.** For every state of the server, every path and every pattern of failing commands: whenever
`_create_remote_directory` returns normally, the working directory of the server is the requested
directory and that directory exists. Whatever the outcome, everything that existed on the server is
still there, and everything that is new is a directory on the way to the requested one. -/
theorem C45_create_directory (fault : Faults) (c : Conn) (dir : Text) :
    (∀ u, (createDir fault c dir).out = .ok u →
      (createDir fault c dir).conn.cwd = resolve [] dir ∧
      isDir (createDir fault c dir).conn.fs (resolve [] dir) = true) ∧
    (∀ q n, Fs.get c.fs q = some n → Fs.get (createDir fault c dir).conn.fs q = some n) ∧
    (∀ q n, Fs.get (createDir fault c dir).conn.fs q = some n → Fs.get c.fs q = none →
      n = .dir ∧ q <+: resolve [] dir) := by
  rw [resolve_root]
  refine ⟨fun u hu => createDir_ok hu, ?_⟩
  have hI : OfDirs (parts dir) (fun s => (∀ q n, Fs.get c.fs q = some n → Fs.get s q = some n) ∧
      ∀ q n, Fs.get s q = some n → Fs.get c.fs q = none → n = .dir ∧ q <+: parts dir) := by
    rintro s q hq hnone ⟨h1, h2⟩
    refine ⟨fun p n hp => ?_, fun p n hp hp0 => ?_⟩
    · rw [get_set]
      by_cases he : p = q
      · subst he; rw [h1 p n hp] at hnone; cases hnone
      · rw [if_neg he, h1 p n hp]
    · rw [get_set] at hp
      by_cases he : p = q
      · subst he
        rw [if_pos rfl] at hp
        simp only [Option.some.injEq] at hp
        exact ⟨hp.symm, hq⟩
      · rw [if_neg he] at hp; exact h2 p n hp hp0
  refine keeps_out (keeps_createDir_dirs hI fault c) ⟨fun q n h => h, fun q n h h0 => ?_⟩
  rw [h] at h0; cases h0

/-- A new directory with a new parent, next to an existing file; and with a refused command. -/
example :
    let c : Conn := ⟨[(["pub".toList], .dir), (["pub".toList, "x".toList], .file [1])], [], [], 0⟩
    (createDir (fun _ => none) c "/pub/a/b".toList).out = .ok () ∧
    (createDir (fun _ => none) c "/pub/a/b".toList).conn.cwd =
      ["pub".toList, "a".toList, "b".toList] ∧
    (createDir (fun n => if n = 3 then some .refused else none) c "/pub/a/b".toList).out = .ok () ∧
    (createDir (fun n => if n = 4 then some .refused else none) c "/pub/a/b".toList).out =
      .error .other := by
  decide +kernel

/-! ### C43 -/

/-- The files of the local directory, as relative paths. -/
theorem localFiles_rels {l : Local} (hl : l.Ok) {cfg : Config} (hord : FtpOrdinary l cfg) {d : Text}
    (hd : cfg.localDir = some d) :
    ∃ rels : List (List Text), localFiles l cfg.localDir = rels.map (joins d) ∧
      rels.Nodup ∧ (∀ rel, rel ∈ rels ↔ FtpLocalFile l cfg d rel) ∧ DirOk cfg.remote d rels := by
  have hne := hord.dir_nonempty d hd
  have hmem : ∀ rel, rel ∈ l.order (filesBelow l.fs (resolve l.cwd d)) ↔
      FtpLocalFile l cfg d rel := by
    intro rel
    rw [(hl.order _).mem_iff, mem_filesBelow]
    simp [FtpLocalFile, hd]
  refine ⟨l.order (filesBelow l.fs (resolve l.cwd d)), ?_, ?_, hmem, ?_⟩
  · rw [hd]; simp only [localFiles]; rw [if_neg hne]
  · exact (hl.order _).nodup_iff.2 (nodup_filesBelow _ _)
  · exact ⟨hne, fun rel h => ((hmem rel).1 h).2.1, fun rel h => hord.names d rel ((hmem rel).1 h),
      fun rel h => hord.once d rel ((hmem rel).1 h)⟩

theorem keeps_setup {Inv : FS → Prop} (hI : OfContents Inv) (fault : Faults) (c : Conn)
    (remote : Text) : Keeps Inv c (setup fault c remote).conn := by
  unfold setup
  refine keeps_andThen (keeps_idle _ _) fun _ _ => ?_
  split
  · exact keeps_createDir hI _ _ _
  · exact (keeps_createDir hI _ _ _).trans (keeps_idle _ _)

theorem setup_ok {fault : Faults} {c : Conn} {remote : Text} {u : Unit}
    (h : (setup fault c remote).out = .ok u) :
    (setup fault c remote).conn.cwd = parts remote := by
  unfold setup at h ⊢
  obtain ⟨_, h1, h2, h3⟩ := andThen_ok h
  rw [h3]
  cases ho : (createDir fault (idle fault c).conn remote).out with
  | error e => rw [ho] at h2; simp at h2
  | ok v => exact (createDir_ok ho).1

theorem tmpOf_dotTmp (p : Path) : DotTmp (tmpOf p) := ⟨_, _, rfl⟩

/-- Any predicate that allows the right file at the right place holds throughout a transfer. -/
theorem ftp_send_keeps {l : Local} (hl : l.Ok) {cfg : Config} (hord : FtpOrdinary l cfg)
    (fault : Faults) (c : Conn) {Inv : FS → Prop} (hI : OfContents Inv)
    (hI2 : ∀ p b, FtpSends l cfg p b → OfFile p b Inv) :
    Keeps Inv c (Ftp.send fault l cfg c).conn := by
  unfold Ftp.send
  refine keeps_andThen (keeps_setup hI _ _ _) fun u hu => ?_
  have hcw := setup_ok hu
  refine keeps_andThen ?_ fun n hn => ?_
  · refine sendListed_keeps hl hord.listed_plain _ ?_
    intro f hf b hb
    rw [hcw, ← resolve_root]
    exact hI2 _ _ (Or.inr ⟨f, hf, hb, rfl⟩)
  · simp only
    refine keeps_andThen ?_ fun _ _ => Keeps.refl _
    refine Keeps.trans ?_ (keeps_idle _ _)
    cases hd : cfg.localDir with
    | none => simp only [localFiles, Ftp.sendDir]; exact Keeps.refl _
    | some d =>
      obtain ⟨rels, h1, _, h3, h4⟩ := localFiles_rels hl hord hd
      rw [← hd, h1, hd]
      refine sendDir_keeps hl hI h4 _ ?_
      intro rel hrel b hb
      rw [← resolve_root]
      exact hI2 _ _ (Or.inl ⟨d, rel, hd, ((h3 rel).1 hrel).2.1, hb, rfl⟩)

/-- **C43** for FTP: for every pattern of failing commands, in every state the server passes through,
a path that does not end with `.tmp` has its previous contents or the complete contents of a file that
is to be delivered there. -/
theorem C43_ftp_atomic {l : Local} (hl : l.Ok) {cfg : Config} (hord : FtpOrdinary l cfg)
    (fault : Faults) {c : Conn} (hstart : c.trace = []) {s : FS}
    (hs : s ∈ (Ftp.send fault l cfg c).conn.trace ∨ s = (Ftp.send fault l cfg c).conn.fs) {q : Path}
    (hq : ¬ DotTmp q) :
    contents s q = contents c.fs q ∨ ∃ b, FtpSends l cfg q b ∧ contents s q = some b := by
  have key := ftp_send_keeps hl hord fault c
    (Inv := fun s => contents s q = contents c.fs q ∨
      ∃ b, FtpSends l cfg q b ∧ contents s q = some b)
    (by
      intro s s' hs h
      rw [hs]; exact h)
    (by
      intro p b hp s s' h1 h2 h
      by_cases he : q = p
      · subst he
        rcases h2 with h2 | h2
        · rw [h2]; exact h
        · exact Or.inr ⟨b, hp, h2⟩
      · have hqt : q ≠ tmpOf p := fun h => hq (h ▸ tmpOf_dotTmp p)
        rw [h1 q hqt he]; exact h)
  obtain ⟨k1, k2⟩ := key (Or.inl rfl)
  rcases hs with hs | rfl
  · rcases k2 s hs with k | k
    · rw [hstart] at k; cases k
    · exact k
  · exact k1

/-- A local side for the examples, with the files of the copy example. -/
def exLocal : Local := ⟨exFs, [], fun b => b.map fun x => [x], id⟩

theorem exLocal_ok : exLocal.Ok := ⟨exEnv_ok.chunks, fun l => List.Perm.refl l⟩

theorem not_dotTmp {p : Path} (h : ∀ w, p.getLast? = some w → w.length < 4) : ¬ DotTmp p := by
  rintro ⟨r, w, rfl⟩
  have := h (w ++ ".tmp".toList) (by simp)
  simp at this

theorem exFtpOrdinary : FtpOrdinary exLocal exConfig where
  dir_nonempty := exOrdinary.dir_nonempty
  names := exOrdinary.names
  once := exOrdinary.once
  no_tmp := by
    intro d rel h
    obtain ⟨_, rfl | rfl⟩ := exConfig_files d rel h
    · exact not_dotTmp (by simp)
    · exact not_dotTmp (by simp)
  listed_plain := exOrdinary.listed_plain
  listed_no_tmp := by
    intro f hf; simp [exConfig] at hf; subst hf; exact not_dotTmp (by simp [baseName])

/-- The hypotheses of C43 and C46 are met, with and without failures: a server with an old file; all
three files are sent, or two when the connection is lost during the transfer of `sub/b`. -/
example :
    let c : Conn := ⟨[(["out".toList], .dir), (["out".toList, "a".toList], .file [9])], [], [], 0⟩
    exLocal.Ok ∧ FtpOrdinary exLocal exConfig ∧ c.trace = [] ∧
    (Ftp.send (fun _ => none) exLocal exConfig c).out = .ok 3 ∧
    (Ftp.send (fun n => if n = 15 then some (.lost 1) else none) exLocal exConfig c).out = .ok 2 := by
  refine ⟨exLocal_ok, exFtpOrdinary, rfl, ?_, ?_⟩ <;> decide +kernel

/-! ### C46 -/

/-- **C46** (partial). For every pattern of failing commands: when `send` returns a count, it is the
number of some of the files that are to be sent, among them all listed files, and every one of those
is on the server with its complete contents. What is missing: files that are stored but not counted,
and listed files that fail, see the violations below. Files are assumed to have different
destinations. -/
theorem C46_count_partial {l : Local} (hl : l.Ok) {cfg : Config} (hord : FtpOrdinary l cfg)
    (fault : Faults) {c : Conn} {n : ℕ} (hnames : (cfg.localFiles.map baseName).Nodup)
    (hdiff : ∀ d rel, FtpLocalFile l cfg d rel → ∀ f ∈ cfg.localFiles, rel ≠ [baseName f])
    (hok : (Ftp.send fault l cfg c).out = .ok n) :
    ∃ counted : List (List Text), counted.Nodup ∧ n = cfg.localFiles.length + counted.length ∧
      (∀ f ∈ cfg.localFiles, ∃ b, contents l.fs (resolve l.cwd f) = some b ∧
        contents (Ftp.send fault l cfg c).conn.fs (resolve [] cfg.remote ++ [baseName f]) =
          some b) ∧
      (∀ rel ∈ counted, ∃ d b, FtpLocalFile l cfg d rel ∧
        contents l.fs (resolve l.cwd d ++ rel) = some b ∧
        contents (Ftp.send fault l cfg c).conn.fs (resolve [] cfg.remote ++ rel) = some b) := by
  unfold Ftp.send at hok ⊢
  obtain ⟨_, h1, h2, h3⟩ := andThen_ok hok
  obtain ⟨m, h4, h5, h6⟩ := andThen_ok h2
  rw [h3, h6]
  have hcw := setup_ok h1
  rw [← resolve_root] at hcw
  have hlt : ∀ f ∈ cfg.localFiles, ∀ g ∈ cfg.localFiles, baseName f ≠ baseName g ++ ".tmp".toList := by
    intro f hf g _ h
    exact hord.listed_no_tmp f hf ⟨[], baseName g, by rw [h]; rfl⟩
  obtain ⟨k1, k2⟩ := sendListed_ok hl hord.listed_plain hnames hlt h4
  rw [hcw] at k2
  generalize (sendListed fault l (setup fault c cfg.remote).conn cfg.localFiles).conn = c2 at *
  simp only at h5 ⊢
  obtain ⟨_, m1, m2, m3⟩ := andThen_ok h5
  rw [m3]
  have hq : (idle fault (Ftp.sendDir fault l c2 cfg.remote (cfg.localDir.getD [])
      (localFiles l cfg.localDir)).2).conn.fs = (Ftp.sendDir fault l c2 cfg.remote
        (cfg.localDir.getD []) (localFiles l cfg.localDir)).2.fs := by
    have := (command_ok m1).2
    unfold idle
    simpa [runAll, done] using this
  simp only [ok, Except.ok.injEq] at m2 ⊢
  rw [hq]
  cases hd : cfg.localDir with
  | none =>
    rw [hd] at m2
    simp only [localFiles, Ftp.sendDir] at m2 ⊢
    exact ⟨[], List.nodup_nil, by simp [← m2, k1], k2, by simp⟩
  | some d =>
    obtain ⟨rels, r1, r2, r3, r4⟩ := localFiles_rels hl hord hd
    rw [r1, hd] at m2
    rw [hd] at r1
    rw [r1]
    simp only [Option.getD_some] at m2 ⊢
    have ht : ∀ rel ∈ rels, ∀ rel' ∈ rels, rel ≠ tmpOf rel' := by
      intro rel hrel rel' _ h
      exact hord.no_tmp d rel ((r3 rel).1 hrel) (h ▸ tmpOf_dotTmp rel')
    obtain ⟨counted, s1, s2, s3⟩ := sendDir_count (fault := fault) hl r4 c2 r2 ht
    refine ⟨counted, s1.nodup r2, by rw [← m2, s2, k1], ?_, ?_⟩
    · intro f hf
      obtain ⟨b, b1, b2⟩ := k2 f hf
      refine ⟨b, b1, ?_⟩
      refine keeps_out (Inv := fun s => contents s (resolve [] cfg.remote ++ [baseName f]) = some b)
        (sendDir_keeps hl (fun s s' hs h => by rw [hs, h]) r4 c2 ?_) b2
      intro rel hrel x _
      have hfile := (r3 rel).1 hrel
      rw [← resolve_root]
      apply ofFile_other
      · intro he
        exact hdiff d rel hfile f hf (List.append_cancel_left he).symm
      · intro he
        apply hord.listed_no_tmp f hf
        have hne := hfile.2.1
        have : tmpOf (resolve [] cfg.remote ++ rel) = resolve [] cfg.remote ++ tmpOf rel := by
          unfold tmpOf
          rw [List.dropLast_append_of_ne_nil hne, List.getLast?_append_of_ne_nil _ hne,
            List.append_assoc]
        rw [this] at he
        rw [List.append_cancel_left he]
        exact tmpOf_dotTmp rel
    · intro rel hrel
      obtain ⟨b, b1, b2⟩ := s3 rel hrel
      refine ⟨d, b, (r3 rel).1 (s1.subset hrel), b1, ?_⟩
      rw [resolve_root]; exact b2

/-- **C46** violated for a relative remote directory, without any failure: the file of the directory
is stored but the count is 0, because going back to `out` from `/out` fails. -/
theorem C46_relative_remote_violated :
    ∃ (cfg : Config) (c : Conn), cfg.remote = "out".toList ∧ cfg.localDir = some "/in".toList ∧
      (Ftp.send (fun _ => none) exLocal cfg c).out = .ok 0 ∧
      contents (Ftp.send (fun _ => none) exLocal cfg c).conn.fs ["out".toList, "a".toList] =
        some [1, 2] ∧
      contents (Ftp.send (fun _ => none) exLocal cfg c).conn.fs
        ["out".toList, "sub".toList, "b".toList] = some [3] :=
  ⟨⟨"out".toList, some "/in".toList, [], "CANCEL".toList⟩, ⟨[], [], [], 0⟩, by decide +kernel⟩

/-- **C46** violated by a listed file that fails: it stops the others and no count is returned. -/
theorem C46_listed_failure_violated :
    ∃ (cfg : Config) (fault : Faults) (c : Conn), cfg.localFiles = ["/x".toList, "/in/a".toList] ∧
      (∀ n, n ≠ 3 → fault n = none) ∧
      (Ftp.send fault exLocal cfg c).out = .error .other ∧
      contents (Ftp.send fault exLocal cfg c).conn.fs ["out".toList, "a".toList] = none :=
  ⟨⟨"/out".toList, none, ["/x".toList, "/in/a".toList], "CANCEL".toList⟩,
   fun n => if n = 3 then some (.lost 0) else none, ⟨[(["out".toList], .dir)], [], [], 0⟩, rfl,
   by intro n hn; simp [hn], by decide +kernel, by decide +kernel⟩

end Verif.Props
