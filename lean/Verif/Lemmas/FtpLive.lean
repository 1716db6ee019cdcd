import Verif.Lemmas.Ftp

/-!
# The FTP sender when no command fails
-/

namespace Verif.Ftp
open Verif.Fs Verif.Sender Verif.Spec

/-- No command is refused without a reason, no connection is lost. -/
def quiet : Faults := fun _ => none

theorem changeDir_quiet (c : Conn) {dir : Text} (h : isDir c.fs (resolve c.cwd dir) = true) :
    changeDir quiet c dir = ⟨.ok (), { c with cwd := resolve c.cwd dir, count := c.count + 1 }⟩ := by
  unfold changeDir quiet
  simp [h]

theorem changeDir_quiet_no (c : Conn) {dir : Text} (h : isDir c.fs (resolve c.cwd dir) = false) :
    changeDir quiet c dir = ⟨.error .perm, { c with count := c.count + 1 }⟩ := by
  unfold changeDir quiet
  simp [h]

theorem command_quiet (c : Conn) {ops : List Prim} (h : (runAll ops c.fs).out = .ok ()) :
    (command quiet c ops).out = .ok () ∧ (command quiet c ops).conn.fs = (runAll ops c.fs).fs ∧
      (command quiet c ops).conn.cwd = c.cwd := by
  unfold command quiet
  simp [h, perform]

theorem idle_quiet (c : Conn) : (idle quiet c).out = .ok () ∧ (idle quiet c).conn.fs = c.fs ∧
    (idle quiet c).conn.cwd = c.cwd := command_quiet c (ops := []) rfl

theorem isDir_not_file {fs : FS} {p : Path} (h1 : isDir fs p = false) (h2 : contents fs p = none) :
    Fs.get fs p = none ∧ p ≠ [] := by
  unfold isDir at h1
  simp only [Bool.or_eq_false_iff, beq_eq_false_iff_ne] at h1
  refine ⟨?_, h1.1⟩
  unfold contents at h2
  cases h : Fs.get fs p with
  | none => rfl
  | some n =>
    cases n with
    | dir => exact absurd h h1.2
    | file b => rw [h] at h2; simp at h2

theorem parts_short {d : Text} (h : '/' ∉ d) : parts d = [] ∨ parts d = [d] := by
  unfold parts
  rw [split_word h]
  simp only [List.filter_cons, List.filter_nil]
  split <;> simp

theorem enter_quiet (c : Conn) {d : Text} (hd : '/' ∉ d) (hc : isDir c.fs c.cwd = true)
    (hf : contents c.fs (c.cwd ++ parts d) = none) : (enter quiet c d).out = .ok () := by
  have hres : ∀ cwd, resolve cwd d = cwd ++ parts d := fun cwd => resolve_no_slash cwd hd
  by_cases hi : isDir c.fs (resolve c.cwd d) = true
  · unfold enter
    rw [changeDir_quiet c hi]
    rfl
  · have hi : isDir c.fs (resolve c.cwd d) = false := by simpa using hi
    rw [hres] at hi
    obtain ⟨h1, h2⟩ := isDir_not_file hi hf
    have hp : parts d = [d] := by
      rcases parts_short hd with h | h
      · rw [h, List.append_nil] at hi; rw [hi] at hc; cases hc
      · exact h
    unfold enter
    rw [changeDir_quiet_no c (by rw [hres]; exact hi)]
    simp only [onPerm]
    have hex : exec c.fs (.mkdir (c.cwd ++ parts d)) = .ok (Fs.set c.fs (c.cwd ++ parts d) .dir) := by
      unfold exec
      rw [hp] at h1
      simp [h1, hp, hc]
    have hrun : runAll [.mkdir (c.cwd ++ parts d)] c.fs =
        ⟨[Fs.set c.fs (c.cwd ++ parts d) .dir], Fs.set c.fs (c.cwd ++ parts d) .dir, .ok ()⟩ := by
      rw [runAll, hex]; rfl
    obtain ⟨k1, k2, k3⟩ := command_quiet { c with count := c.count + 1 }
      (ops := [.mkdir (c.cwd ++ parts d)]) (by rw [hrun])
    rw [hrun] at k2
    unfold mkd
    simp only [hres]
    unfold andThen
    rw [k1]
    simp only
    rw [changeDir_quiet _ (by rw [hres, k2, k3]; unfold isDir; rw [get_set]; simp)]
    rfl

theorem enterAll_quiet {ds : List Text} (c : Conn) (hd : ∀ d ∈ ds, '/' ∉ d)
    (hc : isDir c.fs c.cwd = true)
    (hf : ∀ q, q <+: c.cwd ++ (ds.map parts).flatten → contents c.fs q = none) :
    (enterAll quiet c ds).out = .ok () := by
  induction ds generalizing c with
  | nil => rfl
  | cons d ds ih =>
    have hpre : c.cwd ++ parts d <+: c.cwd ++ ((d :: ds).map parts).flatten := by
      simp [List.map_cons, List.flatten_cons, ← List.append_assoc]
    have h1 := enter_quiet c (hd d (by simp)) hc (hf _ hpre)
    obtain ⟨h2, h3⟩ := enter_ok h1 (hd d (by simp))
    rw [enterAll]
    unfold andThen
    rw [h1]
    simp only
    apply ih
    · exact fun e he => hd e (by simp [he])
    · rw [h2]; exact h3
    · intro q hq
      rw [h2] at hq
      have hq : q <+: c.cwd ++ ((d :: ds).map parts).flatten := by
        simpa [List.append_assoc] using hq
      exact keeps_out (Inv := fun s => contents s q = none)
        (keeps_enter (fun s s' hs h => by rw [hs, h]) quiet c d) (hf q hq)

theorem createDir_quiet (c : Conn) {dir : Text}
    (hf : ∀ q, q <+: parts dir → contents c.fs q = none) : (createDir quiet c dir).out = .ok () := by
  have hroot : ∀ cwd, resolve cwd ['/'] = [] := by
    intro cwd
    unfold resolve; rw [if_pos (by simp)]
    have := parts_slash_start []
    rw [this, parts_nil]
  unfold createDir
  rw [changeDir_quiet c (by rw [hroot]; rfl)]
  simp only [andThen, hroot]
  by_cases hi : isDir c.fs (resolve [] dir) = true
  · rw [changeDir_quiet _ (by exact hi)]; rfl
  · rw [changeDir_quiet_no _ (by simpa using hi)]
    simp only [onPerm]
    apply enterAll_quiet
    · exact fun d hd => mem_split_no_slash hd
    · rfl
    · intro q hq
      rw [flatten_parts_split, parts_strip] at hq
      exact hf q (by simpa using hq)

theorem runAll_appends_get (tmp : Path) (bs : List Bytes) (fs : FS) (c : Bytes)
    (h : Fs.get fs tmp = some (.file c)) :
    (runAll (bs.map (.append tmp)) fs).out = .ok () ∧
    Fs.get (runAll (bs.map (.append tmp)) fs).fs tmp = some (.file (c ++ bs.flatten)) ∧
    ∀ q, q ≠ tmp → Fs.get (runAll (bs.map (.append tmp)) fs).fs q = Fs.get fs q := by
  induction bs generalizing fs c with
  | nil => simp [runAll, done, h]
  | cons b bs ih =>
    rw [List.map_cons, runAll]
    have he : exec fs (.append tmp b) = .ok (Fs.set fs tmp (.file (c ++ b))) := by
      unfold exec; simp only [h]
    rw [he]
    simp only
    obtain ⟨h1, h2, h3⟩ := ih (Fs.set fs tmp (.file (c ++ b))) (c ++ b) (by rw [get_set]; simp)
    refine ⟨h1, ?_, ?_⟩
    · rw [h2]; simp
    · intro q hq; rw [h3 q hq, get_set, if_neg hq]

/-- Sending one file. -/
theorem sendFile_quiet {l : Local} (hl : l.Ok) (c : Conn) {f : Text} {b : Bytes}
    (hf : PlainWord (baseName f)) (hb : contents l.fs (resolve l.cwd f) = some b)
    (hc : isDir c.fs c.cwd = true)
    (h1 : Fs.get c.fs (c.cwd ++ [baseName f]) ≠ some .dir)
    (h2 : Fs.get c.fs (tmpOf (c.cwd ++ [baseName f])) ≠ some .dir) :
    (sendFile quiet l c f).out = .ok () ∧ (sendFile quiet l c f).conn.cwd = c.cwd ∧
    ∀ q, Fs.get (sendFile quiet l c f).conn.fs q =
      if q = c.cwd ++ [baseName f] then some (.file b)
      else if q = tmpOf (c.cwd ++ [baseName f]) then none else Fs.get c.fs q := by
  have hne : c.cwd ++ [baseName f] ≠ tmpOf (c.cwd ++ [baseName f]) := by
    rw [tmpOf_append]; simp
  have hdt : isDir c.fs (tmpOf (c.cwd ++ [baseName f])) = false := by
    unfold isDir
    rw [tmpOf_append] at h2 ⊢
    simp only [Bool.or_eq_false_iff, beq_eq_false_iff_ne]
    exact ⟨by simp, h2⟩
  have hex : exec c.fs (.create (tmpOf (c.cwd ++ [baseName f]))) =
      .ok (Fs.set c.fs (tmpOf (c.cwd ++ [baseName f])) (.file [])) := by
    have hdr : (tmpOf (c.cwd ++ [baseName f])).dropLast = c.cwd := by rw [tmpOf_append]; simp
    unfold exec
    simp only
    rw [hdt, hdr, hc]
    rfl
  obtain ⟨a1, a2, a3⟩ := runAll_appends_get (tmpOf (c.cwd ++ [baseName f])) (l.chunks b)
    (Fs.set c.fs (tmpOf (c.cwd ++ [baseName f])) (.file [])) [] (by rw [get_set]; simp)
  rw [hl.chunks b, List.nil_append] at a2
  have hrun : (runAll (.create (tmpOf (c.cwd ++ [baseName f])) ::
      (l.chunks b).map (.append (tmpOf (c.cwd ++ [baseName f])))) c.fs).out = .ok () ∧
      (runAll (.create (tmpOf (c.cwd ++ [baseName f])) ::
      (l.chunks b).map (.append (tmpOf (c.cwd ++ [baseName f])))) c.fs).fs =
      (runAll ((l.chunks b).map (.append (tmpOf (c.cwd ++ [baseName f]))))
        (Fs.set c.fs (tmpOf (c.cwd ++ [baseName f])) (.file []))).fs := by
    rw [runAll, hex]
    exact ⟨a1, rfl⟩
  obtain ⟨s1, s2, s3⟩ := command_quiet c hrun.1
  rw [hrun.2] at s2
  unfold sendFile
  rw [readLocal_eq, hb]
  simp only
  unfold stor
  rw [resolve_plain _ (plain_tmp hf), ← tmpOf_append]
  generalize command quiet c (.create (tmpOf (c.cwd ++ [baseName f])) ::
      (l.chunks b).map (.append (tmpOf (c.cwd ++ [baseName f])))) = st at s1 s2 s3
  unfold andThen rename
  rw [s1]
  simp only
  rw [s3, resolve_plain _ (plain_tmp hf), resolve_plain _ hf, ← tmpOf_append]
  have hg : Fs.get st.conn.fs (tmpOf (c.cwd ++ [baseName f])) = some (.file b) := by rw [s2, a2]
  have ho : ∀ q, q ≠ tmpOf (c.cwd ++ [baseName f]) → Fs.get st.conn.fs q = Fs.get c.fs q := by
    intro q hq; rw [s2, a3 q hq, get_set, if_neg hq]
  have hcd : isDir st.conn.fs c.cwd = true := by
    unfold isDir at hc ⊢
    rw [ho c.cwd (by rw [tmpOf_append]; intro h; have := congrArg List.length h; simp at this)]
    exact hc
  have hren : exec st.conn.fs (.rename (tmpOf (c.cwd ++ [baseName f])) (c.cwd ++ [baseName f])) =
      .ok (Fs.set (Fs.del st.conn.fs (tmpOf (c.cwd ++ [baseName f]))) (c.cwd ++ [baseName f])
        (.file b)) := by
    unfold exec
    simp only [hg]
    rw [if_neg]
    have : isDir st.conn.fs (c.cwd ++ [baseName f]) = false := by
      unfold isDir; rw [ho _ hne]; simp [h1]
    simp [this, hcd]
  have hrun2 : runAll [.rename (tmpOf (c.cwd ++ [baseName f])) (c.cwd ++ [baseName f])] st.conn.fs =
      ⟨[Fs.set (Fs.del st.conn.fs (tmpOf (c.cwd ++ [baseName f]))) (c.cwd ++ [baseName f]) (.file b)],
       Fs.set (Fs.del st.conn.fs (tmpOf (c.cwd ++ [baseName f]))) (c.cwd ++ [baseName f]) (.file b),
       .ok ()⟩ := by
    rw [runAll, hren]; rfl
  obtain ⟨r1, r2, r3⟩ := command_quiet st.conn
    (ops := [.rename (tmpOf (c.cwd ++ [baseName f])) (c.cwd ++ [baseName f])]) (by rw [hrun2])
  refine ⟨r1, by rw [r3, s3], ?_⟩
  intro q
  rw [r2, hrun2, get_set, get_del]
  by_cases hq : q = c.cwd ++ [baseName f]
  · simp [hq]
  · rw [if_neg hq, if_neg hq]
    by_cases hq2 : q = tmpOf (c.cwd ++ [baseName f])
    · simp [hq2]
    · rw [if_neg hq2, if_neg hq2, ho q hq2]

/-! ### Whole runs -/

/-- What stays true during a run: the places `S` of files and their temporary names are not
directories, no file is at or above a folder in `F`, and the remote directory `r` is there. -/
structure Going (S F : Path → Prop) (r : Path) (s : FS) : Prop where
  clear : ∀ p, S p → Fs.get s p ≠ some .dir ∧ Fs.get s (tmpOf p) ≠ some .dir
  open_ : ∀ f q, F f → q <+: f → contents s q = none
  remote : isDir s r = true

/-- The places of files and folders do not collide. -/
structure Fits (S F : Path → Prop) (r : Path) : Prop where
  file : ∀ p f, S p → F f → ¬ p <+: f
  temp : ∀ p f, S p → F f → ¬ tmpOf p <+: f
  remote : F r

theorem Fits.ne {S F : Path → Prop} {r : Path} (hfit : Fits S F r) {p q f : Path} (hp : S p) (hf : F f)
    (hq : q <+: f) : p ≠ q ∧ tmpOf p ≠ q :=
  ⟨fun e => hfit.file p f hp hf (by rw [e]; exact hq),
   fun e => hfit.temp p f hp hf (by rw [e]; exact hq)⟩

theorem Going.mk_dirs {S F : Path → Prop} {r : Path} (hfit : Fits S F r) {f : Path} (hf : F f) :
    OfDirs f (Going S F r) := by
  intro s q hq hnone h
  refine ⟨fun p hp => ?_, fun g p hg hp => ?_, ?_⟩
  · rw [get_set, get_set]
    rw [if_neg (hfit.ne hp hf hq).1, if_neg (hfit.ne hp hf hq).2]
    exact h.clear p hp
  · unfold contents
    rw [get_set]
    by_cases he : p = q
    · simp [he]
    · rw [if_neg he]; exact h.open_ g p hg hp
  · have := h.remote
    unfold isDir at this ⊢
    rw [get_set]
    by_cases he : r = q
    · simp [he]
    · rw [if_neg he]; exact this

theorem Going.sent {S F : Path → Prop} {r : Path} (hfit : Fits S F r) {dst : Path} {b : Bytes}
    (hd : S dst) {s s' : FS}
    (hs : ∀ q, Fs.get s' q = if q = dst then some (.file b) else if q = tmpOf dst then none
      else Fs.get s q) (h : Going S F r s) : Going S F r s' := by
  refine ⟨fun p hp => ?_, fun f q hf hq => ?_, ?_⟩
  · rw [hs, hs]
    refine ⟨?_, ?_⟩
    · split
      · simp
      · split
        · simp
        · exact (h.clear p hp).1
    · split
      · simp
      · split
        · simp
        · exact (h.clear p hp).2
  · unfold contents
    rw [hs, if_neg (hfit.ne hd hf hq).1.symm, if_neg (hfit.ne hd hf hq).2.symm]
    exact h.open_ f q hf hq
  · have := h.remote
    unfold isDir at this ⊢
    rw [hs, if_neg (hfit.ne hd hfit.remote List.prefix_rfl).1.symm,
      if_neg (hfit.ne hd hfit.remote List.prefix_rfl).2.symm]
    exact this

theorem setup_quiet {S F : Path → Prop} (c : Conn) {remote : Text}
    (hfit : Fits S F (parts remote))
    (hclear : ∀ p, S p → Fs.get c.fs p ≠ some .dir ∧ Fs.get c.fs (tmpOf p) ≠ some .dir)
    (hopen : ∀ f q, F f → q <+: f → contents c.fs q = none) :
    (setup quiet c remote).out = .ok () ∧ (setup quiet c remote).conn.cwd = parts remote ∧
      Going S F (parts remote) (setup quiet c remote).conn.fs := by
  obtain ⟨i1, i2, i3⟩ := idle_quiet c
  have hcr := createDir_quiet (idle quiet c).conn (dir := remote)
    (fun q hq => by rw [i2]; exact hopen _ q hfit.remote hq)
  unfold setup andThen
  rw [i1]
  simp only
  rw [hcr]
  simp only
  obtain ⟨k1, k2⟩ := createDir_ok hcr
  refine ⟨hcr, k1, ?_⟩
  have hI : OfDirs (parts remote) (fun s =>
      (∀ p, S p → Fs.get s p ≠ some .dir ∧ Fs.get s (tmpOf p) ≠ some .dir) ∧
      (∀ f q, F f → q <+: f → contents s q = none)) := by
    rintro s q hq hnone ⟨h1, h2⟩
    refine ⟨fun p hp => ?_, fun g p hg hp => ?_⟩
    · rw [get_set, get_set]
      rw [if_neg (hfit.ne hp hfit.remote hq).1, if_neg (hfit.ne hp hfit.remote hq).2]
      exact h1 p hp
    · unfold contents
      rw [get_set]
      by_cases he : p = q
      · simp [he]
      · rw [if_neg he]; exact h2 g p hg hp
  obtain ⟨g1, g2⟩ := keeps_out (keeps_createDir_dirs hI quiet (idle quiet c).conn)
    (by rw [i2]; exact ⟨hclear, hopen⟩)
  exact ⟨g1, g2, k2⟩

theorem sendListed_quiet {S F : Path → Prop} {l : Local} (hl : l.Ok) {fs : List Text} (c : Conn)
    {r : Path} (hfit : Fits S F r) (hf : ∀ f ∈ fs, PlainWord (baseName f))
    (hb : ∀ f ∈ fs, (contents l.fs (resolve l.cwd f)).isSome)
    (hS : ∀ f ∈ fs, S (r ++ [baseName f])) (hc : c.cwd = r) (hg : Going S F r c.fs) :
    (sendListed quiet l c fs).out = .ok fs.length ∧ (sendListed quiet l c fs).conn.cwd = r ∧
      Going S F r (sendListed quiet l c fs).conn.fs := by
  induction fs generalizing c with
  | nil => exact ⟨rfl, hc, hg⟩
  | cons f fs ih =>
    obtain ⟨b, hb'⟩ := Option.isSome_iff_exists.1 (hb f (by simp))
    have hs := hS f (by simp)
    rw [← hc] at hs
    obtain ⟨s1, s2, s3⟩ := sendFile_quiet hl c (hf f (by simp)) hb' (by rw [hc]; exact hg.remote)
      (hg.clear _ hs).1 (hg.clear _ hs).2
    obtain ⟨t1, t2, t3⟩ := ih (sendFile quiet l c f).conn (fun g h => hf g (by simp [h]))
      (fun g h => hb g (by simp [h])) (fun g h => hS g (by simp [h])) (by rw [s2, hc])
      (hg.sent hfit hs s3)
    rw [sendListed]
    unfold andThen
    rw [s1]
    simp only
    rw [t1]
    exact ⟨rfl, t2, t3⟩

theorem copyWithPath_quiet {S F : Path → Prop} {l : Local} (hl : l.Ok) (c : Conn) {remote d : Text}
    (habs : remote.head? = some '/') (hfit : Fits S F (parts remote))
    (hd : d ≠ []) {rel : List Text} (hne : rel ≠ []) (h : ∀ x ∈ rel, PlainWord x)
    (hrec : ¬ d <:+: (joins d rel).drop d.length)
    (hb : (contents l.fs (resolve l.cwd d ++ rel)).isSome)
    (hS : S (parts remote ++ rel)) (hF : F (parts remote ++ rel.dropLast))
    (hg : Going S F (parts remote) c.fs) :
    (copyWithPath quiet l c remote d (joins d rel)).out = .ok () ∧
      Going S F (parts remote) (copyWithPath quiet l c remote d (joins d rel)).conn.fs := by
  obtain ⟨r, w, rfl⟩ : ∃ r w, rel = r ++ [w] :=
    ⟨rel.dropLast, rel.getLast hne, (List.dropLast_append_getLast hne).symm⟩
  rw [List.dropLast_concat] at hF
  obtain ⟨b, hb⟩ := Option.isSome_iff_exists.1 hb
  have hfold := parts_folder (remote := remote) hd h hrec
  have hbase := baseName_joins hd h
  have hw := h w (by simp)
  have hres := resolve_joins l.cwd d h
  have hpf : ∀ cwd, resolve cwd (pathFolder (remoteFile remote d (joins d (r ++ [w])))) =
      parts remote ++ r := fun cwd => by rw [pathFolder_resolve, hfold]
  unfold copyWithPath
  generalize pathFolder (remoteFile remote d (joins d (r ++ [w]))) = folder at *
  have hnav : (onPerm (changeDir quiet c folder) fun c => createDir quiet c folder).out = .ok () ∧
      (onPerm (changeDir quiet c folder) fun c => createDir quiet c folder).conn.cwd =
        parts remote ++ r ∧
      isDir (onPerm (changeDir quiet c folder) fun c => createDir quiet c folder).conn.fs
        (parts remote ++ r) = true ∧
      Going S F (parts remote)
        (onPerm (changeDir quiet c folder) fun c => createDir quiet c folder).conn.fs := by
    by_cases hi : isDir c.fs (resolve c.cwd folder) = true
    · rw [changeDir_quiet c hi]
      rw [hpf] at hi
      simp only [onPerm]
      exact ⟨trivial, hpf _, hi, hg⟩
    · rw [changeDir_quiet_no c (by simpa using hi)]
      simp only [onPerm]
      have hcr := createDir_quiet { c with count := c.count + 1 } (dir := folder)
        (fun q hq => hg.open_ _ q hF (by rw [← hfold]; exact hq))
      obtain ⟨k1, k2⟩ := createDir_ok hcr
      rw [hfold] at k1 k2
      refine ⟨hcr, k1, k2, ?_⟩
      exact keeps_out (keeps_createDir_dirs (dir := folder)
        (Going.mk_dirs hfit (f := parts folder) (by rw [hfold]; exact hF)) quiet
        { c with count := c.count + 1 }) hg
  generalize hn : (onPerm (changeDir quiet c folder) fun c => createDir quiet c folder) = nav at hnav
  obtain ⟨n1, n2, n3, n4⟩ := hnav
  have hdst : nav.conn.cwd ++ [baseName (joins d (r ++ [w]))] = parts remote ++ (r ++ [w]) := by
    rw [n2, hbase, List.append_assoc]
  have hS' : S (nav.conn.cwd ++ [baseName (joins d (r ++ [w]))]) := by rw [hdst]; exact hS
  obtain ⟨s1, s2, s3⟩ := sendFile_quiet hl nav.conn (f := joins d (r ++ [w])) (b := b)
    (by rw [hbase]; exact hw) (by rw [hres]; exact hb) (by rw [n2]; exact n3)
    (n4.clear _ hS').1 (n4.clear _ hS').2
  have hg2 := n4.sent hfit hS' s3
  unfold andThen
  rw [n1]
  simp only
  rw [s1]
  simp only
  have hrem : ∀ cwd, resolve cwd remote = parts remote := by
    intro cwd; unfold resolve; rw [if_pos habs]
  rw [changeDir_quiet _ (by rw [hrem]; exact hg2.remote)]
  exact ⟨rfl, hg2⟩

theorem sendDir_quiet {S F : Path → Prop} {l : Local} (hl : l.Ok) {remote d : Text}
    (habs : remote.head? = some '/') (hfit : Fits S F (parts remote)) {rels : List (List Text)}
    (hok : DirOk remote d rels) (c : Conn)
    (hb : ∀ rel ∈ rels, (contents l.fs (resolve l.cwd d ++ rel)).isSome)
    (hS : ∀ rel ∈ rels, S (parts remote ++ rel) ∧ F (parts remote ++ rel.dropLast))
    (hg : Going S F (parts remote) c.fs) :
    (sendDir quiet l c remote d (rels.map (joins d))).1 = rels.length := by
  induction rels generalizing c with
  | nil => rfl
  | cons rel rels ih =>
    obtain ⟨h1, h2⟩ := copyWithPath_quiet hl c habs hfit hok.dir (hok.ne rel (by simp))
      (hok.names rel (by simp)) (hok.once rel (by simp)) (hb rel (by simp)) (hS rel (by simp)).1
      (hS rel (by simp)).2 hg
    rw [List.map_cons, sendDir, h1]
    simp only [List.length_cons]
    rw [ih hok.tail _ (fun r hr => hb r (by simp [hr])) (fun r hr => hS r (by simp [hr])) h2]

end Verif.Ftp
