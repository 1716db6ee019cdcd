import Verif.Lemmas.Sender
import Verif.Model.Ftp

/-!
# Lemmas on the FTP sender
-/

namespace Verif.Ftp
open Verif.Fs Verif.Sender Verif.Spec

/-! ### Paths -/

theorem slashJoin_eq (ws : List Text) : slashJoin ws = slashText ws := by
  induction ws with
  | nil => rfl
  | cons w ws ih =>
    cases ws with
    | nil => rfl
    | cons v ws => rw [slashJoin, slashText, ih]

theorem parts_slashJoin {ws : List Text} (h : ∀ w ∈ ws, '/' ∉ w) :
    parts (slashJoin ws) = ws.filter (fun w => w ≠ [] ∧ w ≠ ['.']) := by
  induction ws with
  | nil => simp [slashJoin, parts_nil]
  | cons w ws ih =>
    cases ws with
    | nil =>
      simp only [slashJoin, parts, split_word (h w (by simp))]
    | cons v ws =>
      rw [slashJoin, parts_append, ih (fun x hx => h x (by simp [hx]))]
      simp only [parts, split_word (h w (by simp))]
      rw [← List.filter_append]
      rfl

theorem resolve_root (dir : Text) : resolve [] dir = parts dir := by
  unfold resolve; split <;> simp

theorem resolve_no_slash (cwd : Path) {w : Text} (h : '/' ∉ w) :
    resolve cwd w = cwd ++ parts w := by
  unfold resolve; rw [if_neg (head?_no_slash h)]

/-! ### What commands keep -/

/-- If `Inv` holds at the beginning, it holds in every new state. -/
def Keeps (Inv : FS → Prop) (c c' : Conn) : Prop :=
  Inv c.fs → Inv c'.fs ∧ ∀ s ∈ c'.trace, s ∈ c.trace ∨ Inv s

theorem Keeps.refl {Inv : FS → Prop} (c : Conn) : Keeps Inv c c := fun h => ⟨h, fun _ hs => Or.inl hs⟩

theorem Keeps.trans {Inv : FS → Prop} {a b c : Conn} (h1 : Keeps Inv a b) (h2 : Keeps Inv b c) :
    Keeps Inv a c := by
  intro h
  obtain ⟨k1, k2⟩ := h1 h
  obtain ⟨k3, k4⟩ := h2 k1
  refine ⟨k3, fun s hs => ?_⟩
  rcases k4 s hs with k | k
  · exact k2 s k
  · exact Or.inr k

theorem keeps_same {Inv : FS → Prop} {c c' : Conn} (h1 : c'.fs = c.fs) (h2 : c'.trace = c.trace) :
    Keeps Inv c c' := by
  intro h
  rw [h1, h2]
  exact ⟨h, fun _ hs => Or.inl hs⟩

theorem keeps_perform {Inv : FS → Prop} {c : Conn} {ops : List Prim} {n : ℕ}
    (h : Inv c.fs → Inv (runAll ops c.fs).fs ∧ ∀ s ∈ (runAll ops c.fs).trace, Inv s) :
    Keeps Inv c { perform c ops with count := n } := by
  intro h0
  refine ⟨(h h0).1, fun s hs => ?_⟩
  rcases List.mem_append.1 hs with hs | hs
  · exact Or.inl hs
  · exact Or.inr ((h h0).2 s hs)

theorem keeps_command {Inv : FS → Prop} {fault : Faults} {c : Conn} {ops : List Prim}
    (h : ∀ k, Inv c.fs → Inv (runAll (ops.take k) c.fs).fs ∧
      ∀ s ∈ (runAll (ops.take k) c.fs).trace, Inv s) :
    Keeps Inv c (command fault c ops).conn := by
  have hall := h ops.length
  rw [List.take_length] at hall
  unfold command
  split
  · exact keeps_same rfl rfl
  · exact keeps_perform (h _)
  · split
    · exact keeps_perform hall
    · exact keeps_perform hall

theorem command_cwd (fault : Faults) (c : Conn) (ops : List Prim) :
    (command fault c ops).conn.cwd = c.cwd := by
  unfold command
  split
  · rfl
  · rfl
  · split <;> rfl

theorem command_ok {fault : Faults} {c : Conn} {ops : List Prim} {u : Unit}
    (h : (command fault c ops).out = .ok u) : (runAll ops c.fs).out = .ok () ∧
      (command fault c ops).conn.fs = (runAll ops c.fs).fs := by
  unfold command at h ⊢
  cases hf : fault c.count with
  | some f => cases f <;> simp [hf] at h
  | none =>
    simp only [hf] at h ⊢
    cases hr : (runAll ops c.fs).out with
    | error e => simp [hr] at h
    | ok v => exact ⟨rfl, rfl⟩

theorem keeps_changeDir {Inv : FS → Prop} (fault : Faults) (c : Conn) (dir : Text) :
    Keeps Inv c (changeDir fault c dir).conn := by
  unfold changeDir
  split
  · exact keeps_same rfl rfl
  · exact keeps_same rfl rfl
  · split <;> exact keeps_same rfl rfl

theorem changeDir_fs (fault : Faults) (c : Conn) (dir : Text) :
    (changeDir fault c dir).conn.fs = c.fs := by
  unfold changeDir
  split
  · rfl
  · rfl
  · split <;> rfl

theorem changeDir_ok {fault : Faults} {c : Conn} {dir : Text} {u : Unit}
    (h : (changeDir fault c dir).out = .ok u) :
    isDir c.fs (resolve c.cwd dir) = true ∧
      (changeDir fault c dir).conn.cwd = resolve c.cwd dir := by
  unfold changeDir at h ⊢
  cases hf : fault c.count with
  | some f => cases f <;> simp [hf] at h
  | none =>
    simp only [hf] at h ⊢
    by_cases hd : isDir c.fs (resolve c.cwd dir) = true
    · simp [hd]
    · simp [hd] at h

theorem changeDir_perm {fault : Faults} {c : Conn} {dir : Text}
    (h : (changeDir fault c dir).out = .error .perm) :
    (changeDir fault c dir).conn.cwd = c.cwd := by
  unfold changeDir at h ⊢
  cases hf : fault c.count with
  | some f => cases f <;> simp [hf] at h ⊢
  | none =>
    simp only [hf] at h ⊢
    by_cases hd : isDir c.fs (resolve c.cwd dir) = true
    · simp [hd] at h
    · simp [hd]

/-- Predicates that only look at the contents of files. -/
def OfContents (Inv : FS → Prop) : Prop :=
  ∀ s s', (∀ q, contents s' q = contents s q) → Inv s → Inv s'

theorem keeps_mkd {Inv : FS → Prop} (hI : OfContents Inv) (fault : Faults) (c : Conn) (dir : Text) :
    Keeps Inv c (mkd fault c dir).conn := by
  apply keeps_command
  intro k h0
  have hm : ([Prim.mkdir (resolve c.cwd dir)]).take k =
      (([resolve c.cwd dir]).take k).map Prim.mkdir := by rw [List.map_take]; rfl
  rw [hm]
  exact ⟨hI _ _ (fun q => (runAll_mkdirs _ c.fs q).2) h0,
    fun s hs => hI _ _ (fun q => (runAll_mkdirs _ c.fs q).1 s hs) h0⟩

theorem keeps_idle {Inv : FS → Prop} (fault : Faults) (c : Conn) :
    Keeps Inv c (idle fault c).conn := by
  apply keeps_command
  intro k h0
  simpa [runAll, done] using h0

theorem keeps_andThen {Inv : FS → Prop} {α β : Type} {c : Conn} {r : Res α} {f : Conn → α → Res β}
    (h1 : Keeps Inv c r.conn) (h2 : ∀ a, r.out = .ok a → Keeps Inv r.conn (f r.conn a).conn) :
    Keeps Inv c (andThen r f).conn := by
  unfold andThen
  split
  · rename_i a ha; exact h1.trans (h2 a ha)
  · exact h1

theorem keeps_onPerm {Inv : FS → Prop} {α : Type} {c : Conn} {r : Res α} {f : Conn → Res α}
    (h1 : Keeps Inv c r.conn) (h2 : Keeps Inv r.conn (f r.conn).conn) :
    Keeps Inv c (onPerm r f).conn := by
  unfold onPerm
  split
  · exact h1.trans h2
  · exact h1

theorem andThen_ok {α β : Type} {r : Res α} {f : Conn → α → Res β} {b : β}
    (h : (andThen r f).out = .ok b) :
    ∃ a, r.out = .ok a ∧ (f r.conn a).out = .ok b ∧ (andThen r f) = f r.conn a := by
  unfold andThen at h ⊢
  cases hr : r.out with
  | error e => simp [hr] at h
  | ok a => rw [hr] at h; exact ⟨a, rfl, h, rfl⟩

theorem onPerm_ok {α : Type} {r : Res α} {f : Conn → Res α} {a : α}
    (h : (onPerm r f).out = .ok a) :
    (r.out = .ok a ∧ onPerm r f = r) ∨
      (r.out = .error .perm ∧ (f r.conn).out = .ok a ∧ onPerm r f = f r.conn) := by
  unfold onPerm at h ⊢
  cases hr : r.out with
  | error e =>
    cases e with
    | perm => simp only [hr] at h; exact Or.inr ⟨rfl, h, rfl⟩
    | other => simp [hr] at h
  | ok b => simp only [hr] at h; exact Or.inl ⟨h, rfl⟩

/-! ### Directories -/

theorem keeps_enter {Inv : FS → Prop} (hI : OfContents Inv) (fault : Faults) (c : Conn) (dir : Text) :
    Keeps Inv c (enter fault c dir).conn := by
  unfold enter
  refine keeps_onPerm (keeps_changeDir _ _ _) ?_
  have := keeps_andThen (c := (changeDir fault c dir).conn) (keeps_mkd hI fault _ dir)
    (f := fun c _ => changeDir fault c dir) (fun _ _ => keeps_changeDir _ _ _)
  unfold enter.onPerm'
  split
  · exact this
  · exact this

theorem keeps_enterAll {Inv : FS → Prop} (hI : OfContents Inv) (fault : Faults) (c : Conn)
    (ds : List Text) : Keeps Inv c (enterAll fault c ds).conn := by
  induction ds generalizing c with
  | nil => exact Keeps.refl c
  | cons d ds ih =>
    rw [enterAll]
    exact keeps_andThen (keeps_enter hI fault c d) (fun _ _ => ih _)

theorem keeps_createDir {Inv : FS → Prop} (hI : OfContents Inv) (fault : Faults) (c : Conn)
    (dir : Text) : Keeps Inv c (createDir fault c dir).conn := by
  unfold createDir
  exact keeps_andThen (keeps_changeDir _ _ _) fun _ _ =>
    keeps_onPerm (keeps_changeDir _ _ _) (keeps_enterAll hI _ _ _)

theorem enter_ok {fault : Faults} {c : Conn} {d : Text} {u : Unit}
    (h : (enter fault c d).out = .ok u) (hd : '/' ∉ d) :
    (enter fault c d).conn.cwd = c.cwd ++ parts d ∧
      isDir (enter fault c d).conn.fs (c.cwd ++ parts d) = true := by
  have hres : ∀ cwd, resolve cwd d = cwd ++ parts d := fun cwd => resolve_no_slash cwd hd
  unfold enter at h ⊢
  rcases onPerm_ok h with ⟨h1, h2⟩ | ⟨h1, h2, h3⟩
  · rw [h2]
    obtain ⟨k1, k2⟩ := changeDir_ok h1
    rw [k2, changeDir_fs, hres] at *
    exact ⟨rfl, k1⟩
  · rw [h3]
    have hc := changeDir_perm h1
    have he : ∀ r : Res Unit, (enter.onPerm' r).out = .ok u → enter.onPerm' r = r := by
      intro r hr
      unfold enter.onPerm' at hr ⊢
      cases ho : r.out with
      | error e => cases e <;> simp [ho] at hr ⊢
      | ok v => rfl
    have hh := he _ h2
    rw [hh] at h2 ⊢
    obtain ⟨_, m1, m2, m3⟩ := andThen_ok h2
    obtain ⟨k1, k2⟩ := changeDir_ok m2
    have hcw : (mkd fault (changeDir fault c d).conn d).conn.cwd = c.cwd := by
      unfold mkd; rw [command_cwd, hc]
    rw [hcw, hres] at k1 k2
    rw [m3, k2, changeDir_fs]
    exact ⟨rfl, k1⟩

theorem enterAll_ok {fault : Faults} {c : Conn} {ds : List Text} {u : Unit} (hne : ds ≠ [])
    (h : (enterAll fault c ds).out = .ok u) (hd : ∀ d ∈ ds, '/' ∉ d) :
    (enterAll fault c ds).conn.cwd = c.cwd ++ (ds.map parts).flatten ∧
      isDir (enterAll fault c ds).conn.fs (c.cwd ++ (ds.map parts).flatten) = true := by
  induction ds generalizing c with
  | nil => exact absurd rfl hne
  | cons d ds ih =>
    rw [enterAll] at h ⊢
    obtain ⟨_, h1, h2, h3⟩ := andThen_ok h
    rw [h3]
    obtain ⟨k1, k2⟩ := enter_ok h1 (hd d (by simp))
    cases ds with
    | nil =>
      simp only [enterAll, ok, List.map_cons, List.map_nil, List.flatten_cons, List.flatten_nil,
        List.append_nil]
      exact ⟨k1, k2⟩
    | cons e ds =>
      have := ih (by simp) h2 (fun x hx => hd x (by simp [hx]))
      rw [k1] at this
      simpa [List.append_assoc] using this

theorem flatten_parts_split (s : Text) : ((split s).map parts).flatten = parts s := by
  have h : ∀ w ∈ split s, '/' ∉ w := fun w hw => mem_split_no_slash hw
  have key : ∀ ws : List Text, (∀ w ∈ ws, '/' ∉ w) →
      (ws.map parts).flatten = ws.filter (fun w => w ≠ [] ∧ w ≠ ['.']) := by
    intro ws
    induction ws with
    | nil => intro _; rfl
    | cons w ws ih =>
      intro h
      rw [List.map_cons, List.flatten_cons, ih (fun x hx => h x (by simp [hx])), parts,
        split_word (h w (by simp)), ← List.filter_append]
      rfl
  exact key _ h

theorem createDir_ok {fault : Faults} {c : Conn} {dir : Text} {u : Unit}
    (h : (createDir fault c dir).out = .ok u) :
    (createDir fault c dir).conn.cwd = parts dir ∧
      isDir (createDir fault c dir).conn.fs (parts dir) = true := by
  unfold createDir at h ⊢
  obtain ⟨_, h1, h2, h3⟩ := andThen_ok h
  rw [h3]
  obtain ⟨_, k2⟩ := changeDir_ok h1
  have hroot : resolve c.cwd ['/'] = [] := by
    unfold resolve; rw [if_pos (by simp)]
    have := parts_slash_start []
    rw [this, parts_nil]
  rw [hroot] at k2
  rcases onPerm_ok h2 with ⟨m1, m2⟩ | ⟨m1, m2, m3⟩
  · rw [m2]
    obtain ⟨l1, l2⟩ := changeDir_ok m1
    rw [k2, resolve_root] at l1 l2
    rw [l2, changeDir_fs]
    exact ⟨rfl, l1⟩
  · rw [m3]
    have hc := changeDir_perm m1
    have := enterAll_ok (split_ne_nil _) m2 (fun d hd => mem_split_no_slash hd)
    rw [hc, k2, flatten_parts_split, parts_strip] at this
    simpa using this

/-- Predicates that survive the creation of prefixes of `p`. -/
def OfDirs (p : Path) (Inv : FS → Prop) : Prop :=
  ∀ s q, q <+: p → Fs.get s q = none → Inv s → Inv (Fs.set s q .dir)

theorem keeps_mkd_dirs {p : Path} {Inv : FS → Prop} (hI : OfDirs p Inv) (fault : Faults) (c : Conn)
    {dir : Text} (hp : resolve c.cwd dir <+: p) : Keeps Inv c (mkd fault c dir).conn := by
  apply keeps_command
  intro k h0
  cases k with
  | zero => simpa [runAll, done] using h0
  | succ k =>
    simp only [List.take_succ_cons, List.take_nil, runAll]
    cases h : exec c.fs (.mkdir (resolve c.cwd dir)) with
    | error e => simpa [fail] using h0
    | ok fs' =>
      obtain ⟨h1, _, rfl⟩ := exec_mkdir h
      have := hI _ _ hp h1 h0
      simp only [done]
      exact ⟨this, by simpa using this⟩

theorem keeps_enter_dirs {p : Path} {Inv : FS → Prop} (hI : OfDirs p Inv) (fault : Faults) (c : Conn)
    {d : Text} (hd : '/' ∉ d) (hp : c.cwd ++ parts d <+: p) :
    Keeps Inv c (enter fault c d).conn := by
  unfold enter
  cases ho : (changeDir fault c d).out with
  | ok u => unfold onPerm; rw [ho]; exact keeps_changeDir _ _ _
  | error e =>
    cases e with
    | other => unfold onPerm; rw [ho]; exact keeps_changeDir _ _ _
    | perm =>
      have hc := changeDir_perm ho
      refine keeps_onPerm (keeps_changeDir _ _ _) ?_
      have := keeps_andThen (c := (changeDir fault c d).conn)
        (keeps_mkd_dirs hI fault _ (dir := d) (by rw [hc, resolve_no_slash _ hd]; exact hp))
        (f := fun c _ => changeDir fault c d) (fun _ _ => keeps_changeDir _ _ _)
      unfold enter.onPerm'
      split
      · exact this
      · exact this

theorem keeps_enterAll_dirs {p : Path} {Inv : FS → Prop} (hI : OfDirs p Inv) (fault : Faults)
    (c : Conn) {ds : List Text} (hd : ∀ d ∈ ds, '/' ∉ d)
    (hp : c.cwd ++ (ds.map parts).flatten <+: p) :
    Keeps Inv c (enterAll fault c ds).conn := by
  induction ds generalizing c with
  | nil => exact Keeps.refl c
  | cons d ds ih =>
    rw [enterAll]
    rw [List.map_cons, List.flatten_cons, ← List.append_assoc] at hp
    refine keeps_andThen (keeps_enter_dirs hI fault c (hd d (by simp))
      ((List.prefix_append _ _).trans hp)) fun _ h => ?_
    refine ih _ (fun x hx => hd x (by simp [hx])) ?_
    rw [(enter_ok h (hd d (by simp))).1]
    exact hp

theorem changeDir_root {fault : Faults} {c : Conn} {u : Unit}
    (h : (changeDir fault c ['/']).out = .ok u) : (changeDir fault c ['/']).conn.cwd = [] := by
  rw [(changeDir_ok h).2]
  unfold resolve; rw [if_pos (by simp)]
  have := parts_slash_start []
  rw [this, parts_nil]

theorem keeps_createDir_dirs {dir : Text} {Inv : FS → Prop} (hI : OfDirs (parts dir) Inv)
    (fault : Faults) (c : Conn) : Keeps Inv c (createDir fault c dir).conn := by
  unfold createDir
  refine keeps_andThen (keeps_changeDir _ _ _) fun _ h => ?_
  have hroot := changeDir_root h
  cases ho : (changeDir fault (changeDir fault c ['/']).conn dir).out with
  | ok u => unfold onPerm; rw [ho]; exact keeps_changeDir _ _ _
  | error e =>
    cases e with
    | other => unfold onPerm; rw [ho]; exact keeps_changeDir _ _ _
    | perm =>
      refine keeps_onPerm (keeps_changeDir _ _ _) ?_
      refine keeps_enterAll_dirs hI fault _ (fun d hd => mem_split_no_slash hd) ?_
      rw [changeDir_perm ho, hroot, flatten_parts_split, parts_strip]
      exact List.prefix_refl _

/-! ### One file -/

/-- The temporary name. -/
def tmpOf (dst : Path) : Path := dst.dropLast ++ [dst.getLast?.getD [] ++ ".tmp".toList]

theorem tmpOf_append (p : Path) (w : Text) : tmpOf (p ++ [w]) = p ++ [w ++ ".tmp".toList] := by
  simp [tmpOf]

/-- Predicates that survive writing to the temporary name, and the appearance of `b` at `dst`. -/
def OfFile (dst : Path) (b : Bytes) (Inv : FS → Prop) : Prop :=
  ∀ s s', (∀ q, q ≠ tmpOf dst → q ≠ dst → contents s' q = contents s q) →
    (contents s' dst = contents s dst ∨ contents s' dst = some b) → Inv s → Inv s'

/-- The states of a sequence of appended pieces. -/
theorem runAll_take_appends (tmp : Path) (bs : List Bytes) (fs : FS) (k : ℕ) :
    (∀ q, q ≠ tmp → contents (runAll (((bs.map (.append tmp)) : List Prim).take k) fs).fs q =
      contents fs q) ∧
    ∀ s ∈ (runAll (((bs.map (.append tmp)) : List Prim).take k) fs).trace, ∀ q, q ≠ tmp →
      contents s q = contents fs q := by
  induction bs generalizing fs k with
  | nil => simp [runAll, done]
  | cons b bs ih =>
    cases k with
    | zero => simp [runAll, done]
    | succ k =>
      simp only [List.map_cons, List.take_succ_cons, runAll]
      cases h : exec fs (.append tmp b) with
      | error e => simp [fail]
      | ok fs' =>
        have hs : ∀ q, q ≠ tmp → contents fs' q = contents fs q := by
          intro q hq
          unfold exec at h
          simp only at h
          split at h
          · cases h; rw [contents_set_file]; simp [hq]
          · cases h
        obtain ⟨k1, k2⟩ := ih fs' k
        refine ⟨fun q hq => (k1 q hq).trans (hs q hq), ?_⟩
        intro s hmem q hq
        rcases List.mem_cons.1 hmem with rfl | hmem
        · exact hs q hq
        · exact (k2 s hmem q hq).trans (hs q hq)

theorem exec_create {fs fs' : FS} {p : Path} (h : exec fs (.create p) = .ok fs') :
    fs' = Fs.set fs p (.file []) := by
  unfold exec at h
  simp only at h
  split at h <;> cases h
  rfl

theorem stor_states (fault : Faults) (chunks : Bytes → List Bytes) (c : Conn) (name : Text)
    (b : Bytes) {Inv : FS → Prop}
    (hI : ∀ s s', (∀ q, q ≠ resolve c.cwd name → contents s' q = contents s q) → Inv s → Inv s') :
    Keeps Inv c (stor fault chunks c name b).conn := by
  apply keeps_command
  intro k h0
  cases k with
  | zero => simpa [runAll, done] using h0
  | succ k =>
    simp only [List.take_succ_cons, runAll]
    cases h : exec c.fs (.create (resolve c.cwd name)) with
    | error e => simpa [fail] using h0
    | ok fs' =>
      have hfs := exec_create h
      have hs : ∀ q, q ≠ resolve c.cwd name → contents fs' q = contents c.fs q := by
        intro q hq; rw [hfs, contents_set_file]; simp [hq]
      obtain ⟨k1, k2⟩ := runAll_take_appends (resolve c.cwd name) (chunks b) fs' k
      refine ⟨hI _ _ (fun q hq => (k1 q hq).trans (hs q hq)) h0, ?_⟩
      intro s hmem
      rcases List.mem_cons.1 hmem with rfl | hmem
      · exact hI _ _ hs h0
      · exact hI _ _ (fun q hq => (k2 s hmem q hq).trans (hs q hq)) h0

theorem stor_ok {fault : Faults} {l : Local} (hl : l.Ok) {c : Conn} {name : Text} {b : Bytes}
    {u : Unit} (h : (stor fault l.chunks c name b).out = .ok u) :
    contents (stor fault l.chunks c name b).conn.fs (resolve c.cwd name) = some b := by
  obtain ⟨h1, h2⟩ := command_ok h
  unfold stor
  rw [h2]
  rw [runAll] at h1 ⊢
  cases he : exec c.fs (.create (resolve c.cwd name)) with
  | error e => rw [he] at h1; simp [fail] at h1
  | ok fs' =>
    have hfs := exec_create he
    have ht : contents fs' (resolve c.cwd name) = some [] := by
      rw [hfs, contents_set_file]; simp
    obtain ⟨fs2, k1, _, _, k2, _⟩ := runAll_appends (resolve c.cwd name) (l.chunks b) [] fs' [] ht
    rw [List.append_nil] at k2
    simp only
    rw [k2]
    rw [hl.chunks, List.nil_append] at k1
    simpa [runAll, done] using k1

theorem plain_tmp {w : Text} (h : PlainWord w) : PlainWord (w ++ ".tmp".toList) := by
  refine ⟨by simp [h.1], ?_, ?_⟩
  · intro hm
    rcases List.mem_append.1 hm with hm | hm
    · exact h.2.1 hm
    · revert hm; decide
  · intro hc
    have : (w ++ ".tmp".toList).length = 1 := by rw [hc]; rfl
    simp at this

theorem resolve_plain (cwd : Path) {w : Text} (h : PlainWord w) : resolve cwd w = cwd ++ [w] := by
  rw [resolve_no_slash cwd h.2.1, parts_word h]

theorem readLocal_eq (l : Local) (f : Text) : readLocal l f = contents l.fs (resolve l.cwd f) := by
  unfold readLocal contents
  cases Fs.get l.fs (resolve l.cwd f) with
  | none => rfl
  | some n => cases n <;> rfl

theorem sendFile_spec {fault : Faults} {l : Local} (hl : l.Ok) (c : Conn) {f : Text}
    (hf : PlainWord (baseName f)) :
    (∀ Inv : FS → Prop, (∀ b, contents l.fs (resolve l.cwd f) = some b →
        OfFile (c.cwd ++ [baseName f]) b Inv) → Keeps Inv c (sendFile fault l c f).conn) ∧
    (sendFile fault l c f).conn.cwd = c.cwd ∧
    (∀ u, (sendFile fault l c f).out = .ok u → ∃ b, contents l.fs (resolve l.cwd f) = some b ∧
      contents (sendFile fault l c f).conn.fs (c.cwd ++ [baseName f]) = some b) := by
  unfold sendFile
  rw [readLocal_eq]
  cases hb : contents l.fs (resolve l.cwd f) with
  | none => exact ⟨fun Inv _ => Keeps.refl c, rfl, fun u hu => by cases hu⟩
  | some b =>
    simp only
    have htmp : resolve c.cwd (baseName f ++ ".tmp".toList) = tmpOf (c.cwd ++ [baseName f]) := by
      rw [resolve_plain _ (plain_tmp hf), tmpOf_append]
    have hdst : resolve c.cwd (baseName f) = c.cwd ++ [baseName f] := resolve_plain _ hf
    have hne : tmpOf (c.cwd ++ [baseName f]) ≠ c.cwd ++ [baseName f] := by
      rw [tmpOf_append]; simp
    have hcw : (stor fault l.chunks c (baseName f ++ ".tmp".toList) b).conn.cwd = c.cwd :=
      command_cwd _ _ _
    generalize hst : stor fault l.chunks c (baseName f ++ ".tmp".toList) b = st at hcw
    have hren : ∀ fs1 fs2, contents fs1 (tmpOf (c.cwd ++ [baseName f])) = some b →
        exec fs1 (.rename (tmpOf (c.cwd ++ [baseName f])) (c.cwd ++ [baseName f])) = .ok fs2 →
        (∀ q, q ≠ tmpOf (c.cwd ++ [baseName f]) → q ≠ c.cwd ++ [baseName f] →
          contents fs2 q = contents fs1 q) ∧ contents fs2 (c.cwd ++ [baseName f]) = some b := by
      intro fs1 fs2 h1 h2
      unfold exec at h2
      simp only [contents_eq_some.1 h1] at h2
      split at h2
      · cases h2
      · cases h2
        refine ⟨fun q hq hq' => ?_, ?_⟩
        · rw [contents_set_file, contents_del]; simp [hq, hq']
        · rw [contents_set_file]; simp
    refine ⟨?_, ?_, ?_⟩
    · intro Inv hI
      have hI := hI b rfl
      refine keeps_andThen ?_ fun u hu => ?_
      · rw [← hst]
        apply stor_states
        intro s s' hs
        rw [htmp] at hs
        exact hI s s' (fun q hq _ => hs q hq) (Or.inl (hs _ hne.symm))
      · rw [← hst] at hu
        have hst1 := stor_ok hl hu
        rw [hst, htmp] at hst1
        unfold rename
        rw [hcw, htmp, hdst]
        apply keeps_command
        intro k h0
        cases k with
        | zero => simpa [runAll, done] using h0
        | succ k =>
          simp only [List.take_succ_cons, List.take_nil, runAll]
          cases h : exec st.conn.fs (.rename (tmpOf (c.cwd ++ [baseName f]))
              (c.cwd ++ [baseName f])) with
          | error e => simpa [fail] using h0
          | ok fs' =>
            obtain ⟨k1, k2⟩ := hren _ _ hst1 h
            have := hI _ _ k1 (Or.inr k2) h0
            simp only [done]
            exact ⟨this, by simpa using this⟩
    · unfold andThen
      split
      · unfold rename; rw [command_cwd, hcw]
      · exact hcw
    · intro u hu
      obtain ⟨_, h1, h2, h3⟩ := andThen_ok hu
      rw [h3]
      rw [← hst] at h1
      have hst1 := stor_ok hl h1
      rw [hst, htmp] at hst1
      refine ⟨b, rfl, ?_⟩
      unfold rename at h2 ⊢
      rw [hcw, htmp, hdst] at h2 ⊢
      obtain ⟨m1, m2⟩ := command_ok h2
      rw [m2]
      rw [runAll] at m1 ⊢
      cases h : exec st.conn.fs (.rename (tmpOf (c.cwd ++ [baseName f])) (c.cwd ++ [baseName f])) with
      | error e => rw [h] at m1; simp [fail] at m1
      | ok fs' =>
        simp only [runAll, done]
        exact (hren _ _ hst1 h).2

/-! ### A file of the local directory -/

theorem last_slash (t : Text) : '/' ∉ t ∨ ∃ a w, t = a ++ '/' :: w ∧ '/' ∉ w := by
  induction t with
  | nil => left; simp
  | cons c t ih =>
    rcases ih with h | ⟨a, w, rfl, hw⟩
    · by_cases hc : c = '/'
      · exact Or.inr ⟨[], t, by simp [hc], h⟩
      · left; simp only [List.mem_cons, not_or]; exact ⟨fun e => hc e.symm, h⟩
    · exact Or.inr ⟨c :: a, w, by simp, hw⟩

theorem split_getLast (t : Text) : ∃ l, split t = l ++ [baseName t] := by
  rcases last_slash t with h | ⟨a, w, rfl, hw⟩
  · exact ⟨[], by rw [split_word h, baseName_word h]; rfl⟩
  · exact ⟨split a, by rw [split_append, split_word hw, baseName_append hw]⟩

theorem baseName_replicate (n : ℕ) (t : Text) : baseName (List.replicate n '/' ++ t) = baseName t := by
  rcases last_slash t with h | ⟨a, w, rfl, hw⟩
  · cases n with
    | zero => simp
    | succ n =>
      rw [List.replicate_succ', List.append_assoc, List.singleton_append, baseName_append h,
        baseName_word h]
  · rw [← List.append_assoc, baseName_append hw, baseName_append hw]

theorem baseName_join {a w : Text} (ha : a ≠ []) (h : PlainWord w) : baseName (join a w) = w := by
  unfold join
  rw [if_neg (plain_head h)]
  split
  · rename_i hh
    rcases hh with hh | hh
    · exact absurd hh ha
    · obtain ⟨t, rfl⟩ := eq_of_getLast? hh
      rw [List.append_assoc, List.singleton_append, baseName_append h.2.1]
  · exact baseName_append h.2.1

theorem baseName_joins {d : Text} (hd : d ≠ []) {r : List Text} {w : Text}
    (h : ∀ x ∈ r ++ [w], PlainWord x) : baseName (joins d (r ++ [w])) = w := by
  have : joins d (r ++ [w]) = join (joins d r) w := by simp [joins, List.foldl_append]
  rw [this]
  exact baseName_join (joins_head hd (fun x hx => (h x (by simp [hx])).2.1)).2 (h w (by simp))

theorem slashJoin_append {ws : List Text} (h : ws ≠ []) (w : Text) :
    slashJoin (ws ++ [w]) = slashJoin ws ++ '/' :: w := by
  induction ws with
  | nil => exact absurd rfl h
  | cons v ws ih =>
    cases ws with
    | nil => rfl
    | cons u ws =>
      simp only [List.cons_append, slashJoin]
      rw [← List.cons_append, ih (by simp)]
      simp

theorem parts_pathFolder {path : Text} {p : Path} {w : Text} (hw : PlainWord w)
    (hb : baseName path = w) (hp : parts path = p ++ [w]) : parts (pathFolder path) = p := by
  obtain ⟨n, t, h1, h2⟩ := exists_slashes path
  have hbt : baseName t = w := by rw [← hb, h1, baseName_replicate]
  have hlast : t.getLast? ≠ some '/' := by
    intro h
    obtain ⟨a, rfl⟩ := eq_of_getLast? h
    have := baseName_append (a := a) (w := []) (by simp)
    rw [hbt] at this
    exact hw.1 this
  have hstrip : strip path = t := by rw [h1, strip_slashes n h2 hlast]
  obtain ⟨l, hl⟩ := split_getLast t
  unfold pathFolder
  rw [parts_slash_start, hstrip, hl, List.dropLast_concat, parts_slashJoin]
  · have : parts t = p ++ [w] := by rw [← hstrip, parts_strip, hp]
    unfold parts at this
    rw [hl, List.filter_append, hbt, filter_plain (ws := [w]) (by simpa using hw)] at this
    exact List.append_cancel_right this
  · intro x hx
    exact mem_split_no_slash (a := t) (by rw [hl]; simp [hx])

/-- The remote directory of a file of the local directory. -/
theorem parts_folder {remote d : Text} (hd : d ≠ []) {r : List Text} {w : Text}
    (h : ∀ x ∈ r ++ [w], PlainWord x) (hrec : ¬ d <:+: (joins d (r ++ [w])).drop d.length) :
    parts (pathFolder (remoteFile remote d (joins d (r ++ [w])))) = parts remote ++ r := by
  have hw := h w (by simp)
  have hrf : remoteFile remote d (joins d (r ++ [w])) =
      '/' :: slashJoin ((split (strip remote) ++ r) ++ [w]) := by
    unfold remoteFile
    rw [relative_parts hd h (by simp) hrec, List.append_assoc]
  have hne : split (strip remote) ++ r ≠ [] := by simp [split_ne_nil]
  have hns : ∀ x ∈ (split (strip remote) ++ r) ++ [w], '/' ∉ x := by
    intro x hx
    rw [List.append_assoc] at hx
    rcases List.mem_append.1 hx with hx | hx
    · exact mem_split_no_slash hx
    · exact (h x hx).2.1
  apply parts_pathFolder hw
  · rw [hrf, slashJoin_append hne, ← List.cons_append, baseName_append hw.2.1]
  · rw [hrf, parts_slash_start, parts_slashJoin hns, List.append_assoc, List.filter_append,
      filter_plain h, ← List.append_assoc]
    congr 2
    exact parts_strip remote

theorem pathFolder_resolve (cwd : Path) (path : Text) :
    resolve cwd (pathFolder path) = parts (pathFolder path) := by
  unfold resolve
  rw [if_pos (by simp [pathFolder])]

theorem copyWithPath_spec {fault : Faults} {l : Local} (hl : l.Ok) (c : Conn) {remote d : Text}
    (hd : d ≠ []) {rel : List Text} (hne : rel ≠ []) (h : ∀ x ∈ rel, PlainWord x)
    (hrec : ¬ d <:+: (joins d rel).drop d.length) :
    (∀ Inv : FS → Prop, OfContents Inv → (∀ b, contents l.fs (resolve l.cwd d ++ rel) = some b →
        OfFile (parts remote ++ rel) b Inv) →
        Keeps Inv c (copyWithPath fault l c remote d (joins d rel)).conn) ∧
    (∀ u, (copyWithPath fault l c remote d (joins d rel)).out = .ok u →
      ∃ b, contents l.fs (resolve l.cwd d ++ rel) = some b ∧
      contents (copyWithPath fault l c remote d (joins d rel)).conn.fs (parts remote ++ rel) =
        some b) := by
  obtain ⟨r, w, rfl⟩ : ∃ r w, rel = r ++ [w] :=
    ⟨rel.dropLast, rel.getLast hne, (List.dropLast_append_getLast hne).symm⟩
  have hfold := parts_folder (remote := remote) hd h hrec
  have hbase := baseName_joins hd h
  have hw := h w (by simp)
  have hres := resolve_joins l.cwd d h
  have hpf : ∀ cwd, resolve cwd (pathFolder (remoteFile remote d (joins d (r ++ [w])))) =
      parts remote ++ r := fun cwd => by rw [pathFolder_resolve, hfold]
  unfold copyWithPath
  generalize pathFolder (remoteFile remote d (joins d (r ++ [w]))) = folder at *
  have hcd : ∀ u, (onPerm (changeDir fault c folder) fun c => createDir fault c folder).out = .ok u →
      (onPerm (changeDir fault c folder) fun c => createDir fault c folder).conn.cwd =
        parts remote ++ r := by
    intro u hu
    rcases onPerm_ok hu with ⟨h1, h2⟩ | ⟨_, h2, h3⟩
    · rw [h2, (changeDir_ok h1).2, hpf]
    · rw [h3, (createDir_ok h2).1, hfold]
  generalize hn : (onPerm (changeDir fault c folder) fun c => createDir fault c folder) = nav at hcd
  obtain ⟨s1, s2, s3⟩ := sendFile_spec (fault := fault) hl nav.conn (f := joins d (r ++ [w]))
    (by rw [hbase]; exact hw)
  rw [hbase] at s1 s3
  refine ⟨?_, ?_⟩
  · intro Inv hI hI2
    refine keeps_andThen ?_ fun u hu => ?_
    · rw [← hn]
      exact keeps_onPerm (keeps_changeDir _ _ _) (keeps_createDir hI _ _ _)
    · refine keeps_andThen ?_ fun u hu => keeps_changeDir _ _ _
      apply s1
      rw [hcd u hu, hres, List.append_assoc]
      exact hI2
  · intro u hu
    obtain ⟨_, h1, h2, h3⟩ := andThen_ok hu
    obtain ⟨_, h4, h5, h6⟩ := andThen_ok h2
    rw [h3, h6, changeDir_fs]
    obtain ⟨b, k1, k2⟩ := s3 _ h4
    rw [hres] at k1
    rw [hcd _ h1, List.append_assoc] at k2
    exact ⟨b, k1, k2⟩

/-! ### The loops -/

theorem sendListed_keeps {fault : Faults} {l : Local} (hl : l.Ok) {Inv : FS → Prop} {fs : List Text}
    (hf : ∀ f ∈ fs, PlainWord (baseName f)) (c : Conn)
    (hI : ∀ f ∈ fs, ∀ b, contents l.fs (resolve l.cwd f) = some b →
      OfFile (c.cwd ++ [baseName f]) b Inv) :
    Keeps Inv c (sendListed fault l c fs).conn := by
  induction fs generalizing c with
  | nil => exact Keeps.refl c
  | cons f fs ih =>
    rw [sendListed]
    obtain ⟨s1, s2, _⟩ := sendFile_spec (fault := fault) hl c (hf f (by simp))
    refine keeps_andThen (s1 Inv (hI f (by simp))) fun _ _ => ?_
    refine keeps_andThen ?_ fun _ _ => Keeps.refl _
    refine ih (fun g hg => hf g (by simp [hg])) _ ?_
    rw [s2]
    exact fun g hg => hI g (by simp [hg])

theorem keeps_out {Inv : FS → Prop} {c c' : Conn} (h : Keeps Inv c c') (h0 : Inv c.fs) : Inv c'.fs :=
  (h h0).1

/-- Storing one file does not disturb another. -/
theorem ofFile_other {dst p : Path} {b x : Bytes} (h1 : p ≠ dst) (h2 : p ≠ tmpOf dst) :
    OfFile dst b (fun s => contents s p = some x) := by
  intro s s' hs _ h
  rw [hs p h2 h1, h]

theorem sendListed_ok {fault : Faults} {l : Local} (hl : l.Ok) {fs : List Text} {c : Conn} {n : ℕ}
    (hf : ∀ f ∈ fs, PlainWord (baseName f)) (hd : (fs.map baseName).Nodup)
    (ht : ∀ f ∈ fs, ∀ g ∈ fs, baseName f ≠ baseName g ++ ".tmp".toList)
    (h : (sendListed fault l c fs).out = .ok n) :
    n = fs.length ∧ ∀ f ∈ fs, ∃ b, contents l.fs (resolve l.cwd f) = some b ∧
      contents (sendListed fault l c fs).conn.fs (c.cwd ++ [baseName f]) = some b := by
  induction fs generalizing c n with
  | nil => simp [sendListed, ok] at h ⊢; exact h.symm
  | cons f fs ih =>
    rw [sendListed] at h ⊢
    obtain ⟨_, h1, h2, h3⟩ := andThen_ok h
    obtain ⟨m, h4, h5, h6⟩ := andThen_ok h2
    obtain ⟨s1, s2, s3⟩ := sendFile_spec (fault := fault) hl c (hf f (by simp))
    rw [List.map_cons, List.nodup_cons] at hd
    obtain ⟨k1, k2⟩ := ih (c := (sendFile fault l c f).conn) (fun g hg => hf g (by simp [hg])) hd.2
      (fun g hg k hk => ht g (by simp [hg]) k (by simp [hk])) h4
    rw [s2] at k2
    rw [h3, h6]
    simp only [ok, Except.ok.injEq] at h5 ⊢
    refine ⟨by rw [← h5, k1, List.length_cons], ?_⟩
    intro g hg
    rcases List.mem_cons.1 hg with rfl | hg
    · obtain ⟨b, m1, m2⟩ := s3 _ h1
      refine ⟨b, m1, ?_⟩
      refine keeps_out (Inv := fun s => contents s (c.cwd ++ [baseName g]) = some b)
        (sendListed_keeps hl (fun k hk => hf k (by simp [hk])) _ ?_) m2
      intro k hk x _
      rw [s2]
      apply ofFile_other
      · intro he
        have := List.append_cancel_left he
        simp only [List.cons.injEq, and_true] at this
        exact hd.1 (List.mem_map.2 ⟨k, hk, this.symm⟩)
      · rw [tmpOf_append]
        intro he
        have := List.append_cancel_left he
        simp only [List.cons.injEq, and_true] at this
        exact ht g (by simp) k (by simp [hk]) this
    · exact k2 g hg

/-- What is assumed of the files of the local directory. -/
structure DirOk (remote d : Text) (rels : List (List Text)) : Prop where
  dir : d ≠ []
  ne : ∀ rel ∈ rels, rel ≠ []
  names : ∀ rel ∈ rels, ∀ x ∈ rel, PlainWord x
  once : ∀ rel ∈ rels, ¬ d <:+: (joins d rel).drop d.length

theorem DirOk.tail {remote d : Text} {rel : List Text} {rels : List (List Text)}
    (h : DirOk remote d (rel :: rels)) : DirOk remote d rels :=
  ⟨h.dir, fun r hr => h.ne r (by simp [hr]), fun r hr => h.names r (by simp [hr]),
    fun r hr => h.once r (by simp [hr])⟩

theorem sendDir_keeps {fault : Faults} {l : Local} (hl : l.Ok) {Inv : FS → Prop}
    (hI : OfContents Inv) {remote d : Text} {rels : List (List Text)} (hok : DirOk remote d rels)
    (c : Conn) (hI2 : ∀ rel ∈ rels, ∀ b, contents l.fs (resolve l.cwd d ++ rel) = some b →
      OfFile (parts remote ++ rel) b Inv) :
    Keeps Inv c (sendDir fault l c remote d (rels.map (joins d))).2 := by
  induction rels generalizing c with
  | nil => exact Keeps.refl c
  | cons rel rels ih =>
    rw [List.map_cons, sendDir]
    have h1 := (copyWithPath_spec (fault := fault) hl c (remote := remote) hok.dir
      (hok.ne rel (by simp)) (hok.names rel (by simp)) (hok.once rel (by simp))).1 Inv hI
      (hI2 rel (by simp))
    have h2 := ih hok.tail (copyWithPath fault l c remote d (joins d rel)).conn
      (fun r hr => hI2 r (by simp [hr]))
    split
    · exact h1.trans h2
    · exact h1.trans h2

theorem sendDir_count {fault : Faults} {l : Local} (hl : l.Ok)
    {remote d : Text} {rels : List (List Text)} (hok : DirOk remote d rels) (c : Conn)
    (hnd : rels.Nodup) (ht : ∀ rel ∈ rels, ∀ rel' ∈ rels, rel ≠ tmpOf rel') :
    ∃ counted : List (List Text), counted.Sublist rels ∧
      (sendDir fault l c remote d (rels.map (joins d))).1 = counted.length ∧
      ∀ rel ∈ counted, ∃ b, contents l.fs (resolve l.cwd d ++ rel) = some b ∧
        contents (sendDir fault l c remote d (rels.map (joins d))).2.fs (parts remote ++ rel) =
          some b := by
  induction rels generalizing c with
  | nil => exact ⟨[], List.Sublist.refl _, rfl, by simp⟩
  | cons rel rels ih =>
    rw [List.nodup_cons] at hnd
    obtain ⟨counted, k1, k2, k3⟩ := ih hok.tail (copyWithPath fault l c remote d (joins d rel)).conn
      hnd.2 (fun r hr r' hr' => ht r (by simp [hr]) r' (by simp [hr']))
    rw [List.map_cons, sendDir]
    split
    · rename_i u hu
      refine ⟨rel :: counted, k1.cons_cons rel, by simp [k2], ?_⟩
      intro r hr
      rcases List.mem_cons.1 hr with rfl | hr
      · obtain ⟨b, m1, m2⟩ := (copyWithPath_spec (fault := fault) hl c (remote := remote) hok.dir
          (hok.ne r (by simp)) (hok.names r (by simp)) (hok.once r (by simp))).2 u hu
        refine ⟨b, m1, ?_⟩
        refine keeps_out (Inv := fun s => contents s (parts remote ++ r) = some b)
          (sendDir_keeps hl (fun s s' hs h => by rw [hs, h]) hok.tail _ ?_) m2
        intro r' hr' x _
        apply ofFile_other
        · intro he
          have := List.append_cancel_left he
          exact hnd.1 (this ▸ hr')
        · intro he
          apply ht r (by simp) r' (by simp [hr'])
          have hr'ne := hok.ne r' (by simp [hr'])
          have : tmpOf (parts remote ++ r') = parts remote ++ tmpOf r' := by
            unfold tmpOf
            rw [List.dropLast_append_of_ne_nil hr'ne, List.getLast?_append_of_ne_nil _ hr'ne,
              List.append_assoc]
          rw [this] at he
          exact List.append_cancel_left he
      · exact k3 r hr
    · exact ⟨counted, k1.cons rel, k2, k3⟩

end Verif.Ftp
