import Verif.Props.ScpPut

/-!
# Receiving files (C152, C153)
-/

namespace Verif.Props
open Verif.Fs hiding exec parts get
open Verif.ScpWire Verif.Spec

/-! ### Parsing lines -/

theorem splitSpace_none {s : Text} (h : ' ' ∉ s) : ∀ (n : ℕ) (cur : Text), splitSpace cur n s = [cur.reverse ++ s] := by
  induction s with
  | nil => intro n cur; cases n <;> simp [splitSpace]
  | cons c s ih =>
    intro n cur
    rw [List.mem_cons, not_or] at h
    cases n with
    | zero => simp [splitSpace]
    | succ n =>
      rw [splitSpace, if_neg (fun e => h.1 e.symm), ih h.2]
      simp

theorem splitSpace_zero (s cur : Text) : splitSpace cur 0 s = [cur.reverse ++ s] := by
  cases s <;> simp [splitSpace]

theorem splitSpace_cons {a : Text} (h : ' ' ∉ a) (s : Text) (n : ℕ) : ∀ cur : Text,
    splitSpace cur (n + 1) (a ++ ' ' :: s) = (cur.reverse ++ a) :: splitSpace [] n s := by
  induction a with
  | nil => intro cur; simp [splitSpace]
  | cons c a ih =>
    intro cur
    rw [List.mem_cons, not_or] at h
    rw [List.cons_append, splitSpace, if_neg (fun e => h.1 e.symm), ih h.2]
    simp

theorem digits_no_space (n : ℤ) : ' ' ∉ digits n := digits_plain (by decide) (by decide)

theorem digits_ne (n : ℤ) : digits n ≠ [] := by
  rw [← decimal_eq]
  unfold decimal
  intro h
  have := List.append_eq_nil_iff.1 h
  exact Nat.toDigits_ne_nil this.2

theorem dropWhile_of_head {p : Char → Bool} {s : Text} (h : ∀ c, s.head? = some c → p c = false) : s.dropWhile p = s := by
  cases s with
  | nil => rfl
  | cons c s => rw [List.dropWhile_cons, h c rfl]; simp

theorem stripBytes_id {s : Text} (h1 : ∀ c, s.head? = some c → blank c = false)
    (h2 : ∀ c, s.getLast? = some c → blank c = false) : stripBytes s = s := by
  unfold stripBytes
  rw [dropWhile_of_head h1, dropWhile_of_head, List.reverse_reverse]
  intro c hc
  rw [List.head?_reverse] at hc
  exact h2 c hc

theorem mode_no_space {oct : Text → Option ℤ} {mode : Text} (h : OctalMode oct mode) : ' ' ∉ mode := by
  intro hc
  have := h.no_blank _ hc
  revert this; decide

theorem fileLine_parts {oct : Text → Option ℤ} {mode name : Text} {size : ℤ} (hm : OctalMode oct mode)
    (hn : WireName mode size name) :
    splitSpace [] 2 (stripBytes (mode ++ ' ' :: (digits size ++ ' ' :: name))) = [mode, digits size, name] := by
  rw [stripBytes_id, splitSpace_cons (mode_no_space hm), splitSpace_cons (digits_no_space size), splitSpace_zero]
  · simp
  · intro c hc
    obtain ⟨a, l, rfl⟩ := List.exists_cons_of_ne_nil hm.ne
    simp only [List.cons_append, List.head?_cons, Option.some.injEq] at hc
    subst hc
    exact hm.no_blank _ (by simp)
  · intro c hc
    apply hn.no_blank c
    rw [← hc]
    have h1 : mode ++ ' ' :: (digits size ++ ' ' :: name) = (mode ++ ' ' :: (digits size ++ [' '])) ++ name := by simp
    rw [h1, List.getLast?_append]
    obtain ⟨x, hx⟩ := Option.isSome_iff_exists.1 (List.getLast?_isSome.2 hn.ne)
    rw [hx]; rfl

theorem dirLine_parts {oct : Text → Option ℤ} {mode name : Text} (hm : OctalMode oct mode) :
    splitSpace [] 2 (mode ++ ' ' :: ('0' :: ' ' :: name)) = [mode, ['0'], name] := by
  rw [splitSpace_cons (mode_no_space hm), show '0' :: ' ' :: name = ['0'] ++ ' ' :: name from rfl,
    splitSpace_cons (by decide), splitSpace_zero]
  simp

theorem timeLine_parts (m a : ℤ) : splitSpaces (digits m ++ " 0 ".toList ++ digits a ++ " 0".toList) =
    [digits m, ['0'], digits a, ['0']] := by
  unfold splitSpaces
  have h1 : (digits m ++ " 0 ".toList ++ digits a ++ " 0".toList) =
      digits m ++ ' ' :: (['0'] ++ ' ' :: (digits a ++ ' ' :: ['0'])) := by simp
  rw [h1]
  obtain ⟨k, hk⟩ : ∃ k, (digits m ++ ' ' :: (['0'] ++ ' ' :: (digits a ++ ' ' :: ['0']))).length = k + 4 :=
    ⟨(digits m).length + (digits a).length + 1, by simp; omega⟩
  rw [hk, splitSpace_cons (digits_no_space m), splitSpace_cons (by decide), splitSpace_cons (digits_no_space a),
    splitSpace_none (by decide)]
  simp

/-! ### Steps of the receiver -/

/-- From one state of the receiver to another one. -/
def Steps (env : Host) (buff : ℕ) (c : Client) (rs : List Recv) (c' : Client) (rs' : List Recv) : Prop :=
  ∃ k K, ∀ fuel, K ≤ fuel → recvAll env buff (fuel + k) c rs = recvAll env buff fuel c' rs'

theorem steps_refl (env : Host) (buff : ℕ) (c : Client) (rs : List Recv) : Steps env buff c rs c rs := ⟨0, 0, fun _ _ => rfl⟩

theorem steps_trans {env : Host} {buff : ℕ} {a b c : Client} {r s t : List Recv} (h1 : Steps env buff a r b s)
    (h2 : Steps env buff b s c t) : Steps env buff a r c t := by
  obtain ⟨k1, K1, h1⟩ := h1
  obtain ⟨k2, K2, h2⟩ := h2
  refine ⟨k2 + k1, max K1 K2, fun fuel hf => ?_⟩
  rw [← add_assoc, h1 _ (by omega), h2 _ (by omega)]

theorem recv_short {b : Text} {n : ℕ} (h : b.length ≤ n) (rs : List Recv) : recv n (.data b :: rs) = (some b, rs) := by
  simp [recv, h]

theorem steps_time {env : Host} {buff : ℕ} (hint : ∀ n, env.int (digits n) = some n) {m a : ℤ}
    (hs : (digits m).length + (digits a).length + 7 ≤ 1024) (c : Client) (rs : List Recv) :
    Steps env buff c (.data (Item.time m a).wire :: rs)
      { c.say ['\x00'] with utime := utimeOf (some (m, a)) } rs := by
  refine ⟨1, 0, fun fuel _ => ?_⟩
  have hw : (Item.time m a).wire = ('T' :: (digits m ++ " 0 ".toList ++ digits a ++ " 0".toList)) ++ ['\n'] := by
    simp [Item.wire, Item.parts]
  rw [hw, recvAll, recv_short (by simp; omega)]
  simp only
  rw [if_neg (by simp), if_neg (by rw [List.getLast?_append]; simp), List.dropLast_concat]
  simp only [setTime, timeLine_parts]
  simp [hint, utimeOf]

theorem steps_up (env : Host) (buff : ℕ) (c : Client) (rs : List Recv) :
    Steps env buff c (.data Item.up.wire :: rs) (recvPopd (c.say ['\x00'])) rs := by
  refine ⟨1, 0, fun fuel _ => ?_⟩
  have hw : Item.up.wire = ['E', '\n'] := by decide
  rw [hw, recvAll, recv_short (by simp)]
  simp

theorem steps_dir {env : Host} {buff : ℕ} {mode name : Text} {m : ℤ} (hm : OctalMode env.oct mode) (ho : env.oct mode = some m)
    (hn : WireName mode 0 name) (c c1 : Client) (rs : List Recv) {path : Text}
    (hp : place (c.say ['\x00']) (some name) = some (path, c1))
    (hmk : (env.present c1.ops path = false ∧ env.mkdirs c1.ops path = true) ∨
      (env.present c1.ops path = true ∧ env.isDir c1.ops path = true)) :
    ∃ op, (op = .mkdir path m ∨ op = .chmod path m) ∧ Steps env buff c (.data (Item.dir mode name).wire :: rs)
      { c1.call op with dirtimes := dictSet path c1.utime c1.dirtimes, utime := none, dir := path } rs := by
  have hw : (Item.dir mode name).wire = ('D' :: (mode ++ ' ' :: ('0' :: ' ' :: name))) ++ ['\n'] := by
    simp [Item.wire, Item.parts]
  have hshort := hn.short
  have hd0 : 1 ≤ (digits 0).length := List.length_pos_iff.2 (digits_ne 0)
  have hlen : (('D' :: (mode ++ ' ' :: ('0' :: ' ' :: name))) ++ ['\n']).length ≤ 1024 := by simp; omega
  have key : ∀ op, recvPushd env (c.say ['\x00']) (mode ++ ' ' :: ('0' :: ' ' :: name)) = .ok
      { c1.call op with dirtimes := dictSet path c1.utime c1.dirtimes, utime := none, dir := path } →
      Steps env buff c (.data (Item.dir mode name).wire :: rs)
      { c1.call op with dirtimes := dictSet path c1.utime c1.dirtimes, utime := none, dir := path } rs := by
    intro op h
    refine ⟨1, 0, fun fuel _ => ?_⟩
    rw [hw, recvAll, recv_short hlen]
    simp only
    rw [if_neg (by simp), if_neg (by rw [List.getLast?_append]; simp), List.dropLast_concat]
    simp only [h]
  rcases hmk with ⟨h1, h2⟩ | ⟨h1, h2⟩
  · refine ⟨.mkdir path m, Or.inl rfl, key _ ?_⟩
    unfold recvPushd
    rw [dirLine_parts hm]
    simp [ho, hp, h1, h2]
  · refine ⟨.chmod path m, Or.inr rfl, key _ ?_⟩
    unfold recvPushd
    rw [dirLine_parts hm]
    simp [ho, hp, h1, h2]

theorem recvData_portions {buff : ℕ} (path : Text) (rs : List Recv) : ∀ (portions : List Text) (fuel : ℕ) (pos size : ℤ)
    (c : Client), portions.length ≤ fuel → (∀ p ∈ portions, p ≠ [] ∧ p.length ≤ buff) →
    size = pos + portions.flatten.length →
    recvData buff size path fuel pos c (portions.map .data ++ rs) =
      some (.ok ({ c with ops := c.ops ++ portions.map (.write path) }, rs)) := by
  intro portions
  induction portions with
  | nil =>
    intro fuel pos size c _ _ hs
    simp at hs
    cases fuel <;> simp [recvData, hs]
  | cons p ps ih =>
    intro fuel pos size c hf hp hs
    obtain ⟨h1, h2⟩ := hp p (by simp)
    have hpos : 0 < p.length := List.length_pos_iff.2 h1
    simp only [List.flatten_cons, List.length_append, Nat.cast_add] at hs
    cases fuel with
    | zero => simp at hf
    | succ fuel =>
      have hn : p.length ≤ (if size - pos ≤ buff then (size - pos).toNat else buff) := by
        split <;> omega
      rw [recvData, if_pos (by omega), List.map_cons, List.cons_append]
      simp only [recv_short hn]
      rw [ih fuel _ size _ (by simpa using hf) (fun q hq => hp q (by simp [hq])) (by rw [hs]; ring)]
      simp [Client.call]

theorem steps_file {env : Host} {buff : ℕ} (hint : ∀ n, env.int (digits n) = some n) {mode name content : Text} {m : ℤ}
    (hm : OctalMode env.oct mode) (ho : env.oct mode = some m) (hn : WireName mode content.length name) (c c1 : Client)
    (rs : List Recv) {portions : List Text} (hc : portions.flatten = content) (hb : ∀ p ∈ portions, p ≠ [] ∧ p.length ≤ buff)
    {path : Text} (hp : place (c.say ['\x00']) (some name) = some (path, c1)) (hop : env.opens c1.ops path = true) :
    Steps env buff c
      (.data ("C".toList ++ mode ++ " ".toList ++ digits content.length ++ " ".toList ++ name ++ "\n".toList) ::
          portions.map .data ++ .data ['\x00'] :: rs)
      { c1.say ['\x00'] with
        ops := c1.ops ++ (.create path :: portions.map (.write path) ++ [.utime path c1.utime, .chmod path m])
        utime := none } rs := by
  have hw : "C".toList ++ mode ++ " ".toList ++ digits content.length ++ " ".toList ++ name ++ "\n".toList =
      ('C' :: (mode ++ ' ' :: (digits content.length ++ ' ' :: name))) ++ ['\n'] := by simp
  have hshort := hn.short
  refine ⟨1, portions.length, fun fuel hf => ?_⟩
  rw [hw, recvAll, List.cons_append, recv_short (by simp; omega)]
  simp only
  rw [if_neg (by simp), if_neg (by rw [List.getLast?_append]; simp), List.dropLast_concat]
  have hfile : recvFile env buff fuel (c.say ['\x00']) (mode ++ ' ' :: (digits content.length ++ ' ' :: name))
      (portions.map .data ++ .data ['\x00'] :: rs) = some (.ok (
      { c1.say ['\x00'] with
        ops := c1.ops ++ (.create path :: portions.map (.write path) ++ [.utime path c1.utime, .chmod path m])
        utime := none }, rs)) := by
    unfold recvFile
    rw [fileLine_parts hm hn]
    simp only [List.getElem?_cons_zero, Option.bind_some, ho, List.getElem?_cons_succ, hint, hp, hop]
    rw [if_neg (by simp), recvData_portions path _ portions fuel 0 _ _ hf hb (by rw [hc]; simp)]
    simp only
    rw [recv_short (by simp)]
    simp [Client.call, Client.say]
  simp only [hfile]

/-- A file or directory below the directory of the receiver. -/
theorem place_below {c : Client} (hr : c.rename = false) (hd : NoTrail c.dir) {name : Text} (hn : '/' ∉ name) :
    place (c.say ['\x00']) (some name) = some (c.dir ++ '/' :: name, c.say ['\x00']) := by
  unfold place
  rw [if_neg (by simp [Client.say, hr])]
  simp only [Option.map_some, Client.say, join_noTrail hd hn]

theorem dictSet_new {k : Text} (v : Times) : ∀ {l : List (Text × Times)}, k ∉ l.map Prod.fst → dictSet k v l = l ++ [(k, v)] := by
  intro l
  induction l with
  | nil => intro _; rfl
  | cons x l ih =>
    intro h
    simp only [List.map_cons, List.mem_cons, not_or] at h
    rw [dictSet, if_neg (fun e => h.1 e.symm), ih h.2, List.cons_append]

/-- The number of confirmations for messages. -/
def partCount (items : List Item) : ℕ := (items.flatMap Item.parts).length

theorem steps_times {env : Host} {buff : ℕ} (hint : ∀ n, env.int (digits n) = some n) {t : Option (ℤ × ℤ)} (hs : ShortTime t)
    {items : List Item} {rs : List Recv} (h : Arrives buff (timeItems t ++ items) rs) (c : Client) (hu : c.utime = none) :
    ∃ rs', Arrives buff items rs' ∧ Steps env buff c rs
      { c with utime := utimeOf t, sent := c.sent ++ List.replicate (partCount (timeItems t)) '\x00' } rs' := by
  cases t with
  | none =>
    refine ⟨rs, h, ?_⟩
    have : ({ c with utime := utimeOf none, sent := c.sent ++ List.replicate (partCount (timeItems none)) '\x00' } : Client) = c := by
      obtain ⟨d, r, u, dt, o, se⟩ := c
      simp only at hu
      subst hu
      simp [utimeOf, partCount, timeItems]
    rw [this]
    exact steps_refl _ _ _ _
  | some p =>
    obtain ⟨m, a⟩ := p
    have h : Arrives buff (.time m a :: items) rs := h
    cases h with
    | time h' =>
      exact ⟨_, h', steps_time hint (hs _ rfl) c _⟩

theorem partCount_append (a b : List Item) : partCount (a ++ b) = partCount a + partCount b := by
  simp [partCount]

theorem entered_mono {base d : Text} {ops : List Op} (h : Entered base ops d) (ops' : List Op) : Entered base (ops ++ ops') d := by
  rcases h with h | ⟨m, h⟩
  · exact Or.inl h
  · refine Or.inr ⟨m, ?_⟩
    rcases h with h | h
    · exact Or.inl (List.mem_append_left _ h)
    · exact Or.inr (List.mem_append_left _ h)

theorem noTrail_below {d name : Text} {mode : Text} {size : ℤ} (hn : WireName mode size name) : NoTrail (d ++ '/' :: name) := by
  have := noTrail_append (s := d ++ ['/']) (noTrail_name ⟨hn.ne, hn.no_slash, hn.no_line⟩)
  simpa using this

/-- The receiver makes a tree. -/
theorem steps_tree {env : Host} {buff : ℕ} (hint : ∀ n, env.int (digits n) = some n) {base : Text} {files dirs : List Text}
    (room : HostRoom env base files dirs) (tree : Tree) (hp : tree.Proper env.oct) :
    ∀ (c : Client), NoTrail c.dir → c.rename = false → c.utime = none → Entered base c.ops c.dir →
    (∀ f ∈ tree.files c.dir, f ∈ files) → (∀ d ∈ tree.dirs c.dir, d.1 ∈ dirs) →
    (c.dirtimes.map Prod.fst ++ (tree.dirs c.dir).map Prod.fst).Nodup →
    ∀ (rest : List Item) (rs : List Recv), Arrives buff (tree.items ++ rest) rs →
    ∃ rs' ops, Arrives buff rest rs' ∧ Makes env.oct c.dir tree ops ∧ Steps env buff c rs
      { c with
        dirtimes := c.dirtimes ++ tree.dirs c.dir
        ops := c.ops ++ ops
        sent := c.sent ++ List.replicate (partCount tree.items) '\x00' } rs' := by
  induction tree with
  | nil =>
    intro c _ _ _ _ _ _ _ rest rs h
    refine ⟨rs, [], h, .nil, ?_⟩
    have : ({ c with
        dirtimes := c.dirtimes ++ Spec.Tree.nil.dirs c.dir
        ops := c.ops ++ []
        sent := c.sent ++ List.replicate (partCount Spec.Tree.nil.items) '\x00' } : Client) = c := by
      simp [Tree.dirs, Tree.items, partCount]
    rw [this]
    exact steps_refl _ _ _ _
  | file name mode t content more ih =>
    intro c hd hr hu he hf hdr hnd rest rs h
    obtain ⟨hm, ht, hn, hpr⟩ := hp
    obtain ⟨m, ho⟩ := Option.isSome_iff_exists.1 hm.octal
    have h : Arrives buff (timeItems t ++ (.file mode name content :: (more.items ++ rest))) rs := by
      simpa [Tree.items] using h
    obtain ⟨rs1, h1, s1⟩ := steps_times (env := env) hint ht h c hu
    cases h1 with
    | @file _ _ _ _ rs2 portions h2 hflat hpo =>
      set c1 : Client := { c with
        utime := utimeOf t, sent := c.sent ++ List.replicate (partCount (timeItems t)) '\x00' } with hc1
      have s2 := steps_file (env := env) hint hm ho hn c1 _ rs2 hflat hpo (place_below (c := c1) hr hd hn.no_slash)
        (room.opens _ _ _ he (hf _ (by simp [hc1, Tree.files])))
      set ops1 : List Op := .create (c.dir ++ '/' :: name) :: portions.map (.write (c.dir ++ '/' :: name)) ++
        [.utime (c.dir ++ '/' :: name) (utimeOf t), .chmod (c.dir ++ '/' :: name) m] with hops1
      obtain ⟨rs3, ops, h3, mk, s3⟩ := ih hpr { c with
          ops := c.ops ++ ops1
          sent := c.sent ++ List.replicate (partCount (timeItems t)) '\x00' ++ ['\x00'] ++ ['\x00'] } hd hr hu
        (entered_mono he _) (fun f h => hf f (by simp only [Tree.files, List.mem_cons]; exact Or.inr h))
        (fun d h => hdr d (by simpa only [Tree.dirs] using h)) (by simpa only [Tree.dirs] using hnd) rest rs2 h2
      refine ⟨rs3, ops1 ++ ops, h3, .file ho ⟨portions, hflat, rfl⟩ mk, ?_⟩
      refine steps_trans s1 (steps_trans s2 ?_)
      have e1 : ({ (c1.say ['\x00']).say ['\x00'] with
          ops := (c1.say ['\x00']).ops ++ (.create (c1.dir ++ '/' :: name) :: portions.map (.write (c1.dir ++ '/' :: name)) ++
            [.utime (c1.dir ++ '/' :: name) (c1.say ['\x00']).utime, .chmod (c1.dir ++ '/' :: name) m])
          utime := none } : Client) = { c with
          ops := c.ops ++ ops1
          sent := c.sent ++ List.replicate (partCount (timeItems t)) '\x00' ++ ['\x00'] ++ ['\x00'] } := by
        simp [hc1, hops1, Client.say, hu]
      rw [e1]
      convert s3 using 1
      simp only [Tree.dirs, Tree.items, partCount_append, List.append_assoc, Client.mk.injEq, true_and]
      rw [show (Item.file mode name content :: more.items) = [Item.file mode name content] ++ more.items from rfl,
        partCount_append, show partCount [Item.file mode name content] = 2 from rfl, List.replicate_add, List.replicate_add]
      rfl
  | dir name mode t inside more ih1 ih2 =>
    intro c hd hr hu he hf hdr hnd rest rs h
    obtain ⟨hm, ht, hn, hpi, hpr⟩ := hp
    obtain ⟨m, ho⟩ := Option.isSome_iff_exists.1 hm.octal
    have h : Arrives buff (timeItems t ++ (.dir mode name :: (inside.items ++ (.up :: (more.items ++ rest))))) rs := by
      simpa [Tree.items] using h
    obtain ⟨rs1, h1, s1⟩ := steps_times (env := env) hint ht h c hu
    cases h1 with
    | @dir _ _ _ rs2 h2 =>
      set c1 : Client := { c with
        utime := utimeOf t, sent := c.sent ++ List.replicate (partCount (timeItems t)) '\x00' } with hc1
      obtain ⟨op, hop, s2⟩ := steps_dir (env := env) (buff := buff) hm ho hn c1 _ rs2 (place_below (c := c1) hr hd hn.no_slash)
        (room.makes _ _ _ he (hdr (c.dir ++ '/' :: name, utimeOf t) (by simp [Tree.dirs])))
      simp only [Tree.dirs, List.cons_append, List.map_cons, List.map_append] at hnd hdr
      have hnew : c.dir ++ '/' :: name ∉ c.dirtimes.map Prod.fst := by
        intro hmem
        rw [List.nodup_append] at hnd
        exact hnd.2.2 _ hmem _ (by simp) rfl
      set path := c.dir ++ '/' :: name with hpath
      set c2 : Client := { c with
        dir := path
        dirtimes := c.dirtimes ++ [(path, utimeOf t)]
        ops := c.ops ++ [op]
        sent := c.sent ++ List.replicate (partCount (timeItems t)) '\x00' ++ ['\x00'] } with hc2
      have e2 : ({ (c1.say ['\x00']).call op with
          dirtimes := dictSet path (c1.say ['\x00']).utime (c1.say ['\x00']).dirtimes, utime := none, dir := path } : Client) =
          c2 := by
        simp [hc1, hc2, Client.say, Client.call, dictSet_new _ hnew, hu]
      obtain ⟨rs3, ops, h3, mk, s3⟩ := ih1 hpi c2 (noTrail_below hn) hr hu
        (Or.inr ⟨m, by rcases hop with rfl | rfl <;> simp [hc2, hpath]⟩)
        (fun f h => hf f (by simp only [Tree.files, List.mem_append]; exact Or.inl h))
        (fun d h => hdr d (by simp only [List.mem_cons, List.mem_append]; exact Or.inr (Or.inl h)))
        (by
          simp only [hc2, List.map_append, List.map_cons, List.map_nil, List.append_assoc, List.cons_append, List.nil_append]
          refine hnd.sublist (List.Sublist.append_left (List.Sublist.cons_cons _ ?_) _)
          exact List.sublist_append_left _ _) _ rs2 h2
      cases h3 with
      | @up _ rs4 h4 =>
        have s4 := steps_up env buff { c2 with
          dirtimes := c2.dirtimes ++ inside.dirs c2.dir
          ops := c2.ops ++ ops
          sent := c2.sent ++ List.replicate (partCount inside.items) '\x00' } rs4
        set c3 : Client := { c with
          dirtimes := c.dirtimes ++ [(path, utimeOf t)] ++ inside.dirs path
          ops := c.ops ++ [op] ++ ops
          sent := c.sent ++ List.replicate (partCount (timeItems t)) '\x00' ++ ['\x00'] ++
            List.replicate (partCount inside.items) '\x00' ++ ['\x00'] } with hc3
        have e4 : recvPopd (Client.say { c2 with
          dirtimes := c2.dirtimes ++ inside.dirs c2.dir
          ops := c2.ops ++ ops
          sent := c2.sent ++ List.replicate (partCount inside.items) '\x00' } ['\x00']) = c3 := by
          have : dirName path = c.dir := by rw [hpath]; exact dirName_slash hd hn.no_slash
          simp [recvPopd, Client.say, hc3, hc2, this]
        obtain ⟨rs5, ops', h5, mk', s5⟩ := ih2 hpr c3 hd hr hu
          (by rw [hc3]; simp only [List.append_assoc]; exact entered_mono he _)
          (fun f h => hf f (by simp only [Tree.files, List.mem_append]; exact Or.inr h))
          (fun d h => hdr d (by simp only [List.mem_cons, List.mem_append]; exact Or.inr (Or.inr h)))
          (by simpa [hc3, hpath] using hnd) rest rs4 h4
        refine ⟨rs5, op :: ops ++ ops', h5, .dir ho hop mk mk', ?_⟩
        rw [e2] at s2
        rw [e4] at s4
        refine steps_trans s1 (steps_trans s2 (steps_trans s3 (steps_trans s4 ?_)))
        convert s5 using 1
        simp only [Tree.dirs, Tree.items, partCount_append, List.append_assoc, Client.mk.injEq, true_and, hc3, List.cons_append,
          List.nil_append]
        refine ⟨rfl, ?_⟩
        rw [show (Item.dir mode name :: (inside.items ++ Item.up :: more.items)) =
          [Item.dir mode name] ++ (inside.items ++ ([Item.up] ++ more.items)) from rfl]
        simp only [partCount_append, show partCount [Item.dir mode name] = 1 from rfl, show partCount [Item.up] = 1 from rfl,
          List.replicate_add]
        rfl

/-- **C152**: `get` into a directory. Whatever tree the other side sends, and in whatever portions the content of the files
arrives, `get` returns normally and has made exactly this tree below the directory: every directory with its mode, every
file with its content, then its times and its mode; the times of the directories are set at the very end. It confirms every
part, and asks for the first one. -/
theorem C152_get {env : Host} {buff : ℕ} (hint : ∀ n, env.int (digits n) = some n) {cwd path base : Text} {n : ℕ}
    (hbase : base = if path = [] then cwd else path) (hnt : NoTrail base) (hpres : env.present [] base = true)
    (hdir : env.isDir [] base = true) {tree : Tree} (hp : tree.Proper env.oct)
    (room : HostRoom env base (tree.files base) ((tree.dirs base).map Prod.fst)) (hnd : ((tree.dirs base).map Prod.fst).Nodup)
    {rs : List Recv} (hrs : Arrives buff tree.items rs) :
    ∃ ops K, Makes env.oct base tree ops ∧ ∀ fuel, K ≤ fuel → ∃ c, get env buff fuel n cwd path rs = some (.ok c) ∧
      c.ops = ops ++ (tree.dirs base).map (fun d => .utime d.1 d.2) ∧
      c.sent = List.replicate ((tree.items.flatMap Item.parts).length + 1) '\x00' := by
  obtain ⟨rs', ops, h1, h2, k, K, h3⟩ := steps_tree hint room tree hp ⟨base, false, none, [], [], []⟩ hnt rfl rfl (Or.inl rfl)
    (fun f h => h) (fun d h => List.mem_map_of_mem h) (by simpa using hnd) [] rs (by simpa using hrs)
  cases h1 with
  | done =>
    refine ⟨ops, K + 1 + k, h2, fun fuel hf => ?_⟩
    obtain ⟨f, rfl⟩ : ∃ f, fuel = f + 1 + k := ⟨fuel - 1 - k, by omega⟩
    unfold ScpWire.get
    simp only [← hbase, hpres, hdir]
    rw [if_neg (by simp)]
    simp only [Bool.not_true, Bool.and_false]
    rw [h3 (f + 1) (by omega), recvAll, recv]
    simp only [if_true]
    refine ⟨_, rfl, ?_, ?_⟩
    · simp [setDirtimes, Client.say]
    · simp [setDirtimes, Client.say, partCount, List.replicate_succ']

/-- **C152** (a new name). If one path is asked for and the local path is no directory, a file that comes is written to
the local path, whatever its name. -/
theorem C152_rename_file {env : Host} {buff : ℕ} (hint : ∀ n, env.int (digits n) = some n) {cwd path base : Text}
    (hbase : base = if path = [] then cwd else path) (hdir : env.isDir [] base = false) {name mode content : Text}
    {t : Option (ℤ × ℤ)} (hm : OctalMode env.oct mode) (ht : ShortTime t) (hn : WireName mode content.length name)
    (hop : env.opens [] base = true)
    {rs : List Recv} (hrs : Arrives buff (timeItems t ++ [.file mode name content]) rs) :
    ∃ m ops K, env.oct mode = some m ∧ Written base (utimeOf t) m content ops ∧ ∀ fuel, K ≤ fuel →
      ∃ c, get env buff fuel 1 cwd path rs = some (.ok c) ∧ c.ops = ops := by
  obtain ⟨m, ho⟩ := Option.isSome_iff_exists.1 hm.octal
  obtain ⟨rs1, h1, s1⟩ := steps_times (env := env) hint ht hrs ⟨base, true, none, [], [], []⟩ rfl
  cases h1 with
  | @file _ _ _ _ rs2 portions h2 hflat hpo =>
    cases h2 with
    | @done rs3 =>
      have s2 := steps_file (env := env) hint hm ho hn ⟨base, true, utimeOf t, [], [],
        [] ++ List.replicate (partCount (timeItems t)) '\x00'⟩
        (rs := .eof :: rs3) (hc := hflat) (hb := hpo)
        (path := base) (c1 := ⟨base, false, utimeOf t, [], [], [] ++ List.replicate (partCount (timeItems t)) '\x00' ++ ['\x00']⟩)
        (by simp [place, Client.say]) hop
      obtain ⟨k, K, h3⟩ := steps_trans s1 s2
      refine ⟨m, _, K + 1 + k, ho, ⟨portions, hflat, rfl⟩, fun fuel hf => ?_⟩
      obtain ⟨f, rfl⟩ : ∃ f, fuel = f + 1 + k := ⟨fuel - 1 - k, by omega⟩
      unfold ScpWire.get
      simp only [← hbase, hdir]
      rw [if_neg (by simp)]
      simp only [Bool.not_false, decide_true, Bool.and_self]
      rw [h3 (f + 1) (by omega), recvAll, recv]
      simp only [if_true]
      exact ⟨_, rfl, by simp [setDirtimes, Client.say]⟩

/-- **C152** (a new name). If one path is asked for and the local path is no directory, a directory that comes is made as
the local path, whatever its name, and what is in it comes below. -/
theorem C152_rename_dir {env : Host} {buff : ℕ} (hint : ∀ n, env.int (digits n) = some n) {cwd path base : Text}
    (hbase : base = if path = [] then cwd else path) (hnt : NoTrail base) (hdir : env.isDir [] base = false)
    {name mode : Text} {t : Option (ℤ × ℤ)} {inside : Tree} (hm : OctalMode env.oct mode) (ht : ShortTime t)
    (hn : WireName mode 0 name) (hpi : inside.Proper env.oct)
    (hnew : env.present [] base = false) (hmk : env.mkdirs [] base = true)
    (room : HostRoom env base (inside.files base) ((inside.dirs base).map Prod.fst))
    (hnd : (base :: (inside.dirs base).map Prod.fst).Nodup)
    {rs : List Recv} (hrs : Arrives buff (Tree.dir name mode t inside .nil).items rs) :
    ∃ m ops K, env.oct mode = some m ∧ Makes env.oct base inside ops ∧ ∀ fuel, K ≤ fuel →
      ∃ c, get env buff fuel 1 cwd path rs = some (.ok c) ∧
        c.ops = .mkdir base m :: ops ++ ((base, utimeOf t) :: inside.dirs base).map (fun d => .utime d.1 d.2) := by
  obtain ⟨m, ho⟩ := Option.isSome_iff_exists.1 hm.octal
  have hrs : Arrives buff (timeItems t ++ (.dir mode name :: (inside.items ++ [.up]))) rs := by
    simpa [Tree.items] using hrs
  obtain ⟨rs1, h1, s1⟩ := steps_times (env := env) hint ht hrs ⟨base, true, none, [], [], []⟩ rfl
  cases h1 with
  | @dir _ _ _ rs2 h2 =>
    have hw : recvPushd env (Client.say ⟨base, true, utimeOf t, [], [],
        [] ++ List.replicate (partCount (timeItems t)) '\x00'⟩ ['\x00']) (mode ++ ' ' :: ('0' :: ' ' :: name)) = .ok
        ⟨base, false, none, [(base, utimeOf t)], [.mkdir base m],
        [] ++ List.replicate (partCount (timeItems t)) '\x00' ++ ['\x00']⟩ := by
      unfold recvPushd
      rw [dirLine_parts hm]
      simp [ho, place, Client.say, hnew, hmk, Client.call, dictSet]
    have s2 : Steps env buff ⟨base, true, utimeOf t, [], [], [] ++ List.replicate (partCount (timeItems t)) '\x00'⟩
        (.data (Item.dir mode name).wire :: rs2) ⟨base, false, none, [(base, utimeOf t)], [.mkdir base m],
        [] ++ List.replicate (partCount (timeItems t)) '\x00' ++ ['\x00']⟩ rs2 := by
      have hw' : (Item.dir mode name).wire = ('D' :: (mode ++ ' ' :: ('0' :: ' ' :: name))) ++ ['\n'] := by
        simp [Item.wire, Item.parts]
      have hshort := hn.short
      have hd0 : 1 ≤ (digits 0).length := List.length_pos_iff.2 (digits_ne 0)
      refine ⟨1, 0, fun fuel _ => ?_⟩
      rw [hw', recvAll, recv_short (by simp; omega)]
      simp only
      rw [if_neg (by simp), if_neg (by rw [List.getLast?_append]; simp), List.dropLast_concat]
      simp only [hw]
    obtain ⟨rs3, ops, h3, mk, s3⟩ := steps_tree hint room inside hpi ⟨base, false, none, [(base, utimeOf t)], [.mkdir base m],
        [] ++ List.replicate (partCount (timeItems t)) '\x00' ++ ['\x00']⟩ hnt rfl rfl (Or.inl rfl)
      (fun f h => h) (fun d h => List.mem_map_of_mem h) (by simpa using hnd) [.up] rs2 h2
    cases h3 with
    | @up _ rs4 h4 =>
      cases h4 with
      | done =>
        obtain ⟨k, K, h5⟩ := steps_trans s1 (steps_trans s2 (steps_trans s3 (steps_up env buff _ _)))
        refine ⟨m, ops, K + 1 + k, ho, mk, fun fuel hf => ?_⟩
        obtain ⟨f, rfl⟩ : ∃ f, fuel = f + 1 + k := ⟨fuel - 1 - k, by omega⟩
        unfold ScpWire.get
        simp only [← hbase, hdir]
        rw [if_neg (by simp)]
        simp only [Bool.not_false, decide_true, Bool.and_self]
        rw [h5 (f + 1) (by omega), recvAll, recv]
        simp only [if_true]
        exact ⟨_, rfl, by simp [setDirtimes, Client.say, recvPopd]⟩

/-! ### Any stream -/

theorem recv_bytes {n : ℕ} {rs rs' : List Recv} {b : Text} (h : recv n rs = (some b, rs')) :
    bytesOf rs = b ++ bytesOf rs' ∧ b.length ≤ n := by
  cases rs with
  | nil => simp [recv] at h
  | cons r rs =>
    cases r with
    | timeout => simp [recv] at h
    | eof =>
      simp only [recv, Prod.mk.injEq, Option.some.injEq] at h
      obtain ⟨rfl, rfl⟩ := h
      simp
    | data d =>
      rw [recv] at h
      by_cases hd : d.length ≤ n
      · rw [if_pos hd] at h
        simp only [Prod.mk.injEq, Option.some.injEq] at h
        obtain ⟨rfl, rfl⟩ := h
        exact ⟨rfl, hd⟩
      · rw [if_neg hd] at h
        simp only [Prod.mk.injEq, Option.some.injEq] at h
        obtain ⟨rfl, rfl⟩ := h
        refine ⟨?_, by simp⟩
        simp [bytesOf, ← List.append_assoc]

theorem recvData_ok {buff : ℕ} {size : ℤ} {path : Text} : ∀ {fuel : ℕ} {pos : ℤ} {c c' : Client} {rs rs' : List Recv},
    recvData buff size path fuel pos c rs = some (.ok (c', rs')) →
    ∃ portions : List Text, c' = { c with ops := c.ops ++ portions.map (.write path) } ∧
      bytesOf rs = portions.flatten ++ bytesOf rs' ∧ pos + portions.flatten.length = max pos size := by
  intro fuel
  induction fuel with
  | zero =>
    intro pos c c' rs rs' h
    rw [recvData] at h
    by_cases hp : pos < size
    · rw [if_pos hp] at h; simp at h
    · rw [if_neg hp] at h
      simp only [Option.some.injEq, Except.ok.injEq, Prod.mk.injEq] at h
      obtain ⟨rfl, rfl⟩ := h
      exact ⟨[], by simp, by simp, by simp; omega⟩
  | succ fuel ih =>
    intro pos c c' rs rs' h
    rw [recvData] at h
    by_cases hp : pos < size
    · rw [if_pos hp] at h
      simp only at h
      split at h
      · simp at h
      · rename_i b rs1 hr
        obtain ⟨h1, h2⟩ := recv_bytes hr
        obtain ⟨ps, g1, g2, g3⟩ := ih h
        refine ⟨b :: ps, ?_, ?_, ?_⟩
        · rw [g1]; simp [Client.call]
        · rw [h1, g2]; simp
        · have : (b.length : ℤ) ≤ size - pos := by
            split at h2 <;> omega
          simp only [List.flatten_cons, List.length_append, Nat.cast_add]
          omega
    · rw [if_neg hp] at h
      simp only [Option.some.injEq, Except.ok.injEq, Prod.mk.injEq] at h
      obtain ⟨rfl, rfl⟩ := h
      exact ⟨[], by simp, by simp, by simp; omega⟩

theorem splitSpace_word {n : ℕ} : ∀ {s cur w : Text}, (splitSpace cur (n + 1) s)[0]? = some w →
    ∃ t, s = t ++ s.drop t.length ∧ w = cur.reverse ++ t ∧ ' ' ∉ t ∧ (s.drop t.length = [] ∨ (s.drop t.length).head? = some ' ') ∧
      ∀ k, (splitSpace cur (n + 1) s)[k + 1]? = if s.drop t.length = [] then none
        else (splitSpace [] n (s.drop t.length).tail)[k]? := by
  intro s
  induction s with
  | nil =>
    intro cur w h
    simp only [splitSpace, List.getElem?_cons_zero, Option.some.injEq] at h
    exact ⟨[], by simp, by simp [h], by simp, by simp, by simp [splitSpace]⟩
  | cons c s ih =>
    intro cur w h
    rw [splitSpace] at h
    by_cases hc : c = ' '
    · rw [if_pos hc] at h
      simp only [List.getElem?_cons_zero, Option.some.injEq] at h
      refine ⟨[], by simp, by simp [h], by simp, by simp [hc], ?_⟩
      intro k
      rw [splitSpace, if_pos hc]
      simp
    · rw [if_neg hc] at h
      obtain ⟨t, h1, h2, h3, h4, h5⟩ := ih h
      refine ⟨c :: t, ?_, ?_, ?_, ?_, ?_⟩
      · simpa using h1
      · simpa using h2
      · simp [h3, Ne.symm hc]
      · simpa using h4
      · intro k
        rw [splitSpace, if_neg hc, h5]
        simp

theorem secondWord_of {s w : Text} (h : (splitSpace [] 2 s)[1]? = some w) : SecondWord s w := by
  have h0 : ∃ w0, (splitSpace [] 2 s)[0]? = some w0 := by
    cases hx : splitSpace [] 2 s with
    | nil => rw [hx] at h; simp at h
    | cons x l => exact ⟨x, rfl⟩
  obtain ⟨w0, h0⟩ := h0
  obtain ⟨t, a1, a2, a3, a4, a5⟩ := splitSpace_word (n := 1) h0
  rw [a5 0] at h
  by_cases hn : s.drop t.length = []
  · rw [if_pos hn] at h; simp at h
  · rw [if_neg hn] at h
    have ht : s.drop t.length = ' ' :: (s.drop t.length).tail := by
      rcases a4 with h | h
      · exact absurd h hn
      · cases hx : s.drop t.length with
        | nil => exact absurd hx hn
        | cons x l => rw [hx] at h; simp at h; simp [h]
    obtain ⟨u, b1, b2, b3, b4, -⟩ := splitSpace_word (n := 0) h
    refine ⟨t, (s.drop t.length).tail.drop u.length, ?_, a3, ?_, b4⟩
    · rw [b2]
      simp only [List.reverse_nil, List.nil_append]
      rw [← b1, ← ht]
      exact a1
    · rw [b2]; simpa using b3

theorem recvFile_ok {env : Host} {buff fuel : ℕ} {c c' : Client} {line : Text} {rs rs' : List Recv}
    (h : recvFile env buff fuel c line rs = some (.ok (c', rs'))) :
    ∃ (path word content : Text) (size mode : ℤ) (t : Times) (ops : List Op) (tail : Text),
      bytesOf rs = content ++ tail ++ bytesOf rs' ∧ SecondWord (stripBytes line) word ∧ env.int word = some size ∧
      content.length = size.toNat ∧ Written path t mode content ops ∧ c'.ops = c.ops ++ ops := by
  unfold recvFile at h
  simp only at h
  split at h
  · rename_i mode size path c1 h1 h2 h3
    have hops : c1.ops = c.ops := by
      unfold place at h3
      split at h3
      · simp only [Option.some.injEq, Prod.mk.injEq] at h3
        rw [← h3.2]
      · obtain ⟨x, -, hx⟩ := Option.map_eq_some_iff.1 h3
        simp only [Prod.mk.injEq] at hx
        rw [← hx.2]
    obtain ⟨word, hw1, hw2⟩ := Option.bind_eq_some_iff.1 h2
    split at h
    · simp at h
    · split at h
      · simp at h
      · simp at h
      · rename_i c2 rs1 hd
        obtain ⟨ps, g1, g2, g3⟩ := recvData_ok hd
        split at h
        · simp at h
        · rename_i msg rs2 hr
          split at h
          · simp at h
          · simp only [Option.some.injEq, Except.ok.injEq, Prod.mk.injEq] at h
            obtain ⟨rfl, rfl⟩ := h
            refine ⟨path, word, ps.flatten, size, mode, c2.utime, _, msg, ?_, secondWord_of hw1, hw2, ?_, ⟨ps, rfl, rfl⟩, ?_⟩
            · rw [g2, (recv_bytes hr).1, List.append_assoc]
            · omega
            · simp [Client.call, g1, Client.say, hops]
  · simp at h

/-- What was received in any stream after which the receiver returns normally. -/
theorem recvAll_ok {env : Host} {buff : ℕ} : ∀ {fuel : ℕ} {c c' : Client} {rs : List Recv},
    recvAll env buff fuel c rs = some (.ok c') →
    ∃ (blocks : List (List Op)) (times : List (Text × Times)), c'.ops = c.ops ++ blocks.flatten ++ times.map (fun d => .utime d.1 d.2) ∧
      ∀ b ∈ blocks, FileBlock env.int (bytesOf rs) b ∨ DirBlock b := by
  intro fuel
  induction fuel with
  | zero => intro c c' rs h; simp [recvAll] at h
  | succ fuel ih =>
    intro c c' rs h
    rw [recvAll] at h
    generalize hr : recv 1024 rs = r at h
    obtain ⟨omsg, rs1⟩ := r
    cases omsg with
    | none => simp at h
    | some msg =>
      simp only at h
      obtain ⟨hb, -⟩ := recv_bytes hr
      have later : ∀ b, FileBlock env.int (bytesOf rs1) b ∨ DirBlock b → FileBlock env.int (bytesOf rs) b ∨ DirBlock b := by
        rintro b (⟨path, line, word, content, size, mode, t, h1, h2⟩ | h)
        · refine Or.inl ⟨path, line, word, content, size, mode, t, h1.trans ?_, h2⟩
          rw [hb]
          exact (List.suffix_append _ _).isInfix
        · exact Or.inr h
      split at h
      · simp only [Option.some.injEq, Except.ok.injEq] at h
        subst h
        exact ⟨[], c.dirtimes, by simp [setDirtimes, Client.say], by simp⟩
      · split at h
        · simp at h
        · rename_i hne hlast
          have hmsg : msg = msg.dropLast ++ ['\n'] := by
            have := List.dropLast_append_getLast? '\n' (by simpa using hlast : msg.getLast? = some '\n')
            exact this.symm
          split at h
          · rename_i cmd hcmd
            split at h
            · simp at h
            · simp at h
            · rename_i c1 rs2 hf
              obtain ⟨path, word, content, size, mode, t, ops, tail, f1, f2, f3, f4, f5, f6⟩ := recvFile_ok hf
              obtain ⟨blocks, times, b1, b2⟩ := ih h
              refine ⟨ops :: blocks, times, ?_, ?_⟩
              · rw [b1, f6]; simp [Client.say]
              · intro b hbm
                rcases List.mem_cons.1 hbm with rfl | hbm
                · refine Or.inl ⟨path, cmd, word, content, size, mode, t, ?_, f2, f3, f4, f5⟩
                  rw [hb, hmsg, hcmd, f1]
                  refine ⟨[], tail ++ bytesOf rs2, ?_⟩
                  simp
                · apply later
                  rcases b2 b hbm with ⟨path, line, word, content, size, mode, t, h1, h2⟩ | h
                  · refine Or.inl ⟨path, line, word, content, size, mode, t, h1.trans ?_, h2⟩
                    rw [f1]
                    exact (List.suffix_append _ _).isInfix
                  · exact Or.inr h
          · rename_i cmd hcmd
            split at h
            · simp at h
            · rename_i c1 hf
              obtain ⟨blocks, times, b1, b2⟩ := ih h
              refine ⟨blocks, times, ?_, fun b hb => later b (b2 b hb)⟩
              have : c1.ops = c.ops := by
                unfold setTime at hf
                simp only at hf
                split at hf
                · simp only [Except.ok.injEq] at hf
                  rw [← hf]; rfl
                · simp at hf
              rw [b1, this]
          · rename_i cmd hcmd
            split at h
            · simp at h
            · rename_i c1 hf
              obtain ⟨blocks, times, b1, b2⟩ := ih h
              have : ∃ op, DirBlock [op] ∧ c1.ops = c.ops ++ [op] := by
                unfold recvPushd at hf
                simp only at hf
                split at hf
                · rename_i mode path c2 h1 h3
                  have hops : c2.ops = c.ops := by
                    unfold place at h3
                    split at h3
                    · simp only [Option.some.injEq, Prod.mk.injEq] at h3
                      rw [← h3.2]; rfl
                    · obtain ⟨x, -, hx⟩ := Option.map_eq_some_iff.1 h3
                      simp only [Prod.mk.injEq] at hx
                      rw [← hx.2]; rfl
                  split at hf
                  · split at hf
                    · simp only [Except.ok.injEq] at hf
                      exact ⟨.mkdir path mode, ⟨path, mode, Or.inl rfl⟩, by rw [← hf]; simp [Client.call, hops]⟩
                    · simp at hf
                  · split at hf
                    · simp only [Except.ok.injEq] at hf
                      exact ⟨.chmod path mode, ⟨path, mode, Or.inr rfl⟩, by rw [← hf]; simp [Client.call, hops]⟩
                    · simp at hf
                · simp at hf
              obtain ⟨op, o1, o2⟩ := this
              refine ⟨[op] :: blocks, times, by rw [b1, o2]; simp, ?_⟩
              intro b hbm
              rcases List.mem_cons.1 hbm with rfl | hbm
              · exact Or.inr o1
              · exact later b (b2 b hbm)
          · obtain ⟨blocks, times, b1, b2⟩ := ih h
            exact ⟨blocks, times, by rw [b1]; simp [recvPopd, Client.say], fun b hb => later b (b2 b hb)⟩
          · simp at h

/-- **C153**: whatever comes over the channel, cut into whatever portions: if `get` returns normally, every file it wrote
is complete. The stream contains the line that announces the file and then, without anything between, the content that was
written, and it has the announced size. Apart from this it only made directories, changed their modes and, at the end,
set times. -/
theorem C153_whole {env : Host} {buff fuel n : ℕ} {cwd path : Text} {rs : List Recv} {c : Client}
    (h : ScpWire.get env buff fuel n cwd path rs = some (.ok c)) :
    ∃ (blocks : List (List Op)) (times : List (Text × Times)), c.ops = blocks.flatten ++ times.map (fun d => .utime d.1 d.2) ∧
      ∀ b ∈ blocks, FileBlock env.int (bytesOf rs) b ∨ DirBlock b := by
  unfold ScpWire.get at h
  generalize (if path = [] then cwd else path) = dir at h
  by_cases hn : 1 < n ∧ (env.present [] dir = false ∨ env.isDir [] dir = false)
  · rw [if_pos hn] at h; simp at h
  · rw [if_neg hn] at h
    obtain ⟨blocks, times, h1, h2⟩ := recvAll_ok h
    exact ⟨blocks, times, by simpa using h1, h2⟩

end Verif.Props

namespace Verif.Props
open Verif.Fs hiding exec parts get
open Verif.ScpWire Verif.Spec

/-! ### What the properties do not cover -/

theorem get_dir {env : Host} {buff fuel n : ℕ} {cwd base : Text} (hne : base ≠ []) (hpres : env.present [] base = true)
    (hdir : env.isDir [] base = true) (rs : List Recv) :
    ScpWire.get env buff fuel n cwd base rs = recvAll env buff fuel ⟨base, false, none, [], [], []⟩ rs := by
  unfold ScpWire.get
  rw [if_neg hne]
  simp [hpres, hdir]

/-- **C154** (partial): silence inside a file, and a message that is none of the protocol - such as the error message of
the other side -, is an `SCPException`. What is missing: the end of the stream inside a file, silence between messages, and
messages that arrive in portions, see the violations below. -/
theorem C154_refusal_partial {env : Host} {buff : ℕ} {cwd base : Text} {n : ℕ}
    (hne : base ≠ []) (hnt : NoTrail base) (hpres : env.present [] base = true) (hdir : env.isDir [] base = true) :
    (∀ {mode name : Text} {size m : ℤ}, OctalMode env.oct mode → env.oct mode = some m → env.int (digits size) = some size →
      WireName mode size name → env.opens [] (base ++ '/' :: name) = true →
      ∀ {portions : List Text}, (∀ p ∈ portions, p ≠ [] ∧ p.length ≤ buff) → portions.flatten.length < size →
      ∀ (rs : List Recv) (fuel : ℕ), portions.length + 2 ≤ fuel →
      ScpWire.get env buff fuel n cwd base
        (.data ("C".toList ++ mode ++ " ".toList ++ digits size ++ " ".toList ++ name ++ "\n".toList) ::
          portions.map .data ++ .timeout :: rs) = some (.error .scp)) ∧
    (∀ (code : Char) (msg : Text), code ∉ ['C', 'T', 'D', 'E'] → msg.length ≤ 1022 → ∀ (rs : List Recv) (fuel : ℕ),
      ScpWire.get env buff (fuel + 1) n cwd base (.data (code :: msg ++ ['\n']) :: rs) = some (.error .scp)) := by
  refine ⟨?_, ?_⟩
  · intro mode name size m hm ho hsize hn hop portions hp hcut rs fuel hfuel
    have run : ∀ (ps : List Text) (fuel : ℕ) (pos : ℤ) (c : Client), ps.length + 1 ≤ fuel →
        (∀ p ∈ ps, p ≠ [] ∧ p.length ≤ buff) → pos + ps.flatten.length < size →
        recvData buff size (base ++ '/' :: name) fuel pos c (ps.map .data ++ .timeout :: rs) = some (.error .scp) := by
      intro ps
      induction ps with
      | nil =>
        intro fuel pos c hf _ h
        obtain ⟨f, rfl⟩ : ∃ f, fuel = f + 1 := ⟨fuel - 1, by simp at hf; omega⟩
        rw [recvData, if_pos (by simpa using h)]
        simp [recv]
      | cons p ps ih =>
        intro fuel pos c hf hp h
        obtain ⟨h1, h2⟩ := hp p (by simp)
        simp only [List.flatten_cons, List.length_append, Nat.cast_add] at h
        obtain ⟨f, rfl⟩ : ∃ f, fuel = f + 1 := ⟨fuel - 1, by simp at hf; omega⟩
        have hn : p.length ≤ (if size - pos ≤ buff then (size - pos).toNat else buff) := by
          split <;> omega
        rw [recvData, if_pos (by omega), List.map_cons, List.cons_append]
        simp only [recv_short hn]
        exact ih f _ _ (by simp at hf; omega) (fun q hq => hp q (by simp [hq])) (by omega)
    rw [get_dir hne hpres hdir]
    obtain ⟨f, rfl⟩ : ∃ f, fuel = f + 1 := ⟨fuel - 1, by omega⟩
    have hw : "C".toList ++ mode ++ " ".toList ++ digits size ++ " ".toList ++ name ++ "\n".toList =
        ('C' :: (mode ++ ' ' :: (digits size ++ ' ' :: name))) ++ ['\n'] := by simp
    have hshort := hn.short
    rw [hw, recvAll, List.cons_append, recv_short (by simp; omega)]
    simp only
    rw [if_neg (by simp), if_neg (by rw [List.getLast?_append]; simp), List.dropLast_concat]
    have hfile : recvFile env buff f (Client.say ⟨base, false, none, [], [], []⟩ ['\x00'])
        (mode ++ ' ' :: (digits size ++ ' ' :: name)) (portions.map .data ++ .timeout :: rs) = some (.error .scp) := by
      unfold recvFile
      rw [fileLine_parts hm hn]
      have hpl := place_below (c := ⟨base, false, none, [], [], []⟩) rfl hnt hn.no_slash
      simp only [List.getElem?_cons_zero, Option.bind_some, ho, List.getElem?_cons_succ, hsize, hpl]
      rw [if_neg (by simp [Client.say, hop]), run portions f 0 _ (by omega) hp (by simpa using hcut)]
    simp only [hfile]
  · intro code msg hcode hlen rs fuel
    rw [get_dir hne hpres hdir, recvAll, recv_short (by simp; omega)]
    simp only
    rw [if_neg (by simp), if_neg (by rw [List.getLast?_append]; simp), List.dropLast_concat]
    simp only [List.mem_cons, List.not_mem_nil, or_false, not_or] at hcode
    split
    · rename_i h; simp at h; exact absurd h.1 hcode.1
    · rename_i h; simp at h; exact absurd h.1 hcode.2.1
    · rename_i h; simp at h; exact absurd h.1 hcode.2.2.1
    · rename_i h; simp at h; exact absurd h.1 hcode.2.2.2
    · rfl

/-- **C154** violated: if the stream ends before a file is complete - the other side died -, `get` never returns. -/
theorem C154_eof_violated {env : Host} {buff : ℕ} {cwd base : Text} {n : ℕ}
    (hne : base ≠ []) (hnt : NoTrail base) (hpres : env.present [] base = true) (hdir : env.isDir [] base = true)
    {mode name word : Text} {size m : ℤ} (hm : OctalMode env.oct mode) (ho : env.oct mode = some m)
    (hword : word = digits size) (hsize : env.int word = some size)
    (hn : WireName mode size name) (hop : env.opens [] (base ++ '/' :: name) = true)
    {portions : List Text} (hp : ∀ p ∈ portions, p ≠ [] ∧ p.length ≤ buff) (hcut : portions.flatten.length < size)
    (rs : List Recv) (fuel : ℕ) :
    ScpWire.get env buff fuel n cwd base
      (.data ("C".toList ++ mode ++ " ".toList ++ word ++ " ".toList ++ name ++ "\n".toList) ::
        portions.map .data ++ .eof :: rs) = none := by
  subst hword
  have stuck : ∀ fuel pos c, pos < size → recvData buff size (base ++ '/' :: name) fuel pos c (.eof :: rs) = none := by
    intro fuel
    induction fuel with
    | zero => intro pos c h; rw [recvData, if_pos h]
    | succ k ih =>
      intro pos c h
      rw [recvData, if_pos h]
      simp only [recv]
      exact ih _ _ (by simpa using h)
  have run : ∀ (ps : List Text) (fuel : ℕ) (pos : ℤ) (c : Client), (∀ p ∈ ps, p ≠ [] ∧ p.length ≤ buff) →
      pos + ps.flatten.length < size →
      recvData buff size (base ++ '/' :: name) fuel pos c (ps.map .data ++ .eof :: rs) = none := by
    intro ps
    induction ps with
    | nil => intro fuel pos c _ h; exact stuck fuel pos c (by simpa using h)
    | cons p ps ih =>
      intro fuel pos c hp h
      obtain ⟨h1, h2⟩ := hp p (by simp)
      simp only [List.flatten_cons, List.length_append, Nat.cast_add] at h
      cases fuel with
      | zero => rw [recvData, if_pos (by omega)]
      | succ fuel =>
        have hn : p.length ≤ (if size - pos ≤ buff then (size - pos).toNat else buff) := by
          split <;> omega
        rw [recvData, if_pos (by omega), List.map_cons, List.cons_append]
        simp only [recv_short hn]
        exact ih fuel _ _ (fun q hq => hp q (by simp [hq])) (by omega)
  rw [get_dir hne hpres hdir]
  cases fuel with
  | zero => rfl
  | succ fuel =>
    have hw : "C".toList ++ mode ++ " ".toList ++ digits size ++ " ".toList ++ name ++ "\n".toList =
        ('C' :: (mode ++ ' ' :: (digits size ++ ' ' :: name))) ++ ['\n'] := by simp
    have hshort := hn.short
    rw [hw, recvAll, List.cons_append, recv_short (by simp; omega)]
    simp only
    rw [if_neg (by simp), if_neg (by rw [List.getLast?_append]; simp), List.dropLast_concat]
    have hfile : recvFile env buff fuel (Client.say ⟨base, false, none, [], [], []⟩ ['\x00'])
        (mode ++ ' ' :: (digits size ++ ' ' :: name)) (portions.map .data ++ .eof :: rs) = none := by
      unfold recvFile
      rw [fileLine_parts hm hn]
      have hpl := place_below (c := ⟨base, false, none, [], [], []⟩) rfl hnt hn.no_slash
      simp only [List.getElem?_cons_zero, Option.bind_some, ho, List.getElem?_cons_succ, hsize, hpl]
      rw [if_neg (by simp [Client.say, hop]), run portions fuel 0 _ hp (by simpa using hcut)]
    simp only [hfile]

/-- **C154** violated: a line that arrives in two portions fails an assertion instead of being put together. -/
theorem C154_split_violated {env : Host} (buff fuel n : ℕ) {cwd base : Text}
    (hne : base ≠ []) (hpres : env.present [] base = true) (hdir : env.isDir [] base = true)
    {b : Text} (hb : b ≠ []) (hlen : b.length ≤ 1024) (hcut : b.getLast? ≠ some '\n') (rs : List Recv) :
    ScpWire.get env buff (fuel + 1) n cwd base (.data b :: rs) = some (.error .assertion) := by
  rw [get_dir hne hpres hdir, recvAll, recv_short hlen]
  simp only
  rw [if_neg hb, if_pos hcut]

/-- **C154** violated: if the other side is silent for longer than the timeout where a message is expected, `get` raises
`socket.timeout` and not `SCPException`. -/
theorem C154_timeout_violated {env : Host} (buff fuel n : ℕ) {cwd base : Text}
    (hne : base ≠ []) (hpres : env.present [] base = true) (hdir : env.isDir [] base = true) (rs : List Recv) :
    ScpWire.get env buff (fuel + 1) n cwd base (.timeout :: rs) = some (.error .socketTimeout) := by
  rw [get_dir hne hpres hdir]
  rfl

/-- A machine for the examples: `/l` is a directory, and everything can be written and made. -/
def exHost : Host where
  present _ p := p = "/l".toList
  isDir _ p := p = "/l".toList
  opens _ _ := true
  mkdirs _ _ := true
  oct t := if t.all Char.isDigit then some (valueOf t) else none
  int t := if t.head? = some '-' then some (-(valueOf t.tail : ℤ)) else some (valueOf t)

theorem exHost_int (n : ℤ) : exHost.int (digits n) = some n := by
  have h : digits n = decimal n := (decimal_eq n).symm
  rw [h]
  simp only [exHost, decimal]
  by_cases hn : n < 0
  · simp only [hn, if_true, List.singleton_append, List.head?_cons, List.tail_cons, valueOf_toDigits]
    congr 1; omega
  · simp only [hn, if_false, List.nil_append, valueOf_toDigits]
    have : (Nat.toDigits 10 n.natAbs).head? ≠ some '-' := by
      intro h
      have hm : '-' ∈ Nat.toDigits 10 n.natAbs := List.mem_of_mem_head? h
      have := Nat.isDigit_of_mem_toDigits (by norm_num) (by norm_num) hm
      revert this; decide
    rw [if_neg this]
    congr 1; omega

theorem exHost_room (base : Text) (files dirs : List Text) (h : "/l".toList ∉ dirs) : HostRoom exHost base files dirs := by
  refine ⟨fun _ _ _ _ _ => rfl, fun ops d name _ hd => Or.inl ⟨?_, rfl⟩⟩
  simp only [exHost, decide_eq_false_iff_not]
  intro e
  rw [e] at hd
  exact h hd

/-- A tree for the examples. -/
def exTree : Tree :=
  .dir "d".toList "0755".toList (some (5, 6)) (.file "a b".toList "0644".toList (some (7, 0)) "xyz".toList .nil)
    (.file "c".toList "0600".toList none [] .nil)

theorem exTree_proper : exTree.Proper exHost.oct := by
  have hm : ∀ t : Text, (exHost.oct t).isSome ∧ (∀ c ∈ t, blank c = false) ∧ t ≠ [] → OctalMode exHost.oct t :=
    fun t h => ⟨h.1, h.2.1, h.2.2⟩
  have hn : ∀ (m : Text) (s : ℤ) (t : Text), t ≠ [] ∧ '/' ∉ t ∧ '\n' ∉ t ∧ (t.getLast?.all fun c => blank c = false) ∧
      m.length + (digits s).length + t.length + 4 ≤ 1024 → WireName m s t :=
    fun m s t h => ⟨h.1, h.2.1, h.2.2.1, fun c hc => by have := h.2.2.2.1; rw [hc] at this; simpa using this, h.2.2.2.2⟩
  refine ⟨hm _ (by decide +kernel), ?_, hn _ _ _ (by decide +kernel),
    ⟨hm _ (by decide +kernel), ?_, hn _ _ _ (by decide +kernel), trivial⟩,
    hm _ (by decide +kernel), ?_, hn _ _ _ (by decide +kernel), trivial⟩
  · rintro p h; cases h; decide +kernel
  · rintro p h; cases h; decide +kernel
  · rintro p h; cases h

/-- How the tree may arrive. -/
def exStream : List Recv :=
  [.data "T5 0 6 0\n".toList, .data "D0755 0 d\n".toList, .data "T7 0 0 0\n".toList, .data "C0644 3 a b\n".toList,
    .data "x".toList, .data "yz".toList, .data ['\x00'], .data "E\n".toList, .data "C0600 0 c\n".toList, .data ['\x00'], .eof]

example : Arrives 16384 exTree.items exStream :=
  .time (.dir (.time (.file (portions := ["x".toList, "yz".toList]) (.up (.file (portions := []) .done rfl (by simp)))
    rfl (by decide))))

example : exHost.present [] "/l".toList = true ∧ exHost.isDir [] "/l".toList = true ∧ NoTrail "/l".toList ∧
    HostRoom exHost "/l".toList (exTree.files "/l".toList) ((exTree.dirs "/l".toList).map Prod.fst) ∧
    ((exTree.dirs "/l".toList).map Prod.fst).Nodup :=
  ⟨by decide, by decide, ⟨['/'], 'l', by decide, by decide⟩, exHost_room _ _ _ (by decide +kernel), by decide +kernel⟩

example : (ScpWire.get exHost 16384 30 1 [] "/l".toList exStream).map (fun r => r.toOption.map (fun c => (c.ops, c.sent))) =
    some (some ([.mkdir "/l/d".toList 755, .create "/l/d/a b".toList, .write "/l/d/a b".toList "x".toList,
      .write "/l/d/a b".toList "yz".toList, .utime "/l/d/a b".toList (some (7, 7)), .chmod "/l/d/a b".toList 644,
      .create "/l/c".toList, .utime "/l/c".toList none, .chmod "/l/c".toList 600, .utime "/l/d".toList (some (6, 5))],
      List.replicate 9 '\x00')) := by decide +kernel

/-- **C152** violated: a blank at the end of the name of a file is lost, though a directory keeps it. -/
theorem C152_blank_violated :
    (ScpWire.get exHost 16384 30 1 [] "/l".toList [.data "C0644 0 f \n".toList, .data ['\x00'], .eof]).map
      (fun r => r.toOption.map (·.ops)) =
      some (some [.create "/l/f".toList, .utime "/l/f".toList none, .chmod "/l/f".toList 644]) ∧
    (ScpWire.get exHost 16384 30 1 [] "/l".toList [.data "D0755 0 d \n".toList, .data "E\n".toList, .eof]).map
      (fun r => r.toOption.map (·.ops)) =
      some (some [.mkdir "/l/d ".toList 755, .utime "/l/d ".toList none]) := by
  constructor <;> decide +kernel

end Verif.Props
