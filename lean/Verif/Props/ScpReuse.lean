import Verif.Model.ScpReuse
import Verif.Props.ScpGet

/-!
# C189: a client may be used for many transfers
-/

namespace Verif.Props
open Verif.ScpWire Verif.ScpReuse Verif.Spec
open Verif.Fs (Text)

/-! ### The receiving functions are those of `Verif.ScpWire` -/

theorem recvDataS_eq (buff : ℕ) (size : ℤ) (path : Text) : ∀ (fuel : ℕ) (pos : ℤ) (c : Client) (rs : List Recv),
    recvData buff size path fuel pos c rs = (recvDataS buff size path fuel pos c rs).map fun r => r.2.map fun rs' => (r.1, rs') := by
  intro fuel
  induction fuel with
  | zero =>
    intro pos c rs
    unfold recvData recvDataS
    split_ifs <;> rfl
  | succ fuel ih =>
    intro pos c rs
    unfold recvData recvDataS
    by_cases h : pos < size
    · simp only [if_pos h]
      rcases recv _ rs with ⟨_ | b, rs'⟩
      · rfl
      · exact ih _ _ _
    · simp only [if_neg h]; rfl

theorem recvFileS_eq (env : Host) (buff fuel : ℕ) (c : Client) (cmd : Text) (rs : List Recv) :
    recvFile env buff fuel c cmd rs = (recvFileS env buff fuel c cmd rs).map fun r => r.2.map fun rs' => (r.1, rs') := by
  unfold recvFile recvFileS
  dsimp only
  rcases (splitSpace [] 2 (stripBytes cmd))[0]?.bind env.oct with _ | mode
  · rfl
  rcases (splitSpace [] 2 (stripBytes cmd))[1]?.bind env.int with _ | size
  · rfl
  rcases place c (splitSpace [] 2 (stripBytes cmd))[2]? with _ | ⟨path, c1⟩
  · rfl
  dsimp only
  by_cases h : env.opens c1.ops path = false
  · rw [if_pos h, if_pos h]; rfl
  · rw [if_neg h, if_neg h, recvDataS_eq]
    rcases recvDataS _ _ _ _ _ _ _ with _ | ⟨c2, e | rs'⟩
    · rfl
    · rfl
    · simp only [Option.map_some, Except.map]
      rcases recv 512 rs' with ⟨_ | msg, rs''⟩
      · rfl
      · dsimp only
        split_ifs <;> rfl

theorem recvAllS_eq (env : Host) (buff : ℕ) : ∀ (fuel : ℕ) (c : Client) (rs : List Recv),
    recvAll env buff fuel c rs = (recvAllS env buff fuel c rs).map fun r => r.2.map fun _ => r.1 := by
  intro fuel
  induction fuel with
  | zero => exact fun _ _ => rfl
  | succ fuel ih =>
    intro c rs
    unfold recvAll recvAllS
    dsimp only
    rcases recv 1024 rs with ⟨_ | msg, rs'⟩
    · rfl
    · dsimp only
      by_cases h1 : msg = []
      · rw [if_pos h1, if_pos h1]; rfl
      · rw [if_neg h1, if_neg h1]
        by_cases h2 : msg.getLast? ≠ some '\n'
        · rw [if_pos h2, if_pos h2]; rfl
        · rw [if_neg h2, if_neg h2]
          generalize msg.dropLast = line
          split
          · next cmd =>
            rw [recvFileS_eq]
            simp only
            rcases recvFileS env buff fuel (c.say ['\x00']) cmd rs' with _ | ⟨c2, e | rs'⟩
            · rfl
            · rfl
            · exact ih _ _
          · split
            · next h => simp only [h]; rfl
            · next h => simp only [h]; exact ih _ _
          · split
            · next h => simp only [h]; rfl
            · next h => simp only [h]; exact ih _ _
          · exact ih _ _
          · next g1 g2 g3 g4 =>
            split
            · exact absurd rfl (g1 _)
            · exact absurd rfl (g2 _)
            · exact absurd rfl (g3 _)
            · exact absurd rfl (g4 _)
            · rfl

/-- Nothing is left over from earlier transfers. -/
structure Fresh (s : State) : Prop where
  channel : s.channel = none
  utime : s.utime = none
  dirtimes : s.dirtimes = []

/-- **C189**: a client with nothing left over does exactly what a new client does, on a new session. -/
theorem C189_like_new (env : Host) (buff fuel n : ℕ) (cwd path : Text) (s : State) (hs : Fresh s) (rs : List Recv) :
    ScpWire.get env buff fuel n cwd path rs = (getS env buff fuel n cwd path s rs).map (fun g => g.result.map fun _ => g.client) ∧
    (∀ g, getS env buff fuel n cwd path s rs = some g → g.session = none ∨ g.session = some s.opened) ∧
    ∀ ok, (putS s ok).1 = s.opened := by
  obtain ⟨h1, h2, h3⟩ := hs
  have hk : (openS s).2 = s.opened := by simp [openS, h1]
  refine ⟨?_, ?_, fun ok => hk⟩
  · unfold ScpWire.get getS
    dsimp only
    rw [h2, h3]
    generalize (if path = [] then cwd else path) = dir
    split_ifs
    · rfl
    · rw [recvAllS_eq]
      rcases recvAllS _ _ _ _ _ with _ | ⟨c2, e | rs'⟩ <;> rfl
  · intro g hg
    unfold getS at hg
    dsimp only at hg
    generalize (if path = [] then cwd else path) = dir at hg
    split_ifs at hg
    · obtain rfl := Option.some.inj hg
      exact Or.inl rfl
    · right
      split at hg
      · exact absurd hg (by simp)
      · obtain rfl := Option.some.inj hg; exact congrArg some hk
      · obtain rfl := Option.some.inj hg; exact congrArg some hk

/-! ### What is left over -/

theorem dirtimes_done (env : Host) (buff : ℕ) : ∀ (fuel : ℕ) (c c' : Client) (rs : List Recv),
    recvAllS env buff fuel c rs = some (c', .ok ()) → c'.dirtimes = [] := by
  intro fuel
  induction fuel with
  | zero => intro c c' rs h; exact absurd h (by simp [recvAllS])
  | succ fuel ih =>
    intro c c' rs h
    unfold recvAllS at h
    dsimp only at h
    rcases hrc : recv 1024 rs with ⟨_ | msg, rs'⟩
    · rw [hrc] at h; exact absurd h (by simp)
    · rw [hrc] at h
      dsimp only at h
      split_ifs at h
      · obtain rfl := (Prod.mk.inj (Option.some.inj h)).1; rfl
      · exact absurd h (by simp)
      · generalize msg.dropLast = line at h
        split at h
        · split at h
          · exact absurd h (by simp)
          · exact absurd h (by simp)
          · exact ih _ _ _ h
        · split at h
          · exact absurd h (by simp)
          · exact ih _ _ _ h
        · split at h
          · exact absurd h (by simp)
          · exact ih _ _ _ h
        · exact ih _ _ _ h
        · exact absurd h (by simp)

/-- The history of a client all of whose transfers returned normally, and for which no time was announced without a file or directory after it. -/
inductive Past : State → Prop
  | new : Past new
  | put {s} : Past s → Past (putS s true).2
  | get {s env buff fuel n cwd path rs g} : Past s → getS env buff fuel n cwd path s rs = some g → g.result = .ok () → g.client.utime = none →
      Past g.state

/-- Every session that was opened is closed, and only once; the one that is open is the client's. -/
structure Sessions (s : State) : Prop where
  all : ∀ k < s.opened, k ∈ s.closed ∨ s.channel = some k
  open_ : ∀ k, s.channel = some k → k < s.opened ∧ k ∉ s.closed
  once : s.closed.Nodup
  closed : ∀ k ∈ s.closed, k < s.opened

theorem sessions_open {s : State} (h : Sessions s) : Sessions (openS s).1 := by
  unfold openS
  split
  · exact h
  · next hc =>
    refine ⟨fun k hk => ?_, fun k hk => ?_, h.once, fun k hk => (h.closed k hk).trans (Nat.lt_succ_self _)⟩
    · rcases Nat.lt_succ_iff_lt_or_eq.mp hk with h1 | h1
      · rcases h.all k h1 with h2 | h2
        · exact Or.inl h2
        · rw [hc] at h2; cases h2
      · exact Or.inr (by rw [h1])
    · obtain rfl := Option.some.inj hk
      exact ⟨Nat.lt_succ_self _, fun hm => lt_irrefl _ (h.closed _ hm)⟩

theorem sessions_close {s : State} (h : Sessions s) : Sessions (closeS s) := by
  unfold closeS
  split
  · next j hc =>
    obtain ⟨h1, h2⟩ := h.open_ j hc
    refine ⟨fun k hk => ?_, fun k hk => (nomatch hk), ?_, fun k hk => ?_⟩
    · rcases h.all k hk with h3 | h3
      · exact Or.inl (List.mem_append_left _ h3)
      · obtain rfl : j = k := Option.some.inj (hc.symm.trans h3)
        exact Or.inl (by simp)
    · exact List.nodup_append.mpr ⟨h.once, by simp, by rintro a ha b hb rfl; rw [List.mem_singleton] at hb; exact h2 (hb ▸ ha)⟩
    · rcases List.mem_append.mp hk with h3 | h3
      · exact h.closed k h3
      · rw [List.mem_singleton] at h3; rw [h3]; exact h1
  · exact h

theorem sessions_times {s : State} (h : Sessions s) (u : Times) (d : List (Text × Times)) : Sessions { s with utime := u, dirtimes := d } :=
  ⟨h.all, h.open_, h.once, h.closed⟩

theorem sessions_put {s : State} (h : Sessions s) (ok : Bool) : Sessions (putS s ok).2 := by
  unfold putS
  dsimp only
  split_ifs
  · exact sessions_close (sessions_open h)
  · exact sessions_open h

theorem sessions_get {s : State} (h : Sessions s) {env : Host} {buff fuel n : ℕ} {cwd path : Text} {rs : List Recv} {g : Got}
    (hg : getS env buff fuel n cwd path s rs = some g) : Sessions g.state := by
  unfold getS at hg
  dsimp only at hg
  generalize (if path = [] then cwd else path) = dir at hg
  split_ifs at hg
  · obtain rfl := Option.some.inj hg; exact h
  · split at hg
    · exact absurd hg (by simp)
    · obtain rfl := Option.some.inj hg; exact sessions_close (sessions_times (sessions_open h) _ _)
    · obtain rfl := Option.some.inj hg; exact sessions_times (sessions_open h) _ _

theorem sessions_new : Sessions new := ⟨fun k hk => absurd hk (Nat.not_lt_zero k), fun _ hk => (nomatch hk), List.nodup_nil, fun _ hk => nomatch hk⟩

theorem close_channel (s : State) : (closeS s).channel = none := by
  unfold closeS
  split
  · rfl
  · assumption

theorem close_times (s : State) : (closeS s).utime = s.utime ∧ (closeS s).dirtimes = s.dirtimes := by
  unfold closeS
  split <;> exact ⟨rfl, rfl⟩

theorem open_times (s : State) : (openS s).1.utime = s.utime ∧ (openS s).1.dirtimes = s.dirtimes := by
  unfold openS
  split <;> exact ⟨rfl, rfl⟩

/-- **C189** (what holds): after any number of transfers that returned normally, in any order, nothing is left over, and every session that was
opened has been closed once. By `C189_like_new` the next transfer is like one of a new client. -/
theorem C189_history_partial {s : State} (h : Past s) : Fresh s ∧ (∀ k < s.opened, k ∈ s.closed) ∧ s.closed.Nodup := by
  have hs : Fresh s ∧ Sessions s := by
    induction h with
    | new => exact ⟨⟨rfl, rfl, rfl⟩, sessions_new⟩
    | @put s _ ih =>
      refine ⟨⟨close_channel _, ?_, ?_⟩, sessions_put ih.2 true⟩
      · exact ((close_times _).1.trans (open_times s).1).trans ih.1.utime
      · exact ((close_times _).2.trans (open_times s).2).trans ih.1.dirtimes
    | @get s env buff fuel n cwd path rs g _ hg hr hu ih =>
      refine ⟨?_, sessions_get ih.2 hg⟩
      unfold getS at hg
      dsimp only at hg
      generalize (if path = [] then cwd else path) = dir at hg
      split_ifs at hg
      · obtain rfl := Option.some.inj hg; exact absurd hr (by simp)
      · split at hg
        · exact absurd hg (by simp)
        · next c' _ hc =>
          obtain rfl := Option.some.inj hg
          exact ⟨close_channel _, (close_times _).1.trans hu, (close_times _).2.trans (dirtimes_done env buff fuel _ c' rs hc)⟩
        · obtain rfl := Option.some.inj hg; exact absurd hr (by simp)
  refine ⟨hs.1, fun k hk => ?_, hs.2.once⟩
  rcases hs.2.all k hk with h1 | h1
  · exact h1
  · rw [hs.1.channel] at h1; cases h1

/-- **C189**: a `get` of a tree from a server that follows the protocol leaves no time without its file: `C189_history_partial` goes on after it. -/
theorem C189_tree {env : Host} {buff : ℕ} (hint : ∀ n, env.int (digits n) = some n) {cwd path base : Text} {n : ℕ}
    (hbase : base = if path = [] then cwd else path) (hnt : NoTrail base) (hpres : env.present [] base = true)
    (hdir : env.isDir [] base = true) {tree : Tree} (hp : tree.Proper env.oct)
    (room : HostRoom env base (tree.files base) ((tree.dirs base).map Prod.fst)) (hnd : ((tree.dirs base).map Prod.fst).Nodup)
    {rs : List Recv} (hrs : Arrives buff tree.items rs) {s : State} (hs : Past s) :
    ∃ K, ∀ fuel, K ≤ fuel → ∃ g, getS env buff fuel n cwd path s rs = some g ∧ g.result = .ok () ∧ Past g.state := by
  obtain ⟨rs', ops, h1, h2, k, K, h3⟩ := steps_tree hint room tree hp ⟨base, false, none, [], [], []⟩ hnt rfl rfl (Or.inl rfl)
    (fun f h => h) (fun d h => List.mem_map_of_mem h) (by simpa using hnd) [] rs (by simpa using hrs)
  cases h1 with
  | done =>
    refine ⟨K + 1 + k, fun fuel hf => ?_⟩
    obtain ⟨f, rfl⟩ : ∃ f, fuel = f + 1 + k := ⟨fuel - 1 - k, by omega⟩
    have hF := (C189_history_partial hs).1
    have h4 := h3 (f + 1) (by omega)
    rw [recvAll] at h4
    simp only [recv, if_true, recvAllS_eq] at h4
    rcases hr : recvAllS env buff (f + 1 + k) ⟨base, false, none, [], [], []⟩ rs with _ | ⟨c', e | u⟩
    · rw [hr] at h4; exact absurd h4 (by simp)
    · rw [hr] at h4; exact absurd h4 (by simp [Except.map])
    · rw [hr] at h4
      simp only [Option.map_some, Except.map, Option.some.injEq, Except.ok.injEq] at h4
      have hg : getS env buff (f + 1 + k) n cwd path s rs =
          some ⟨closeS { (openS s).1 with utime := c'.utime, dirtimes := c'.dirtimes }, some (openS s).2, c', .ok ()⟩ := by
        unfold getS
        simp only [← hbase, hpres, hdir, hF.utime, hF.dirtimes]
        rw [if_neg (by simp)]
        simp only [Bool.not_true, Bool.and_false, hr]
      exact ⟨_, hg, rfl, Past.get hs hg rfl (by rw [h4]; rfl)⟩

/-- **C189**: after a `with` statement around any transfers, whatever came of them, every session that was opened has been closed, exactly once. -/
theorem C189_with (us : List Use) (s : State) (h : withStmt us = some s) :
    s.channel = none ∧ (∀ k < s.opened, k ∈ s.closed) ∧ s.closed.Nodup ∧ 0 < s.opened := by
  have hu : ∀ (us : List Use) (s s' : State), Sessions s → uses s us = some s' → Sessions s' ∧ s.opened ≤ s'.opened := by
    intro us
    induction us with
    | nil => intro s s' hs h; obtain rfl := Option.some.inj h; exact ⟨hs, le_rfl⟩
    | cons u us ih =>
      intro s s' hs h
      obtain ⟨s1, h1, h2⟩ := Option.bind_eq_some_iff.mp h
      have hle : ∀ x : State, x.opened ≤ (openS x).1.opened := by
        intro x; unfold openS; split
        · exact le_rfl
        · exact Nat.le_succ _
      have hcl : ∀ x : State, (closeS x).opened = x.opened := by intro x; unfold closeS; split <;> rfl
      have key : Sessions s1 ∧ s.opened ≤ s1.opened := by
        cases u with
        | put ok =>
          obtain rfl := Option.some.inj h1
          refine ⟨sessions_put hs ok, ?_⟩
          unfold putS
          dsimp only
          split_ifs
          · rw [hcl]; exact hle s
          · exact hle s
        | get env buff fuel n cwd path rs =>
          obtain ⟨g, hg, rfl⟩ := Option.map_eq_some_iff.mp h1
          refine ⟨sessions_get hs hg, ?_⟩
          unfold getS at hg
          dsimp only at hg
          generalize (if path = [] then cwd else path) = dir at hg
          split_ifs at hg
          · obtain rfl := Option.some.inj hg; exact le_rfl
          · split at hg
            · exact absurd hg (by simp)
            · obtain rfl := Option.some.inj hg; rw [hcl]; exact hle s
            · obtain rfl := Option.some.inj hg; exact hle s
      obtain ⟨h3, h4⟩ := ih s1 s' key.1 h2
      exact ⟨h3, key.2.trans h4⟩
  obtain ⟨s1, h1, rfl⟩ := Option.map_eq_some_iff.mp h
  obtain ⟨h2, h3⟩ := hu us (enter new) s1 (sessions_open sessions_new) h1
  have h4 := sessions_close h2
  have ho : (closeS s1).opened = s1.opened := by unfold closeS; split <;> rfl
  refine ⟨close_channel s1, fun k hk => ?_, h4.once, ?_⟩
  · rcases h4.all k hk with h5 | h5
    · exact h5
    · rw [close_channel] at h5; cases h5
  · show 0 < (closeS s1).opened
    rw [ho]
    exact lt_of_lt_of_le (by decide) h3

/-! ### Violations -/

theorem recvAllS_time {env : Host} {buff : ℕ} (hint : ∀ n, env.int (digits n) = some n) {m a : ℤ}
    (hs : (digits m).length + (digits a).length + 7 ≤ 1024) (fuel : ℕ) (c : Client) (rs : List Recv) :
    recvAllS env buff (fuel + 1) c (.data (Item.time m a).wire :: rs) =
      recvAllS env buff fuel { c.say ['\x00'] with utime := utimeOf (some (m, a)) } rs := by
  have hw : (Item.time m a).wire = ('T' :: (digits m ++ " 0 ".toList ++ digits a ++ " 0".toList)) ++ ['\n'] := by
    simp [Item.wire, Item.parts]
  rw [hw, recvAllS, recv_short (by simp; omega)]
  simp only
  rw [if_neg (by simp), if_neg (by rw [List.getLast?_append]; simp), List.dropLast_concat]
  simp only [setTime, timeLine_parts]
  simp [hint, utimeOf]

theorem getS_dir {env : Host} {buff fuel n : ℕ} {cwd base : Text} (hne : base ≠ []) (hpres : env.present [] base = true)
    (hdir : env.isDir [] base = true) (s : State) (rs : List Recv) :
    getS env buff fuel n cwd base s rs = match recvAllS env buff fuel ⟨base, false, s.utime, s.dirtimes, [], []⟩ rs with
      | none => none
      | some (c', .ok _) => some ⟨closeS { (openS s).1 with utime := c'.utime, dirtimes := c'.dirtimes }, some (openS s).2, c', .ok ()⟩
      | some (c', .error e) => some ⟨{ (openS s).1 with utime := c'.utime, dirtimes := c'.dirtimes }, some (openS s).2, c', .error e⟩ := by
  unfold getS
  simp only [if_neg hne, hpres, hdir]
  rw [if_neg (by simp)]
  simp only [Bool.not_true, Bool.and_false]
  rcases recvAllS env buff fuel ⟨base, false, s.utime, s.dirtimes, [], []⟩ rs with _ | ⟨c', e | u⟩ <;> rfl

/-- The stream of one file without times. -/
def plainFile (mode name content : Text) (portions : List Text) : List Recv :=
  .data ("C".toList ++ mode ++ " ".toList ++ digits content.length ++ " ".toList ++ name ++ "\n".toList) :: portions.map .data ++
    .data ['\x00'] :: [.eof]

/-- A client that has a time left over gives it to the first file. -/
theorem get_file_left {env : Host} {buff : ℕ} (hint : ∀ n, env.int (digits n) = some n) {cwd base : Text} {n : ℕ} (hne : base ≠ [])
    (hnt : NoTrail base) (hpres : env.present [] base = true) (hdir : env.isDir [] base = true) {mode name content : Text} {p : ℤ}
    (hm : OctalMode env.oct mode) (ho : env.oct mode = some p) (hn : WireName mode content.length name) {portions : List Text}
    (hc : portions.flatten = content) (hb : ∀ q ∈ portions, q ≠ [] ∧ q.length ≤ buff) (hop : env.opens [] (base ++ '/' :: name) = true)
    (s : State) :
    ∃ K, ∀ fuel, K ≤ fuel → ∃ g, getS env buff fuel n cwd base s (plainFile mode name content portions) = some g ∧ g.result = .ok () ∧
      g.client.ops = .create (base ++ '/' :: name) :: portions.map (.write (base ++ '/' :: name)) ++
        [.utime (base ++ '/' :: name) s.utime, .chmod (base ++ '/' :: name) p] ++ s.dirtimes.map fun d => .utime d.1 d.2 := by
  set c : Client := ⟨base, false, s.utime, s.dirtimes, [], []⟩ with hcdef
  obtain ⟨k, K, h⟩ := steps_file (buff := buff) hint hm ho hn c (c.say ['\x00']) [.eof] hc hb (place_below (c := c) rfl hnt hn.no_slash) hop
  refine ⟨K + 1 + k, fun fuel hf => ?_⟩
  obtain ⟨f, rfl⟩ : ∃ f, fuel = f + 1 + k := ⟨fuel - 1 - k, by omega⟩
  have h4 := h (f + 1) (by omega)
  rw [recvAll] at h4
  simp only [recv, if_true, recvAllS_eq] at h4
  rw [getS_dir hne hpres hdir]
  rcases hr : recvAllS env buff (f + 1 + k) c (plainFile mode name content portions) with _ | ⟨c', e | u⟩
  · rw [plainFile] at hr; rw [hr] at h4; exact absurd h4 (by simp)
  · rw [plainFile] at hr; rw [hr] at h4; exact absurd h4 (by simp [Except.map])
  · have hr' := hr
    rw [plainFile] at hr'
    rw [hr'] at h4
    simp only [Option.map_some, Except.map, Option.some.injEq, Except.ok.injEq] at h4
    refine ⟨_, rfl, rfl, ?_⟩
    show c'.ops = _
    rw [h4]
    simp [setDirtimes, Client.say, hcdef]

/-- **C189, violated**: a `get` fails between the time of a file and the file. Even if the client is closed then, the next `get` gives this time to its
first file, for which no time was sent; a new client lets the file have the present time. -/
theorem C189_time_violated {env : Host} {buff : ℕ} (hint : ∀ n, env.int (digits n) = some n) {cwd base : Text} {n : ℕ} (hne : base ≠ [])
    (hnt : NoTrail base) (hpres : env.present [] base = true) (hdir : env.isDir [] base = true) {mode name content : Text} {p : ℤ}
    (hm : OctalMode env.oct mode) (ho : env.oct mode = some p) (hn : WireName mode content.length name) {portions : List Text}
    (hc : portions.flatten = content) (hb : ∀ q ∈ portions, q ≠ [] ∧ q.length ≤ buff) (hop : env.opens [] (base ++ '/' :: name) = true)
    {m a : ℤ} (hs : (digits m).length + (digits a).length + 7 ≤ 1024) (last : Recv) (hlast : last = .timeout ∨ last = .eof) :
    ∃ K, ∀ fuel, K ≤ fuel → ∃ g₁ g₂ g₃, getS env buff fuel n cwd base new [.data (Item.time m a).wire, last] = some g₁ ∧
      (g₁.result = .ok () ↔ last = .eof) ∧
      getS env buff fuel n cwd base (closeS g₁.state) (plainFile mode name content portions) = some g₂ ∧ g₂.result = .ok () ∧
      .utime (base ++ '/' :: name) (utimeOf (some (m, a))) ∈ g₂.client.ops ∧
      getS env buff fuel n cwd base new (plainFile mode name content portions) = some g₃ ∧ g₃.result = .ok () ∧
      .utime (base ++ '/' :: name) (utimeOf (some (m, a))) ∉ g₃.client.ops := by
  have h1 : ∃ g₁, (∀ fuel, getS env buff (fuel + 2) n cwd base new [.data (Item.time m a).wire, last] = some g₁) ∧
      (g₁.result = .ok () ↔ last = .eof) ∧ (closeS g₁.state).utime = utimeOf (some (m, a)) := by
    rcases hlast with rfl | rfl
    · exact ⟨⟨{ (openS new).1 with utime := utimeOf (some (m, a)) }, some 0,
        ({ (Client.mk base false none [] [] []).say ['\x00'] with utime := utimeOf (some (m, a)) }).say ['\x00'], .error .socketTimeout⟩,
        fun fuel => by rw [getS_dir hne hpres hdir, recvAllS_time hint hs]; rfl, by simp, (close_times _).1⟩
    · exact ⟨⟨closeS { (openS new).1 with utime := utimeOf (some (m, a)) }, some 0,
        ({ (Client.mk base false none [] [] []).say ['\x00'] with utime := utimeOf (some (m, a)) }).say ['\x00'], .ok ()⟩,
        fun fuel => by rw [getS_dir hne hpres hdir, recvAllS_time hint hs]; rfl, by simp, (close_times _).1.trans (close_times _).1⟩
  obtain ⟨g₁, hg1, hr1, hu1⟩ := h1
  obtain ⟨K2, h2⟩ := get_file_left (cwd := cwd) (n := n) hint hne hnt hpres hdir hm ho hn hc hb hop (closeS g₁.state)
  obtain ⟨K3, h3⟩ := get_file_left (cwd := cwd) (n := n) hint hne hnt hpres hdir hm ho hn hc hb hop new
  refine ⟨K2 + K3 + 2, fun fuel hf => ?_⟩
  obtain ⟨g₂, a1, a2, a3⟩ := h2 fuel (by omega)
  obtain ⟨g₃, b1, b2, b3⟩ := h3 fuel (by omega)
  obtain ⟨f, rfl⟩ : ∃ f, fuel = f + 2 := ⟨fuel - 2, by omega⟩
  refine ⟨g₁, g₂, g₃, hg1 f, hr1, a1, a2, ?_, b1, b2, ?_⟩
  · rw [a3, hu1]; simp
  · rw [b3]; simp [new, utimeOf]

theorem recvAllS_dir {env : Host} {buff : ℕ} {mode name : Text} {m : ℤ} (hm : OctalMode env.oct mode) (ho : env.oct mode = some m)
    (hn : WireName mode 0 name) (c c1 : Client) (rs : List Recv) {path : Text} (hp : place (c.say ['\x00']) (some name) = some (path, c1))
    (h1 : env.present c1.ops path = false) (h2 : env.mkdirs c1.ops path = true) (fuel : ℕ) :
    recvAllS env buff (fuel + 1) c (.data (Item.dir mode name).wire :: rs) =
      recvAllS env buff fuel { c1.call (.mkdir path m) with dirtimes := dictSet path c1.utime c1.dirtimes, utime := none, dir := path } rs := by
  have hw : (Item.dir mode name).wire = ('D' :: (mode ++ ' ' :: ('0' :: ' ' :: name))) ++ ['\n'] := by
    simp [Item.wire, Item.parts]
  have hshort := hn.short
  have hd0 : 1 ≤ (digits 0).length := List.length_pos_iff.2 (digits_ne 0)
  have hlen : (('D' :: (mode ++ ' ' :: ('0' :: ' ' :: name))) ++ ['\n']).length ≤ 1024 := by simp; omega
  have h : recvPushd env (c.say ['\x00']) (mode ++ ' ' :: ('0' :: ' ' :: name)) = .ok
      { c1.call (.mkdir path m) with dirtimes := dictSet path c1.utime c1.dirtimes, utime := none, dir := path } := by
    unfold recvPushd
    rw [dirLine_parts hm]
    simp [ho, hp, h1, h2]
  rw [hw, recvAllS, recv_short hlen]
  simp only
  rw [if_neg (by simp), if_neg (by rw [List.getLast?_append]; simp), List.dropLast_concat]
  simp only [h]

/-- **C189, violated**: a `get` fails after a directory was announced. Even if the client is closed then, the next `get` sets the times of this directory
although nothing was sent for it; a new client makes no call. -/
theorem C189_dir_violated {env : Host} {buff : ℕ} {cwd base : Text} {n : ℕ} (hne : base ≠ [])
    (hnt : NoTrail base) (hpres : env.present [] base = true) (hdir : env.isDir [] base = true) {mode name : Text} {p : ℤ}
    (hm : OctalMode env.oct mode) (ho : env.oct mode = some p) (hn : WireName mode 0 name)
    (hmk : env.present [] (base ++ '/' :: name) = false ∧ env.mkdirs [] (base ++ '/' :: name) = true) (fuel : ℕ) :
    ∃ g₁ g₂ g₃, getS env buff (fuel + 2) n cwd base new [.data (Item.dir mode name).wire, .timeout] = some g₁ ∧
      g₁.result = .error .socketTimeout ∧
      getS env buff (fuel + 2) n cwd base (closeS g₁.state) [.eof] = some g₂ ∧ g₂.result = .ok () ∧
      g₂.client.ops = [.utime (base ++ '/' :: name) none] ∧
      getS env buff (fuel + 2) n cwd base new [.eof] = some g₃ ∧ g₃.result = .ok () ∧ g₃.client.ops = [] := by
  have hp := place_below (c := ⟨base, false, none, [], [], []⟩) rfl hnt hn.no_slash
  have hd := recvAllS_dir (buff := buff) hm ho hn ⟨base, false, none, [], [], []⟩ _ [.timeout] hp hmk.1 hmk.2 (fuel + 1)
  have h1 : ∃ g₁, getS env buff (fuel + 2) n cwd base new [.data (Item.dir mode name).wire, .timeout] = some g₁ ∧
      g₁.result = .error .socketTimeout ∧ g₁.state.dirtimes = [(base ++ '/' :: name, none)] := by
    rw [getS_dir hne hpres hdir]
    simp only [new]
    rw [hd]
    exact ⟨_, rfl, rfl, rfl⟩
  obtain ⟨g₁, a1, a2, a3⟩ := h1
  refine ⟨g₁, _, _, a1, a2, getS_dir hne hpres hdir _ _, rfl, ?_, getS_dir hne hpres hdir _ _, rfl, rfl⟩
  simp [setDirtimes, (close_times g₁.state).2, a3, Client.say]

/-- **C189, violated**: after a `put` that failed the next transfer runs its command on the session of the failed one (a session takes only one command). -/
theorem C189_session_violated {s : State} (h : Past s) (ok : Bool) :
    (putS s false).1 = s.opened ∧ (putS (putS s false).2 ok).1 = s.opened ∧
    ∀ {env : Host} {buff fuel n : ℕ} {cwd path : Text} {rs : List Recv} {g : Got},
      getS env buff fuel n cwd path (putS s false).2 rs = some g → g.session = none ∨ g.session = some s.opened := by
  have hc := (C189_history_partial h).1.channel
  have h2 : (putS s false).2.channel = some s.opened := by simp [putS, openS, hc]
  have ho : (openS (putS s false).2).2 = s.opened := by unfold openS; rw [h2]
  refine ⟨by simp [putS, openS, hc], ho, ?_⟩
  intro env buff fuel n cwd path rs g hg
  unfold getS at hg
  dsimp only at hg
  generalize (if path = [] then cwd else path) = dir at hg
  split_ifs at hg
  · obtain rfl := Option.some.inj hg; exact Or.inl rfl
  · right
    split at hg
    · exact absurd hg (by simp)
    · obtain rfl := Option.some.inj hg; exact congrArg some ho
    · obtain rfl := Option.some.inj hg; exact congrArg some ho

/-! ### Examples -/

example : OctalMode exHost.oct "0644".toList ∧ exHost.oct "0644".toList = some 644 ∧ WireName "0644".toList 3 "c".toList ∧
    ["x".toList, "yz".toList].flatten = "xyz".toList ∧ exHost.opens [] "/l/c".toList = true ∧ "/l".toList ≠ [] ∧
    (digits 5).length + (digits 6).length + 7 ≤ 1024 ∧
    exHost.present [] "/l/d".toList = false ∧ exHost.mkdirs [] "/l/d".toList = true ∧ WireName "0755".toList 0 "d".toList := by
  refine ⟨⟨by decide +kernel, by decide +kernel, by decide +kernel⟩, by decide +kernel,
    ⟨by decide, by decide, by decide, ?_, by decide +kernel⟩, by decide, rfl, by decide, by decide +kernel, by decide +kernel, rfl,
    ⟨by decide, by decide, by decide, ?_, by decide +kernel⟩⟩
  · intro c hc; obtain rfl := Option.some.inj hc; decide
  · intro c hc; obtain rfl := Option.some.inj hc; decide

/-- A client that fetched a tree, failed to send something, and fetched the tree again, in a `with` statement: the first session is the one `__enter__`
opened. -/
example : (withStmt [.get exHost 16384 30 1 [] "/l".toList exStream, .put false, .get exHost 16384 30 1 [] "/l".toList exStream]) =
    some ⟨none, 2, [0, 1], none, []⟩ := by decide +kernel

/-- Two transfers of a client that has a past. -/
example : ∃ s, Past s ∧ s.opened = 2 :=
  ⟨_, .put (.put .new), rfl⟩

example : (getS exHost 16384 30 1 [] "/l".toList new exStream).map (fun g => (g.session, g.client.ops.length, g.state.closed)) =
    some (some 0, 10, [0]) := by decide +kernel

/-- The stale time of `C189_time_violated`. -/
example : ((getS exHost 16384 30 1 [] "/l".toList new [.data "T5 0 6 0\n".toList, .timeout]).bind fun g =>
      (getS exHost 16384 30 1 [] "/l".toList (closeS g.state) (plainFile "0600".toList "c".toList [] [])).map (·.client.ops)) =
    some [.create "/l/c".toList, .utime "/l/c".toList (some (6, 5)), .chmod "/l/c".toList 600] := by decide +kernel

end Verif.Props
