import Verif.Props.ScpPut
import Verif.Props.ScpGet
import Verif.Spec.ScpEcho

/-!
# What one scp client sends, received by another one (C214)
-/

namespace Verif.Props
open Verif.Fs Verif.ScpWire Verif.Spec

namespace Echo

theorem appendDirs_nil : ∀ d : Scp.Dirs, appendDirs d .nil = d
  | .nil => rfl
  | .cons n f s r => by rw [appendDirs, appendDirs_nil r]

theorem appendDirs_assoc : ∀ a b c : Scp.Dirs, appendDirs (appendDirs a b) c = appendDirs a (appendDirs b c)
  | .nil, _, _ => rfl
  | .cons n f s r, b, c => by simp only [appendDirs, appendDirs_assoc r b c]

theorem timeLine_sent {preserve : Bool} {s : Stat} {items : List Item} (h : TimeLine preserve s items) :
    ∃ t, SentTime preserve s t ∧ items = timeItems t := by
  unfold TimeLine at h
  unfold SentTime
  cases preserve
  · exact ⟨none, rfl, by simpa [timeItems] using h⟩
  · rw [if_pos rfl] at h
    obtain ⟨m, a, h1, h2, rfl⟩ := h
    exact ⟨some (m, a), ⟨m, a, h1, h2, rfl⟩, rfl⟩

/-- A stream of messages up to the end of the directory it is in, or a stream with a directory that is not closed. -/
theorem parse {disk : Text → Option Local} {preserve : Bool} (n : ℕ) : ∀ {es : List Scp.Event} {itemss : List (List Item)}, es.length ≤ n →
    List.Forall₂ (Carries disk preserve) es itemss →
    (∃ (tree : Tree) (F : List (Text × Bytes)) (D : Scp.Dirs) (es' : List Scp.Event) (itemss' : List (List Item)),
      Carried disk preserve tree F D ∧ itemss.flatten = tree.items ++ itemss'.flatten ∧ List.Forall₂ (Carries disk preserve) es' itemss' ∧
      es'.length ≤ es.length ∧ (es' = [] ∨ ∃ es'', es' = .pop :: es'') ∧
      ∀ f fs, buildAll (f :: fs) es = buildAll (⟨f.name, f.files ++ F, appendDirs f.subs D⟩ :: fs) es') ∨
    ∀ f fs r, buildAll (f :: fs) es = some r → fs.length + 1 < r.length := by
  induction n with
  | zero =>
    intro es itemss hn h
    obtain rfl : es = [] := List.length_eq_zero_iff.1 (by omega)
    cases h
    exact Or.inl ⟨.nil, [], .nil, [], [], .nil, rfl, .nil, le_rfl, Or.inl rfl, fun f fs => by simp [appendDirs_nil]⟩
  | succ n ih =>
    intro es itemss hn h
    cases h with
    | nil => exact Or.inl ⟨.nil, [], .nil, [], [], .nil, rfl, .nil, le_rfl, Or.inl rfl, fun f fs => by simp [appendDirs_nil]⟩
    | @cons e items es itemss he hes =>
      rw [List.length_cons] at hn
      cases e with
      | pop =>
        exact Or.inl ⟨.nil, [], .nil, .pop :: es, items :: itemss, .nil, rfl, .cons he hes, le_rfl, Or.inr ⟨es, rfl⟩,
          fun f fs => by simp [appendDirs_nil]⟩
      | file name content =>
        obtain ⟨path, hb, ⟨stat, text, times, hd, ht, rfl⟩, hc⟩ := he
        rw [hd] at hc
        simp only [Option.bind_some, Option.some.injEq] at hc
        subst hc
        obtain ⟨t, hst, rfl⟩ := timeLine_sent ht
        rcases ih (by omega) hes with ⟨tree, F, D, es', itemss', h1, h2, h3, h4, h5, h6⟩ | h
        · refine Or.inl ⟨_, (name, content) :: F, D, es', itemss', .file hb hd hst h1, ?_, h3, by rw [List.length_cons]; omega, h5, fun f fs => ?_⟩
          · simp [Tree.items, h2, hb]
          · rw [buildAll]
            simp only [build, Option.bind_some]
            rw [h6]
            simp
        · refine Or.inr fun f fs r hr => ?_
          rw [buildAll] at hr
          simp only [build, Option.bind_some] at hr
          exact h _ _ _ hr
      | push name =>
        obtain ⟨path, l, times, hb, hd, ht, rfl⟩ := he
        obtain ⟨t, hst, rfl⟩ := timeLine_sent ht
        rcases ih (by omega) hes with ⟨tree, F, D, es', itemss', h1, h2, h3, h4, h5, h6⟩ | h
        · rcases h5 with rfl | ⟨es'', rfl⟩
          · refine Or.inr fun f fs r hr => ?_
            rw [buildAll] at hr
            simp only [build, Option.bind_some] at hr
            rw [h6, buildAll] at hr
            injection hr with hr
            rw [← hr]; simp
          · cases h3 with
            | @cons _ up _ itemss'' hup h3 =>
              have hup : up = [.up] := hup
              subst hup
              rw [List.length_cons] at h4
              rcases ih (es := es'') (by omega) h3 with ⟨tree2, F2, D2, es3, itemss3, k1, k2, k3, k4, k5, k6⟩ | h
              · refine Or.inl ⟨_, F2, _, es3, itemss3, .dir hb hd hst h1 k1, ?_, k3, by rw [List.length_cons]; omega, k5, fun f fs => ?_⟩
                · simp [Tree.items, h2, k2]
                · rw [buildAll]
                  simp only [build, Option.bind_some]
                  rw [h6, buildAll]
                  simp only [build, Option.bind_some]
                  rw [k6]
                  simp [appendDirs_assoc, appendDirs]
              · refine Or.inr fun f fs r hr => ?_
                rw [buildAll] at hr
                simp only [build, Option.bind_some] at hr
                rw [h6, buildAll] at hr
                simp only [build, Option.bind_some] at hr
                exact h _ _ _ hr
        · refine Or.inr fun f fs r hr => ?_
          rw [buildAll] at hr
          simp only [build, Option.bind_some] at hr
          have := h _ _ _ hr
          rw [List.length_cons] at this
          omega

/-- A stream from which a tree is made is the stream of a tree of the protocol. -/
theorem carried {disk : Text → Option Local} {preserve : Bool} {es : List Scp.Event} {itemss : List (List Item)}
    (h : List.Forall₂ (Carries disk preserve) es itemss) {D : Scp.Dirs} (hr : Recreates es D) :
    ∃ tree, Carried disk preserve tree [] D ∧ itemss.flatten = tree.items := by
  unfold Recreates at hr
  rcases parse es.length le_rfl h with ⟨tree, F, D', es', itemss', h1, h2, h3, -, h5, h6⟩ | h
  · rw [h6] at hr
    rcases h5 with rfl | ⟨es'', rfl⟩
    · cases h3
      rw [buildAll] at hr
      simp only [List.nil_append, appendDirs, Option.some.injEq, List.cons.injEq, Frame.mk.injEq, and_true, true_and] at hr
      obtain ⟨rfl, rfl⟩ := hr
      exact ⟨tree, h1, by simpa using h2⟩
    · simp [buildAll, build] at hr
  · have := h _ _ _ hr
    simp at this

theorem digits_length {n : ℤ} {k : ℕ} (hk : 0 < k) (h : |n| < 10 ^ k) : (digits n).length ≤ k + 1 := by
  rw [← decimal_eq, decimal]
  have h1 : n.natAbs < 10 ^ k := by zify; exact_mod_cast h
  have h2 : (Nat.toDigits 10 n.natAbs).length ≤ k := (Nat.length_toDigits_le_iff (by norm_num) hk).2 h1
  split <;> simp <;> omega

theorem whole_bound {q : ℚ} {t : ℤ} {k : ℕ} (h : Whole q t) (hq : |q| < 10 ^ k) : |t| < 10 ^ k := by
  have := h.1.trans_lt hq
  exact_mod_cast this

theorem octal_mode {oct : Text → Option ℤ} (hoct : ∀ m : ℕ, oct (octal4 m) = some ((m % 4096 : ℕ) : ℤ)) (m : ℕ) : OctalMode oct (octal4 m) := by
  refine ⟨by rw [hoct]; rfl, ?_, by simp [octal4]⟩
  have hd : ∀ d : ℕ, blank (Nat.digitChar (d % 8)) = false := by
    intro d
    have key : ∀ e < 8, blank (Nat.digitChar e) = false := by decide
    exact key _ (Nat.mod_lt d (by norm_num))
  intro c hc
  simp only [octal4, List.mem_cons, List.not_mem_nil, or_false] at hc
  rcases hc with rfl | rfl | rfl | rfl <;> exact hd _

theorem proper_tree {disk : Text → Option Local} {preserve : Bool} {oct : Text → Option ℤ} (hoct : ∀ m : ℕ, oct (octal4 m) = some ((m % 4096 : ℕ) : ℤ))
    (hshort : ∀ p l, disk p = some l → |l.stat.mtime| < 10 ^ 100 ∧ |l.stat.atime| < 10 ^ 100) {tree : Tree} {F : List (Text × Bytes)} {D : Scp.Dirs}
    (h : Carried disk preserve tree F D) (hF : ∀ x ∈ F, EntryName x.1 ∧ ShortName x.1 ∧ x.2.length < 10 ^ 100) (h1 : TreeOk D) (h2 : TreeShort D) :
    tree.Proper oct := by
  have htime : ∀ {p l t}, disk p = some l → SentTime preserve l.stat t → ShortTime t := by
    intro p l t hl ht q hq
    unfold SentTime at ht
    cases preserve
    · simp only [Bool.false_eq_true, if_false] at ht
      rw [ht] at hq; simp at hq
    · rw [if_pos rfl] at ht
      obtain ⟨m, a, w1, w2, rfl⟩ := ht
      injection hq with hq
      subst hq
      have b := hshort p l hl
      have d1 := digits_length (by norm_num) (whole_bound w1 b.1)
      have d2 := digits_length (by norm_num) (whole_bound w2 b.2)
      simp only
      omega
  induction h with
  | nil => trivial
  | @file path name stat content t rest files subs hb hd ht _ ih =>
    obtain ⟨e, s, c⟩ := hF (name, content) (by simp)
    refine ⟨octal_mode hoct _, htime hd ht, ⟨e.nonempty, e.no_slash, e.no_newline, s.2, ?_⟩, ih (fun x hx => hF x (List.mem_cons_of_mem _ hx)) h1 h2⟩
    have dl : (digits ((toText content).length : ℤ)).length ≤ 101 := digits_length (k := 100) (by norm_num) (by
      rw [Nat.abs_cast]; simp only [toText, List.length_map]; exact_mod_cast c)
    have := s.1
    simp only [octal4, List.length_cons, List.length_nil] at *
    omega
  | @dir path name l t inside rest files files' subs subs' hb hd ht _ _ ih1 ih2 =>
    obtain ⟨e, ef, _, es, er⟩ := h1
    obtain ⟨s, sf, ss, sr⟩ := h2
    refine ⟨octal_mode hoct _, htime hd ht, ⟨e.nonempty, e.no_slash, e.no_newline, s.2, ?_⟩,
      ih1 (fun x hx => ⟨ef x hx, sf x hx⟩) es ss, ih2 hF er sr⟩
    have dl : (digits (0 : ℤ)).length ≤ 101 := digits_length (k := 100) (by norm_num) (by norm_num)
    have := s.1
    simp only [octal4, List.length_cons, List.length_nil] at *
    omega

theorem dirs_below {disk : Text → Option Local} {preserve : Bool} {tree : Tree} {F : List (Text × Bytes)} {D : Scp.Dirs}
    (h : Carried disk preserve tree F D) : ∀ d, ∀ p ∈ (tree.dirs d).map Prod.fst, ∃ n ∈ topNames D, ∃ r, p = d ++ '/' :: (n ++ r) ∧ (r = [] ∨ r.head? = some '/') := by
  induction h with
  | nil => simp [Tree.dirs]
  | file _ _ _ _ ih => exact ih
  | @dir path name l t inside rest files files' subs subs' hb hd ht _ _ ih1 ih2 =>
    intro d p hp
    simp only [Tree.dirs, List.map_append, List.map_cons, List.cons_append, List.mem_cons, List.mem_append] at hp
    rcases hp with rfl | hp | hp
    · exact ⟨name, by simp [topNames], [], by simp, Or.inl rfl⟩
    · obtain ⟨n, -, r, rfl, -⟩ := ih1 _ p hp
      exact ⟨name, by simp [topNames], '/' :: (n ++ r), by simp, Or.inr rfl⟩
    · obtain ⟨n, hn, r, hr⟩ := ih2 _ p hp
      exact ⟨n, by simp [topNames, hn], r, hr⟩

theorem take_name {n r : Text} (hn : '/' ∉ n) (hr : r = [] ∨ r.head? = some '/') : (n ++ r).takeWhile (· ≠ '/') = n := by
  rw [List.takeWhile_append_of_pos (by intro c hc; simp only [decide_eq_true_eq, ne_eq]; rintro rfl; exact hn hc)]
  rcases hr with rfl | hr
  · simp
  · cases r with
    | nil => simp at hr
    | cons c r => simp at hr; simp [hr]

theorem dirs_nodup {disk : Text → Option Local} {preserve : Bool} {tree : Tree} {F : List (Text × Bytes)} {D : Scp.Dirs}
    (h : Carried disk preserve tree F D) (hD : TreeOk D) : ∀ d, ((tree.dirs d).map Prod.fst).Nodup := by
  have names : ∀ {D : Scp.Dirs}, TreeOk D → ∀ n ∈ topNames D, EntryName n := by
    intro D hD
    induction D with
    | nil => simp [topNames]
    | cons n f s r _ ih =>
      intro m hm
      obtain ⟨h1, _, _, _, h2⟩ := hD
      rcases List.mem_cons.1 hm with rfl | hm
      · exact h1
      · exact ih h2 m hm
  induction h with
  | nil => simp [Tree.dirs]
  | file _ _ _ _ ih => exact ih hD
  | @dir path name l t inside rest files files' subs subs' hb hd ht hin hrest ih1 ih2 =>
    intro d
    obtain ⟨e, _, hnot, es, er⟩ := hD
    simp only [Tree.dirs, List.map_append, List.map_cons, List.cons_append]
    rw [List.nodup_cons, List.nodup_append]
    have far : ∀ p ∈ (rest.dirs d).map Prod.fst, ∀ r, (r = [] ∨ r.head? = some '/') → p ≠ d ++ '/' :: (name ++ r) := by
      rintro p hp r hr rfl
      obtain ⟨n, hn, r', he, hr'⟩ := dirs_below hrest d _ hp
      have he := List.append_cancel_left he
      injection he with _ he
      have := congrArg (List.takeWhile (· ≠ '/')) he
      rw [take_name e.no_slash hr, take_name (names er n hn).no_slash hr'] at this
      exact hnot (this ▸ hn)
    refine ⟨fun hmem => ?_, ih1 es _, ih2 er _, fun p hp q hq hpq => ?_⟩
    · rcases List.mem_append.1 hmem with hmem | hmem
      · obtain ⟨n, -, r, he, -⟩ := dirs_below hin _ _ hmem
        have := congrArg List.length he
        simp at this
      · exact far _ hmem [] (Or.inl rfl) (by simp)
    · subst hpq
      obtain ⟨n, -, r, he, -⟩ := dirs_below hin _ _ hp
      exact far _ hq ('/' :: (n ++ r)) (Or.inr rfl) (by rw [he]; simp)

theorem proper_items {oct : Text → Option ℤ} : ∀ {tree : Tree}, tree.Proper oct → ∀ i ∈ tree.items, i.Proper
  | .nil, _ => by simp [Tree.items]
  | .file name mode t content rest, ⟨h1, _, h3, h4⟩ => by
    intro i hi
    simp only [Tree.items, List.mem_append, List.mem_cons] at hi
    rcases hi with hi | rfl | hi
    · cases t <;> simp [timeItems] at hi
      subst hi; trivial
    · exact ⟨mode_no_space h1, h3.no_line⟩
    · exact proper_items h4 i hi
  | .dir name mode t inside rest, ⟨h1, _, h3, h4, h5⟩ => by
    intro i hi
    simp only [Tree.items, List.mem_append, List.mem_cons, List.append_assoc, List.cons_append] at hi
    rcases hi with hi | rfl | hi | rfl | hi
    · cases t <;> simp [timeItems] at hi
      subst hi; trivial
    · exact ⟨mode_no_space h1, h3.no_line⟩
    · exact proper_items h4 i hi
    · trivial
    · exact proper_items h5 i hi

end Echo

/-! ### C214 -/

/-- **C214**: a tree that one client sends with `put` and `recursive=True` is made by another one whose `get` receives what was sent, in
whatever portions it arrives: there is one tree of the protocol that has exactly the files and directories sent, with their contents, modes and
times (`Carried`); `put` ends and has sent certain bytes; and every `get` into a directory which receives these bytes returns, having made
exactly this tree (`Makes`), and has sent the confirmations that `put` needs. -/
theorem C214_echo {disk : Text → Option Local} {walk : Text → Option (List (Text × List Text))} {buff : ℕ}
    (hb : 0 < buff) (preserve : Bool) {pre name : Text} (hpre : pre = [] ∨ pre.getLast? = some '/')
    {files : List (Text × Bytes)} {subs : Scp.Dirs} (hok : TreeOk (.cons name files subs .nil)) (hsh : TreeShort (.cons name files subs .nil))
    (hd : OnDisk disk (Scp.walkBase (pre ++ name) files subs))
    (hw : walk (pre ++ name) = some ((Scp.walkBase (pre ++ name) files subs).map fun d => (d.1, d.2.map Prod.fst)))
    (hshort : ∀ p l, disk p = some l → |l.stat.mtime| < 10 ^ 100 ∧ |l.stat.atime| < 10 ^ 100) :
    ∃ (tree : Tree) (sent : Text) (k K : ℕ), Carried disk preserve tree [] (.cons name files subs .nil) ∧
      (∀ fuel, K ≤ fuel → ∀ replies, k ≤ confirmations replies →
        put disk walk buff true preserve fuel [pre ++ name] replies = some (.done, sent, replies.drop k)) ∧
      ∀ (env : Host) (buff' n : ℕ) (cwd base : Text) (rs : List Recv), (∀ n, env.int (digits n) = some n) →
        (∀ m : ℕ, env.oct (octal4 m) = some ((m % 4096 : ℕ) : ℤ)) → base ≠ [] → NoTrail base → env.present [] base = true → env.isDir [] base = true →
        HostRoom env base (tree.files base) ((tree.dirs base).map Prod.fst) → Delivered buff' sent rs →
        ∃ ops K', Makes env.oct base tree ops ∧ ∀ fuel, K' ≤ fuel → ∃ c, get env buff' fuel n cwd base rs = some (.ok c) ∧
          c.ops = ops ++ (tree.dirs base).map (fun d => .utime d.1 d.2) ∧ c.sent = List.replicate k '\x00' := by
  obtain ⟨hn, hf, _, hs, _⟩ := hok
  obtain ⟨es, itemss, h1, h2, K, h3⟩ := C151_put_recursive hb preserve hpre hn hf hs hd hw
  obtain ⟨tree, h4, h5⟩ := Echo.carried h2 h1
  have hok' : TreeOk (.cons name files subs .nil) := ⟨hn, hf, by simp [topNames], hs, trivial⟩
  refine ⟨tree, (itemss.flatten.flatMap Item.parts).flatten, (itemss.flatten.flatMap Item.parts).length + 1, K, h4, fun fuel hf replies hk => (h3 fuel hf replies).1 hk, ?_⟩
  intro env buff' n cwd base rs hint hoct hne hnt hpres hdir room hdel
  have hp := Echo.proper_tree hoct hshort h4 (by simp) hok' hsh
  obtain ⟨items, i1, i2, i3⟩ := hdel
  have hitems : items = tree.items := by
    refine C150_readable i1 (Echo.proper_items hp) ?_
    rw [i2, h5]
    simp only [List.flatMap_def, List.flatten_flatten, List.map_map]
    rfl
  subst hitems
  obtain ⟨ops, K', m1, m2⟩ := C152_get (n := n) (cwd := cwd) (path := base) hint (by rw [if_neg hne]) hnt hpres hdir hp room (Echo.dirs_nodup h4 hok' base) i3
  exact ⟨ops, K', m1, fun fuel hf => by rw [h5]; exact m2 fuel hf⟩

/-! ### The hypotheses are met -/

/-- The host of the examples, with modes read as octal numbers. -/
def echoHost : Host := { exHost with oct := fun t => if t.all Char.isDigit then some ((t.foldl (fun n c => 8 * n + (c.toNat - 48)) 0 : ℕ) : ℤ) else none }

example (m : ℕ) : echoHost.oct (octal4 m) = some ((m % 4096 : ℕ) : ℤ) := by
  have hd : ∀ d : ℕ, (Nat.digitChar (d % 8)).isDigit = true ∧ (Nat.digitChar (d % 8)).toNat - 48 = d % 8 := by
    intro d
    have key : ∀ e < 8, (Nat.digitChar e).isDigit = true ∧ (Nat.digitChar e).toNat - 48 = e := by decide
    exact key _ (Nat.mod_lt d (by norm_num))
  simp only [echoHost, octal4, List.all_cons, List.all_nil, hd, Bool.and_self, if_true, List.foldl_cons, List.foldl_nil, Option.some.injEq]
  omega

example (n : ℤ) : echoHost.int (digits n) = some n := exHost_int n

example (files dirs : List Text) (h : "/l".toList ∉ dirs) : HostRoom echoHost "/l".toList files dirs := by
  obtain ⟨h1, h2⟩ := exHost_room "/l".toList files dirs h
  exact ⟨h1, h2⟩

example : TreeOk (.cons "d".toList [] exDirs .nil) ∧ TreeShort (.cons "d".toList [] exDirs .nil) := by
  have hn : ∀ t : Text, t ≠ [] ∧ '/' ∉ t ∧ '\n' ∉ t → EntryName t := fun t h => ⟨h.1, h.2.1, h.2.2⟩
  have hs : ∀ t : Text, t.length ≤ 255 ∧ (t.getLast?.all fun c => blank c = false) → ShortName t :=
    fun t h => ⟨h.1, fun c hc => by have := h.2; rw [hc] at this; simpa using this⟩
  constructor
  · simp only [exDirs, TreeOk, List.forall_mem_cons, List.not_mem_nil, false_imp_iff, implies_true, and_true, true_and, topNames]
    repeat' constructor
    all_goals first | exact hn _ (by decide) | decide
  · simp only [exDirs, TreeShort, List.forall_mem_cons, List.not_mem_nil, false_imp_iff, implies_true, and_true, true_and]
    refine ⟨hs _ (by decide), hs _ (by decide), ⟨hs _ (by decide), by norm_num⟩, hs _ (by decide), hs _ (by decide), hs _ (by decide), by norm_num⟩

example (p : Text) (l : Local) (h : exDisk p = some l) : |l.stat.mtime| < 10 ^ 100 ∧ |l.stat.atime| < 10 ^ 100 := by
  unfold exDisk at h
  split_ifs at h <;> (injection h with h; subst h; norm_num)

/-- What is sent in the last example of C151 arrives, and `get` makes the tree. -/
example : (ScpWire.get echoHost 16384 30 1 [] "/l".toList
      [.data "D0755 0 d\n".toList, .data "D0700 0 s\n".toList, .data "C0644 1 f\n".toList, .data ['\x01'], .data ['\x00'], .data "D0700 0 u\n".toList,
        .data "E\n".toList, .data "E\n".toList, .data "D0700 0 t\n".toList, .data "C0644 1 g\n".toList, .data ['\x02'], .data ['\x00'], .data "E\n".toList,
        .data "E\n".toList, .eof]).map (fun r => r.toOption.map (fun c => c.ops.filter fun o => match o with | .utime _ _ => false | _ => true)) =
    some (some [.mkdir "/l/d".toList 493, .mkdir "/l/d/s".toList 448, .create "/l/d/s/f".toList, .write "/l/d/s/f".toList ['\x01'],
      .chmod "/l/d/s/f".toList 420, .mkdir "/l/d/s/u".toList 448, .mkdir "/l/d/t".toList 448, .create "/l/d/t/g".toList,
      .write "/l/d/t/g".toList ['\x02'], .chmod "/l/d/t/g".toList 420]) := by
  decide +kernel

end Verif.Props
