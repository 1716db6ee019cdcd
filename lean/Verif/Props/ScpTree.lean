import Verif.Spec.ScpTree
import Verif.Lemmas.Fs
import Mathlib.Tactic.Linarith

/-!
# Recursive sending and receiving with scp: C56, C57
-/

namespace Verif.Props
open Verif.Fs Verif.Scp Verif.Spec

/-! ### Path texts -/

/-- Names with a slash before each. -/
def slashed (ns : List Text) : Text := ns.flatMap fun n => '/' :: n

theorem slashed_append (ns ms : List Text) : slashed (ns ++ ms) = slashed ns ++ slashed ms := by
  simp [slashed]

/-- Text that is not empty and does not end in a slash. -/
def NoTrail (s : Text) : Prop := ∃ t c, s = t ++ [c] ∧ c ≠ '/'

theorem noTrail_append {s n : Text} (hn : NoTrail n) : NoTrail (s ++ n) := by
  obtain ⟨t, c, rfl, hc⟩ := hn
  exact ⟨s ++ t, c, by simp, hc⟩

theorem noTrail_name {n : Text} (hn : EntryName n) : NoTrail n := by
  have := List.dropLast_append_getLast hn.nonempty
  refine ⟨n.dropLast, n.getLast hn.nonempty, this.symm, fun h => hn.no_slash ?_⟩
  rw [← h]; exact List.getLast_mem _

theorem noTrail_slashed {base : Text} (hb : NoTrail base) {ns : List Text}
    (h : ∀ n ∈ ns, EntryName n) : NoTrail (base ++ slashed ns) := by
  induction ns using List.reverseRecOn with
  | nil => simpa [slashed] using hb
  | append_singleton ns n _ =>
    rw [slashed_append, ← List.append_assoc]
    have : slashed [n] = ['/'] ++ n := by simp [slashed]
    rw [this, ← List.append_assoc]
    exact noTrail_append (noTrail_name (h n (by simp)))

theorem join_noTrail {s n : Text} (hs : NoTrail s) (hn : '/' ∉ n) : join s n = s ++ '/' :: n := by
  obtain ⟨t, c, rfl, hc⟩ := hs
  unfold join
  rw [if_neg (head?_no_slash hn), if_neg]
  simp [hc]

theorem rstrip_noTrail {s : Text} (hs : NoTrail s) : rstrip s = s := by
  obtain ⟨t, c, rfl, hc⟩ := hs
  simp [rstrip, hc]

theorem dirName_slash {s r : Text} (hs : NoTrail s) (hr : '/' ∉ r) : dirName (s ++ '/' :: r) = s := by
  obtain ⟨t, c, rfl, hc⟩ := hs
  have h1 : ((t ++ [c]) ++ '/' :: r).reverse.dropWhile (· ≠ '/') = '/' :: c :: t.reverse := by
    rw [List.reverse_append, List.reverse_cons, List.append_assoc, List.dropWhile_append_of_pos (by
      intro x hx; simp at hx; simp; rintro rfl; exact hr hx)]
    simp
  unfold dirName
  rw [h1]
  simp [hc]

/-! ### Common prefixes -/

theorem commonPrefix_append (a s t : Text) :
    commonPrefix (a ++ s) (a ++ t) = a ++ commonPrefix s t := by
  induction a with
  | nil => rfl
  | cons c a ih => simp [commonPrefix, ih]

theorem commonPrefix_names {n m : Text} (hn : '/' ∉ n) (hm : '/' ∉ m) (hne : n ≠ m) (x y : Text) :
    '/' ∉ commonPrefix (n ++ '/' :: x) (m ++ '/' :: y) := by
  induction n generalizing m with
  | nil =>
    cases m with
    | nil => exact absurd rfl hne
    | cons b m =>
      have : '/' ≠ b := fun h => hm (by rw [h]; exact List.mem_cons_self ..)
      simp [commonPrefix, this]
  | cons a n ih =>
    have ha : a ≠ '/' := fun h => hn (by simp [h])
    cases m with
    | nil => simp [commonPrefix, ha]
    | cons b m =>
      simp only [List.cons_append, commonPrefix]
      by_cases hab : a = b
      · subst hab
        rw [if_pos rfl]
        simp only [List.mem_cons, not_or]
        refine ⟨Ne.symm ha, ih (fun h => hn (by simp [h])) (fun h => hm (by simp [h])) ?_⟩
        rintro rfl; exact hne rfl
      · rw [if_neg hab]; simp

/-- Common directory of a path below `d` and a directory in `d`, when the first does not go through
that directory. -/
theorem common_dir {base : Text} (hb : NoTrail base) {d x : List Text} {name : Text}
    (hd : ∀ n ∈ d, EntryName n) (hx : ∀ n ∈ x, EntryName n) (hname : EntryName name)
    (hhead : x.head? ≠ some name) :
    dirName (commonPrefix ((base ++ slashed (d ++ x)) ++ ['/'])
      ((base ++ slashed (d ++ [name])) ++ ['/'])) = base ++ slashed d := by
  rw [slashed_append, slashed_append, ← List.append_assoc, ← List.append_assoc, List.append_assoc,
    List.append_assoc (base ++ slashed d) (slashed [name]), commonPrefix_append]
  have hs : slashed [name] ++ ['/'] = '/' :: (name ++ '/' :: []) := by simp [slashed]
  rw [hs]
  cases x with
  | nil =>
    have : commonPrefix (slashed [] ++ ['/']) ('/' :: (name ++ '/' :: [])) = ['/'] := by
      simp [slashed, commonPrefix]
    rw [this]
    exact dirName_slash (noTrail_slashed hb hd) (by simp)
  | cons n x =>
    have hn := hx n (by simp)
    have hx' : slashed (n :: x) ++ ['/'] = '/' :: (n ++ '/' :: ((slashed x ++ ['/']).tail)) := by
      cases x with
      | nil => simp [slashed]
      | cons m x => simp [slashed]
    rw [hx', commonPrefix, if_pos rfl]
    apply dirName_slash (noTrail_slashed hb hd)
    apply commonPrefix_names hn.no_slash hname.no_slash
    rintro rfl
    simp at hhead

/-- Popping from a path below `d` to `d`. -/
theorem pops_below {base : Text} (hb : NoTrail base) {d x : List Text}
    (hd : ∀ n ∈ d, EntryName n) (hx : ∀ n ∈ x, EntryName n) {fuel : ℕ} (hf : x.length ≤ fuel) :
    pops fuel (base ++ slashed (d ++ x)) (base ++ slashed d) = some x.length := by
  induction fuel generalizing x with
  | zero =>
    have : x = [] := List.length_eq_zero_iff.1 (by omega)
    subst this
    simp [pops]
  | succ fuel ih =>
    cases x using List.reverseRecOn with
    | nil => simp [pops]
    | append_singleton x n =>
      have hne : base ++ slashed (d ++ (x ++ [n])) ≠ base ++ slashed d := by
        intro h
        have := congrArg List.length h
        simp [slashed] at this
      rw [pops, if_neg hne]
      have hn := hx n (by simp)
      have hdn : dirName (base ++ slashed (d ++ (x ++ [n]))) = base ++ slashed (d ++ x) := by
        rw [← List.append_assoc, slashed_append (d ++ x), ← List.append_assoc]
        have : slashed [n] = '/' :: n := by simp [slashed]
        rw [this]
        refine dirName_slash (noTrail_slashed hb ?_) hn.no_slash
        intro m hm
        rcases List.mem_append.1 hm with h | h
        · exact hd m h
        · exact hx m (by simp [h])
      rw [hdn, ih (fun m hm => hx m (by simp [hm])) (by simp at hf; omega)]
      simp

theorem wireName_plain {n : Text} (h : '\n' ∉ n) : wireName n = n := by
  unfold wireName
  apply replaceAll_not_infix
  rintro ⟨a, b, rfl⟩
  exact h (by simp)

/-- Changing from a path below `d` to a directory in `d`. -/
theorem chdir_below {base : Text} (hb : NoTrail base) {d x : List Text} {name : Text}
    (hd : ∀ n ∈ d, EntryName n) (hx : ∀ n ∈ x, EntryName n) (hname : EntryName name)
    (hhead : x.head? ≠ some name) {fuel : ℕ} (hf : x.length ≤ fuel) :
    chdir fuel (base ++ slashed (d ++ x)) (base ++ slashed (d ++ [name])) =
      some (List.replicate x.length .pop ++ [.push name]) := by
  unfold chdir
  have hall : ∀ n ∈ d ++ x, EntryName n := by
    intro n hn
    rcases List.mem_append.1 hn with h | h
    · exact hd n h
    · exact hx n h
  rw [common_dir hb hd hx hname hhead, rstrip_noTrail (noTrail_slashed hb hall), pops_below hb hd hx hf]
  have h1 : base ++ slashed (d ++ [name]) = (base ++ slashed d) ++ '/' :: name := by
    simp [slashed]
  rw [h1, baseName_append hname.no_slash, wireName_plain hname.no_newline]
  rfl

/-! ### Building -/

theorem buildAll_append (fs : List Frame) (es es' : List Event) :
    buildAll fs (es ++ es') = (buildAll fs es).bind fun gs => buildAll gs es' := by
  induction es generalizing fs with
  | nil => rfl
  | cons e es ih =>
    rw [List.cons_append, buildAll, buildAll]
    cases build fs e with
    | none => rfl
    | some gs => exact ih gs

theorem buildAll_files (f : Frame) (fs : List Frame) (files : List (Text × Bytes))
    (h : ∀ x ∈ files, EntryName x.1) :
    buildAll (f :: fs) (sendFiles files) = some ({ f with files := f.files ++ files } :: fs) := by
  induction files generalizing f with
  | nil => simp [sendFiles, buildAll]
  | cons x files ih =>
    have hx : sendFiles (x :: files) = .file x.1 x.2 :: sendFiles files := by
      simp [sendFiles, wireName_plain (h x (by simp)).no_newline]
    rw [hx, buildAll, build, Option.bind_some, ih _ (fun x hx => h x (by simp [hx]))]
    simp

theorem appendDirs_nil (d : Dirs) : appendDirs d .nil = d := by
  induction d with
  | nil => rfl
  | cons n f s r _ ih => simp [appendDirs, ih]

theorem appendDirs_assoc (a b c : Dirs) :
    appendDirs (appendDirs a b) c = appendDirs a (appendDirs b c) := by
  induction a with
  | nil => rfl
  | cons n f s r _ ih => simp [appendDirs, ih]

theorem pushed_append (es es' : List Event) : pushed (es ++ es') = pushed es + pushed es' := by
  induction es with
  | nil => simp [pushed]
  | cons e es ih => cases e <;> simp [pushed, ih] <;> omega

theorem pushed_files (files : List (Text × Bytes)) : pushed (sendFiles files) = 0 := by
  unfold sendFiles
  induction files with
  | nil => rfl
  | cons x files ih => simp [pushed, ih]

theorem pushed_pops (n : ℕ) : pushed (List.replicate n .pop) = -n := by
  induction n with
  | zero => rfl
  | succ n ih => rw [List.replicate_succ, pushed, ih]; push_cast; omega

/-! ### The walk -/

/-- The directory visited last. -/
def lastDir (last : Text) (w : List (Text × List (Text × Bytes))) : Text :=
  (w.getLast?.map Prod.fst).getD last

theorem lastDir_cons (last : Text) (x : Text × List (Text × Bytes)) (w) :
    lastDir last (x :: w) = lastDir x.1 w := by
  unfold lastDir
  cases h : w.getLast? with
  | none => rw [List.getLast?_eq_none_iff] at h; simp [h]
  | some y => simp [List.getLast?_cons, h]

theorem lastDir_append (last : Text) (w w' : List (Text × List (Text × Bytes))) :
    lastDir last (w ++ w') = lastDir (lastDir last w) w' := by
  induction w generalizing last with
  | nil => simp [lastDir]
  | cons x w ih => rw [List.cons_append, lastDir_cons, ih, lastDir_cons]

theorem sendWalk_append {fuel : ℕ} {last : Text} {w w' : List (Text × List (Text × Bytes))}
    {es es' : List Event} (h : sendWalk fuel last w = some es)
    (h' : sendWalk fuel (lastDir last w) w' = some es') :
    sendWalk fuel last (w ++ w') = some (es ++ es') := by
  induction w generalizing last es with
  | nil =>
    simp only [sendWalk, Option.some.injEq] at h
    subst h
    simpa [lastDir] using h'
  | cons x w ih =>
    obtain ⟨root, files⟩ := x
    rw [lastDir_cons] at h'
    rw [List.cons_append]
    rw [sendWalk] at h ⊢
    cases h1 : chdir fuel last root with
    | none => simp [h1] at h
    | some e1 =>
      cases h2 : sendWalk fuel root w with
      | none => simp [h1, h2] at h
      | some e2 =>
        simp only [h1, h2, Option.some.injEq] at h
        subst h
        rw [ih h2 h']
        simp

/-- Depth of a tree. -/
def depth : Dirs → ℕ
  | .nil => 0
  | .cons _ _ s r => max (depth s + 1) (depth r)

/-- The directories below `d`, from a path below `d`. `t` are the open directories once the directories
below `d` are closed. -/
theorem walk_spec {base : Text} (hb : NoTrail base) {fuel : ℕ} (D : Dirs) (hD : TreeOk D)
    (hfuel : depth D ≤ fuel) :
    ∀ (d x : List Text) (fs : List Frame) (t : Frame) (ts : List Frame),
    (∀ n ∈ d, EntryName n) → (∀ n ∈ x, EntryName n) → (∀ n, x.head? = some n → n ∉ topNames D) →
    x.length ≤ fuel → buildAll fs (List.replicate x.length .pop) = some (t :: ts) →
    ∃ es x', sendWalk fuel (base ++ slashed (d ++ x)) (walk (base ++ slashed d) D) = some es ∧
      lastDir (base ++ slashed (d ++ x)) (walk (base ++ slashed d) D) = base ++ slashed (d ++ x') ∧
      (∀ n ∈ x', EntryName n) ∧ x'.length ≤ max x.length (depth D) ∧
      buildAll fs (es ++ List.replicate x'.length .pop) =
        some ({ t with subs := appendDirs t.subs D } :: ts) ∧
      pushed es = (x'.length : ℤ) - x.length := by
  induction D with
  | nil =>
    intro d x fs t ts hd hx hhead hxf hbuild
    exact ⟨[], x, rfl, rfl, hx, le_max_left _ _,
      by simpa [appendDirs_nil] using hbuild, by simp [pushed]⟩
  | cons name files subs rest ihs ihr =>
    intro d x fs t ts hd hx hhead hxf hbuild
    obtain ⟨hname, hfiles, hnot, hsubs, hrest⟩ := hD
    have hds : depth subs + 1 ≤ fuel := le_trans (le_max_left _ _) hfuel
    have hdr : depth rest ≤ fuel := le_trans (le_max_right _ _) hfuel
    have hjoin : join (base ++ slashed d) name = base ++ slashed (d ++ [name]) := by
      rw [join_noTrail (noTrail_slashed hb hd) hname.no_slash]
      simp [slashed]
    have hchdir := chdir_below hb hd hx hname (fun h => hhead name h (by simp [topNames])) hxf
    have hdn : ∀ n ∈ d ++ [name], EntryName n := by
      intro n hn
      rcases List.mem_append.1 hn with h | h
      · exact hd n h
      · rw [List.mem_singleton] at h; subst h; exact hname
    -- the sub-directories
    obtain ⟨es1, x1, s1, l1, p1, f1, b1, u1⟩ := ihs hsubs (by omega) (d ++ [name]) []
      (⟨name, files, .nil⟩ :: t :: ts) ⟨name, files, .nil⟩ (t :: ts) hdn (by simp) (by simp) (by simp)
      rfl
    rw [List.append_nil] at s1 l1
    have hx1 : d ++ [name] ++ x1 = d ++ (name :: x1) := by simp
    rw [hx1] at l1
    have f1' : x1.length ≤ depth subs := by simpa using f1
    -- this directory with its files and sub-directories
    have hfirst : sendWalk fuel (base ++ slashed (d ++ x))
        ((base ++ slashed (d ++ [name]), files) :: walk (base ++ slashed (d ++ [name])) subs) =
        some (List.replicate x.length .pop ++ [.push name] ++ sendFiles files ++ es1) := by
      rw [sendWalk, hchdir, s1]
    have hb1 : buildAll fs ((List.replicate x.length .pop ++ [.push name] ++ sendFiles files ++ es1) ++
        List.replicate x1.length .pop) = some (⟨name, files, subs⟩ :: t :: ts) := by
      rw [List.append_assoc, List.append_assoc, List.append_assoc, buildAll_append, hbuild,
        Option.bind_some, List.singleton_append, buildAll]
      have : build (t :: ts) (.push name) = some (⟨name, [], .nil⟩ :: t :: ts) := rfl
      rw [this, Option.bind_some, buildAll_append, buildAll_files _ _ _ hfiles, Option.bind_some,
        List.nil_append, b1]
      rfl
    -- the other directories
    have hb2 : ∀ gs, buildAll fs (List.replicate x.length .pop ++ [.push name] ++ sendFiles files ++ es1) =
        some gs → buildAll gs (List.replicate (name :: x1).length .pop) =
          some ({ t with subs := appendDirs t.subs (.cons name files subs .nil) } :: ts) := by
      intro gs hgs
      rw [buildAll_append, hgs, Option.bind_some] at hb1
      rw [List.length_cons, List.replicate_succ', buildAll_append, hb1]
      rfl
    cases hgs : buildAll fs (List.replicate x.length .pop ++ [.push name] ++ sendFiles files ++ es1) with
    | none => rw [buildAll_append, hgs] at hb1; simp at hb1
    | some gs =>
      obtain ⟨es2, x2, s2, l2, p2, f2, b2, u2⟩ := ihr hrest hdr d (name :: x1) gs _ ts hd
        (by
          intro n hn
          rcases List.mem_cons.1 hn with rfl | h
          · exact hname
          · exact p1 n h)
        (by
          intro n hn
          simp only [List.head?_cons, Option.some.injEq] at hn
          subst hn; exact hnot)
        (by simp; omega) (hb2 gs hgs)
      refine ⟨List.replicate x.length .pop ++ [.push name] ++ sendFiles files ++ es1 ++ es2, x2, ?_, ?_,
        p2, ?_, ?_, ?_⟩
      · rw [Scp.walk, hjoin]
        apply sendWalk_append hfirst
        rw [lastDir_cons, l1]
        exact s2
      · rw [Scp.walk, hjoin, lastDir_append, lastDir_cons, l1, l2]
      · rw [List.length_cons] at f2
        have : depth (.cons name files subs rest) = max (depth subs + 1) (depth rest) := rfl
        rw [this]
        omega
      · rw [List.append_assoc, buildAll_append, hgs, Option.bind_some, b2]
        simp only [appendDirs_assoc, appendDirs]
      · rw [pushed_append, pushed_append, pushed_append, pushed_append, pushed_pops, pushed_files, u1, u2]
        simp only [pushed, List.length_cons, List.length_nil]
        push_cast
        omega

/-- **C56** (partial). Sending a directory recursively ends, and a receiver that follows the messages in
an empty directory ends up with all directories closed and exactly the tree that was sent, for every
tree with plain names. What is missing: directory arguments that end in a slash, and names with line
feeds, see the violations below. -/
theorem C56_recursive_partial {pre name : Text} (hpre : pre = [] ∨ pre.getLast? = some '/')
    (hname : EntryName name) {files : List (Text × Bytes)} (hfiles : ∀ f ∈ files, EntryName f.1)
    {subs : Dirs} (hsubs : TreeOk subs) :
    ∃ es fuel, (∀ m, fuel ≤ m → sendRecursive m (pre ++ name) files subs = some es) ∧
      Recreates es (.cons name files subs .nil) := by
  have hb : NoTrail (pre ++ name) := noTrail_append (noTrail_name hname)
  have hbase : baseName (pre ++ name) = name := by
    rcases hpre with rfl | h
    · exact baseName_word hname.no_slash
    · obtain ⟨p, rfl⟩ : ∃ p, pre = p ++ ['/'] := by
        cases pre using List.reverseRecOn with
        | nil => simp at h
        | append_singleton p c =>
          simp at h; exact ⟨p, by rw [h]⟩
      rw [List.append_assoc]
      exact baseName_append hname.no_slash
  have key : ∀ m, depth subs ≤ m → ∃ es x, sendWalk m (pre ++ name) (walk (pre ++ name) subs) = some es ∧
      buildAll (⟨name, files, .nil⟩ :: [⟨[], [], .nil⟩]) (es ++ List.replicate x .pop) =
        some (⟨name, files, subs⟩ :: [⟨[], [], .nil⟩]) ∧ pushed es = x := by
    intro m hm
    obtain ⟨es, x, s, _, _, _, b, u⟩ := walk_spec hb subs hsubs hm [] []
      (⟨name, files, .nil⟩ :: [⟨[], [], .nil⟩]) ⟨name, files, .nil⟩ [⟨[], [], .nil⟩] (by simp) (by simp)
      (by simp) (by simp) rfl
    refine ⟨es, x.length, by simpa [slashed] using s, b, by simpa using u⟩
  have hch : ∀ m, chdir m (pre ++ name) (pre ++ name) = some [.push name] := by
    intro m
    have h1 : commonPrefix (pre ++ name ++ ['/']) (pre ++ name ++ ['/']) = pre ++ name ++ ['/'] := by
      have := commonPrefix_append (pre ++ name ++ ['/']) [] []
      simpa [commonPrefix] using this
    have h2 := dirName_slash hb (r := []) (by simp)
    unfold chdir
    rw [h1, h2, rstrip_noTrail hb, hbase, wireName_plain hname.no_newline]
    have : pops m (pre ++ name) (pre ++ name) = some 0 := by cases m <;> simp [pops]
    rw [this]
    rfl
  have hsend : ∀ m es x, sendWalk m (pre ++ name) (walk (pre ++ name) subs) = some es →
      pushed es = (x : ℕ) → sendRecursive m (pre ++ name) files subs =
      some ([.push name] ++ sendFiles files ++ es ++ List.replicate (x + 1) .pop) := by
    intro m es x h hx
    unfold sendRecursive walkBase
    rw [sendWalk, hch, h]
    simp only [Option.map_some, Option.some.injEq]
    congr 2
    rw [pushed_append, pushed_append, pushed_files, hx]
    simp [pushed]
    omega
  obtain ⟨es, x, h1, h2, h3⟩ := key (depth subs) le_rfl
  refine ⟨[.push name] ++ sendFiles files ++ es ++ List.replicate (x + 1) .pop, depth subs, ?_, ?_⟩
  · intro m hm
    obtain ⟨es', x', k1, k2, k3⟩ := key m hm
    rw [hsend m es' x' k1 k3]
    -- more rounds make no difference
    have hmono : ∀ (n m : ℕ) (cur common : Text) (r : ℕ), n ≤ m → pops n cur common = some r →
        pops m cur common = some r := by
      intro n
      induction n with
      | zero =>
        intro m cur common r _ h
        rw [pops] at h
        by_cases he : cur = common
        · rw [if_pos he] at h
          cases m <;> simp [pops, he] <;> simpa using h
        · rw [if_neg he] at h; simp at h
      | succ n ih =>
        intro m cur common r hnm h
        cases m with
        | zero => omega
        | succ m =>
          rw [pops] at h ⊢
          by_cases he : cur = common
          · rwa [if_pos he] at h ⊢
          · rw [if_neg he] at h ⊢
            obtain ⟨r', hr', rfl⟩ := Option.map_eq_some_iff.1 h
            rw [ih m _ _ r' (by omega) hr']
            rfl
    have hmono2 : ∀ (n m : ℕ) (w : List (Text × List (Text × Bytes))) (last : Text) (r : List Event),
        n ≤ m → sendWalk n last w = some r → sendWalk m last w = some r := by
      intro n m w
      induction w with
      | nil => intro last r _ h; exact h
      | cons y w ih =>
        obtain ⟨root, fl⟩ := y
        intro last r hnm h
        rw [sendWalk] at h ⊢
        cases c1 : chdir n last root with
        | none => simp [c1] at h
        | some e1 =>
          have c1' : chdir m last root = some e1 := by
            unfold chdir at c1 ⊢
            obtain ⟨q, hq, rfl⟩ := Option.map_eq_some_iff.1 c1
            rw [hmono n m _ _ q hnm hq]
            rfl
          cases c2 : sendWalk n root w with
          | none => simp [c1, c2] at h
          | some e2 =>
            simp only [c1, c2] at h
            simp only [c1', ih root e2 hnm c2]
            exact h
    have := hmono2 _ _ _ _ _ hm h1
    rw [this, Option.some.injEq] at k1
    subst k1
    rw [h3] at k3
    have : x = x' := by exact_mod_cast k3
    rw [this]
  · unfold Recreates
    rw [List.replicate_succ', ← List.append_assoc, List.append_assoc, List.append_assoc,
      List.singleton_append, List.cons_append, buildAll]
    have h0 : build [⟨[], [], .nil⟩] (.push name) = some (⟨name, [], .nil⟩ :: [⟨[], [], .nil⟩]) := rfl
    rw [h0, Option.bind_some, buildAll_append, buildAll_files _ _ _ hfiles,
      Option.bind_some, List.nil_append, ← List.append_assoc es, buildAll_append, h2]
    rfl

/-- A tree for the examples: `s` holds `u`, which is empty, and `t`. -/
def exDirs : Dirs :=
  .cons "s".toList [("f".toList, [1])] (.cons "u".toList [] .nil .nil)
    (.cons "t".toList [("g".toList, [2])] .nil .nil)

theorem exDirs_ok : TreeOk exDirs := by
  have hp : ∀ n : Text, n ≠ [] ∧ '/' ∉ n ∧ '\n' ∉ n → EntryName n := fun n h => ⟨h.1, h.2.1, h.2.2⟩
  unfold exDirs
  simp only [TreeOk, topNames, List.mem_singleton, forall_eq, List.not_mem_nil, false_imp_iff,
    implies_true, and_true, not_false_eq_true]
  exact ⟨hp _ (by decide), hp _ (by decide), by decide, hp _ (by decide), hp _ (by decide),
    hp _ (by decide)⟩

example : sendRecursive 10 "/a/d".toList [] exDirs = some
    [.push "d".toList, .push "s".toList, .file "f".toList [1], .push "u".toList, .pop, .pop,
     .push "t".toList, .file "g".toList [2], .pop, .pop] := by decide +kernel

/-- **C56** violated: when the argument ends in a slash, the directory is announced without a name. -/
theorem C56_trailing_slash_violated (files : List (Text × Bytes)) {name : Text}
    (hname : EntryName name) (fuel : ℕ) :
    sendRecursive fuel (name ++ ['/']) files .nil =
      some ([.push []] ++ sendFiles files ++ [.pop]) := by
  have hb := noTrail_name hname
  have h1 : commonPrefix (name ++ ['/'] ++ ['/']) (name ++ ['/'] ++ ['/']) = name ++ ['/'] ++ ['/'] := by
    have := commonPrefix_append (name ++ ['/'] ++ ['/']) [] []
    simpa [commonPrefix] using this
  have h2 : dirName (name ++ ['/'] ++ ['/']) = name := by
    obtain ⟨t, c, rfl, hc⟩ := hb
    simp [dirName, hc]
  have h3 : rstrip (name ++ ['/']) = name := by
    obtain ⟨t, c, rfl, hc⟩ := hb
    simp [rstrip, hc]
  have h4 : baseName (name ++ ['/']) = [] := by simp [baseName]
  have h5 : wireName [] = [] := by simp [wireName, replaceAll]
  have h6 : pops fuel name name = some 0 := by cases fuel <;> simp [pops]
  unfold sendRecursive walkBase
  simp only [Scp.walk, sendWalk, chdir, h1, h2, h3, h4, h5, h6, Option.map_some, Option.some.injEq,
    List.replicate_zero, List.nil_append, List.append_nil]
  congr 1
  rw [pushed_append, pushed_files]
  simp [pushed]

/-- **C56** violated: the root directory cannot be sent, the loop that leaves directories never
ends. -/
theorem C56_root_violated (files : List (Text × Bytes)) (subs : Dirs) (fuel : ℕ) :
    sendRecursive fuel ['/'] files subs = none := by
  have h1 : rstrip ['/'] = [] := by decide
  have h2 : dirName (commonPrefix (['/'] ++ ['/']) (['/'] ++ ['/'])) = ['/', '/'] := by decide
  have h3 : dirName [] = [] := by decide
  have h4 : pops fuel [] ['/', '/'] = none := by
    induction fuel with
    | zero => rfl
    | succ n ih => rw [pops, if_neg (by decide), h3, ih]; rfl
  unfold sendRecursive walkBase
  simp only [sendWalk, chdir, h1, h2, h4, Option.map_none]

/-- **C56** violated: a line feed in a name arrives as the three characters `\\^J`. -/
theorem C56_newline_violated :
    ∃ n : Text, n ≠ [] ∧ '/' ∉ n ∧
      sendRecursive 3 "d".toList [(n, [])] .nil =
        some [.push "d".toList, .file "a\\^Jb".toList [], .pop] ∧ n = "a\nb".toList :=
  ⟨"a\nb".toList, by decide, by decide, by decide +kernel, rfl⟩

/-! ### C57 -/

/-- A name that, put below a directory, names an entry of that directory. -/
structure SafeName (n : Text) : Prop extends EntryName n where
  not_dot : n ≠ ['.']
  not_dots : n ≠ ['.', '.']

/-- Messages that keep a receiver inside its directory, at the given depth: all names are plain, and the
directory it started in is left only at the very end. -/
def StaysInside : ℕ → List Event → Prop
  | _, [] => True
  | d, .file n _ :: es => SafeName n ∧ StaysInside d es
  | d, .push n :: es => SafeName n ∧ StaysInside (d + 1) es
  | 0, .pop :: es => es = []
  | d + 1, .pop :: es => StaysInside d es

/-- A path made of the given directory and plain names below it. -/
def Below (base p : Text) : Prop := ∃ ns, (∀ n ∈ ns, SafeName n) ∧ p = base ++ slashed ns

theorem written_inside {base : Text} (hb : NoTrail base) (es : List Event) :
    ∀ ns, (∀ n ∈ ns, SafeName n) → StaysInside ns.length es →
    ∀ p ∈ written ⟨base ++ slashed ns, false⟩ es, Below base p ∧ p ≠ base := by
  have hbelow : ∀ (ns : List Text) (n : Text), (∀ n ∈ ns, SafeName n) → SafeName n →
      join (base ++ slashed ns) n = base ++ slashed (ns ++ [n]) := by
    intro ns n hns hn
    rw [join_noTrail (noTrail_slashed hb fun m hm => (hns m hm).toEntryName) hn.no_slash]
    simp [slashed]
  have hplain : ∀ (ns : List Text) (n : Text), (∀ n ∈ ns, SafeName n) → SafeName n →
      ∀ m ∈ ns ++ [n], SafeName m := by
    intro ns n hns hn m hm
    rcases List.mem_append.1 hm with h | h
    · exact hns m h
    · rw [List.mem_singleton] at h; subst h; exact hn
  have hne : ∀ (ns : List Text) (n : Text), base ++ slashed (ns ++ [n]) ≠ base := by
    intro ns n h
    have := congrArg List.length h
    simp [slashed] at this
  induction es with
  | nil => intro ns _ _ p hp; simp [written] at hp
  | cons e es ih =>
    intro ns hns hin p hp
    cases e with
    | file n b =>
      obtain ⟨hn, hin⟩ := hin
      rw [written] at hp
      simp only [receive, target, Bool.false_eq_true, if_false, Option.toList_some, List.singleton_append,
        List.mem_cons] at hp
      rcases hp with rfl | hp
      · rw [hbelow ns n hns hn]
        exact ⟨⟨ns ++ [n], hplain ns n hns hn, rfl⟩, hne ns n⟩
      · exact ih ns hns hin p hp
    | push n =>
      obtain ⟨hn, hin⟩ := hin
      rw [written] at hp
      simp only [receive, target, Bool.false_eq_true, if_false, Option.toList_some, List.singleton_append,
        List.mem_cons] at hp
      rw [hbelow ns n hns hn] at hp
      rcases hp with rfl | hp
      · exact ⟨⟨ns ++ [n], hplain ns n hns hn, rfl⟩, hne ns n⟩
      · exact ih (ns ++ [n]) (hplain ns n hns hn) (by simpa using hin) p hp
    | pop =>
      cases ns using List.reverseRecOn with
      | nil =>
        have : es = [] := hin
        subst this
        simp [written, receive] at hp
      | append_singleton ns n =>
        have hn := hns n (by simp)
        rw [List.length_append, List.length_singleton] at hin
        rw [written] at hp
        have hdir : dirName (base ++ slashed (ns ++ [n])) = base ++ slashed ns := by
          have : base ++ slashed (ns ++ [n]) = (base ++ slashed ns) ++ '/' :: n := by simp [slashed]
          rw [this]
          exact dirName_slash (noTrail_slashed hb fun m hm => (hns m (by simp [hm])).toEntryName) hn.no_slash
        simp only [receive, hdir, Option.toList_none, List.nil_append] at hp
        exact ih ns (fun m hm => hns m (by simp [hm])) hin p hp

/-- **C57** (partial). When all names the server sends are plain and it does not leave the target
directory, everything that is written or made is below the target directory; when the target is renamed
(a single path to a target that does not exist) the first thing is the target itself. What is missing:
servers that send other names or leave the directory, see the violations below. -/
theorem C57_inside_partial {base : Text} (hb : NoTrail base) :
    (∀ es, StaysInside 0 es → ∀ p ∈ written ⟨base, false⟩ es, Below base p ∧ p ≠ base) ∧
    (∀ n b es, StaysInside 0 es → ∀ p ∈ written ⟨base, true⟩ (.file n b :: es), Below base p) ∧
    (∀ n es, StaysInside 0 es → ∀ p ∈ written ⟨base, true⟩ (.push n :: es), Below base p) := by
  have key : ∀ es, StaysInside 0 es → ∀ p ∈ written ⟨base, false⟩ es, Below base p ∧ p ≠ base := by
    intro es h p hp
    exact written_inside hb es [] (by simp) h p (by simpa [slashed] using hp)
  have self : Below base base := ⟨[], by simp, by simp [slashed]⟩
  refine ⟨key, ?_, ?_⟩
  · intro n b es h p hp
    rw [written] at hp
    simp only [receive, target, if_true, Option.toList_some, List.singleton_append, List.mem_cons] at hp
    rcases hp with rfl | hp
    · exact self
    · exact (key es h p hp).1
  · intro n es h p hp
    rw [written] at hp
    simp only [receive, target, if_true, Option.toList_some, List.singleton_append, List.mem_cons] at hp
    rcases hp with rfl | hp
    · exact self
    · exact (key es h p hp).1

example : StaysInside 0 [.push "d".toList, .file "f".toList [1], .pop, .file "g".toList [2]] ∧
    written ⟨"/l".toList, false⟩ [.push "d".toList, .file "f".toList [1], .pop, .file "g".toList [2]] =
      ["/l/d".toList, "/l/d/f".toList, "/l/g".toList] := by
  have hp : ∀ n : Text, (n ≠ [] ∧ '/' ∉ n ∧ '\n' ∉ n) ∧ n ≠ ['.'] ∧ n ≠ ['.', '.'] → SafeName n :=
    fun n h => ⟨⟨h.1.1, h.1.2.1, h.1.2.2⟩, h.2.1, h.2.2⟩
  refine ⟨⟨hp _ (by decide), hp _ (by decide), hp _ (by decide), trivial⟩, by decide +kernel⟩

/-- **C57** violated: whatever the target directory is, a server can write any absolute path. -/
theorem C57_absolute_violated (base p : Text) (b : Bytes) :
    written ⟨base, false⟩ [.file ('/' :: p) b] = ['/' :: p] := by
  simp [written, receive, target, join]

/-- **C57** violated: a server can name a file in the directory above, and it can leave the target
directory and write files next to it. -/
theorem C57_parent_violated {parent name : Text} (hp : NoTrail parent) (hname : EntryName name)
    (b : Bytes) :
    written ⟨parent ++ '/' :: name, false⟩ [.file "../x".toList b] =
      [parent ++ '/' :: name ++ "/../x".toList] ∧
    written ⟨parent ++ '/' :: name, false⟩ [.pop, .file "x".toList b] = [parent ++ "/x".toList] ∧
    written ⟨parent ++ '/' :: name, true⟩ [.push name, .pop, .file "x".toList b] =
      [parent ++ '/' :: name, parent ++ "/x".toList] := by
  have hb : NoTrail (parent ++ '/' :: name) := by
    have : parent ++ '/' :: name = (parent ++ ['/']) ++ name := by simp
    rw [this]; exact noTrail_append (noTrail_name hname)
  have hd := dirName_slash hp hname.no_slash
  have hx : "x".toList = ['x'] := by decide
  have hx2 : "/x".toList = ['/', 'x'] := by decide
  have hx3 : "../x".toList = ['.', '.', '/', 'x'] := by decide
  have hx4 : "/../x".toList = ['/', '.', '.', '/', 'x'] := by decide
  have hj : join parent ['x'] = parent ++ ['/', 'x'] := join_noTrail hp (by decide)
  have hj2 : join (parent ++ '/' :: name) ['.', '.', '/', 'x'] =
      parent ++ '/' :: name ++ ['/', '.', '.', '/', 'x'] := by
    obtain ⟨t, c, h, hc⟩ := hb
    rw [h]
    unfold join
    rw [if_neg (by decide), if_neg (by simp [hc])]
  refine ⟨?_, ?_, ?_⟩
  · simp only [written, receive, target, Bool.false_eq_true, if_false, hx3, hx4, hj2]
    rfl
  · simp only [written, receive, target, Bool.false_eq_true, if_false, hx, hx2, hd, hj]
    rfl
  · simp only [written, receive, target, Bool.false_eq_true, if_false, if_true, hx, hx2, hd, hj]
    rfl

end Verif.Props
