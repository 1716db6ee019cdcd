import Verif.Lemmas.FtpLive
import Verif.Props.CopySender
import Verif.Spec.CopyRetry

/-!
# Interrupted copies that are repeated (C210)
-/

namespace Verif.Props
open Verif.Fs Verif.Sender Verif.Spec

namespace Retry

/-! ### Runs -/

theorem runAll_append (a b : List Prim) (fs : FS) : runAll (a ++ b) fs = andThen (runAll a fs) fun s _ => runAll b s := by
  induction a generalizing fs with
  | nil => simp [runAll, done, andThen]
  | cons p a ih =>
    simp only [List.cons_append, runAll]
    cases h : exec fs p with
    | error e => simp [andThen, fail]
    | ok s =>
      simp only [ih s]
      unfold andThen
      cases (runAll a s).out <;> simp

theorem runAll_keeps {Inv : FS → Prop} (ps : List Prim) (h : ∀ p ∈ ps, ∀ s s', Inv s → exec s p = .ok s' → Inv s') (fs : FS) (h0 : Inv fs) :
    ∀ s, Visits (runAll ps fs) s → Inv s := by
  induction ps generalizing fs with
  | nil => intro s hs; rw [visits_done hs]; exact h0
  | cons p ps ih =>
    intro s hs
    rw [runAll] at hs
    cases he : exec fs p with
    | error e =>
      rw [he] at hs
      rcases hs with hs | rfl
      · cases hs
      · exact h0
    | ok s' =>
      rw [he] at hs
      have h1 := h p (by simp) fs s' h0 he
      have ih' := ih (fun q hq => h q (by simp [hq])) s' h1
      rcases hs with hs | rfl
      · rcases List.mem_cons.1 hs with rfl | hs
        · exact h1
        · exact ih' s (Or.inl hs)
      · exact ih' _ (Or.inr rfl)

theorem andThen_keeps {α β : Type} {Inv : FS → Prop} {r : Run α} {f : FS → α → Run β} (h1 : ∀ s, Visits r s → Inv s)
    (h2 : ∀ a, r.out = .ok a → Inv r.fs → ∀ s, Visits (f r.fs a) s → Inv s) : ∀ s, Visits (andThen r f) s → Inv s := by
  intro s hs
  rcases visits_andThen hs with hs | ⟨a, ha, hs⟩
  · exact h1 s hs
  · exact h2 a ha (h1 _ (Or.inr rfl)) s hs

theorem andThen_out {α β : Type} {r : Run α} {f : FS → α → Run β} {a : α} (h : r.out = .ok a) :
    (andThen r f).out = (f r.fs a).out ∧ (andThen r f).fs = (f r.fs a).fs := by
  unfold andThen; rw [h]; exact ⟨rfl, rfl⟩

theorem prefixes_concat (p : Path) (w : Text) : prefixes (p ++ [w]) = prefixes p ++ [p ++ [w]] := by
  unfold prefixes
  rw [List.length_append, List.length_singleton, List.range_succ, List.map_append, List.map_singleton]
  congr 1
  · apply List.map_congr_left
    intro n hn
    rw [List.mem_range] at hn
    rw [List.take_append_of_le_length (by omega)]
  · simp

theorem mem_prefixes {p q : Path} (h : q ∈ prefixes p) : q <+: p := by
  unfold prefixes at h
  obtain ⟨n, _, rfl⟩ := List.mem_map.1 h
  exact List.take_prefix _ _

theorem mkdirs_ok (p : Path) (fs : FS) (h : ∀ q, q <+: p → contents fs q = none) :
    (runAll (((prefixes p).filter (fun q => get fs q = none)).map .mkdir) fs).out = .ok () ∧
    isDir (runAll (((prefixes p).filter (fun q => get fs q = none)).map .mkdir) fs).fs p = true ∧
    ∀ q, ¬ q <+: p → get (runAll (((prefixes p).filter (fun q => get fs q = none)).map .mkdir) fs).fs q = get fs q := by
  induction p using List.reverseRecOn with
  | nil => simp [prefixes, runAll, done, isDir]
  | append_singleton p w ih =>
    obtain ⟨i1, i2, i3⟩ := ih (fun q hq => h q (hq.trans (List.prefix_append _ _)))
    have hnp : ¬ p ++ [w] <+: p := fun hc => by have := hc.length_le; simp at this
    rw [prefixes_concat, List.filter_append, List.map_append, runAll_append]
    obtain ⟨o1, o2⟩ := andThen_out (f := fun s _ => runAll (([p ++ [w]].filter (fun q => get fs q = none)).map .mkdir) s) i1
    rw [o1, o2]
    generalize (runAll (((prefixes p).filter (fun q => get fs q = none)).map .mkdir) fs).fs = s at *
    by_cases hn : get fs (p ++ [w]) = none
    · have he : exec s (.mkdir (p ++ [w])) = .ok (set s (p ++ [w]) .dir) := by
        have := i3 _ hnp
        rw [hn] at this
        simp [exec, this, i2]
      have hr : runAll (([p ++ [w]].filter (fun q => get fs q = none)).map .mkdir) s = ⟨[set s (p ++ [w]) .dir], set s (p ++ [w]) .dir, .ok ()⟩ := by
        simp [hn, runAll, he, done]
      rw [hr]
      refine ⟨rfl, by simp [isDir, get_set], fun q hq => ?_⟩
      simp only
      rw [get_set, if_neg (fun hc => hq (by rw [hc])), i3 q (fun hc => hq (hc.trans (List.prefix_append _ _)))]
    · have hr : runAll (([p ++ [w]].filter (fun q => get fs q = none)).map .mkdir) s = done s () := by simp [hn, runAll]
      rw [hr]
      refine ⟨rfl, ?_, fun q hq => ?_⟩
      · have hc := h _ (List.prefix_refl (p ++ [w]))
        have hg := i3 _ hnp
        simp only [done, isDir, Bool.or_eq_true, beq_iff_eq]
        right
        rw [hg]
        unfold contents at hc
        cases hx : get fs (p ++ [w]) with
        | none => exact absurd hx hn
        | some n => cases n with
          | dir => rfl
          | file b => rw [hx] at hc; simp at hc
      · simp only [done]
        exact i3 q (fun hc => hq (hc.trans (List.prefix_append _ _)))

theorem makedirs_ok (p : Path) (fs : FS) (h : ∀ q, q <+: p → contents fs q = none) (hp : isDir fs p = false) :
    (makedirs fs p).out = .ok () ∧ isDir (makedirs fs p).fs p = true := by
  obtain ⟨hn, _⟩ := Ftp.isDir_not_file hp (h p (List.prefix_refl p))
  have he : (prefixes p).filter (fun q => get fs q = none ∨ q = p) = (prefixes p).filter (fun q => get fs q = none) := by
    apply List.filter_congr
    intro q _
    by_cases hq : q = p
    · subst hq; simp [hn]
    · simp [hq]
  unfold makedirs
  rw [he]
  exact ⟨(mkdirs_ok p fs h).1, (mkdirs_ok p fs h).2.1⟩

/-! ### What stays true -/

/-- What stays true while files are sent, seen from the file system `fs` at the start. -/
structure Inv (cwd : Path) (c : Config) (fs s : FS) : Prop where
  clear : ∀ p b, Sends cwd c fs p b → get s p ≠ some .dir
  temp : ∀ rel, rel ≠ [] → TempPath rel → get s (resolve cwd c.remote ++ rel) ≠ some .dir
  free : ∀ f q, CopyFolder cwd c fs f → q <+: f → contents s q = none
  keep : ∀ q, ¬ resolve cwd c.remote <+: q → contents s q = contents fs q

/-- The operations of a send. -/
def Allowed (cwd : Path) (c : Config) (fs : FS) : Prim → Prop
  | .create t => ∃ rel, rel ≠ [] ∧ TempPath rel ∧ t = resolve cwd c.remote ++ rel
  | .append t _ => ∃ rel, rel ≠ [] ∧ TempPath rel ∧ t = resolve cwd c.remote ++ rel
  | .rename t d => (∃ rel, rel ≠ [] ∧ TempPath rel ∧ t = resolve cwd c.remote ++ rel) ∧ ∃ b, Sends cwd c fs d b
  | .remove q => q = resolve cwd c.remote ++ [c.cancelFile]
  | .mkdir q => ∃ f, CopyFolder cwd c fs f ∧ q <+: f

theorem sends_below {cwd : Path} {c : Config} {fs : FS} {p : Path} {b : Bytes} (h : Sends cwd c fs p b) :
    ∃ rel, rel ≠ [] ∧ p = resolve cwd c.remote ++ rel := by
  rcases h with ⟨d, rel, _, h2, _, h4⟩ | ⟨f, _, _, h⟩
  · exact ⟨rel, h2, h4⟩
  · exact ⟨_, by simp, h⟩

theorem folder_words {cwd : Path} {c : Config} {fs : FS} (hroom : CopyRoom cwd c fs) {f : Path} (h : CopyFolder cwd c fs f) :
    ∃ rel, f = resolve cwd c.remote ++ rel ∧ ∀ w ∈ rel, ¬ TempWord w := by
  rcases h with rfl | ⟨p, b, hs, rfl⟩
  · exact ⟨[], by simp, by simp⟩
  · rcases hs with ⟨d, rel, h1, h2, h3, rfl⟩ | ⟨g, _, _, rfl⟩
    · refine ⟨rel.dropLast, List.dropLast_append_of_ne_nil h2, fun w hw => ?_⟩
      exact hroom.words d rel ⟨h1, h2, by rw [h3]; rfl⟩ w (List.dropLast_subset rel hw)
    · exact ⟨[], by simp, by simp⟩

theorem temp_not_folder {cwd : Path} {c : Config} {fs : FS} (hroom : CopyRoom cwd c fs) {f rel : Path} (h : CopyFolder cwd c fs f)
    (_hne : rel ≠ []) (ht : TempPath rel) : ¬ resolve cwd c.remote ++ rel <+: f := by
  obtain ⟨rel', rfl, hw⟩ := folder_words hroom h
  intro hp
  obtain ⟨w, h1, h2⟩ := ht
  have hpre : rel <+: rel' := (List.prefix_append_right_inj _).1 hp
  exact hw w (hpre.subset (List.mem_of_getLast? h1)) h2

theorem sends_not_folder {cwd : Path} {c : Config} {fs : FS} (hroom : CopyRoom cwd c fs) {f p : Path} {b : Bytes} (h : CopyFolder cwd c fs f)
    (hs : Sends cwd c fs p b) : ¬ p <+: f := by
  intro hp
  rcases h with rfl | ⟨q, b', hq, rfl⟩
  · obtain ⟨rel, hne, rfl⟩ := sends_below hs
    have h1 := hp.length_le
    have h2 := List.length_pos_iff.2 hne
    rw [List.length_append] at h1; omega
  · have he := hroom.files p b q b' hs hq (hp.trans (List.dropLast_prefix q))
    subst he
    obtain ⟨rel, hne, rfl⟩ := sends_below hs
    have h1 := hp.length_le
    have h2 := List.length_pos_iff.2 hne
    rw [List.length_dropLast, List.length_append] at h1; omega

/-- One operation. -/
theorem step {cwd : Path} {c : Config} {fs : FS} (hroom : CopyRoom cwd c fs) {p : Prim} (hp : Allowed cwd c fs p) {s s' : FS} (hi : Inv cwd c fs s)
    (he : exec s p = .ok s') : Inv cwd c fs s' ∧ ∀ f, CopyFolder cwd c fs f → isDir s f = true → isDir s' f = true := by
  have key : (∀ q, get s' q = get s q ∨
      (resolve cwd c.remote <+: q ∧ get s' q ≠ some .dir ∧ get s q ≠ some .dir ∧ ∀ f, CopyFolder cwd c fs f → q <+: f → get s' q = none) ∨
      (get s q = none ∧ get s' q = some .dir ∧ ∃ f, CopyFolder cwd c fs f ∧ q <+: f)) := by
    intro q
    cases p with
    | create t =>
      obtain ⟨rel, h1, h2, rfl⟩ := hp
      unfold exec at he
      simp only at he
      split at he
      · cases he
      · cases he
        rw [get_set]
        split
        · rename_i hq
          subst hq
          exact Or.inr (Or.inl ⟨List.prefix_append _ _, by simp, hi.temp rel h1 h2, fun f hf hpre => absurd hpre (temp_not_folder hroom hf h1 h2)⟩)
        · exact Or.inl rfl
    | append t b =>
      obtain ⟨rel, h1, h2, rfl⟩ := hp
      unfold exec at he
      simp only at he
      split at he
      · cases he
        rw [get_set]
        split
        · rename_i hq
          subst hq
          exact Or.inr (Or.inl ⟨List.prefix_append _ _, by simp, hi.temp rel h1 h2, fun f hf hpre => absurd hpre (temp_not_folder hroom hf h1 h2)⟩)
        · exact Or.inl rfl
      · cases he
    | rename t d =>
      obtain ⟨⟨rel, h1, h2, rfl⟩, b, hd⟩ := hp
      unfold exec at he
      simp only at he
      split at he
      · split at he
        · cases he
        · cases he
          rw [get_set]
          split
          · rename_i hq
            subst hq
            obtain ⟨rel', _, hr⟩ := sends_below hd
            exact Or.inr (Or.inl ⟨hr ▸ List.prefix_append _ _, by simp, hi.clear _ b hd, fun f hf hpre => absurd hpre (sends_not_folder hroom hf hd)⟩)
          · rw [get_del]
            split
            · rename_i hq
              subst hq
              exact Or.inr (Or.inl ⟨List.prefix_append _ _, by simp, hi.temp rel h1 h2, fun _ _ _ => rfl⟩)
            · exact Or.inl rfl
      · cases he
    | remove r =>
      obtain rfl := hp
      unfold exec at he
      simp only at he
      split at he
      · rename_i hf
        cases he
        rw [get_del]
        split
        · rename_i hq
          subst hq
          refine Or.inr (Or.inl ⟨List.prefix_append _ _, by simp, fun hd => ?_, fun _ _ _ => rfl⟩)
          unfold isFile at hf; rw [hd] at hf; simp at hf
        · exact Or.inl rfl
      · cases he
    | mkdir r =>
      obtain ⟨f, hf, hpre⟩ := hp
      obtain ⟨h1, _, rfl⟩ := exec_mkdir he
      rw [get_set]
      split
      · rename_i hq
        subst hq
        exact Or.inr (Or.inr ⟨h1, rfl, f, hf, hpre⟩)
      · exact Or.inl rfl
  refine ⟨⟨?_, ?_, ?_, ?_⟩, ?_⟩
  · intro p b hs
    rcases key p with h | ⟨_, h, _⟩ | ⟨_, _, f, hf, hpre⟩
    · rw [h]; exact hi.clear p b hs
    · exact h
    · exact absurd hpre (sends_not_folder hroom hf hs)
  · intro rel h1 h2
    rcases key (resolve cwd c.remote ++ rel) with h | ⟨_, h, _⟩ | ⟨_, _, f, hf, hpre⟩
    · rw [h]; exact hi.temp rel h1 h2
    · exact h
    · exact absurd hpre (temp_not_folder hroom hf h1 h2)
  · intro f q hf hpre
    rcases key q with h | ⟨_, _, _, h⟩ | ⟨_, h, _⟩
    · have := hi.free f q hf hpre
      unfold contents at this ⊢; rw [h]; exact this
    · unfold contents; rw [h f hf hpre]
    · unfold contents; rw [h]
  · intro q hq
    rw [← hi.keep q hq]
    rcases key q with h | ⟨h, _⟩ | ⟨h1, h2, _⟩
    · unfold contents; rw [h]
    · exact absurd h hq
    · unfold contents; rw [h1, h2]
  · intro f hf hd
    unfold isDir at hd ⊢
    rcases key f with h | ⟨_, _, h, _⟩ | ⟨_, h, _⟩
    · rw [h]; exact hd
    · simp only [Bool.or_eq_true, beq_iff_eq, h, or_false] at hd
      simp [hd]
    · simp [h]

/-- What stays true, with the directories in `D` that are there. -/
def With (cwd : Path) (c : Config) (fs : FS) (D : Path → Prop) (s : FS) : Prop :=
  Inv cwd c fs s ∧ ∀ f, CopyFolder cwd c fs f → D f → isDir s f = true

theorem run_with {cwd : Path} {c : Config} {fs : FS} (hroom : CopyRoom cwd c fs) {D : Path → Prop} {ps : List Prim} (hp : ∀ p ∈ ps, Allowed cwd c fs p)
    {s : FS} (h : With cwd c fs D s) : ∀ s', Visits (runAll ps s) s' → With cwd c fs D s' :=
  runAll_keeps ps (fun p hm a b ha he => by
    obtain ⟨k1, k2⟩ := step hroom (hp p hm) ha.1 he
    exact ⟨k1, fun f hf hd => k2 f hf (ha.2 f hf hd)⟩) s h

theorem makedirs_with {cwd : Path} {c : Config} {fs : FS} (hroom : CopyRoom cwd c fs) {D : Path → Prop} {f : Path} (hf : CopyFolder cwd c fs f)
    {s : FS} (h : With cwd c fs D s) : ∀ s', Visits (makedirs s f) s' → With cwd c fs D s' := by
  unfold makedirs
  apply run_with hroom _ h
  intro p hp
  obtain ⟨q, hq, rfl⟩ := List.mem_map.1 hp
  exact ⟨f, hf, mem_prefixes (List.mem_filter.1 hq).1⟩

/-- Make a directory that is needed unless it is there. -/
theorem need_with {cwd : Path} {c : Config} {fs : FS} (hroom : CopyRoom cwd c fs) {D : Path → Prop} {f : Path} (hf : CopyFolder cwd c fs f)
    {s : FS} (h : With cwd c fs D s) {r : Run Unit} (hr : r = if isDir s f then done s () else makedirs s f) :
    r.out = .ok () ∧ (∀ s', Visits r s' → With cwd c fs D s') ∧ With cwd c fs (fun g => D g ∨ g = f) r.fs := by
  subst hr
  by_cases hd : isDir s f = true
  · rw [if_pos hd]
    refine ⟨rfl, fun s' hs => by rw [visits_done hs]; exact h, h.1, fun g hg hD => ?_⟩
    rcases hD with hD | rfl
    · exact h.2 g hg hD
    · exact hd
  · rw [if_neg hd]
    obtain ⟨m1, m2⟩ := makedirs_ok f s (fun q hq => h.1.free f q hf hq) (by simpa using hd)
    have hk := makedirs_with hroom hf h
    refine ⟨m1, hk, (hk _ (Or.inr rfl)).1, fun g hg hD => ?_⟩
    rcases hD with hD | rfl
    · exact (hk _ (Or.inr rfl)).2 g hg hD
    · exact m2

theorem tmpPath_below {env : Env} (henv : env.Ok) (i : ℕ) {r rel : Path} (hne : rel ≠ []) :
    ∃ t, t ≠ [] ∧ TempPath t ∧ tmpPath env i (r ++ rel) = r ++ t := by
  refine ⟨tmpPath env i rel, by simp [tmpPath], tmpPath_temp henv i rel, ?_⟩
  unfold tmpPath
  rw [List.dropLast_append_of_ne_nil hne, List.getLast?_append_of_ne_nil _ hne, List.append_assoc]

/-- A copy that fits. -/
theorem copy_with {cwd : Path} {c : Config} {fs : FS} (hroom : CopyRoom cwd c fs) {env : Env} (henv : env.Ok) {D : Path → Prop} {i : ℕ}
    {src dst : Path} {b : Bytes} (hs : Sends cwd c fs dst b) (hsrc : (contents fs src).isSome) (hout : ¬ resolve cwd c.remote <+: src)
    (hdst : ¬ TempPath dst) {s : FS} (h : With cwd c fs D s) (hD : D dst.dropLast) :
    (copyRename env s src (tmpPath env i dst) dst).out = .ok () ∧
      ∀ s', Visits (copyRename env s src (tmpPath env i dst) dst) s' → With cwd c fs D s' := by
  obtain ⟨rel, hne, hrel⟩ := sends_below hs
  obtain ⟨t, t1, t2, t3⟩ := tmpPath_below henv i (r := resolve cwd c.remote) hne
  rw [← hrel] at t3
  have hfold : CopyFolder cwd c fs dst.dropLast := Or.inr ⟨dst, b, hs, rfl⟩
  rw [← h.1.keep src hout] at hsrc
  obtain ⟨x, hx⟩ := Option.isSome_iff_exists.1 hsrc
  have hg := contents_eq_some.1 hx
  have hst : src ≠ tmpPath env i dst := by
    rw [t3]; intro hc; exact hout (hc ▸ List.prefix_append _ _)
  have hdir := h.2 _ hfold hD
  have hpar : (tmpPath env i dst).dropLast = dst.dropLast := by simp [tmpPath]
  have hdt : dst ≠ tmpPath env i dst := fun hc => hdst (hc ▸ tmpPath_temp henv i dst)
  unfold copyRename
  rw [hg]
  simp only
  rw [if_neg hst]
  refine ⟨?_, run_with hroom ?_ h⟩
  · have hc1 : isDir s (tmpPath env i dst) = false := by
      have := h.1.temp t t1 t2
      rw [← t3] at this
      simp only [isDir, Bool.or_eq_false_iff, beq_eq_false_iff_ne]
      exact ⟨by rw [t3]; simp [t1], this⟩
    have he : exec s (.create (tmpPath env i dst)) = .ok (set s (tmpPath env i dst) (.file [])) := by
      simp [exec, hc1, hpar, hdir]
    rw [List.cons_append, runAll, he]
    simp only
    obtain ⟨a1, a2, a3⟩ := Ftp.runAll_appends_get (tmpPath env i dst) (env.chunks x) (set s (tmpPath env i dst) (.file [])) [] (by rw [get_set]; simp)
    rw [runAll_append, (andThen_out a1).1]
    generalize (runAll ((env.chunks x).map (.append (tmpPath env i dst))) (set s (tmpPath env i dst) (.file []))).fs = s1 at *
    have hd1 : get s1 dst ≠ some .dir := by
      rw [a3 dst hdt, get_set, if_neg hdt]; exact h.1.clear dst b hs
    have hne2 : dst.dropLast ≠ tmpPath env i dst := by
      rw [← hpar]
      intro hc
      have := congrArg List.length hc
      simp [tmpPath] at this
    have hd2 : isDir s1 dst.dropLast = true := by
      unfold isDir at hdir ⊢
      rw [a3 _ hne2, get_set, if_neg hne2]; exact hdir
    have hd3 : isDir s1 dst = false := by
      simp only [isDir, Bool.or_eq_false_iff, beq_eq_false_iff_ne]
      exact ⟨by rw [hrel]; simp [hne], hd1⟩
    simp [runAll, exec, a2, hd2, hd3, done]
  · intro p hp
    simp only [List.cons_append, List.mem_cons, List.mem_append, List.mem_map, List.not_mem_nil, or_false] at hp
    rcases hp with rfl | ⟨y, _, rfl⟩ | rfl
    · exact ⟨t, t1, t2, t3⟩
    · exact ⟨t, t1, t2, t3⟩
    · exact ⟨⟨t, t1, t2, t3⟩, b, hs⟩

/-- A copy of a file to be sent. -/
structure Good (cwd : Path) (c : Config) (fs : FS) (j : Job) : Prop where
  sends : ∃ b, Sends cwd c fs j.dst b
  src : (contents fs j.src).isSome
  outside : ¬ resolve cwd c.remote <+: j.src
  not_temp : ¬ TempPath j.dst
  dirs : j.dirs = true ∨ j.dst.dropLast = resolve cwd c.remote

/-- The remote directory is there. -/
abbrev Ready (cwd : Path) (c : Config) (fs s : FS) : Prop := With cwd c fs (fun g => g = resolve cwd c.remote) s

theorem job_with {cwd : Path} {c : Config} {fs : FS} (hroom : CopyRoom cwd c fs) {env : Env} (henv : env.Ok) (i : ℕ) {j : Job}
    (hj : Good cwd c fs j) {s : FS} (h : Ready cwd c fs s) :
    (runJob env i s j).out = .ok () ∧ ∀ s', Visits (runJob env i s j) s' → Ready cwd c fs s' := by
  obtain ⟨b, hb⟩ := hj.sends
  have hfold : CopyFolder cwd c fs j.dst.dropLast := Or.inr ⟨_, b, hb, rfl⟩
  have hfirst : ∃ r : Run Unit, r = (if j.dirs = false ∨ isDir s j.dst.dropLast then done s () else makedirs s j.dst.dropLast) ∧ r.out = .ok () ∧
      (∀ s', Visits r s' → Ready cwd c fs s') ∧ With cwd c fs (fun g => g = resolve cwd c.remote ∨ g = j.dst.dropLast) r.fs := by
    refine ⟨_, rfl, ?_⟩
    apply need_with hroom hfold h
    by_cases hd : j.dirs = true
    · simp [hd]
    · rcases hj.dirs with hd' | hd'
      · exact absurd hd' hd
      · have := h.2 _ (Or.inl rfl) rfl
        simp [hd', this]
  obtain ⟨r, hr, h1, h2, h3⟩ := hfirst
  unfold runJob
  rw [← hr]
  obtain ⟨k1, k2⟩ := copy_with hroom henv (i := i) hb hj.src hj.outside hj.not_temp h3 (Or.inr rfl)
  refine ⟨by rw [(andThen_out h1).1, k1], andThen_keeps h2 fun _ _ _ s' hs => ?_⟩
  exact ⟨(k2 s' hs).1, fun g hg hD => (k2 s' hs).2 g hg (Or.inl hD)⟩

theorem loop_with {cwd : Path} {c : Config} {fs : FS} (hroom : CopyRoom cwd c fs) {env : Env} (henv : env.Ok) {copy : ℕ → FS → Text → Run Unit}
    (files : List Text) (hcopy : ∀ f ∈ files, ∃ j, Good cwd c fs j ∧ ∀ i s, copy i s f = runJob env i s j) (i : ℕ) {s : FS} (h : Ready cwd c fs s) :
    (copyLoop copy i s files).out = .ok files.length ∧ ∀ s', Visits (copyLoop copy i s files) s' → Ready cwd c fs s' := by
  induction files generalizing i s with
  | nil => exact ⟨rfl, fun s' hs => by rw [visits_done hs]; exact h⟩
  | cons f files ih =>
    obtain ⟨j, hj, hc⟩ := hcopy f (by simp)
    obtain ⟨k1, k2⟩ := job_with hroom henv i hj h
    rw [copyLoop, hc]
    obtain ⟨l1, l2⟩ := ih (fun g hg => hcopy g (by simp [hg])) (i + 1) (k2 _ (Or.inr rfl))
    refine ⟨?_, andThen_keeps k2 fun _ _ _ => andThen_keeps l2 fun _ _ hi s' hs => by rw [visits_done hs]; exact hi⟩
    rw [(andThen_out k1).1, (andThen_out l1).1]
    rfl

theorem apart_below {cwd : Path} {c : Config} {fs : FS} (hroom : CopyRoom cwd c fs) {d : Text} (hd : c.localDir = some d) (rel : Path) :
    ¬ resolve cwd c.remote <+: resolve cwd d ++ rel := by
  intro hpre
  rcases List.prefix_or_prefix_of_prefix hpre (List.prefix_append (resolve cwd d) rel) with k | k
  · exact (hroom.apart d hd).2 k
  · exact (hroom.apart d hd).1 k

theorem dir_with {cwd : Path} {c : Config} {fs : FS} (hord : Ordinary cwd c fs) (hroom : CopyRoom cwd c fs) {env : Env} (henv : env.Ok) {s : FS}
    (h : Ready cwd c fs s) : ∃ n, (sendDir env cwd c s).out = .ok n ∧ ∀ s', Visits (sendDir env cwd c s) s' → Ready cwd c fs s' := by
  unfold sendDir
  cases hl : c.localDir with
  | none => exact ⟨0, rfl, fun s' hs => by rw [visits_done hs]; exact h⟩
  | some d =>
    have hd := hord.dir_nonempty d hl
    simp only
    rw [if_neg hd]
    simp only [allLocalFiles]
    rw [if_neg hd]
    have hgood : ∀ f ∈ walk env cwd s d, ∃ j, Good cwd c fs j ∧ ∀ i s, copyDirFile env cwd c.remote d i s f = runJob env i s j := by
      intro f hf
      unfold walk at hf
      obtain ⟨rel, hrel, rfl⟩ := List.mem_map.1 hf
      rw [(henv.order _).mem_iff, mem_filesBelow] at hrel
      have hsrc := hrel.2
      rw [h.1.keep _ (apart_below hroom hl rel)] at hsrc
      have hloc : LocalFile cwd c fs d rel := ⟨hl, hrel.1, hsrc⟩
      obtain ⟨b, hb⟩ := Option.isSome_iff_exists.1 hsrc
      refine ⟨⟨resolve cwd d ++ rel, parts c.remote ++ rel, true⟩, ?_, fun i s =>
        copyDirFile_job henv cwd hd (hord.names d rel hloc) hrel.1 (hord.once d rel hloc) i s⟩
      have hR := resolve_absolute cwd hord.absolute
      refine ⟨⟨b, Or.inl ⟨d, rel, hl, hrel.1, hb, by rw [hR]⟩⟩, hsrc, hord.outside d rel hloc, ?_, Or.inl rfl⟩
      simp only
      rw [tempPath_append hrel.1]
      exact hord.no_temp d rel hloc
    obtain ⟨l1, l2⟩ := loop_with hroom henv (walk env cwd s d) hgood 0 h
    exact ⟨_, (andThen_out l1).1, andThen_keeps l2 fun _ _ hi s' hs => by rw [visits_done hs]; exact hi⟩

theorem marker_with {cwd : Path} {c : Config} {fs : FS} (hord : Ordinary cwd c fs) (hroom : CopyRoom cwd c fs) {D : Path → Prop} {s : FS} (h : With cwd c fs D s) :
    (removeMarker cwd c s).out = .ok () ∧ ∀ s', Visits (removeMarker cwd c s) s' → With cwd c fs D s' := by
  unfold removeMarker
  split
  · rename_i hf
    refine ⟨by simp [runAll, exec, hf, done], run_with hroom ?_ h⟩
    intro p hp
    simp only [List.mem_singleton] at hp
    subst hp
    exact cancelPath_eq hord.cancel_plain
  · exact ⟨rfl, fun s' hs => by rw [visits_done hs]; exact h⟩

theorem send_with {cwd : Path} {c : Config} {fs : FS} (hord : Ordinary cwd c fs) (hroom : CopyRoom cwd c fs) {env : Env} (henv : env.Ok) {s : FS}
    (h : Inv cwd c fs s) : (∃ n, (send env cwd c s).out = .ok n) ∧ ∀ s', Visits (send env cwd c s) s' → Inv cwd c fs s' := by
  have h0 : With cwd c fs (fun _ => False) s := ⟨h, fun _ _ hD => hD.elim⟩
  obtain ⟨a1, a2⟩ := marker_with hord hroom h0
  obtain ⟨b1, b2, b3⟩ := need_with hroom (f := resolve cwd c.remote) (Or.inl rfl) (a2 _ (Or.inr rfl)) (r := makeRemote cwd c (removeMarker cwd c s).fs) rfl
  have b4 : Ready cwd c fs (makeRemote cwd c (removeMarker cwd c s).fs).fs := ⟨b3.1, fun g hg hD => b3.2 g hg (Or.inr hD)⟩
  obtain ⟨n, c1, c2⟩ := dir_with hord hroom henv b4
  have hlist : ∀ f ∈ c.localFiles, ∃ j, Good cwd c fs j ∧ ∀ i s, copyListed env cwd c.remote i s f = runJob env i s j := by
    intro f hf
    have hsrc := hroom.listed f hf
    obtain ⟨b, hb⟩ := Option.isSome_iff_exists.1 hsrc
    refine ⟨⟨resolve cwd f, resolve cwd c.remote ++ [baseName f], false⟩, ?_, fun i s => copyListed_job henv cwd (hord.listed_plain f hf) i s⟩
    refine ⟨⟨b, Or.inr ⟨f, hf, hb, rfl⟩⟩, hsrc, hord.listed_outside f hf, ?_, Or.inr (by simp)⟩
    simp only
    rw [tempPath_append (by simp)]
    rintro ⟨w, hw, ht⟩
    simp only [List.getLast?_singleton, Option.some.injEq] at hw
    exact hord.listed_temp f hf (hw ▸ ht)
  obtain ⟨d1, d2⟩ := loop_with hroom henv c.localFiles hlist n (c2 _ (Or.inr rfl))
  unfold send
  refine ⟨⟨n + c.localFiles.length, ?_⟩, ?_⟩
  · rw [(andThen_out a1).1, (andThen_out b1).1, (andThen_out c1).1, (andThen_out d1).1]
    rfl
  · refine andThen_keeps (fun s' hs => (a2 s' hs).1) fun _ _ _ => andThen_keeps (fun s' hs => (b2 s' hs).1) fun _ _ _ =>
      andThen_keeps (fun s' hs => (c2 s' hs).1) fun m hm _ => ?_
    rw [c1] at hm
    cases hm
    exact andThen_keeps (fun s' hs => (d2 s' hs).1) fun _ _ hi s' hs => by rw [visits_done hs]; exact hi

theorem start_inv {cwd : Path} {c : Config} {fs : FS} (hroom : CopyRoom cwd c fs) : Inv cwd c fs fs :=
  ⟨hroom.no_dir, hroom.no_temp_dir, hroom.no_file, fun _ _ => rfl⟩

theorem tries_inv {cwd : Path} {c : Config} {fs s : FS} (hord : Ordinary cwd c fs) (hroom : CopyRoom cwd c fs) (h : Tries cwd c fs s) :
    Inv cwd c fs s := by
  induction h with
  | start => exact start_inv hroom
  | again env henv _ hv ih => exact (send_with hord hroom henv ih).2 _ hv

/-! ### What is to be sent does not change -/

/-- Sources outside the remote directory are as at the start. -/
def Same (cwd : Path) (c : Config) (fs s : FS) : Prop := ∀ q, ¬ resolve cwd c.remote <+: q → contents s q = contents fs q

theorem sends_same {cwd : Path} {c : Config} {fs s : FS} (hord : Ordinary cwd c fs)
    (hapart : ∀ d, c.localDir = some d → ¬ resolve cwd d <+: resolve cwd c.remote ∧ ¬ resolve cwd c.remote <+: resolve cwd d)
    (h : Same cwd c fs s) (p : Path) (b : Bytes) : Sends cwd c s p b ↔ Sends cwd c fs p b := by
  have hno : ∀ d rel, c.localDir = some d → ¬ resolve cwd c.remote <+: resolve cwd d ++ rel := by
    intro d rel hd hpre
    rcases List.prefix_or_prefix_of_prefix hpre (List.prefix_append (resolve cwd d) rel) with k | k
    · exact (hapart d hd).2 k
    · exact (hapart d hd).1 k
  unfold Sends
  refine or_congr ⟨?_, ?_⟩ ⟨?_, ?_⟩
  · rintro ⟨d, rel, h1, h2, h3, h4⟩
    exact ⟨d, rel, h1, h2, by rw [← h _ (hno d rel h1)]; exact h3, h4⟩
  · rintro ⟨d, rel, h1, h2, h3, h4⟩
    exact ⟨d, rel, h1, h2, by rw [h _ (hno d rel h1)]; exact h3, h4⟩
  · rintro ⟨f, h1, h2, h3⟩
    exact ⟨f, h1, by rw [← h _ (hord.listed_outside f h1)]; exact h2, h3⟩
  · rintro ⟨f, h1, h2, h3⟩
    exact ⟨f, h1, by rw [h _ (hord.listed_outside f h1)]; exact h2, h3⟩

theorem ordinary_same {cwd : Path} {c : Config} {fs s : FS} (hord : Ordinary cwd c fs)
    (hapart : ∀ d, c.localDir = some d → ¬ resolve cwd d <+: resolve cwd c.remote ∧ ¬ resolve cwd c.remote <+: resolve cwd d)
    (h : Same cwd c fs s) : Ordinary cwd c s := by
  refine ordinary_congr hord fun d rel hd => h _ fun hpre => ?_
  rcases List.prefix_or_prefix_of_prefix hpre (List.prefix_append (resolve cwd d) rel) with k | k
  · exact (hapart d hd).2 k
  · exact (hapart d hd).1 k

theorem tries_same {cwd : Path} {c : Config} {fs s : FS} (hord : Ordinary cwd c fs)
    (hapart : ∀ d, c.localDir = some d → ¬ resolve cwd d <+: resolve cwd c.remote ∧ ¬ resolve cwd c.remote <+: resolve cwd d)
    (h : Tries cwd c fs s) : Same cwd c fs s ∧ ∀ q, q ≠ resolve cwd c.remote ++ [c.cancelFile] → ((¬ TempPath q) ∨ ¬ resolve cwd c.remote <+: q) →
      contents s q = contents fs q ∨ ∃ b, Sends cwd c fs q b ∧ contents s q = some b := by
  induction h with
  | start => exact ⟨fun _ _ => rfl, fun _ _ _ => Or.inl rfl⟩
  | @again s s' env henv _ hv ih =>
    obtain ⟨i1, i2⟩ := ih
    have hs := (send_spec henv (ordinary_same hord hapart i1)).1 s' hv
    rw [cancelPath_eq hord.cancel_plain] at hs
    refine ⟨fun q hq => ?_, fun q hq ht => ?_⟩
    · rw [← i1 q hq]
      rcases hs q (fun hc => hq (hc ▸ List.prefix_append _ _)) (Or.inr hq) with h | ⟨b, h, _⟩
      · exact h
      · obtain ⟨rel, _, h⟩ := sends_below h
        exact absurd (h ▸ List.prefix_append _ _) hq
    · rcases hs q hq ht with h | ⟨b, h, h'⟩
      · rw [h]; exact i2 q hq ht
      · exact Or.inr ⟨b, (sends_same hord hapart i1 q b).1 h, h'⟩

end Retry

/-! ### C210 -/

/-- **C210**, whatever was left behind: after any number of sends that were cut off at any moment, every path has its
previous contents or the complete contents of a file to be sent there (apart from the cancel marker and temporary
names in the remote directory). -/
theorem C210_whole {cwd : Path} {c : Config} {fs s : FS} (hord : Ordinary cwd c fs)
    (hapart : ∀ d, c.localDir = some d → ¬ resolve cwd d <+: resolve cwd c.remote ∧ ¬ resolve cwd c.remote <+: resolve cwd d)
    (h : Tries cwd c fs s) {q : Path} (hq : q ≠ resolve cwd c.remote ++ [c.cancelFile]) (ht : ¬ TempPath q ∨ ¬ resolve cwd c.remote <+: q) :
    contents s q = contents fs q ∨ ∃ b, Sends cwd c fs q b ∧ contents s q = some b :=
  (Retry.tries_same hord hapart h).2 q hq ht

/-- **C210**: after any number of sends that were cut off at any moment, another send returns; then all files to be sent
are there with their contents, the cancel marker is gone, and every other path has the contents it had before the first
send, apart from temporary names in the remote directory. -/
theorem C210_repeat {env : Env} (henv : env.Ok) {cwd : Path} {c : Config} {fs s : FS} (hord : Ordinary cwd c fs) (hroom : CopyRoom cwd c fs)
    (h : Tries cwd c fs s) :
    (∃ n, (send env cwd c s).out = .ok n) ∧
    (∀ p b, Sends cwd c fs p b → contents (send env cwd c s).fs p = some b) ∧
    contents (send env cwd c s).fs (resolve cwd c.remote ++ [c.cancelFile]) = none ∧
    ∀ q, q ≠ resolve cwd c.remote ++ [c.cancelFile] → (∀ b, ¬ Sends cwd c fs q b) → (¬ TempPath q ∨ ¬ resolve cwd c.remote <+: q) →
      contents (send env cwd c s).fs q = contents fs q := by
  obtain ⟨n, hn⟩ := (Retry.send_with hord hroom henv (Retry.tries_inv hord hroom h)).1
  obtain ⟨h1, h2⟩ := Retry.tries_same hord hroom.apart h
  obtain ⟨k1, k2, k3, k4⟩ := C41_delivery_partial henv (Retry.ordinary_same hord hroom.apart h1) hroom.names hn
  refine ⟨⟨n, hn⟩, ?_, k3, ?_⟩
  · rintro p b (⟨d, rel, e1, e2, e3, rfl⟩ | ⟨f, e1, e2, rfl⟩)
    · exact k1 d rel b e1 e2 (by rw [h1 _ (Retry.apart_below hroom e1 rel)]; exact e3)
        (hroom.other d rel ⟨e1, e2, by rw [e3]; rfl⟩)
    · obtain ⟨b', x1, x2⟩ := k2 f e1
      rw [h1 _ (hord.listed_outside f e1), e2] at x1
      cases x1
      exact x2
  · intro q hq hno ht
    rw [k4 q hq (fun b hb => hno b ((Retry.sends_same hord hroom.apart h1 q b).1 hb)) ht]
    rcases h2 q hq ht with h | ⟨b, hb, _⟩
    · exact h
    · exact absurd hb (hno b)

/-! The example of C41 has room. -/

theorem exSends {p : Path} {b : Bytes} (h : Sends [] exConfig exFs p b) :
    p = ["out".toList, "a".toList] ∨ p = ["out".toList, "sub".toList, "b".toList] ∨ p = ["out".toList, "x".toList] := by
  rcases h with ⟨d, rel, h1, h2, h3, rfl⟩ | ⟨f, hf, _, rfl⟩
  · obtain ⟨rfl, rfl | rfl⟩ := exConfig_files d rel ⟨h1, h2, by rw [h3]; rfl⟩
    · exact Or.inl (by decide +kernel)
    · exact Or.inr (Or.inl (by decide +kernel))
  · simp [exConfig] at hf
    subst hf
    exact Or.inr (Or.inr (by decide +kernel))

theorem exFolder {f : Path} (h : CopyFolder [] exConfig exFs f) : f = ["out".toList] ∨ f = ["out".toList, "sub".toList] := by
  rcases h with rfl | ⟨p, b, hs, rfl⟩
  · exact Or.inl (by decide +kernel)
  · rcases exSends hs with rfl | rfl | rfl
    · exact Or.inl rfl
    · exact Or.inr rfl
    · exact Or.inl rfl

theorem exRoom : CopyRoom [] exConfig exFs where
  apart := by
    intro d h; simp [exConfig] at h; subst h; decide +kernel
  listed := by
    intro f hf; simp [exConfig] at hf; subst hf; decide +kernel
  names := by decide
  other := by
    intro d rel h f hf
    simp [exConfig] at hf; subst hf
    obtain ⟨_, rfl | rfl⟩ := exConfig_files d rel h <;> decide +kernel
  files := by
    intro p b q b' hp hq hpre
    rcases exSends hp with rfl | rfl | rfl <;> rcases exSends hq with rfl | rfl | rfl <;> revert hpre <;> decide +kernel
  words := by
    intro d rel h w hw
    obtain ⟨_, rfl | rfl⟩ := exConfig_files d rel h
    · simp only [List.mem_singleton] at hw; subst hw; exact not_tempWord (by decide)
    · simp only [List.mem_cons, List.not_mem_nil, or_false] at hw
      rcases hw with rfl | rfl <;> exact not_tempWord (by decide)
  no_dir := by
    intro p b hp
    rcases exSends hp with rfl | rfl | rfl <;> decide +kernel
  no_temp_dir := by
    rintro rel hne ⟨w, hw, ht⟩ hd
    have hm : (resolve [] exConfig.remote ++ rel, Node.dir) ∈ exFs := by
      unfold Fs.get at hd
      rw [List.lookup_eq_some_iff] at hd
      obtain ⟨l1, l2, he, _⟩ := hd
      rw [he]; simp
    have hr : resolve [] exConfig.remote = ["out".toList] := by decide +kernel
    rw [hr] at hm
    obtain ⟨x, rel, rfl⟩ := List.exists_cons_of_ne_nil hne
    simp [exFs] at hm
  no_file := by
    intro f q hf hpre
    rcases exFolder hf with rfl | rfl
    · rcases List.prefix_concat_iff.1 (show q <+: [] ++ ["out".toList] from hpre) with rfl | h
      · decide +kernel
      · rw [List.prefix_nil.1 h]; decide +kernel
    · rcases List.prefix_concat_iff.1 (show q <+: ["out".toList] ++ ["sub".toList] from hpre) with rfl | h
      · decide +kernel
      · rcases List.prefix_concat_iff.1 (show q <+: [] ++ ["out".toList] from h) with rfl | h
        · decide +kernel
        · rw [List.prefix_nil.1 h]; decide +kernel

/-- Cut off after three operations: the marker is gone, and a temporary name holds one of the two bytes of `a`. Another
send, some time later, delivers everything. The temporary file stays behind. -/
def exCut : FS := ((send exEnv [] exConfig exFs).trace[2]?).getD []

def exLater : Env := { exEnv with stamp := fun _ => "20260101000100".toList }

theorem exLater_ok : exLater.Ok := ⟨exEnv_ok.chunks, exEnv_ok.order, by
  intro i; show ∀ c ∈ "20260101000100".toList, c.isDigit = true; decide⟩

theorem exTries : Tries [] exConfig exFs exCut :=
  .again exEnv exEnv_ok .start (Or.inl (by
    have : (send exEnv [] exConfig exFs).trace[2]? = some exCut := by decide +kernel
    exact List.mem_of_getElem? this))

example : contents exCut ["out".toList, "a.tmp_20260101000000".toList] = some [1] ∧ contents exCut ["out".toList, "a".toList] = some [9] := by
  decide +kernel

example : contents (send exLater [] exConfig exCut).fs ["out".toList, "a".toList] = some [1, 2] ∧
    contents (send exLater [] exConfig exCut).fs ["out".toList, "sub".toList, "b".toList] = some [3] := by
  have h := (C210_repeat exLater_ok exOrdinary exRoom exTries).2.1
  refine ⟨h _ _ (Or.inl ⟨_, ["a".toList], rfl, by simp, by decide +kernel, by decide +kernel⟩),
    h _ _ (Or.inl ⟨_, ["sub".toList, "b".toList], rfl, by simp, by decide +kernel, by decide +kernel⟩)⟩

/-- What C210 does not say: the temporary file of a send that was cut off stays in the remote directory. -/
theorem C210_leftover : ∃ (env : Env) (s : FS), env.Ok ∧ Tries [] exConfig exFs s ∧
    contents exFs ["out".toList, "a.tmp_20260101000000".toList] = none ∧
    (send env [] exConfig s).out = .ok 5 ∧
    contents (send env [] exConfig s).fs ["out".toList, "a.tmp_20260101000000".toList] = some [1] :=
  ⟨exLater, exCut, exLater_ok, exTries, by decide +kernel⟩

end Verif.Props
