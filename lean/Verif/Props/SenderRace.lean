import Verif.Lemmas.SenderRace

/-!
# C178: copy senders at work at the same time
-/

namespace Verif.Props
open Verif.Fs Verif.Sender Verif.Spec Verif.Race

/-- **C178** (partial). Any number of senders, in any order of steps, stopped at any step: a path (other than cancel files, and temporary names in
remote directories) has its previous contents or all of the contents that one of the senders is to put there. What is missing: senders that use the same
temporary name at the same time, see the violations below. -/
theorem C178_atomic_partial {env : Env} (henv : env.Ok) {fs : FS} {ts : List Proc} (hap : Apart fs ts) (hst : AtStart ts)
    {sched : List (ℕ × Text)} (hc : Clock sched) (hown : OwnNames env ⟨fs, ts⟩ sched) {q : Path} (hq : ∀ t ∈ ts, q ≠ markerOf t)
    (ht : ¬ TempPath q ∨ ∀ t ∈ ts, ¬ remoteOf t <+: q) :
    contents (run env ⟨fs, ts⟩ sched).fs q = contents fs q ∨
    ∃ t ∈ ts, ∃ b, Sends t.cwd t.cfg fs q b ∧ contents (run env ⟨fs, ts⟩ sched).fs q = some b :=
  (run_inv henv hap sched _ (start_inv hap hst) hc hown).atom q hq ht

/-- **C178** (partial). If no two senders send different contents to one place, everything that a sender is to send is there once it has ended without
an exception, whatever the others do. -/
theorem C178_delivered_partial {env : Env} (henv : env.Ok) {fs : FS} {ts : List Proc} (hap : Apart fs ts) (hst : AtStart ts)
    {sched : List (ℕ × Text)} (hc : Clock sched) (hown : OwnNames env ⟨fs, ts⟩ sched) (hag : Agree fs ts) {i : ℕ} {t : Proc}
    (hi : (run env ⟨fs, ts⟩ sched).procs[i]? = some t) (hend : t.code = []) (hok : t.failed = false) {q : Path} {b : Bytes}
    (hb : Sends t.cwd t.cfg fs q b) : contents (run env ⟨fs, ts⟩ sched).fs q = some b := by
  rcases (run_inv henv hap sched _ (start_inv hap hst) hc hown).deliver hag i t hi q b hb with h | h | ⟨x, hx, _⟩
  · exact h
  · rw [hok] at h; exact absurd h (by simp)
  · rw [hend] at hx; simp at hx

/-- **C178**. Senders to different places never share a temporary name: at all times, whatever the clock shows, everything is atomic, and what a sender
is to send is there once it has ended without an exception. -/
theorem C178_different_places {env : Env} (henv : env.Ok) {fs : FS} {ts : List Proc} (hap : Apart fs ts) (hst : AtStart ts)
    {sched : List (ℕ × Text)} (hc : Clock sched) (hdp : DifferentPlaces fs ts) :
    (∀ q, (∀ t ∈ ts, q ≠ markerOf t) → (¬ TempPath q ∨ ∀ t ∈ ts, ¬ remoteOf t <+: q) →
      contents (run env ⟨fs, ts⟩ sched).fs q = contents fs q ∨
      ∃ t ∈ ts, ∃ b, Sends t.cwd t.cfg fs q b ∧ contents (run env ⟨fs, ts⟩ sched).fs q = some b) ∧
    ((∀ t ∈ ts, ∀ q b b', Sends t.cwd t.cfg fs q b → Sends t.cwd t.cfg fs q b' → b = b') →
      ∀ (i : ℕ) t, (run env ⟨fs, ts⟩ sched).procs[i]? = some t → t.code = [] → t.failed = false →
      ∀ q b, Sends t.cwd t.cfg fs q b → contents (run env ⟨fs, ts⟩ sched).fs q = some b) := by
  have hown := own_names henv hap hdp sched _ (start_inv hap hst) hc
  refine ⟨fun q hq ht => C178_atomic_partial henv hap hst hc hown hq ht, ?_⟩
  intro hself i t hi h1 h2 q b hb
  refine C178_delivered_partial henv hap hst hc hown ?_ hi h1 h2 hb
  intro t1 ht1 t2 ht2 q b b' hb hb'
  obtain ⟨i, hi, rfl⟩ := List.getElem_of_mem ht1
  obtain ⟨j, hj, rfl⟩ := List.getElem_of_mem ht2
  by_cases hij : i = j
  · subst hij
    exact hself _ ht1 q b b' hb hb'
  · exact absurd hb' (hdp i j _ _ hij (List.getElem?_eq_getElem hi) (List.getElem?_eq_getElem hj) q b b' hb)

/-- **C178** (partial). Senders to the same places that never look at the clock in the same second: everything is atomic at all times, and if they agree
what a sender is to send is there once it has ended without an exception. -/
theorem C178_different_seconds_partial {env : Env} (henv : env.Ok) {fs : FS} {ts : List Proc} (hap : Apart fs ts) (hst : AtStart ts)
    {sched : List (ℕ × Text)} (hc : Clock sched) (hsec : ∀ i j now, i ≠ j → (i, now) ∈ sched → (j, now) ∉ sched) :
    (∀ q, (∀ t ∈ ts, q ≠ markerOf t) → (¬ TempPath q ∨ ∀ t ∈ ts, ¬ remoteOf t <+: q) →
      contents (run env ⟨fs, ts⟩ sched).fs q = contents fs q ∨
      ∃ t ∈ ts, ∃ b, Sends t.cwd t.cfg fs q b ∧ contents (run env ⟨fs, ts⟩ sched).fs q = some b) ∧
    (Agree fs ts → ∀ (i : ℕ) t, (run env ⟨fs, ts⟩ sched).procs[i]? = some t → t.code = [] → t.failed = false →
      ∀ q b, Sends t.cwd t.cfg fs q b → contents (run env ⟨fs, ts⟩ sched).fs q = some b) := by
  have hown := own_names_seconds henv hap sched [] _ (start_inv hap hst) (start_stamped hst) hc hsec
  exact ⟨fun q hq ht => C178_atomic_partial henv hap hst hc hown hq ht,
    fun hag i t hi h1 h2 q b hb => C178_delivered_partial henv hap hst hc hown hag hi h1 h2 hb⟩

/-! ### A sender that is alone -/

/-- Steps of one process, with the clock of `env`. -/
def Reaches (env : Env) (fs : FS) (t : Proc) (fs' : FS) (t' : Proc) : Prop :=
  ∃ stamps : List Text, (∀ s ∈ stamps, ∃ i, s = env.stamp i) ∧
    stamps.foldl (fun (x : FS × Proc) s => stepProc env s x.1 x.2) (fs, t) = (fs', t')

theorem Reaches.refl (env : Env) (fs : FS) (t : Proc) : Reaches env fs t fs t := ⟨[], by simp, rfl⟩

theorem Reaches.trans {env : Env} {fs fs' fs'' : FS} {t t' t'' : Proc} (h : Reaches env fs t fs' t') (h' : Reaches env fs' t' fs'' t'') :
    Reaches env fs t fs'' t'' := by
  obtain ⟨a, ha, ea⟩ := h
  obtain ⟨b, hb, eb⟩ := h'
  refine ⟨a ++ b, fun s hs => ?_, by rw [List.foldl_append, ea, eb]⟩
  rcases List.mem_append.1 hs with hs | hs
  · exact ha s hs
  · exact hb s hs

theorem Reaches.one {env : Env} (i : ℕ) {fs fs' : FS} {t t' : Proc} (h : stepProc env (env.stamp i) fs t = (fs', t')) : Reaches env fs t fs' t' :=
  ⟨[env.stamp i], by simp, h⟩

/-- The process after a part of its work. -/
def afterwards {α : Type} (cwd : Path) (c : Config) (rest : List Instr) : Except Err α → Proc
  | .ok _ => ⟨cwd, c, rest, false⟩
  | .error _ => ⟨cwd, c, [], true⟩

/-- A process does in steps what a run does at once. -/
def Sim {α : Type} (env : Env) (cwd : Path) (c : Config) (xs : List Instr) (fs : FS) (r : Run α) : Prop :=
  ∀ rest, Reaches env fs ⟨cwd, c, xs ++ rest, false⟩ r.fs (afterwards cwd c rest r.out)

theorem sim_done {α : Type} {env : Env} {cwd : Path} {c : Config} {fs : FS} (a : α) : Sim env cwd c [] fs (done fs a) :=
  fun _ => Reaches.refl _ _ _

theorem sim_andThen {α β : Type} {env : Env} {cwd : Path} {c : Config} {fs : FS} {xs ys : List Instr} {r : Run α} {f : FS → α → Run β}
    (h1 : Sim env cwd c xs fs r) (h2 : ∀ a, r.out = .ok a → Sim env cwd c ys r.fs (f r.fs a)) : Sim env cwd c (xs ++ ys) fs (andThen r f) := by
  intro rest
  have h := h1 (ys ++ rest)
  unfold andThen
  cases hr : r.out with
  | ok a =>
    rw [hr] at h
    rw [List.append_assoc]
    exact h.trans (h2 a hr rest)
  | error e =>
    rw [hr] at h
    rw [List.append_assoc]
    exact h

theorem sim_prims {env : Env} {cwd : Path} {c : Config} (ps : List Prim) : ∀ fs, Sim env cwd c (ps.map .prim) fs (runAll ps fs) := by
  induction ps with
  | nil => intro fs; exact sim_done ()
  | cons p ps ih =>
    intro fs rest
    simp only [List.map_cons, List.cons_append, runAll]
    cases he : exec fs p with
    | ok fs' =>
      refine (Reaches.one 0 ?_).trans (ih fs' rest)
      simp [stepProc, he]
    | error e =>
      refine Reaches.one 0 ?_
      simp [stepProc, he, Fs.fail, afterwards]

theorem sim_read {α : Type} {env : Env} {cwd : Path} {c : Config} {fs : FS} {x : Instr} {xs : List Instr} {r : Run α} (i : ℕ)
    (hx : ∀ rest, stepProc env (env.stamp i) fs ⟨cwd, c, x :: rest, false⟩ = (fs, ⟨cwd, c, xs ++ rest, false⟩)) (h : Sim env cwd c xs fs r) :
    Sim env cwd c [x] fs r := by
  intro rest
  exact (Reaches.one i (hx rest)).trans (h rest)

theorem prefixes_last {p : Path} (hp : p ≠ []) : prefixes p = prefixes p.dropLast ++ [p] := by
  unfold prefixes
  obtain ⟨a, v, rfl⟩ : ∃ a v, p = a ++ [v] := ⟨p.dropLast, p.getLast hp, (List.dropLast_append_getLast hp).symm⟩
  rw [List.dropLast_concat, List.length_append, List.length_singleton, List.range_succ, List.map_append]
  congr 1
  · apply List.map_congr_left
    intro n hn
    rw [List.mem_range] at hn
    rw [List.take_append_of_le_length (by omega)]
  · simp

theorem prefixes_ne {p q : Path} (h : q ∈ prefixes p.dropLast) (hp : p ≠ []) : q ≠ p := by
  unfold prefixes at h
  obtain ⟨n, hn, rfl⟩ := List.mem_map.1 h
  intro he
  have := congrArg List.length he
  rw [List.mem_range, List.length_dropLast] at hn
  rw [List.length_take, List.length_dropLast] at this
  have : 0 < p.length := List.length_pos_iff.2 hp
  omega

theorem prefixes_nodup (p : Path) : (prefixes p).Nodup := by
  unfold prefixes
  apply List.Nodup.map_on _ List.nodup_range
  intro m hm n hn h
  have := congrArg List.length h
  rw [List.mem_range] at hm hn
  rw [List.length_take, List.length_take] at this
  omega

theorem sim_tries {env : Env} {cwd : Path} {c : Config} (p : Path) (qs : List Path) (hnd : qs.Nodup) : ∀ fs, (∀ q ∈ qs, get fs q = none) →
    Sim env cwd c (qs.map .tryMkdir ++ [.prim (.mkdir p)]) fs (runAll ((qs ++ [p]).map .mkdir) fs) := by
  induction qs with
  | nil => intro fs _; exact sim_prims [.mkdir p] fs
  | cons q qs ih =>
    intro fs hq rest
    simp only [List.map_cons, List.cons_append, runAll]
    cases he : exec fs (.mkdir q) with
    | ok fs' =>
      refine (Reaches.one 0 ?_).trans (ih (List.nodup_cons.1 hnd).2 fs' ?_ rest)
      · simp [stepProc, he, hq q (by simp)]
      · intro r hr
        obtain ⟨_, _, rfl⟩ := exec_mkdir he
        rw [get_set]
        have : r ≠ q := by rintro rfl; exact (List.nodup_cons.1 hnd).1 hr
        rw [if_neg this, hq r (by simp [hr])]
    | error e =>
      refine Reaches.one 0 ?_
      simp [stepProc, he, Fs.fail, afterwards, hq q (by simp)]

theorem sim_ensure {env : Env} {cwd : Path} {c : Config} {fs : FS} (p : Path) :
    Sim env cwd c [.ensure p] fs (if isDir fs p then done fs () else makedirs fs p) := by
  by_cases hd : isDir fs p = true
  · rw [if_pos hd]
    refine sim_read 0 (xs := []) ?_ (sim_done ())
    intro rest
    simp [stepProc, expand, hd]
  · rw [if_neg hd]
    have hp : p ≠ [] := by rintro rfl; exact hd rfl
    refine sim_read 0 (xs := (missing fs p).map .tryMkdir ++ [.prim (.mkdir p)]) ?_ ?_
    · intro rest
      simp [stepProc, expand, hd]
    · have : makedirs fs p = runAll ((missing fs p ++ [p]).map .mkdir) fs := by
        unfold makedirs missing
        rw [prefixes_last hp, List.filter_append]
        congr 2
        · congr 1
          · apply List.filter_congr
            intro q hq
            simp [prefixes_ne hq hp]
          · simp
      rw [this]
      refine sim_tries p _ ((prefixes_nodup _).filter _) fs ?_
      intro q hq
      simpa using (List.mem_filter.1 hq).2

theorem sim_copy {env : Env} {cwd : Path} {c : Config} {fs : FS} (file target : Text) (i : ℕ) :
    Sim env cwd c [.copy file target] fs
      (copyRename env fs (resolve cwd file) (resolve cwd (tmpName env i target)) (resolve cwd target)) := by
  have hn : tempName (env.stamp i) target = tmpName env i target := rfl
  unfold copyRename
  cases hg : get fs (resolve cwd file) with
  | none => intro rest; exact Reaches.one i (by simp [stepProc, expand, hg, Fs.fail, afterwards])
  | some n => cases n with
    | dir => intro rest; exact Reaches.one i (by simp [stepProc, expand, hg, Fs.fail, afterwards])
    | file b =>
      simp only
      by_cases he : resolve cwd file = resolve cwd (tmpName env i target)
      · rw [if_pos he]
        intro rest
        have hx : expand env cwd c (env.stamp i) fs (.copy file target) = none := by
          simp only [expand, hg, hn]
          rw [if_pos he]
        exact Reaches.one i (by simp [stepProc, hx, Fs.fail, afterwards])
      · rw [if_neg he]
        refine sim_read i ?_ (sim_prims _ fs)
        intro rest
        simp [stepProc, expand, hg, hn, he]

theorem sim_loop {env : Env} {cwd : Path} {c : Config} {f : Text → Instr} {copy : ℕ → FS → Text → Run Unit}
    (h : ∀ i fs x, Sim env cwd c [f x] fs (copy i fs x)) (files : List Text) : ∀ i fs, Sim env cwd c (files.map f) fs (copyLoop copy i fs files) := by
  induction files with
  | nil => intro i fs; exact sim_done 0
  | cons x files ih =>
    intro i fs
    simp only [copyLoop, List.map_cons]
    refine sim_andThen (xs := [f x]) (h i fs x) (fun _ _ => ?_)
    have := sim_andThen (ys := []) (ih (i + 1) (copy i fs x).fs) (f := fun fs n => done fs (n + 1)) (fun a _ => sim_done _)
    rwa [List.append_nil] at this

theorem sim_copyDir {env : Env} {cwd : Path} {c : Config} (d : Text) (i : ℕ) (fs : FS) (x : Text) :
    Sim env cwd c [.copyDir d x] fs (copyDirFile env cwd c.remote d i fs x) := by
  refine sim_read 0 (xs := [.ensure (resolve cwd (dirName (dirTarget c.remote d x)))] ++ [.copy x (dirTarget c.remote d x)]) ?_ ?_
  · intro rest; simp [stepProc, expand]
  · unfold copyDirFile
    simp only
    exact sim_andThen (sim_ensure (resolve cwd (dirName (dirTarget c.remote d x)))) (fun _ _ => sim_copy x (dirTarget c.remote d x) i)

theorem sim_send (env : Env) (cwd : Path) (c : Config) (fs : FS) : Sim env cwd c (sendCode cwd c) fs (send env cwd c fs) := by
  unfold sendCode send
  have h1 : Sim env cwd c [.unmark] fs (removeMarker cwd c fs) := by
    unfold removeMarker
    split
    · rename_i h
      refine sim_read 0 (xs := [.prim (.remove (cancelPath cwd c))]) ?_ (sim_prims [.remove (cancelPath cwd c)] fs)
      intro rest
      simp [stepProc, expand, h]
    · rename_i h
      refine sim_read 0 (xs := []) ?_ (sim_done ())
      intro rest
      simp [stepProc, expand, h]
  have h2 : ∀ fs, Sim env cwd c [.ensure (resolve cwd c.remote)] fs (makeRemote cwd c fs) := fun fs => sim_ensure _
  have h3 : ∀ fs, Sim env cwd c (match c.localDir with | none => [] | some d => if d = [] then [] else [.folder d]) fs (sendDir env cwd c fs) := by
    intro fs
    unfold sendDir
    cases hd : c.localDir with
    | none => exact sim_done 0
    | some d =>
      simp only
      by_cases he : d = []
      · rw [if_pos he, if_pos he]; exact sim_done 0
      · rw [if_neg he, if_neg he]
        refine sim_read 0 (xs := (walk env cwd fs d).map (.copyDir d)) ?_ ?_
        · intro rest; simp [stepProc, expand]
        · have hl : allLocalFiles env cwd fs (some d) = walk env cwd fs d := by simp [allLocalFiles, he]
          rw [hl]
          have := sim_andThen (ys := []) (sim_loop (f := fun x => .copyDir d x) (copy := fun i fs x => copyDirFile env cwd c.remote d i fs x) (sim_copyDir d) (walk env cwd fs d) 0 fs) (f := fun fs n => done fs (n + (walk env cwd fs d).length)) (fun a _ => sim_done _)
          rwa [List.append_nil] at this
  have h4 : ∀ n fs, Sim env cwd c (c.localFiles.map (fun f => .copy f (join c.remote (baseName f)))) fs
      (copyLoop (fun i fs f => copyListed env cwd c.remote i fs f) n fs c.localFiles) :=
    fun n fs => sim_loop (f := fun f => .copy f (join c.remote (baseName f))) (copy := fun i fs f => copyListed env cwd c.remote i fs f) (fun i fs x => sim_copy _ _ i) c.localFiles n fs
  rw [List.append_assoc]
  refine sim_andThen (xs := [.unmark]) h1 (fun _ _ => ?_)
  refine sim_andThen (xs := [.ensure (resolve cwd c.remote)]) (h2 _) (fun _ _ => ?_)
  refine sim_andThen (h3 _) (fun n _ => ?_)
  have := sim_andThen (ys := []) (h4 n (sendDir env cwd c (makeRemote cwd c (removeMarker cwd c fs).fs).fs).fs) (f := fun fs m => done fs (n + m)) (fun a _ => sim_done _)
  rwa [List.append_nil] at this

/-- **C178**. A sender that is alone does in its steps what `send` does in the model of C41 to C44: the same files at the end, and an exception in
the same cases. -/
theorem C178_alone (env : Env) (cwd : Path) (c : Config) (fs : FS) :
    ∃ sched : List (ℕ × Text), (∀ x ∈ sched, x.1 = 0 ∧ ∃ i, x.2 = env.stamp i) ∧
      (run env ⟨fs, [start cwd c]⟩ sched).fs = (send env cwd c fs).fs ∧
      ∃ t, (run env ⟨fs, [start cwd c]⟩ sched).procs = [t] ∧ t.code = [] ∧ (t.failed = true ↔ ∃ e, (send env cwd c fs).out = .error e) := by
  obtain ⟨stamps, h1, h2⟩ := sim_send env cwd c fs []
  have key : ∀ (l : List Text) (fs : FS) (t : Proc), run env ⟨fs, [t]⟩ (l.map (fun s => (0, s))) =
      ⟨(l.foldl (fun (x : FS × Proc) s => stepProc env s x.1 x.2) (fs, t)).1, [(l.foldl (fun (x : FS × Proc) s => stepProc env s x.1 x.2) (fs, t)).2]⟩ := by
    intro l
    induction l with
    | nil => intro fs t; rfl
    | cons s l ih =>
      intro fs t
      have := ih (stepProc env s fs t).1 (stepProc env s fs t).2
      exact this
  refine ⟨stamps.map (fun s => (0, s)), ?_, ?_⟩
  · intro x hx
    obtain ⟨s, hs, rfl⟩ := List.mem_map.1 hx
    exact ⟨rfl, h1 s hs⟩
  · rw [List.append_nil] at h2
    unfold start
    rw [key, h2]
    refine ⟨rfl, _, rfl, ?_⟩
    cases (send env cwd c fs).out with
    | ok n => simp [afterwards]
    | error e => exact ⟨rfl, fun _ => ⟨e, rfl⟩, fun _ => rfl⟩

/-! ### Examples and violations -/

/-- A sender of listed files only is in order if its names are. -/
theorem ordinary_listed {c : Config} {fs : FS} (hd : c.localDir = none) (h1 : c.remote.head? = some '/') (h2 : PlainWord c.cancelFile)
    (h3 : '_' ∉ c.cancelFile) (h4 : ∀ f ∈ c.localFiles, PlainWord (baseName f) ∧ '_' ∉ baseName f ∧ baseName f ≠ c.cancelFile ∧
      ¬ resolve [] c.remote <+: resolve [] f) : Ordinary [] c fs where
  absolute := h1
  cancel_plain := h2
  cancel_temp := by rintro ⟨a, ds, h, _⟩; apply h3; rw [h]; simp
  dir_nonempty := by intro d h; rw [hd] at h; simp at h
  names := by intro d rel h; have := h.1; rw [hd] at this; simp at this
  once := by intro d rel h; have := h.1; rw [hd] at this; simp at this
  no_temp := by intro d rel h; have := h.1; rw [hd] at this; simp at this
  not_cancel := by intro d rel h; have := h.1; rw [hd] at this; simp at this
  outside := by intro d rel h; have := h.1; rw [hd] at this; simp at this
  listed_plain := fun f hf => (h4 f hf).1
  listed_temp := by rintro f hf ⟨a, ds, h, _⟩; apply (h4 f hf).2.1; rw [h]; simp
  listed_not_cancel := fun f hf => (h4 f hf).2.2.1
  listed_outside := fun f hf => (h4 f hf).2.2.2

/-- A sender of one listed file to `/out`. -/
def oneFile (f : String) : Config := ⟨"/out".toList, none, [f.toList], "CANCEL".toList⟩

theorem oneFile_sends {f : String} {fs : FS} {q : Path} {b : Bytes} (h : Sends [] (oneFile f) fs q b) :
    q = ["out".toList, baseName f.toList] ∧ contents fs (resolve [] f.toList) = some b := by
  rcases h with ⟨d, rel, h1, _⟩ | ⟨g, hg, h1, h2⟩
  · simp [oneFile] at h1
  · simp only [oneFile, List.mem_singleton] at hg
    subst hg
    refine ⟨?_, h1⟩
    rw [h2]
    have : resolve [] (oneFile f).remote = ["out".toList] := by simp only [oneFile]; decide +kernel
    rw [this]; rfl

/-- Two senders of one file each to `/out` are apart. -/
theorem oneFile_apart {f g : String} {fs : FS}
    (hf : PlainWord (baseName f.toList) ∧ '_' ∉ baseName f.toList ∧ baseName f.toList ≠ "CANCEL".toList ∧ ¬ ["out".toList] <+: resolve [] f.toList)
    (hg : PlainWord (baseName g.toList) ∧ '_' ∉ baseName g.toList ∧ baseName g.toList ≠ "CANCEL".toList ∧ ¬ ["out".toList] <+: resolve [] g.toList) :
    Apart fs [start [] (oneFile f), start [] (oneFile g)] := by
  have hR : ∀ f, resolve [] (oneFile f).remote = ["out".toList] := by intro f; simp only [oneFile]; decide +kernel
  have hall : ∀ t ∈ [start [] (oneFile f), start [] (oneFile g)], ∃ h, t = start [] (oneFile h) ∧
      (PlainWord (baseName h.toList) ∧ '_' ∉ baseName h.toList ∧ baseName h.toList ≠ "CANCEL".toList ∧ ¬ ["out".toList] <+: resolve [] h.toList) := by
    intro t ht
    simp only [List.mem_cons, List.not_mem_nil, or_false] at ht
    rcases ht with rfl | rfl
    · exact ⟨f, rfl, hf⟩
    · exact ⟨g, rfl, hg⟩
  refine ⟨?_, ?_, ?_, ?_⟩
  · intro t ht
    obtain ⟨h, rfl, h1, h2, h3, h4⟩ := hall t ht
    refine ordinary_listed rfl rfl (by unfold PlainWord; simp only [start, oneFile]; decide) (by simp only [start, oneFile]; decide) ?_
    intro x hx
    simp only [start, oneFile, List.mem_singleton] at hx
    subst hx
    refine ⟨h1, h2, h3, ?_⟩
    show ¬ resolve [] (oneFile h).remote <+: _
    rw [hR]; exact h4
  · intro t ht t' _ d hd
    obtain ⟨h, rfl, _⟩ := hall t ht
    simp [start, oneFile] at hd
  · intro t ht t' ht' x hx
    obtain ⟨h, rfl, _, _, _, h4⟩ := hall t ht
    obtain ⟨h', rfl, _⟩ := hall t' ht'
    simp only [start, oneFile, List.mem_singleton] at hx
    subst hx
    show ¬ resolve [] (oneFile h').remote <+: _
    rw [hR]; exact h4
  · intro t ht t' ht' b hb
    obtain ⟨h, rfl, _, _, h3, _⟩ := hall t ht
    obtain ⟨h', rfl, _⟩ := hall t' ht'
    have := (oneFile_sends hb).1
    simp only [markerOf, remoteOf, start, hR, List.cons_append, List.nil_append, List.cons.injEq, and_true, true_and] at this
    exact h3 this.symm

/-- A time. -/
def noon : Text := "20260101120000".toList

/-- Steps of processes, all at noon. -/
def atNoon (l : List ℕ) : List (ℕ × Text) := l.map (fun i => (i, noon))

theorem clock_noon (l : List ℕ) : Clock (atNoon l) := by
  intro x hx
  obtain ⟨i, _, rfl⟩ := List.mem_map.1 hx
  show ∀ c ∈ noon, c.isDigit = true
  decide

/-- **C178** violated by two senders of one file that work in the same second, even if both send the same contents: both use the same temporary name, so
that the file is replaced by an empty one, which is neither the previous nor the new contents; and the second sender raises an exception, although each
of them alone succeeds. -/
theorem C178_same_second_violated : ∃ (fs : FS) (ts : List Proc) (sched more : List (ℕ × Text)) (q : Path),
    Apart fs ts ∧ AtStart ts ∧ Agree fs ts ∧ Clock (sched ++ more) ∧
    (∀ t ∈ ts, q ≠ markerOf t) ∧ ¬ TempPath q ∧
    contents fs q = some [9] ∧ (∀ t ∈ ts, Sends t.cwd t.cfg fs q [1, 2]) ∧
    (∀ t ∈ ts, (send exEnv t.cwd t.cfg fs).out = .ok 1) ∧
    contents (run exEnv ⟨fs, ts⟩ sched).fs q = some [] ∧
    (run exEnv ⟨fs, ts⟩ (sched ++ more)).procs.map (·.failed) = [false, true] := by
  refine ⟨[(["x".toList], .dir), (["x".toList, "f".toList], .file [1, 2]), (["y".toList], .dir), (["y".toList, "f".toList], .file [1, 2]),
    (["out".toList], .dir), (["out".toList, "f".toList], .file [9])],
    [start [] (oneFile "/x/f"), start [] (oneFile "/y/f")], atNoon [0, 0, 0, 0, 0, 0, 1, 1, 1, 1, 0], atNoon [1], ["out".toList, "f".toList],
    oneFile_apart ?_ ?_, ?_, ?_, ?_, ?_, ?_, by decide +kernel, ?_, ?_, by decide +kernel, by decide +kernel⟩
  · unfold PlainWord; decide +kernel
  · unfold PlainWord; decide +kernel
  · intro t ht
    simp only [List.mem_cons, List.not_mem_nil, or_false] at ht
    rcases ht with rfl | rfl <;> rfl
  · intro t ht t' ht' q b b' hb hb'
    have key : ∀ (t : Proc), t ∈ [start [] (oneFile "/x/f"), start [] (oneFile "/y/f")] → ∀ b, Sends t.cwd t.cfg
        [(["x".toList], Node.dir), (["x".toList, "f".toList], .file [1, 2]), (["y".toList], .dir), (["y".toList, "f".toList], .file [1, 2]),
          (["out".toList], .dir), (["out".toList, "f".toList], .file [9])] q b → b = [1, 2] := by
      intro t ht b hb
      simp only [List.mem_cons, List.not_mem_nil, or_false] at ht
      rcases ht with rfl | rfl
      · have h := (oneFile_sends hb).2
        rw [show contents [(["x".toList], Node.dir), (["x".toList, "f".toList], .file [1, 2]), (["y".toList], .dir), (["y".toList, "f".toList], .file [1, 2]),
          (["out".toList], .dir), (["out".toList, "f".toList], .file [9])] (resolve [] "/x/f".toList) = some [1, 2] by decide +kernel] at h
        exact (Option.some.inj h).symm
      · have h := (oneFile_sends hb).2
        rw [show contents [(["x".toList], Node.dir), (["x".toList, "f".toList], .file [1, 2]), (["y".toList], .dir), (["y".toList, "f".toList], .file [1, 2]),
          (["out".toList], .dir), (["out".toList, "f".toList], .file [9])] (resolve [] "/y/f".toList) = some [1, 2] by decide +kernel] at h
        exact (Option.some.inj h).symm
    rw [key t ht b hb, key t' ht' b' hb']
  · rw [show atNoon [0, 0, 0, 0, 0, 0, 1, 1, 1, 1, 0] ++ atNoon [1] = atNoon [0, 0, 0, 0, 0, 0, 1, 1, 1, 1, 0, 1] from rfl]
    exact clock_noon _
  · intro t ht
    simp only [List.mem_cons, List.not_mem_nil, or_false] at ht
    rcases ht with rfl | rfl <;> decide +kernel
  · rintro ⟨w, hw, ht⟩
    simp at hw; subst hw; exact not_tempWord (by decide) ht
  · intro t ht
    simp only [List.mem_cons, List.not_mem_nil, or_false] at ht
    rcases ht with rfl | rfl
    · exact Or.inr ⟨"/x/f".toList, by simp [start, oneFile], by decide +kernel, by decide +kernel⟩
    · exact Or.inr ⟨"/y/f".toList, by simp [start, oneFile], by decide +kernel, by decide +kernel⟩
  · intro t ht
    simp only [List.mem_cons, List.not_mem_nil, or_false] at ht
    rcases ht with rfl | rfl <;> decide +kernel

theorem oneFile_places {f g : String} {fs : FS} (h : baseName f.toList ≠ baseName g.toList) :
    DifferentPlaces fs [start [] (oneFile f), start [] (oneFile g)] := by
  have key : ∀ f g : String, baseName f.toList ≠ baseName g.toList → ∀ q b b', Sends [] (oneFile f) fs q b → ¬ Sends [] (oneFile g) fs q b' := by
    intro f g h q b b' h1 h2
    have e1 := (oneFile_sends h1).1
    have e2 := (oneFile_sends h2).1
    rw [e1] at e2
    simp only [List.cons.injEq, and_true, true_and] at e2
    exact h e2
  intro i j t t' hij hi hj q b b' h1 h2
  match i, j with
  | 0, 0 => exact hij rfl
  | 0, 1 =>
    simp only [List.getElem?_cons_zero, List.getElem?_cons_succ, Option.some.injEq] at hi hj
    subst hi hj
    exact key f g h q b b' h1 h2
  | 1, 0 =>
    simp only [List.getElem?_cons_zero, List.getElem?_cons_succ, Option.some.injEq] at hi hj
    subst hi hj
    exact key g f (Ne.symm h) q b b' h1 h2
  | 1, 1 => exact hij rfl
  | n + 2, _ => simp at hi
  | 0, n + 2 => simp at hj
  | 1, n + 2 => simp at hj

/-- Two senders of different contents to one place, one second apart: they meet the hypotheses; both end without an exception and the file has the
contents of the one that ended last. -/
example : Apart [(["x".toList, "f".toList], .file [1, 2]), (["y".toList, "f".toList], .file [3]), (["out".toList], .dir)]
      [start [] (oneFile "/x/f"), start [] (oneFile "/y/f")] ∧
    (∀ i j now, i ≠ j → (i, now) ∈ (List.replicate 7 [(0, noon), (1, "20260101120001".toList)]).flatten →
      (j, now) ∉ (List.replicate 7 [(0, noon), (1, "20260101120001".toList)]).flatten) ∧
    (run exEnv ⟨[(["x".toList, "f".toList], .file [1, 2]), (["y".toList, "f".toList], .file [3]), (["out".toList], .dir)],
      [start [] (oneFile "/x/f"), start [] (oneFile "/y/f")]⟩ (List.replicate 7 [(0, noon), (1, "20260101120001".toList)]).flatten).procs.map
      (fun t => (t.code.length, t.failed)) = [(0, false), (0, false)] ∧
    contents (run exEnv ⟨[(["x".toList, "f".toList], .file [1, 2]), (["y".toList, "f".toList], .file [3]), (["out".toList], .dir)],
      [start [] (oneFile "/x/f"), start [] (oneFile "/y/f")]⟩ (List.replicate 7 [(0, noon), (1, "20260101120001".toList)]).flatten).fs
      ["out".toList, "f".toList] = some [1, 2] := by
  refine ⟨oneFile_apart ?_ ?_, ?_, by decide +kernel, by decide +kernel⟩
  · unfold PlainWord; decide +kernel
  · unfold PlainWord; decide +kernel
  · have key : ∀ i now, (i, now) ∈ (List.replicate 7 [(0, noon), (1, "20260101120001".toList)]).flatten →
        (i = 0 ∧ now = noon) ∨ (i = 1 ∧ now = "20260101120001".toList) := by
      intro i now h
      obtain ⟨l, hl, hm⟩ := List.mem_flatten.1 h
      rw [(List.mem_replicate.1 hl).2] at hm
      simpa using hm
    intro i j now hij h1 h2
    rcases key i now h1 with ⟨rfl, rfl⟩ | ⟨rfl, rfl⟩ <;> rcases key j _ h2 with ⟨rfl, h⟩ | ⟨rfl, h⟩
    · exact hij rfl
    · revert h; decide
    · revert h; decide
    · exact hij rfl

/-- **C178** violated: senders to different places can still make each other fail. Two senders to a directory that is not there yet both want to make
it, and the second raises FileExistsError; two senders to a directory with a cancel file both want to remove it, and the second raises
FileNotFoundError. Each of them alone succeeds. -/
theorem C178_exception_violated : ∃ (ts : List Proc) (fs fs' : FS) (sched : List (ℕ × Text)),
    Apart fs ts ∧ Apart fs' ts ∧ AtStart ts ∧ DifferentPlaces fs ts ∧ DifferentPlaces fs' ts ∧ Clock sched ∧
    isDir fs ["out".toList] = false ∧ (∀ t ∈ ts, (contents fs' (markerOf t)).isSome) ∧
    (∀ t ∈ ts, (send exEnv t.cwd t.cfg fs).out = .ok 1 ∧ (send exEnv t.cwd t.cfg fs').out = .ok 1) ∧
    (run exEnv ⟨fs, ts⟩ sched).procs.map (·.failed) = [false, true] ∧
    (run exEnv ⟨fs', ts⟩ sched).procs.map (·.failed) = [false, true] := by
  refine ⟨[start [] (oneFile "/x/f"), start [] (oneFile "/x/g")],
    [(["x".toList], .dir), (["x".toList, "f".toList], .file [1]), (["x".toList, "g".toList], .file [2])],
    [(["x".toList], .dir), (["x".toList, "f".toList], .file [1]), (["x".toList, "g".toList], .file [2]),
      (["out".toList], .dir), (["out".toList, "CANCEL".toList], .file [])],
    atNoon [0, 1, 0, 1, 0, 1, 0, 0, 0, 0, 0], oneFile_apart ?_ ?_, oneFile_apart ?_ ?_, ?_, oneFile_places (by decide +kernel),
    oneFile_places (by decide +kernel), clock_noon _, by decide +kernel, ?_, ?_, by decide +kernel, by decide +kernel⟩
  · unfold PlainWord; decide +kernel
  · unfold PlainWord; decide +kernel
  · unfold PlainWord; decide +kernel
  · unfold PlainWord; decide +kernel
  · intro t ht
    simp only [List.mem_cons, List.not_mem_nil, or_false] at ht
    rcases ht with rfl | rfl <;> rfl
  · intro t ht
    simp only [List.mem_cons, List.not_mem_nil, or_false] at ht
    rcases ht with rfl | rfl <;> decide +kernel
  · intro t ht
    simp only [List.mem_cons, List.not_mem_nil, or_false] at ht
    rcases ht with rfl | rfl <;> decide +kernel

/-- Two senders to one directory, of which the first sends a directory and a file: they meet the hypotheses, and taking turns both end without an
exception. -/
example : exEnv.Ok ∧ Apart exFs [start [] exConfig, start [] (oneFile "/in/sub/b")] ∧
    AtStart [start [] exConfig, start [] (oneFile "/in/sub/b")] ∧
    DifferentPlaces exFs [start [] exConfig, start [] (oneFile "/in/sub/b")] ∧ Clock (atNoon ([0, 0] ++ (List.replicate 25 [0, 1]).flatten)) ∧
    (run exEnv ⟨exFs, [start [] exConfig, start [] (oneFile "/in/sub/b")]⟩ (atNoon ([0, 0] ++ (List.replicate 25 [0, 1]).flatten))).procs.map
      (fun t => (t.code.length, t.failed)) = [(0, false), (0, false)] := by
  have hsend : ∀ q b, Sends [] exConfig exFs q b →
      q = ["out".toList, "a".toList] ∨ q = ["out".toList, "sub".toList, "b".toList] ∨ q = ["out".toList, "x".toList] := by
    intro q b h
    have hR : resolve [] exConfig.remote = ["out".toList] := by decide +kernel
    rcases h with ⟨d, rel, h1, h2, h3, rfl⟩ | ⟨f, hf, _, rfl⟩
    · obtain ⟨_, rfl | rfl⟩ := exConfig_files d rel ⟨h1, h2, by simp [h3]⟩
      · left; rw [hR]; rfl
      · right; left; rw [hR]; rfl
    · simp only [exConfig, List.mem_singleton] at hf
      subst hf
      right; right; rw [hR]; decide +kernel
  refine ⟨exEnv_ok, ⟨?_, ?_, ?_, ?_⟩, ?_, ?_, clock_noon _, by decide +kernel⟩
  · intro t ht
    simp only [List.mem_cons, List.not_mem_nil, or_false] at ht
    rcases ht with rfl | rfl
    · exact exOrdinary
    · refine ordinary_listed rfl rfl (by unfold PlainWord; decide) (by decide) ?_
      intro x hx
      simp only [start, oneFile, List.mem_singleton] at hx
      subst hx
      unfold PlainWord
      decide +kernel
  · intro t ht t' ht' d hd
    simp only [List.mem_cons, List.not_mem_nil, or_false] at ht ht'
    rcases ht with rfl | rfl
    · have : d = "/in".toList := by simpa [start, exConfig] using hd.symm
      subst this
      rcases ht' with rfl | rfl <;> decide +kernel
    · simp [start, oneFile] at hd
  · intro t ht t' ht' f hf
    simp only [List.mem_cons, List.not_mem_nil, or_false] at ht ht'
    rcases ht with rfl | rfl
    · simp only [start, exConfig, List.mem_singleton] at hf
      subst hf
      rcases ht' with rfl | rfl <;> decide +kernel
    · simp only [start, oneFile, List.mem_singleton] at hf
      subst hf
      rcases ht' with rfl | rfl <;> decide +kernel
  · intro t ht t' ht' b hb
    have hm : markerOf t' = ["out".toList, "CANCEL".toList] := by
      simp only [List.mem_cons, List.not_mem_nil, or_false] at ht'
      rcases ht' with rfl | rfl <;> decide +kernel
    rw [hm] at hb
    simp only [List.mem_cons, List.not_mem_nil, or_false] at ht
    rcases ht with rfl | rfl
    · rcases hsend _ _ hb with h | h | h <;> revert h <;> decide +kernel
    · have := (oneFile_sends hb).1
      revert this; decide +kernel
  · intro t ht
    simp only [List.mem_cons, List.not_mem_nil, or_false] at ht
    rcases ht with rfl | rfl <;> rfl
  · have key : ∀ q b b', Sends [] exConfig exFs q b → ¬ Sends [] (oneFile "/in/sub/b") exFs q b' := by
      intro q b b' h1 h2
      have e := (oneFile_sends h2).1
      rcases hsend _ _ h1 with h | h | h <;> rw [h] at e <;> revert e <;> decide +kernel
    intro i j t t' hij hi hj q b b' h1 h2
    match i, j with
    | 0, 0 => exact hij rfl
    | 0, 1 =>
      simp only [List.getElem?_cons_zero, List.getElem?_cons_succ, Option.some.injEq] at hi hj
      subst hi hj
      exact key q b b' h1 h2
    | 1, 0 =>
      simp only [List.getElem?_cons_zero, List.getElem?_cons_succ, Option.some.injEq] at hi hj
      subst hi hj
      exact key q b' b h2 h1
    | 1, 1 => exact hij rfl
    | n + 2, _ => simp at hi
    | 0, n + 2 => simp at hj
    | 1, n + 2 => simp at hj

end Verif.Props
