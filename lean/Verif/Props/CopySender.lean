import Verif.Lemmas.Sender
import Verif.Spec.Delivery

/-!
# Copy sender: C41, C42, C43 (copying), C44
-/

namespace Verif.Props
open Verif.Fs Verif.Sender Verif.Spec

theorem mem_filesBelow {fs : FS} {d : Path} {rel : List Text} :
    rel ∈ filesBelow fs d ↔ rel ≠ [] ∧ (contents fs (d ++ rel)).isSome := by
  unfold filesBelow
  simp only [List.mem_map, List.mem_filter, List.mem_dedup, Bool.and_eq_true, decide_eq_true_eq]
  constructor
  · rintro ⟨p, ⟨_, ⟨⟨t, rfl⟩, h2⟩, h3⟩, rfl⟩
    rw [List.drop_left]
    refine ⟨?_, ?_⟩
    · rintro rfl; simp at h2
    · obtain ⟨b, hb⟩ := (isFile_iff fs _).1 h3
      simp [hb]
  · rintro ⟨h1, h2⟩
    obtain ⟨b, hb⟩ := Option.isSome_iff_exists.1 h2
    refine ⟨d ++ rel, ⟨?_, ⟨⟨rel, rfl⟩, by simpa using h1⟩, (isFile_iff fs _).2 ⟨b, hb⟩⟩, by simp⟩
    have := contents_eq_some.1 hb
    unfold Fs.get at this
    have hm := List.lookup_eq_some_iff.1 this
    obtain ⟨l1, l2, he, _⟩ := hm
    exact ⟨(d ++ rel, .file b), by rw [he]; simp, rfl⟩

theorem nodup_filesBelow (fs : FS) (d : Path) : (filesBelow fs d).Nodup := by
  unfold filesBelow
  apply List.Nodup.map_on
  · intro p hp q hq h
    simp only [List.mem_filter, Bool.and_eq_true, decide_eq_true_eq] at hp hq
    obtain ⟨t, rfl⟩ := hp.2.1.1
    obtain ⟨u, rfl⟩ := hq.2.1.1
    simpa using h
  · exact (List.nodup_dedup _).filter _

theorem filesBelow_congr {fs fs' : FS} {d : Path}
    (h : ∀ rel, rel ≠ [] → contents fs' (d ++ rel) = contents fs (d ++ rel)) :
    (filesBelow fs' d).Perm (filesBelow fs d) := by
  rw [List.perm_ext_iff_of_nodup (nodup_filesBelow _ _) (nodup_filesBelow _ _)]
  intro rel
  rw [mem_filesBelow, mem_filesBelow]
  constructor
  · rintro ⟨h1, h2⟩; exact ⟨h1, by rwa [← h rel h1]⟩
  · rintro ⟨h1, h2⟩; exact ⟨h1, by rwa [h rel h1]⟩

theorem resolve_absolute (cwd : Path) {s : Text} (h : s.head? = some '/') :
    resolve cwd s = parts s := by simp [resolve, h]

theorem cancelPath_eq {cwd : Path} {c : Config} (h : PlainWord c.cancelFile) :
    cancelPath cwd c = resolve cwd c.remote ++ [c.cancelFile] := by
  unfold cancelPath
  rw [resolve_join cwd (plain_head h), parts_word h]

theorem removeMarker_spec (cwd : Path) (c : Config) (fs : FS) :
    (∀ s, Visits (removeMarker cwd c fs) s → ∀ q, q ≠ cancelPath cwd c →
      contents s q = contents fs q) ∧
    (∀ u, (removeMarker cwd c fs).out = .ok u →
      contents (removeMarker cwd c fs).fs (cancelPath cwd c) = none) := by
  unfold removeMarker
  by_cases h : isFile fs (cancelPath cwd c) = true
  · have hr : runAll [.remove (cancelPath cwd c)] fs =
        ⟨[del fs (cancelPath cwd c)], del fs (cancelPath cwd c), .ok ()⟩ := by
      simp [runAll, exec, h, done]
    rw [if_pos h, hr]
    refine ⟨?_, ?_⟩
    · rintro s hs q hq
      have : s = del fs (cancelPath cwd c) := by
        rcases hs with hs | hs
        · simpa using hs
        · exact hs
      rw [this, contents_del]; simp [hq]
    · intro _ _; simp only; rw [contents_del]; simp
  · rw [if_neg h]
    refine ⟨fun s hs q _ => by rw [visits_done hs], fun _ _ => ?_⟩
    simp only [done]
    cases hc : contents fs (cancelPath cwd c) with
    | none => rfl
    | some b => exact absurd ((isFile_iff _ _).2 ⟨b, hc⟩) h

theorem makeRemote_spec (cwd : Path) (c : Config) (fs : FS) :
    ∀ s, Visits (makeRemote cwd c fs) s → ∀ q, contents s q = contents fs q := by
  unfold makeRemote
  split
  · intro s hs q; rw [visits_done hs]
  · intro s hs q
    rcases hs with hs | rfl
    · exact (makedirs_contents fs _ q).1 s hs
    · exact (makedirs_contents fs _ q).2

/-- The copies of the files of the local directory. -/
def dirJob (cwd : Path) (remote d : Text) (f : Text) : Job :=
  ⟨resolve cwd f, resolve cwd (dirTarget remote d f), true⟩

/-- The copies of the listed files. -/
def listedJob (cwd : Path) (remote : Text) (f : Text) : Job :=
  ⟨resolve cwd f, resolve cwd remote ++ [baseName f], false⟩

theorem tempPath_append {p rel : Path} (h : rel ≠ []) : TempPath (p ++ rel) ↔ TempPath rel := by
  unfold TempPath
  rw [List.getLast?_append_of_ne_nil _ h]

theorem under_tmpPath (env : Env) (i : ℕ) {r rel : Path} (h : rel ≠ []) :
    r <+: tmpPath env i (r ++ rel) := by
  unfold tmpPath
  rw [List.dropLast_append_of_ne_nil h, List.append_assoc]
  exact List.prefix_append _ _

/-- What `send` does with the local directory, from a state `fs2` in which the cancel file is gone. -/
theorem sendDir_spec {env : Env} (henv : env.Ok) {cwd : Path} {c : Config} {fs fs2 : FS}
    (hord : Ordinary cwd c fs)
    (h2 : ∀ q, q ≠ cancelPath cwd c → contents fs2 q = contents fs q)
    (h2c : contents fs2 (cancelPath cwd c) = none) :
    (∀ s, Visits (sendDir env cwd c fs2) s → ∀ q,
      ((¬ TempPath q) ∨ ¬ resolve cwd c.remote <+: q) →
      contents s q = contents fs2 q ∨ ∃ d rel b, c.localDir = some d ∧ rel ≠ [] ∧
        contents fs (resolve cwd d ++ rel) = some b ∧ q = resolve cwd c.remote ++ rel ∧
        contents s q = some b) ∧
    (∀ n, (sendDir env cwd c fs2).out = .ok n →
      (∀ d rel b, c.localDir = some d → rel ≠ [] → contents fs (resolve cwd d ++ rel) = some b →
        contents (sendDir env cwd c fs2).fs (resolve cwd c.remote ++ rel) = some b) ∧
      (∀ d, c.localDir = some d → ¬ resolve cwd d <+: resolve cwd c.remote →
        n = 2 * (filesBelow fs (resolve cwd d)).length) ∧
      (c.localDir = none → n = 0)) := by
  have hR := resolve_absolute cwd hord.absolute
  unfold sendDir
  cases hl : c.localDir with
  | none =>
    refine ⟨fun s hs q _ => Or.inl (by rw [visits_done hs]), fun n hn => ⟨?_, ?_, ?_⟩⟩
    · intro d rel b h; cases h
    · intro d h; cases h
    · intro _; simp [done] at hn; exact hn.symm
  | some d =>
    have hd := hord.dir_nonempty d hl
    simp only
    rw [if_neg hd]
    simp only [allLocalFiles]
    rw [if_neg hd]
    -- the files to copy are those of the directory
    have hsrc : ∀ rel, rel ≠ [] → contents fs2 (resolve cwd d ++ rel) =
        contents fs (resolve cwd d ++ rel) := by
      intro rel hrel
      by_cases he : resolve cwd d ++ rel = cancelPath cwd c
      · -- a cancel file is not a file to be sent
        cases hc : contents fs (resolve cwd d ++ rel) with
        | none => rw [he, h2c]
        | some b =>
          exfalso
          apply hord.outside d rel ⟨hl, hrel, by simp [hc]⟩
          rw [he, cancelPath_eq hord.cancel_plain]
          exact List.prefix_append _ _
      · exact h2 _ he
    have hperm : (env.order (filesBelow fs2 (resolve cwd d))).Perm (filesBelow fs (resolve cwd d)) :=
      (henv.order _).trans (filesBelow_congr hsrc)
    have hnd : (env.order (filesBelow fs2 (resolve cwd d))).Nodup :=
      hperm.nodup_iff.2 (nodup_filesBelow _ _)
    have hmem : ∀ rel, rel ∈ env.order (filesBelow fs2 (resolve cwd d)) ↔
        LocalFile cwd c fs d rel := by
      intro rel
      rw [hperm.mem_iff, mem_filesBelow]
      simp [LocalFile, hl]
    have hwalk : walk env cwd fs2 d =
        (env.order (filesBelow fs2 (resolve cwd d))).map (joins d) := rfl
    rw [hwalk]
    generalize env.order (filesBelow fs2 (resolve cwd d)) = rels at *
    -- each of them is a copy
    have hjob : ∀ rel ∈ rels, dirJob cwd c.remote d (joins d rel) =
        ⟨resolve cwd d ++ rel, resolve cwd c.remote ++ rel, true⟩ := by
      intro rel hrel
      have hf := (hmem rel).1 hrel
      unfold dirJob
      rw [resolve_dirTarget cwd hd (hord.names d rel hf) hf.2.1 (hord.once d rel hf),
        resolve_joins cwd d (hord.names d rel hf), hR]
    have hcopy : ∀ f ∈ rels.map (joins d), ∀ i fs, copyDirFile env cwd c.remote d i fs f =
        runJob env i fs (dirJob cwd c.remote d f) := by
      intro f hf i fs
      obtain ⟨rel, hrel, rfl⟩ := List.mem_map.1 hf
      have hf := (hmem rel).1 hrel
      rw [hjob rel hrel, copyDirFile_job henv cwd hd (hord.names d rel hf) hf.2.1
        (hord.once d rel hf), hR]
    have hout : ∀ rel ∈ rels, ¬ resolve cwd c.remote <+: resolve cwd d ++ rel :=
      fun rel hrel => hord.outside d rel ((hmem rel).1 hrel)
    have hrne : ∀ rel ∈ rels, rel ≠ [] := fun rel hrel => ((hmem rel).1 hrel).2.1
    have e1 : ∀ f ∈ rels.map (joins d), ∀ g ∈ rels.map (joins d),
        (dirJob cwd c.remote d f).src ≠ (dirJob cwd c.remote d g).dst := by
      intro f hf g hg
      obtain ⟨rel, hrel, rfl⟩ := List.mem_map.1 hf
      obtain ⟨rel', hrel', rfl⟩ := List.mem_map.1 hg
      rw [hjob rel hrel, hjob rel' hrel']
      intro h
      apply hout rel hrel
      simp only at h
      rw [h]; exact List.prefix_append _ _
    have e2 : ∀ f ∈ rels.map (joins d), ∀ g ∈ rels.map (joins d), ∀ i,
        (dirJob cwd c.remote d f).src ≠ tmpPath env i (dirJob cwd c.remote d g).dst := by
      intro f hf g hg i
      obtain ⟨rel, hrel, rfl⟩ := List.mem_map.1 hf
      obtain ⟨rel', hrel', rfl⟩ := List.mem_map.1 hg
      rw [hjob rel hrel, hjob rel' hrel']
      intro h
      apply hout rel hrel
      simp only at h
      rw [h]; exact under_tmpPath env i (hrne rel' hrel')
    have e3 : ∀ f ∈ rels.map (joins d), ∀ g ∈ rels.map (joins d), ∀ i,
        (dirJob cwd c.remote d f).dst ≠ tmpPath env i (dirJob cwd c.remote d g).dst := by
      intro f hf g hg i
      obtain ⟨rel, hrel, rfl⟩ := List.mem_map.1 hf
      rw [hjob rel hrel]
      intro h
      apply hord.no_temp d rel ((hmem rel).1 hrel)
      rw [← tempPath_append (p := resolve cwd c.remote) (hrne rel hrel)]
      simp only at h
      rw [h]; exact tmpPath_temp henv _ _
    obtain ⟨hv, ho⟩ := copyLoop_spec henv hcopy e1 e2 e3 0 fs2
    have hq : ∀ q, ((¬ TempPath q) ∨ ¬ resolve cwd c.remote <+: q) →
        ∀ f ∈ rels.map (joins d), ∀ i, q ≠ tmpPath env i (dirJob cwd c.remote d f).dst := by
      intro q hq f hf i h
      rcases hq with hq | hq
      · apply hq; rw [h]; exact tmpPath_temp henv _ _
      · obtain ⟨rel, hrel, rfl⟩ := List.mem_map.1 hf
        rw [hjob rel hrel] at h
        apply hq; rw [h]; exact under_tmpPath env i (hrne rel hrel)
    -- a state of the loop
    have hloop : ∀ s, Visits (copyLoop (fun i fs f => copyDirFile env cwd c.remote d i fs f) 0 fs2
        (rels.map (joins d))) s → ∀ q, ((¬ TempPath q) ∨ ¬ resolve cwd c.remote <+: q) →
        contents s q = contents fs2 q ∨ ∃ rel b, rel ∈ rels ∧
          contents fs (resolve cwd d ++ rel) = some b ∧ q = resolve cwd c.remote ++ rel ∧
          contents s q = some b := by
      intro s hs q hqq
      rcases hv s hs q (hq q hqq) with h | ⟨f, hf, k1, k2, k3⟩
      · exact Or.inl h
      · obtain ⟨rel, hrel, rfl⟩ := List.mem_map.1 hf
        rw [hjob rel hrel] at k1 k2 k3
        simp only at k1 k2 k3
        rw [hsrc rel (hrne rel hrel)] at k2 k3
        obtain ⟨b, hb⟩ := Option.isSome_iff_exists.1 k2
        exact Or.inr ⟨rel, b, hrel, hb, k1.symm, by rw [k3, hb]⟩
    refine ⟨?_, ?_⟩
    · intro s hs q hqq
      have hs' : Visits (copyLoop (fun i fs f => copyDirFile env cwd c.remote d i fs f) 0 fs2
          (rels.map (joins d))) s := by
        rcases visits_andThen hs with hs | ⟨n, _, hs⟩
        · exact hs
        · rw [visits_done hs]; exact Or.inr rfl
      rcases hloop s hs' q hqq with h | ⟨rel, b, k1, k2, k3, k4⟩
      · exact Or.inl h
      · exact Or.inr ⟨d, rel, b, rfl, hrne rel k1, k2, k3, k4⟩
    · intro n hn
      obtain ⟨m, n1, n2, n3⟩ := andThen_ok hn
      obtain ⟨r1, _, r3⟩ := ho m n1
      refine ⟨?_, ?_, ?_⟩
      · intro d' rel b hd' hrel hb
        cases hd'
        have hr : rel ∈ rels := (hmem rel).2 ⟨hl, hrel, by simp [hb]⟩
        have hpw : (rels.map (joins d)).Pairwise
            (fun f g => (dirJob cwd c.remote d f).dst ≠ (dirJob cwd c.remote d g).dst) := by
          rw [List.pairwise_map]
          refine List.Pairwise.imp_of_mem ?_ hnd
          intro a b ha hb hab
          rw [hjob a ha, hjob b hb]
          simpa using hab
        have := r3 hpw (joins d rel) (List.mem_map.2 ⟨rel, hr, rfl⟩)
        rw [hjob rel hr] at this
        rw [n3]
        simp only [done]
        simp only at this
        rw [this, hsrc rel hrel, hb]
      · intro d' hd' hnp
        cases hd'
        simp only [done, Except.ok.injEq] at n2
        rw [← n2, r1]
        have hlen : (walk env cwd (copyLoop (fun i fs f => copyDirFile env cwd c.remote d i fs f) 0
            fs2 (rels.map (joins d))).fs d).length = (filesBelow fs (resolve cwd d)).length := by
          unfold walk
          rw [List.length_map, (henv.order _).length_eq]
          apply List.Perm.length_eq
          apply filesBelow_congr
          intro rel hrel
          by_cases hempty : rels = []
          · subst hempty
            simp only [List.map_nil, copyLoop, done]
            exact hsrc rel hrel
          · obtain ⟨r0, hr0⟩ := List.exists_mem_of_ne_nil _ hempty
            have hnot : ¬ resolve cwd c.remote <+: resolve cwd d ++ rel := by
              intro hpre
              rcases List.prefix_or_prefix_of_prefix hpre (List.prefix_append (resolve cwd d) rel)
                with h | h
              · exact hout r0 hr0 (h.trans (List.prefix_append _ _))
              · exact hnp h
            rcases hloop _ (Or.inr rfl) (resolve cwd d ++ rel) (Or.inr hnot) with h | h
            · rw [h, hsrc rel hrel]
            · obtain ⟨rel', b, _, _, k3, _⟩ := h
              exact absurd (k3 ▸ List.prefix_append _ _) hnot
        rw [hlen, List.length_map, hperm.length_eq]
        omega
      · intro h; cases h

/-- What `send` does, in every state and at the end. -/
theorem send_spec {env : Env} (henv : env.Ok) {cwd : Path} {c : Config} {fs : FS}
    (hord : Ordinary cwd c fs) :
    (∀ s, Visits (send env cwd c fs) s → ∀ q, q ≠ cancelPath cwd c →
      ((¬ TempPath q) ∨ ¬ resolve cwd c.remote <+: q) →
      contents s q = contents fs q ∨ ∃ b, Sends cwd c fs q b ∧ contents s q = some b) ∧
    (contents (send env cwd c fs).fs (cancelPath cwd c) = none) ∧
    (∀ n, (send env cwd c fs).out = .ok n →
      (∀ f ∈ c.localFiles, (contents fs (resolve cwd f)).isSome) ∧
      ((c.localFiles.map baseName).Nodup → ∀ f ∈ c.localFiles,
        contents (send env cwd c fs).fs (resolve cwd c.remote ++ [baseName f]) =
          contents fs (resolve cwd f)) ∧
      (∀ d rel b, c.localDir = some d → rel ≠ [] → contents fs (resolve cwd d ++ rel) = some b →
        (∀ f ∈ c.localFiles, rel ≠ [baseName f]) →
        contents (send env cwd c fs).fs (resolve cwd c.remote ++ rel) = some b) ∧
      (∀ d, c.localDir = some d → ¬ resolve cwd d <+: resolve cwd c.remote →
        n = 2 * (filesBelow fs (resolve cwd d)).length + c.localFiles.length) ∧
      (c.localDir = none → n = c.localFiles.length)) := by
  have hcan := cancelPath_eq (cwd := cwd) hord.cancel_plain
  have hcanpre : resolve cwd c.remote <+: cancelPath cwd c := by
    rw [hcan]; exact List.prefix_append _ _
  have hcantemp : ¬ TempPath (cancelPath cwd c) := by
    rw [hcan, tempPath_append (by simp)]
    rintro ⟨w, hw, ht⟩
    simp only [List.getLast?_singleton, Option.some.injEq] at hw
    exact hord.cancel_temp (hw ▸ ht)
  -- first step
  obtain ⟨hr1, hr2⟩ := removeMarker_spec cwd c fs
  have hrok : (removeMarker cwd c fs).out = .ok () := by
    unfold removeMarker
    split
    · rename_i h; simp [runAll, exec, h, done]
    · rfl
  -- second step
  have hm := makeRemote_spec cwd c (removeMarker cwd c fs).fs
  have h2 : ∀ s, Visits (makeRemote cwd c (removeMarker cwd c fs).fs) s →
      (∀ q, q ≠ cancelPath cwd c → contents s q = contents fs q) ∧
      contents s (cancelPath cwd c) = none := by
    intro s hs
    exact ⟨fun q hq => by rw [hm s hs, hr1 _ (Or.inr rfl) q hq],
      by rw [hm s hs, hr2 () hrok]⟩
  have hfs2 := h2 _ (Or.inr rfl)
  -- third step
  obtain ⟨hd1, hd2⟩ := sendDir_spec henv hord hfs2.1 hfs2.2
  generalize hfs2e : (makeRemote cwd c (removeMarker cwd c fs).fs).fs = fs2 at *
  -- fourth step
  have hcopy : ∀ f ∈ c.localFiles, ∀ i fs, copyListed env cwd c.remote i fs f =
      runJob env i fs (listedJob cwd c.remote f) :=
    fun f hf i fs => copyListed_job henv cwd (hord.listed_plain f hf) i fs
  have hloop := fun (i : ℕ) => copyLoop_spec (i := i) henv hcopy
    (by
      intro f hf g hg h
      apply hord.listed_outside f hf
      simp only [listedJob] at h
      rw [h]; exact List.prefix_append _ _)
    (by
      intro f hf g hg i h
      apply hord.listed_outside f hf
      simp only [listedJob] at h
      rw [h]; exact under_tmpPath env i (by simp))
    (by
      intro f hf g hg i h
      apply hord.listed_temp f hf
      have ht := tmpPath_temp henv i (listedJob cwd c.remote g).dst
      rw [← h] at ht
      simp only [listedJob] at ht
      rw [tempPath_append (by simp)] at ht
      obtain ⟨w, hw, ht⟩ := ht
      simp only [List.getLast?_singleton, Option.some.injEq] at hw
      rwa [hw])
    (sendDir env cwd c fs2).fs
  have hqtmp : ∀ q, ((¬ TempPath q) ∨ ¬ resolve cwd c.remote <+: q) →
      ∀ f ∈ c.localFiles, ∀ i, q ≠ tmpPath env i (listedJob cwd c.remote f).dst := by
    intro q hq f hf i h
    rcases hq with hq | hq
    · apply hq; rw [h]; exact tmpPath_temp henv _ _
    · apply hq; rw [h]; exact under_tmpPath env i (by simp)
  -- sources of the listed files are as before
  have hsrc : ∀ f ∈ c.localFiles, contents (sendDir env cwd c fs2).fs (resolve cwd f) =
      contents fs (resolve cwd f) := by
    intro f hf
    have hno := hord.listed_outside f hf
    rcases hd1 _ (Or.inr rfl) (resolve cwd f) (Or.inr hno) with h | ⟨d, rel, b, _, _, _, h, _⟩
    · rw [h]
      apply hfs2.1
      intro h; exact hno (h ▸ hcanpre)
    · exact absurd (h ▸ List.prefix_append _ _) hno
  -- states
  have hstates : ∀ s, Visits (send env cwd c fs) s →
      (∀ q, q ≠ cancelPath cwd c → ((¬ TempPath q) ∨ ¬ resolve cwd c.remote <+: q) →
        contents s q = contents fs q ∨ ∃ b, Sends cwd c fs q b ∧ contents s q = some b) ∧
      (Visits (removeMarker cwd c fs) s ∨ contents s (cancelPath cwd c) = none) := by
    intro s hs
    unfold send at hs
    rcases visits_andThen hs with hs | ⟨_, _, hs⟩
    · exact ⟨fun q hq _ => Or.inl (hr1 s hs q hq), Or.inl hs⟩
    rcases visits_andThen hs with hs | ⟨_, _, hs⟩
    · exact ⟨fun q hq _ => Or.inl ((h2 s hs).1 q hq), Or.inr (h2 s hs).2⟩
    rw [hfs2e] at hs
    have hdir : ∀ s, Visits (sendDir env cwd c fs2) s →
        (∀ q, q ≠ cancelPath cwd c → ((¬ TempPath q) ∨ ¬ resolve cwd c.remote <+: q) →
          contents s q = contents fs q ∨ ∃ b, Sends cwd c fs q b ∧ contents s q = some b) ∧
        contents s (cancelPath cwd c) = none := by
      intro s hs
      refine ⟨fun q hq hqt => ?_, ?_⟩
      · rcases hd1 s hs q hqt with h | ⟨d, rel, b, k1, k2, k3, k4, k5⟩
        · exact Or.inl (by rw [h, hfs2.1 q hq])
        · exact Or.inr ⟨b, Or.inl ⟨d, rel, k1, k2, k3, k4⟩, k5⟩
      · rcases hd1 s hs _ (Or.inl hcantemp) with h | ⟨d, rel, b, k1, k2, k3, k4, k5⟩
        · rw [h, hfs2.2]
        · exfalso
          rw [hcan] at k4
          exact hord.not_cancel d rel ⟨k1, k2, by simp [k3]⟩ (List.append_cancel_left k4).symm
    rcases visits_andThen hs with hs | ⟨n, _, hs⟩
    · exact ⟨(hdir s hs).1, Or.inr (hdir s hs).2⟩
    have hs' : Visits (copyLoop (fun i fs f => copyListed env cwd c.remote i fs f) n
        (sendDir env cwd c fs2).fs c.localFiles) s := by
      rcases visits_andThen hs with hs | ⟨m, _, hs⟩
      · exact hs
      · rw [visits_done hs]; exact Or.inr rfl
    have hd3 := hdir _ (Or.inr rfl)
    refine ⟨fun q hq hqt => ?_, Or.inr ?_⟩
    · rcases (hloop n).1 s hs' q (hqtmp q hqt) with h | ⟨f, hf, k1, k2, k3⟩
      · rw [h]; exact hd3.1 q hq hqt
      · simp only [listedJob] at k1 k2 k3
        rw [hsrc f hf] at k2 k3
        obtain ⟨b, hb⟩ := Option.isSome_iff_exists.1 k2
        exact Or.inr ⟨b, Or.inr ⟨f, hf, hb, k1.symm⟩, by rw [k3, hb]⟩
    · rcases (hloop n).1 s hs' _ (hqtmp _ (Or.inl hcantemp)) with h | ⟨f, hf, k1, _, _⟩
      · rw [h]; exact hd3.2
      · exfalso
        simp only [listedJob] at k1
        rw [hcan] at k1
        have := List.append_cancel_left k1
        simp only [List.cons.injEq, and_true] at this
        exact hord.listed_not_cancel f hf this
  refine ⟨fun s hs => (hstates s hs).1, ?_, ?_⟩
  · rcases (hstates _ (Or.inr rfl)).2 with h | h
    · -- the run ended in the first step: then the marker is gone as well
      have hgone : ∀ s, Visits (removeMarker cwd c fs) s → contents s (cancelPath cwd c) = none := by
        intro s hs
        have hr := hr2 () hrok
        have : s = (removeMarker cwd c fs).fs := by
          unfold removeMarker at hs ⊢
          by_cases hf : isFile fs (cancelPath cwd c) = true
          · rw [if_pos hf] at hs ⊢
            have hrun : runAll [.remove (cancelPath cwd c)] fs =
                ⟨[del fs (cancelPath cwd c)], del fs (cancelPath cwd c), .ok ()⟩ := by
              simp [runAll, exec, hf, done]
            rw [hrun] at hs ⊢
            rcases hs with hs | hs
            · simpa using hs
            · exact hs
          · rw [if_neg hf] at hs ⊢
            exact visits_done hs
        rw [this, hr]
      exact hgone _ h
    · exact h
  · intro n hn
    unfold send at hn ⊢
    obtain ⟨_, _, n1, e1⟩ := andThen_ok hn
    obtain ⟨_, _, n2, e2⟩ := andThen_ok n1
    rw [hfs2e] at n2 e2
    obtain ⟨k, nk, n3, e3⟩ := andThen_ok n2
    obtain ⟨m, nm, n4, e4⟩ := andThen_ok n3
    obtain ⟨m1, m2, m3⟩ := (hloop k).2 m nm
    obtain ⟨r1, r2, r3⟩ := hd2 k nk
    rw [e1, e2, e3, e4]
    simp only [done, Except.ok.injEq] at n4 ⊢
    refine ⟨?_, ?_, ?_, ?_, ?_⟩
    · intro f hf
      have := m2 f hf
      simp only [listedJob] at this
      rwa [hsrc f hf] at this
    · intro hnd f hf
      have := m3 (by
        rw [List.nodup_iff_pairwise_ne, List.pairwise_map] at hnd
        refine hnd.imp ?_
        intro a b hab h
        simp only [listedJob] at h
        have := List.append_cancel_left h
        simp only [List.cons.injEq, and_true] at this
        exact hab this) f hf
      simp only [listedJob] at this
      rw [this, hsrc f hf]
    · intro d rel b hd hrel hb hne
      have hdel := r1 d rel b hd hrel hb
      have hnt : ¬ TempPath (resolve cwd c.remote ++ rel) := by
        rw [tempPath_append hrel]
        exact hord.no_temp d rel ⟨hd, hrel, by simp [hb]⟩
      rcases (hloop k).1 _ (Or.inr rfl) _ (hqtmp _ (Or.inl hnt)) with h | ⟨f, hf, k1, _, _⟩
      · rw [h, hdel]
      · exfalso
        simp only [listedJob] at k1
        exact hne f hf (List.append_cancel_left k1).symm
    · intro d hd hnp
      rw [← n4, r2 d hd hnp, m1]
    · intro hd
      rw [← n4, r3 hd, m1]; omega

/-! ### C41 -/

/-- **C41** (partial). After a successful `send` of an ordinary configuration: every file of the
local directory is below the remote directory at the same relative path with the same contents
(unless a listed file of that name was put there afterwards); every listed file is in the remote
directory under its own name; the cancel marker is gone; every other path keeps its contents, apart
from temporary names in the remote directory. What is missing: configurations that are not ordinary,
see the violations below. -/
theorem C41_delivery_partial {env : Env} (henv : env.Ok) {cwd : Path} {c : Config} {fs : FS}
    (hord : Ordinary cwd c fs) (hnames : (c.localFiles.map baseName).Nodup) {n : ℕ}
    (hok : (send env cwd c fs).out = .ok n) :
    (∀ d rel b, c.localDir = some d → rel ≠ [] → contents fs (resolve cwd d ++ rel) = some b →
      (∀ f ∈ c.localFiles, rel ≠ [baseName f]) →
      contents (send env cwd c fs).fs (resolve cwd c.remote ++ rel) = some b) ∧
    (∀ f ∈ c.localFiles, ∃ b, contents fs (resolve cwd f) = some b ∧
      contents (send env cwd c fs).fs (resolve cwd c.remote ++ [baseName f]) = some b) ∧
    contents (send env cwd c fs).fs (resolve cwd c.remote ++ [c.cancelFile]) = none ∧
    (∀ q, q ≠ resolve cwd c.remote ++ [c.cancelFile] → (∀ b, ¬ Sends cwd c fs q b) →
      (¬ TempPath q ∨ ¬ resolve cwd c.remote <+: q) →
      contents (send env cwd c fs).fs q = contents fs q) := by
  obtain ⟨h1, h2, h3⟩ := send_spec henv hord
  obtain ⟨k1, k2, k3, _, _⟩ := h3 n hok
  rw [cancelPath_eq hord.cancel_plain] at h1 h2
  refine ⟨k3, ?_, h2, ?_⟩
  · intro f hf
    obtain ⟨b, hb⟩ := Option.isSome_iff_exists.1 (k1 f hf)
    exact ⟨b, hb, by rw [k2 hnames f hf, hb]⟩
  · intro q hq hno ht
    rcases h1 _ (Or.inr rfl) q hq ht with h | ⟨b, hb, _⟩
    · exact h
    · exact absurd hb (hno b)

/-- A plain environment for the examples. -/
def exEnv : Env := ⟨fun b => b.map fun x => [x], id, fun _ => "20260101000000".toList⟩

theorem exEnv_ok : exEnv.Ok := by
  refine ⟨?_, fun l => List.Perm.refl l, ?_⟩
  · intro b; induction b with
    | nil => rfl
    | cons x b ih => simpa [exEnv] using ih
  · intro i; show ∀ c ∈ "20260101000000".toList, c.isDigit = true; decide

/-- A local directory with two files, one in a subdirectory, a listed file, and a remote directory
with an old file and a cancel marker. -/
def exFs : FS :=
  [(["in".toList], .dir), (["in".toList, "a".toList], .file [1, 2]),
   (["in".toList, "sub".toList], .dir), (["in".toList, "sub".toList, "b".toList], .file [3]),
   (["x".toList], .file [4, 5]), (["out".toList], .dir), (["out".toList, "a".toList], .file [9]),
   (["out".toList, "CANCEL".toList], .file [7])]

def exConfig : Config := ⟨"/out".toList, some "/in".toList, ["/x".toList], "CANCEL".toList⟩

theorem exConfig_files (d : Text) (rel : List Text) (h : LocalFile [] exConfig exFs d rel) :
    d = "/in".toList ∧ (rel = ["a".toList] ∨ rel = ["sub".toList, "b".toList]) := by
  obtain ⟨h1, h2, h3⟩ := h
  have hd : d = "/in".toList := by simpa [exConfig] using h1.symm
  subst hd
  refine ⟨rfl, ?_⟩
  have hm : rel ∈ filesBelow exFs (resolve [] "/in".toList) := mem_filesBelow.2 ⟨h2, h3⟩
  have he : filesBelow exFs (resolve [] "/in".toList) = [["a".toList], ["sub".toList, "b".toList]] := by
    decide +kernel
  rw [he] at hm
  simpa using hm

theorem not_tempWord {w : Text} (h : w.length < 5) : ¬ TempWord w := by
  rintro ⟨a, ds, rfl, _⟩
  simp at h
  omega

theorem exOrdinary : Ordinary [] exConfig exFs where
  absolute := rfl
  cancel_plain := by unfold PlainWord; decide
  cancel_temp := by
    rintro ⟨a, ds, h, _⟩
    have : '_' ∈ exConfig.cancelFile := by rw [h]; simp
    revert this; decide
  dir_nonempty := by intro d h; simp [exConfig] at h; subst h; decide
  names := by
    intro d rel h w hw
    obtain ⟨_, rfl | rfl⟩ := exConfig_files d rel h
    · simp only [List.mem_singleton] at hw; subst hw; unfold PlainWord; decide
    · simp only [List.mem_cons, List.not_mem_nil, or_false] at hw
      rcases hw with rfl | rfl <;> (unfold PlainWord; decide)
  once := by
    intro d rel h
    obtain ⟨rfl, rfl | rfl⟩ := exConfig_files d rel h <;> decide +kernel
  no_temp := by
    intro d rel h
    obtain ⟨_, rfl | rfl⟩ := exConfig_files d rel h
    · rintro ⟨w, hw, ht⟩; simp at hw; subst hw; exact not_tempWord (by decide) ht
    · rintro ⟨w, hw, ht⟩; simp at hw; subst hw; exact not_tempWord (by decide) ht
  not_cancel := by
    intro d rel h
    obtain ⟨_, rfl | rfl⟩ := exConfig_files d rel h <;> decide
  outside := by
    intro d rel h
    obtain ⟨rfl, rfl | rfl⟩ := exConfig_files d rel h <;> decide +kernel
  listed_plain := by
    intro f hf; simp [exConfig] at hf; subst hf; unfold PlainWord; decide
  listed_temp := by
    intro f hf; simp [exConfig] at hf; subst hf; exact not_tempWord (by decide)
  listed_not_cancel := by
    intro f hf; simp [exConfig] at hf; subst hf; decide
  listed_outside := by
    intro f hf; simp [exConfig] at hf; subst hf; decide +kernel

/-- The hypotheses of C41 are met: a successful send of three files. -/
example : exEnv.Ok ∧ Ordinary [] exConfig exFs ∧ (exConfig.localFiles.map baseName).Nodup ∧
    (send exEnv [] exConfig exFs).out = .ok 5 :=
  ⟨exEnv_ok, exOrdinary, by decide, by decide +kernel⟩

/-- **C41** violated when the text of the local directory occurs again in the path of one of its
files: `/a/a/f` of the directory `/a` is delivered as `/out/f`, not as `/out/a/f`. -/
theorem C41_recurring_directory_violated :
    ∃ (c : Config) (fs : FS), (send exEnv [] c fs).out = .ok 2 ∧ c.localDir = some "/a".toList ∧
      c.remote = "/out".toList ∧
      contents fs ["a".toList, "a".toList, "f".toList] = some [1] ∧
      contents (send exEnv [] c fs).fs ["out".toList, "a".toList, "f".toList] = none ∧
      contents (send exEnv [] c fs).fs ["out".toList, "f".toList] = some [1] :=
  ⟨⟨"/out".toList, some "/a".toList, [], "CANCEL".toList⟩,
   [(["a".toList], .dir), (["a".toList, "a".toList], .dir),
    (["a".toList, "a".toList, "f".toList], .file [1])], by decide +kernel⟩

/-- **C41** violated for a relative remote directory: in the working directory `/w`, the files of the
local directory go to `/out` although the listed files go to `/w/out`. -/
theorem C41_relative_remote_violated :
    ∃ (c : Config) (fs : FS), (send exEnv ["w".toList] c fs).out = .ok 2 ∧
      c.remote = "out".toList ∧ c.localDir = some "/a".toList ∧
      contents fs ["a".toList, "f".toList] = some [1] ∧
      contents (send exEnv ["w".toList] c fs).fs ["w".toList, "out".toList, "f".toList] = none ∧
      contents (send exEnv ["w".toList] c fs).fs ["out".toList, "f".toList] = some [1] :=
  ⟨⟨"out".toList, some "/a".toList, [], "CANCEL".toList⟩,
   [(["a".toList], .dir), (["w".toList], .dir), (["a".toList, "f".toList], .file [1])],
   by decide +kernel⟩

/-! ### C42 -/

/-- **C42** violated: the returned count is not the number of files delivered, because every file of
the local directory is counted twice. `files` lists the files of the directory. -/
theorem C42_counted_twice_violated {env : Env} (henv : env.Ok) {cwd : Path} {c : Config} {fs : FS}
    (hord : Ordinary cwd c fs) {d : Text} (hd : c.localDir = some d)
    (hout : ¬ resolve cwd d <+: resolve cwd c.remote) {n : ℕ}
    (hok : (send env cwd c fs).out = .ok n) {files : List (List Text)} (hnd : files.Nodup)
    (hfiles : ∀ rel, rel ∈ files ↔ LocalFile cwd c fs d rel) :
    n = 2 * files.length + c.localFiles.length := by
  obtain ⟨_, _, h3⟩ := send_spec henv hord
  obtain ⟨_, _, _, k4, _⟩ := h3 n hok
  rw [k4 d hd hout]
  have : files.Perm (filesBelow fs (resolve cwd d)) := by
    rw [List.perm_ext_iff_of_nodup hnd (nodup_filesBelow _ _)]
    intro rel
    rw [hfiles, mem_filesBelow]
    simp [LocalFile, hd]
  rw [this.length_eq]

/-- The example above has two files in the directory and one listed file: the count is 5. -/
example : (send exEnv [] exConfig exFs).out = .ok 5 ∧
    (∀ rel, rel ∈ [["a".toList], ["sub".toList, "b".toList]] ↔
      LocalFile [] exConfig exFs "/in".toList rel) := by
  refine ⟨by decide +kernel, fun rel => ⟨fun h => ?_, fun h => by simpa using (exConfig_files _ _ h).2⟩⟩
  simp only [List.mem_cons, List.not_mem_nil, or_false] at h
  rcases h with rfl | rfl
  · exact ⟨rfl, by simp, by decide +kernel⟩
  · exact ⟨rfl, by simp, by decide +kernel⟩

/-- **C42** (partial): without a local directory the count is the number of listed files, all of
which were delivered. -/
theorem C42_listed_only_partial {env : Env} (henv : env.Ok) {cwd : Path} {c : Config} {fs : FS}
    (hord : Ordinary cwd c fs) (hd : c.localDir = none) {n : ℕ}
    (hok : (send env cwd c fs).out = .ok n) : n = c.localFiles.length := by
  obtain ⟨_, _, h3⟩ := send_spec henv hord
  exact (h3 n hok).2.2.2.2 hd

example : (send exEnv [] { exConfig with localDir := none } exFs).out = .ok 1 := by decide +kernel

/-! ### C43 -/

/-- **C43** for copying: in every state a crash can leave behind, and whatever the outcome, a path
(other than the cancel marker and temporary names in the remote directory) has its previous contents
or the complete contents of a file that is to be delivered there. -/
theorem C43_copy_atomic {env : Env} (henv : env.Ok) {cwd : Path} {c : Config} {fs : FS}
    (hord : Ordinary cwd c fs) {s : FS} (hs : Visits (send env cwd c fs) s) {q : Path}
    (hq : q ≠ resolve cwd c.remote ++ [c.cancelFile])
    (ht : ¬ TempPath q ∨ ¬ resolve cwd c.remote <+: q) :
    contents s q = contents fs q ∨ ∃ b, Sends cwd c fs q b ∧ contents s q = some b := by
  have := (send_spec henv hord).1 s hs q
  rw [cancelPath_eq hord.cancel_plain] at this
  exact this hq ht

/-- The transfer of the example passes through thirteen states, and in some of them the file that
replaces `/out/a` is incomplete, under its temporary name. -/
example : (send exEnv [] exConfig exFs).trace.length = 13 ∧
    ∃ s, Visits (send exEnv [] exConfig exFs) s ∧
      contents s ["out".toList, "a".toList] = some [9] ∧
      contents s ["out".toList, "a.tmp_20260101000000".toList] = some [1] := by
  refine ⟨by decide +kernel, (send exEnv [] exConfig exFs).trace[2]'(by decide +kernel), Or.inl (List.getElem_mem _), ?_⟩
  decide +kernel

/-! ### C44 -/

theorem cancel_spec (cwd : Path) (c : Config) (text : Option Bytes) (fs : FS) :
    (∀ q, q ≠ cancelPath cwd c → contents (cancel cwd c text fs).fs q = contents fs q) ∧
    ((cancel cwd c text fs).out = .ok () →
      contents (cancel cwd c text fs).fs (cancelPath cwd c) = some (text.getD [])) ∧
    (∀ e, (cancel cwd c text fs).out = .error e → (cancel cwd c text fs).fs = fs) := by
  unfold cancel
  by_cases hc : (isDir fs (cancelPath cwd c) || !isDir fs (cancelPath cwd c).dropLast) = true
  · have : ∀ l, runAll (.create (cancelPath cwd c) :: l) fs = fail fs := by
      intro l; simp only [runAll, exec, if_pos hc]
    rw [this]
    exact ⟨fun q _ => rfl, fun h => by simp [fail] at h, fun e _ => rfl⟩
  · cases text with
    | none =>
      simp only [runAll, exec, if_neg hc, done]
      refine ⟨fun q hq => ?_, fun _ => ?_, fun e h => by cases h⟩
      · rw [contents_set_file]; simp [hq]
      · rw [contents_set_file]; simp
    | some b =>
      have hg : Fs.get (Fs.set fs (cancelPath cwd c) (.file [])) (cancelPath cwd c) =
          some (.file []) := by rw [get_set]; simp
      simp only [runAll, exec, if_neg hc, done, hg]
      refine ⟨fun q hq => ?_, fun _ => ?_, fun e h => by cases h⟩
      · rw [contents_set_file, contents_set_file]; simp [hq]
      · rw [contents_set_file]; simp

/-- An ordinary configuration stays ordinary when nothing below the local directory changes. -/
theorem ordinary_congr {cwd : Path} {c : Config} {fs fs' : FS} (h : Ordinary cwd c fs)
    (hsame : ∀ d rel, c.localDir = some d → contents fs' (resolve cwd d ++ rel) =
      contents fs (resolve cwd d ++ rel)) : Ordinary cwd c fs' := by
  have hl : ∀ d rel, LocalFile cwd c fs' d rel → LocalFile cwd c fs d rel := by
    rintro d rel ⟨h1, h2, h3⟩
    exact ⟨h1, h2, by rwa [← hsame d rel h1]⟩
  exact ⟨h.absolute, h.cancel_plain, h.cancel_temp, h.dir_nonempty,
    fun d rel k => h.names d rel (hl d rel k), fun d rel k => h.once d rel (hl d rel k),
    fun d rel k => h.no_temp d rel (hl d rel k), fun d rel k => h.not_cancel d rel (hl d rel k),
    fun d rel k => h.outside d rel (hl d rel k), h.listed_plain, h.listed_temp,
    h.listed_not_cancel, h.listed_outside⟩

/-- Over every history, the configuration stays ordinary. -/
theorem history_ordinary {cwd : Path} {c : Config} {fs fs' : FS} {es : List Event}
    (hord : Ordinary cwd c fs)
    (hapart : ∀ d, c.localDir = some d → ¬ resolve cwd d <+: resolve cwd c.remote ∧
      ¬ resolve cwd c.remote <+: resolve cwd d)
    (h : History cwd c fs es fs') : Ordinary cwd c fs' := by
  have hno : ∀ d rel, c.localDir = some d → ¬ resolve cwd c.remote <+: resolve cwd d ++ rel := by
    intro d rel hd hpre
    rcases List.prefix_or_prefix_of_prefix hpre (List.prefix_append (resolve cwd d) rel) with k | k
    · exact (hapart d hd).2 k
    · exact (hapart d hd).1 k
  have hsend : ∀ (env : Env) (_ : env.Ok) (fs : FS) (_ : Ordinary cwd c fs),
      Ordinary cwd c (send env cwd c fs).fs := by
    intro env henv fs ho
    refine ordinary_congr ho ?_
    intro d rel hd
    have hn := hno d rel hd
    rcases (send_spec henv ho).1 _ (Or.inr rfl) (resolve cwd d ++ rel) (by
      intro k; rw [k, cancelPath_eq ho.cancel_plain] at hn; exact hn (List.prefix_append _ _))
      (Or.inr hn) with k | ⟨b, k, _⟩
    · exact k
    · exfalso
      rcases k with ⟨d', rel', _, _, _, k⟩ | ⟨f, _, _, k⟩
      · exact hn (k ▸ List.prefix_append _ _)
      · exact hn (k ▸ List.prefix_append _ _)
  have hcancel : ∀ (text : Option Bytes) (fs : FS) (_ : Ordinary cwd c fs),
      Ordinary cwd c (cancel cwd c text fs).fs := by
    intro text fs ho
    refine ordinary_congr ho ?_
    intro d rel hd
    apply (cancel_spec cwd c text fs).1
    intro k
    have hn := hno d rel hd
    rw [k, cancelPath_eq ho.cancel_plain] at hn
    exact hn (List.prefix_append _ _)
  induction h with
  | nil => exact hord
  | sent env henv n h hok ih => exact hsend env henv _ ih
  | sendFailed env henv e h herr ih => exact hsend env henv _ ih
  | cancelled text h hok ih => exact hcancel text _ ih
  | cancelFailed text e h herr ih => exact hcancel text _ ih

/-- **C44** (partial). Over every history of calls in which no `send` raises (a `cancel` may), the
marker is what the last successful call left: the text of the cancel, or nothing after a send. The
local directory and the remote directory do not contain each other. What is missing: histories in
which a `send` raises, see the violation below. -/
theorem C44_history_partial {cwd : Path} {c : Config} {fs fs' : FS} {es : List Event}
    (hord : Ordinary cwd c fs)
    (hapart : ∀ d, c.localDir = some d → ¬ resolve cwd d <+: resolve cwd c.remote ∧
      ¬ resolve cwd c.remote <+: resolve cwd d)
    (h : History cwd c fs es fs') (hno : Event.sendFailed ∉ es) :
    contents fs' (resolve cwd c.remote ++ [c.cancelFile]) =
      es.foldl expected (contents fs (resolve cwd c.remote ++ [c.cancelFile])) := by
  rw [← cancelPath_eq hord.cancel_plain]
  induction h with
  | nil => rfl
  | sent env henv n h hok ih =>
    rw [List.foldl_append, (send_spec henv (history_ordinary hord hapart h)).2.1]
    rfl
  | sendFailed env henv e h herr ih => exact absurd (by simp) hno
  | cancelled text h hok ih =>
    rw [List.foldl_append, (cancel_spec cwd c text _).2.1 hok]
    rfl
  | cancelFailed text e h herr ih =>
    rw [List.foldl_append, (cancel_spec cwd c text _).2.2 e herr, ih (by
      intro k; exact hno (by simp [k]))]
    rfl

/-- The hypotheses of C44 are met by the example configuration and a history send, cancel. -/
example : ∃ fs', History [] exConfig exFs [.sent, .cancelled (some [8])] fs' ∧
    contents fs' ["out".toList, "CANCEL".toList] = some [8] ∧
    (∀ d, exConfig.localDir = some d → ¬ resolve [] d <+: resolve [] exConfig.remote ∧
      ¬ resolve [] exConfig.remote <+: resolve [] d) := by
  have h1 := History.sent exEnv exEnv_ok 5 (History.nil (cwd := []) (c := exConfig) exFs)
    (by decide +kernel)
  have h2 := History.cancelled (some [8]) h1 (by decide +kernel)
  refine ⟨_, h2, by decide +kernel, ?_⟩
  intro d hd
  simp only [exConfig, Option.some.injEq] at hd
  subst hd
  decide +kernel

/-- **C44** violated: a `send` that raises (here a listed file no longer exists) has already removed
the marker of the cancel before it. -/
theorem C44_failed_send_violated :
    ∃ (c : Config) (fs fs1 : FS), (cancel [] c (some [8]) fs).out = .ok () ∧
      fs1 = (cancel [] c (some [8]) fs).fs ∧
      contents fs1 ["out".toList, "CANCEL".toList] = some [8] ∧
      (send exEnv [] c fs1).out = .error .osError ∧
      contents (send exEnv [] c fs1).fs ["out".toList, "CANCEL".toList] = none :=
  ⟨⟨"/out".toList, none, ["/gone".toList], "CANCEL".toList⟩, [(["out".toList], .dir)], _,
    by decide +kernel, rfl, by decide +kernel, by decide +kernel, by decide +kernel⟩

end Verif.Props
