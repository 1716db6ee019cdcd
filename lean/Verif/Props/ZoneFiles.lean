import Verif.Model.ZoneFiles
import Mathlib.Data.List.Basic
import Mathlib.Data.List.Infix

/-!
# C167: the time zone files are where `get_recent_timezone_data` says
-/

namespace Verif.Props
open Verif.Zone

/-- The members of an archive with one folder. -/
def inFolder (f : Text) (items : List (Text × Bytes)) : List Member := items.map fun i => ⟨[f, i.1], some i.2⟩

/-- The members of an archive without folders. -/
def atTop (items : List (Text × Bytes)) : List Member := items.map fun i => ⟨[i.1], some i.2⟩

/-- Put the files into a directory, one after the other. -/
def putAll (outdir : Path) (F : Path → Option Bytes) (items : List (Text × Bytes)) : Path → Option Bytes :=
  items.foldl (fun F i => Function.update F (outdir ++ [i.1]) (some i.2)) F

/-- The last file with the extension of shape files. -/
def lastShape (items : List (Text × Bytes)) : Option Text := (items.map Prod.fst).reverse.find? fun n => decide (".shp".toList <:+ n)

theorem putAll_other {outdir : Path} {items : List (Text × Bytes)} {p : Path} (h : ∀ i ∈ items, p ≠ outdir ++ [i.1]) (F : Path → Option Bytes) :
    putAll outdir F items p = F p := by
  induction items generalizing F with
  | nil => rfl
  | cons i is ih =>
    rw [show putAll outdir F (i :: is) = putAll outdir (Function.update F (outdir ++ [i.1]) (some i.2)) is from rfl,
      ih (fun j hj => h j (List.mem_cons_of_mem _ hj)), Function.update_of_ne (h i List.mem_cons_self)]

theorem putAll_mem {outdir : Path} {items : List (Text × Bytes)} (hnd : (items.map Prod.fst).Nodup) {i : Text × Bytes} (h : i ∈ items)
    (F : Path → Option Bytes) : putAll outdir F items (outdir ++ [i.1]) = some i.2 := by
  induction items generalizing F with
  | nil => cases h
  | cons j is ih =>
    rw [show putAll outdir F (j :: is) = putAll outdir (Function.update F (outdir ++ [j.1]) (some j.2)) is from rfl]
    rw [List.map_cons, List.nodup_cons] at hnd
    rcases List.mem_cons.1 h with rfl | h
    · rw [putAll_other, Function.update_self]
      intro k hk he
      have : i.1 = k.1 := by simpa using he
      exact hnd.1 (this ▸ List.mem_map_of_mem hk)
    · exact ih hnd.2 h _

theorem prefix_snoc {p q : Path} {f : Text} : p <+: q ++ [f] ↔ p = q ++ [f] ∨ p <+: q := List.prefix_concat_iff

/-- What the loop needs of the disk: the output directory and its ancestors are directories, the folder of the archive is not used. -/
structure Ready (d : Disk) (outdir : Path) (f : Text) (names : List Text) : Prop where
  above : ∀ p, p <+: outdir → d.files p = none ∧ d.dirs p = true
  clear : ∀ p, outdir ++ [f] <+: p → d.files p = none ∧ (p ≠ outdir ++ [f] → d.dirs p = false)
  places : ∀ n ∈ names, d.dirs (outdir ++ [n]) = false

theorem folder_loop {outdir : Path} {f : Text} (items : List (Text × Bytes)) : ∀ (d : Disk) (shp fb : Option Path),
    Ready d outdir f (items.map Prod.fst) → (∀ i ∈ items, i.1 ≠ f ∧ i.1 ≠ []) →
    unpackLoop outdir d shp fb (inFolder f items) =
      (⟨putAll outdir d.files items, fun p => d.dirs p || (decide (items ≠ []) && decide (p = outdir ++ [f]))⟩,
        .ok (((lastShape items).map fun n => outdir ++ [n]).or shp, if items = [] then fb else some [f])) := by
  induction items with
  | nil => intro d shp fb _ _; simp [inFolder, unpackLoop, putAll, lastShape]
  | cons i is ih =>
    intro d shp fb hr hf
    obtain ⟨n, b⟩ := i
    obtain ⟨hnf, hne⟩ := hf (n, b) List.mem_cons_self
    simp only at hnf hne
    have hdirs : ∀ p, (d.dirs p || decide (p <+: outdir ++ [f])) = (d.dirs p || decide (p = outdir ++ [f])) := by
      intro p
      by_cases h1 : p = outdir ++ [f]
      · simp [h1]
      · by_cases h2 : p <+: outdir
        · simp [(hr.above p h2).2]
        · have : ¬ p <+: outdir ++ [f] := by rw [prefix_snoc]; tauto
          simp [h1, this]
    have hsplit : outdir ++ [f, n] = outdir ++ [f] ++ [n] := by simp
    have hext : d.extract outdir ⟨[f, n], some b⟩ =
        .ok ⟨Function.update d.files (outdir ++ [f, n]) (some b), fun p => d.dirs p || decide (p = outdir ++ [f])⟩ := by
      unfold Disk.extract
      simp only [Option.isNone_some, Bool.false_eq_true, if_false]
      rw [hsplit, List.dropLast_concat]
      rw [if_neg]
      · rw [hdirs, (hr.clear _ (List.prefix_append _ _)).2 (by simp)]
        simp only [Bool.false_or]
        rw [if_neg (by simp)]
        congr 2
        funext p
        exact hdirs p
      · rw [Bool.not_eq_true, List.any_eq_false]
        intro p hp
        rw [List.mem_inits, prefix_snoc] at hp
        rcases hp with rfl | hp
        · simp [(hr.clear _ (List.prefix_rfl)).1]
        · simp [(hr.above p hp).1]
    have hmv : Disk.move ⟨Function.update d.files (outdir ++ [f, n]) (some b), fun p => d.dirs p || decide (p = outdir ++ [f])⟩ (outdir ++ [f, n])
        (outdir ++ [n]) = .ok ⟨Function.update d.files (outdir ++ [n]) (some b), fun p => d.dirs p || decide (p = outdir ++ [f])⟩ := by
      unfold Disk.move
      simp only
      have h1 : d.dirs (outdir ++ [f, n]) = false := by
        rw [hsplit]; exact (hr.clear _ (List.prefix_append _ _)).2 (by simp)
      have h2 : d.dirs (outdir ++ [n]) = false := hr.places n (by simp)
      rw [h1, h2]
      rw [if_neg (by simp), if_neg (by simpa using hnf)]
      rw [Function.update_self]
      congr 2
      funext p
      by_cases h3 : p = outdir ++ [n]
      · rw [h3, Function.update_self, Function.update_self]
      · rw [Function.update_of_ne h3, Function.update_of_ne h3]
        by_cases h4 : p = outdir ++ [f, n]
        · rw [h4, Function.update_self, hsplit, (hr.clear _ (List.prefix_append _ _)).1]
        · rw [Function.update_of_ne h4, Function.update_of_ne h4]
    have hr' : Ready ⟨Function.update d.files (outdir ++ [n]) (some b), fun p => d.dirs p || decide (p = outdir ++ [f])⟩ outdir f (is.map Prod.fst) := by
      refine ⟨fun p hp => ⟨?_, ?_⟩, fun p hp => ⟨?_, fun hpf => ?_⟩, fun m hm => ?_⟩
      · show Function.update _ _ _ _ = _
        rw [Function.update_of_ne]
        · exact (hr.above p hp).1
        · rintro rfl
          have := hp.length_le
          simp only [List.length_append, List.length_singleton] at this
          omega
      · simp [(hr.above p hp).2]
      · show Function.update _ _ _ _ = _
        rw [Function.update_of_ne]
        · exact (hr.clear p hp).1
        · rintro rfl
          rcases prefix_snoc.1 hp with h | h
          · exact hnf (by simpa using h.symm)
          · have := h.length_le
            simp only [List.length_append, List.length_singleton] at this
            omega
      · simp [(hr.clear p hp).2 hpf, hpf]
      · obtain ⟨j, hj, rfl⟩ := List.mem_map.1 hm
        have := (hf j (List.mem_cons_of_mem _ hj)).1
        simp only [Bool.or_eq_false_iff, decide_eq_false_iff_not]
        exact ⟨hr.places _ (by simp; exact .inr ⟨_, hj⟩), by simpa using this⟩
    have hne' : outdir ++ [f, n] ≠ outdir ++ [n] := by simp
    show unpackLoop outdir d shp fb (⟨[f, n], some b⟩ :: inFolder f is) = _
    rw [unpackLoop]
    have hsp : Member.split ⟨[f, n], some b⟩ = ([f], n) := rfl
    rw [hsp]
    simp only
    rw [hext]
    simp only
    rw [if_neg hne, if_neg hne', hmv]
    simp only
    rw [ih _ _ _ hr' (fun j hj => hf j (List.mem_cons_of_mem _ hj))]
    refine Prod.ext ?_ ?_
    · ext1
      · rfl
      · funext p
        simp only [Bool.or_assoc]
        congr 1
        cases is <;> simp
    · simp only
      congr 2
      · unfold lastShape
        rw [List.map_cons, List.reverse_cons, List.find?_append]
        cases h : (is.map Prod.fst).reverse.find? (fun n => decide (".shp".toList <:+ n)) with
        | some m => simp
        | none =>
          simp only [Option.none_or, Option.map_none]
          by_cases hs : ".shp".toList <:+ n
          · rw [List.find?_cons_of_pos (by simpa using hs), if_pos (by simpa using hs)]
            simp
          · rw [List.find?_cons_of_neg (by simpa using hs), if_neg (by simpa using hs)]
            simp
      · cases is <;> simp

/-- **C167**, an archive with one folder that is not yet in the output directory: afterwards the files of the archive stand in the output directory itself with
their contents, next to the archive, everything else on the disk is as before, the folder is gone, and the answer is the last shape file. -/
theorem C167_folder_partial {members : Bytes → Option (List Member)} {d : Disk} {outdir : Path} {f : Text} {items : List (Text × Bytes)} {data : Bytes}
    (hm : members data = some (inFolder f items)) (hne : items ≠ []) (hnd : (items.map Prod.fst).Nodup)
    (hnames : ∀ i ∈ items, i.1 ≠ f ∧ i.1 ≠ [] ∧ i.1 ≠ archiveName) (hfa : f ≠ archiveName)
    (habove : ∀ p, p <+: outdir → d.files p = none ∧ d.dirs p = true)
    (hclear : ∀ p, outdir ++ [f] <+: p → d.files p = none ∧ d.dirs p = false)
    (hplaces : ∀ n ∈ archiveName :: items.map Prod.fst, d.dirs (outdir ++ [n]) = false) :
    let r := unpack members outdir data d
    r.2 = .ok ((lastShape items).map fun n => outdir ++ [n]) ∧
    (∀ i ∈ items, r.1.files (outdir ++ [i.1]) = some i.2) ∧ r.1.files (outdir ++ [archiveName]) = some data ∧
    (∀ p, (∀ n ∈ archiveName :: items.map Prod.fst, p ≠ outdir ++ [n]) → r.1.files p = d.files p) ∧ r.1.dirs = d.dirs := by
  have hw : d.write (outdir ++ [archiveName]) data = .ok { d with files := Function.update d.files (outdir ++ [archiveName]) (some data) } := by
    unfold Disk.write
    rw [List.dropLast_concat, hplaces _ List.mem_cons_self, (habove outdir List.prefix_rfl).2]
    rfl
  have hr : Ready { d with files := Function.update d.files (outdir ++ [archiveName]) (some data) } outdir f (items.map Prod.fst) := by
    refine ⟨fun p hp => ⟨?_, (habove p hp).2⟩, fun p hp => ⟨?_, fun _ => (hclear p hp).2⟩, fun m hm => hplaces m (List.mem_cons_of_mem _ hm)⟩
    · show Function.update _ _ _ _ = _
      rw [Function.update_of_ne, (habove p hp).1]
      rintro rfl
      have := hp.length_le
      simp only [List.length_append, List.length_singleton] at this
      omega
    · show Function.update _ _ _ _ = _
      rw [Function.update_of_ne, (hclear p hp).1]
      rintro rfl
      rcases prefix_snoc.1 hp with h | h
      · exact hfa (by simpa using h)
      · have := h.length_le
        simp only [List.length_append, List.length_singleton] at this
        omega
  have hl := folder_loop items _ none none hr (fun i hi => ⟨(hnames i hi).1, (hnames i hi).2.1⟩)
  have hu : unpack members outdir data d =
      (Disk.rmtree ⟨putAll outdir (Function.update d.files (outdir ++ [archiveName]) (some data)) items,
        fun p => d.dirs p || (decide (items ≠ []) && decide (p = outdir ++ [f]))⟩ (outdir ++ [f]),
        .ok ((lastShape items).map fun n => outdir ++ [n])) := by
    unfold unpack
    rw [hw]
    simp only
    rw [hm]
    simp only
    rw [hl]
    simp [hne]
  rw [hu]
  have hout : ∀ n : Text, n ≠ f → ¬ outdir ++ [f] <+: outdir ++ [n] := by
    intro n hn h
    rcases prefix_snoc.1 h with h | h
    · exact hn (by simpa using h.symm)
    · have := h.length_le
      simp only [List.length_append, List.length_singleton] at this
      omega
  refine ⟨rfl, fun i hi => ?_, ?_, fun p hp => ?_, ?_⟩
  · show (if _ then _ else _) = _
    rw [if_neg (hout _ (hnames i hi).1)]
    exact putAll_mem hnd hi _
  · show (if _ then _ else _) = _
    rw [if_neg (hout _ hfa.symm)]
    show putAll _ _ _ _ = _
    rw [putAll_other, Function.update_self]
    intro i hi he
    exact (hnames i hi).2.2 (by simpa using he.symm)
  · show (if _ then _ else _) = _
    split_ifs with h
    · exact (hclear p h).1.symm
    · show putAll _ _ _ _ = _
      rw [putAll_other (fun i hi => hp _ (List.mem_cons_of_mem _ (List.mem_map_of_mem hi))), Function.update_of_ne (hp _ List.mem_cons_self)]
  · funext p
    show (if _ then _ else _) = _
    split_ifs with h
    · exact (hclear p h).2.symm
    · have : p ≠ outdir ++ [f] := by rintro rfl; exact h List.prefix_rfl
      simp [this]

/-- The loop on an archive whose members stand at the top. -/
theorem top_loop {outdir : Path} (items : List (Text × Bytes)) : ∀ (d : Disk) (shp fb : Option Path),
    (∀ p, p <+: outdir → d.files p = none ∧ d.dirs p = true) → (∀ i ∈ items, d.dirs (outdir ++ [i.1]) = false ∧ i.1 ≠ []) →
    unpackLoop outdir d shp fb (atTop items) =
      (⟨putAll outdir d.files items, d.dirs⟩, .ok (((lastShape items).map fun n => outdir ++ [n]).or shp, if items = [] then fb else some [])) := by
  induction items with
  | nil => intro d shp fb _ _; simp [atTop, unpackLoop, putAll, lastShape]
  | cons i is ih =>
    intro d shp fb hab hpl
    obtain ⟨n, b⟩ := i
    obtain ⟨hd, hne⟩ := hpl (n, b) List.mem_cons_self
    simp only at hd hne
    have hdirs : ∀ p, (d.dirs p || decide (p <+: outdir)) = d.dirs p := by
      intro p
      by_cases h : p <+: outdir
      · simp [(hab p h).2]
      · simp [h]
    have hext : d.extract outdir ⟨[n], some b⟩ = .ok ⟨Function.update d.files (outdir ++ [n]) (some b), d.dirs⟩ := by
      unfold Disk.extract
      simp only [Option.isNone_some, Bool.false_eq_true, if_false, List.dropLast_concat]
      rw [if_neg]
      · rw [hdirs, hd]
        rw [if_neg (by simp)]
        congr 2
        funext p
        exact hdirs p
      · rw [Bool.not_eq_true, List.any_eq_false]
        intro p hp
        rw [List.mem_inits] at hp
        simp [(hab p hp).1]
    show unpackLoop outdir d shp fb (⟨[n], some b⟩ :: atTop is) = _
    rw [unpackLoop]
    have hsp : Member.split ⟨[n], some b⟩ = ([], n) := rfl
    rw [hsp]
    simp only
    rw [hext]
    simp only
    rw [if_neg hne, if_pos rfl]
    simp only
    rw [ih ⟨Function.update d.files (outdir ++ [n]) (some b), d.dirs⟩ _ _ ?_ (fun j hj => hpl j (List.mem_cons_of_mem _ hj))]
    · refine Prod.ext rfl ?_
      simp only
      congr 2
      · unfold lastShape
        rw [List.map_cons, List.reverse_cons, List.find?_append]
        cases h : (is.map Prod.fst).reverse.find? (fun n => decide (".shp".toList <:+ n)) with
        | some m => simp
        | none =>
          simp only [Option.none_or, Option.map_none]
          by_cases hs : ".shp".toList <:+ n
          · rw [List.find?_cons_of_pos (by simpa using hs), if_pos (by simpa using hs)]
            simp
          · rw [List.find?_cons_of_neg (by simpa using hs), if_neg (by simpa using hs)]
            simp
      · cases is <;> simp
    · intro p hp
      refine ⟨?_, (hab p hp).2⟩
      show Function.update _ _ _ _ = _
      rw [Function.update_of_ne, (hab p hp).1]
      rintro rfl
      have := hp.length_le
      simp only [List.length_append, List.length_singleton] at this
      omega

/-- **C167 is violated** by every archive without folders: the whole output directory, with the shape file that is returned and with whatever else
was in it before, is deleted. -/
theorem C167_flat_violated {members : Bytes → Option (List Member)} {d : Disk} {outdir : Path} {items : List (Text × Bytes)} {data : Bytes}
    (hm : members data = some (atTop items)) (hne : items ≠ []) (hnames : ∀ i ∈ items, i.1 ≠ [])
    (habove : ∀ p, p <+: outdir → d.files p = none ∧ d.dirs p = true)
    (hplaces : ∀ n ∈ archiveName :: items.map Prod.fst, d.dirs (outdir ++ [n]) = false) :
    let r := unpack members outdir data d
    r.2 = .ok ((lastShape items).map fun n => outdir ++ [n]) ∧ ∀ p, outdir <+: p → r.1.files p = none ∧ r.1.dirs p = false := by
  have hw : d.write (outdir ++ [archiveName]) data = .ok { d with files := Function.update d.files (outdir ++ [archiveName]) (some data) } := by
    unfold Disk.write
    rw [List.dropLast_concat, hplaces _ List.mem_cons_self, (habove outdir List.prefix_rfl).2]
    rfl
  have hl := top_loop (outdir := outdir) items { d with files := Function.update d.files (outdir ++ [archiveName]) (some data) } none none
    (by
      intro p hp
      refine ⟨?_, (habove p hp).2⟩
      show Function.update _ _ _ _ = _
      rw [Function.update_of_ne, (habove p hp).1]
      rintro rfl
      have := hp.length_le
      simp only [List.length_append, List.length_singleton] at this
      omega)
    (fun i hi => ⟨hplaces _ (List.mem_cons_of_mem _ (List.mem_map_of_mem hi)), hnames i hi⟩)
  have hu : unpack members outdir data d =
      (Disk.rmtree ⟨putAll outdir (Function.update d.files (outdir ++ [archiveName]) (some data)) items, d.dirs⟩ outdir,
        .ok ((lastShape items).map fun n => outdir ++ [n])) := by
    unfold unpack
    rw [hw]
    simp only
    rw [hm]
    simp only
    rw [hl]
    simp [hne, (habove outdir List.prefix_rfl).2]
  rw [hu]
  refine ⟨rfl, fun p hp => ?_⟩
  constructor
  · show (if _ then _ else _) = _
    rw [if_pos hp]
  · show (if _ then _ else _) = _
    rw [if_pos hp]

/-- **C167 is violated** by every archive that lists its folder before its files: the folder cannot be moved and the call ends with `shutil.Error`. -/
theorem C167_folder_entry_violated {members : Bytes → Option (List Member)} {d : Disk} {outdir : Path} {f : Text} {ms : List Member} {data : Bytes}
    (hm : members data = some (⟨[f], none⟩ :: ms)) (hfa : f ≠ archiveName)
    (habove : ∀ p, p <+: outdir → d.files p = none ∧ d.dirs p = true)
    (hclear : ∀ p, outdir ++ [f] <+: p → d.files p = none ∧ d.dirs p = false)
    (hplace : d.dirs (outdir ++ [archiveName]) = false) : (unpack members outdir data d).2 = .error .shutil := by
  have hw : d.write (outdir ++ [archiveName]) data = .ok { d with files := Function.update d.files (outdir ++ [archiveName]) (some data) } := by
    unfold Disk.write
    rw [List.dropLast_concat, hplace, (habove outdir List.prefix_rfl).2]
    rfl
  have hext : Disk.extract { d with files := Function.update d.files (outdir ++ [archiveName]) (some data) } outdir ⟨[f], none⟩ =
      .ok ⟨Function.update d.files (outdir ++ [archiveName]) (some data), fun p => d.dirs p || decide (p <+: outdir ++ [f])⟩ := by
    unfold Disk.extract
    simp only [Option.isNone_none, if_true]
    rw [if_neg]
    rw [Bool.not_eq_true, List.any_eq_false]
    intro p hp
    rw [List.mem_inits, prefix_snoc] at hp
    rw [Function.update_of_ne]
    · rcases hp with rfl | hp
      · simp [(hclear _ List.prefix_rfl).1]
      · simp [(habove p hp).1]
    · rintro rfl
      rcases hp with h | h
      · exact hfa (by simpa using h.symm)
      · have := h.length_le
        simp only [List.length_append, List.length_singleton] at this
        omega
  unfold unpack
  rw [hw]
  simp only
  rw [hm]
  simp only
  rw [unpackLoop]
  have hsp : Member.split ⟨[f], none⟩ = ([f], []) := rfl
  rw [hsp]
  simp only
  rw [hext]
  simp only
  rw [if_pos trivial, if_neg (by simp)]
  unfold Disk.move
  simp

/-- **C167**, the link: if an anchor names the archive, the first such anchor is followed. -/
theorem C167_link {join : Text → Text} {before after : List (Option Text)} {href : Text} (h : archiveName <:+: href)
    (hb : ∀ l, some l ∈ before → ¬ archiveName <:+: l) :
    chooseLink join (before ++ some href :: after) = .ok (join href) := by
  have : ∀ link, linkLoop join link (before ++ some href :: after) = some (join href) := by
    induction before with
    | nil => intro link; simp only [List.nil_append, linkLoop]; rw [if_pos (decide_eq_true h)]
    | cons a as ih =>
      intro link
      have := ih (fun l hl => hb l (List.mem_cons_of_mem _ hl))
      cases a with
      | none => exact this link
      | some l =>
        simp only [List.cons_append, linkLoop]
        rw [if_neg (by rw [decide_eq_false (hb l List.mem_cons_self)]; simp)]
        exact this _
  unfold chooseLink
  rw [this none]

/-- **C167**: a page without links is refused; nothing is downloaded. -/
theorem C167_no_link {join : Text → Text} {anchors : List (Option Text)} (h : ∀ a ∈ anchors, a = none) : chooseLink join anchors = .error .noLink := by
  have : ∀ as : List (Option Text), (∀ a ∈ as, a = none) → linkLoop join none as = none := by
    intro as
    induction as with
    | nil => intro _; rfl
    | cons a as ih =>
      intro h
      obtain rfl := h a List.mem_cons_self
      exact ih (fun b hb => h b (List.mem_cons_of_mem _ hb))
  unfold chooseLink
  rw [this anchors h]

/-- **C167 is violated** for a page that does not name the archive: its last link is followed instead, whatever it is. -/
theorem C167_link_violated {join : Text → Text} {before after : List (Option Text)} {href : Text} (ha : ∀ a ∈ after, a = none)
    (hb : ∀ l, some l ∈ before ++ [some href] → ¬ archiveName <:+: l) :
    chooseLink join (before ++ some href :: after) = .ok href := by
  have h2 : ∀ (as : List (Option Text)) link, (∀ a ∈ as, a = none) → linkLoop join link as = link := by
    intro as
    induction as with
    | nil => intro link _; rfl
    | cons a as ih =>
      intro link h
      obtain rfl := h a List.mem_cons_self
      exact ih link (fun b hb => h b (List.mem_cons_of_mem _ hb))
  have : ∀ link, linkLoop join link (before ++ some href :: after) = some href := by
    induction before with
    | nil =>
      intro link
      simp only [List.nil_append, linkLoop]
      rw [if_neg (by rw [decide_eq_false (hb href List.mem_cons_self)]; simp), h2 _ _ ha]
    | cons a as ih =>
      intro link
      have := ih (fun l hl => hb l (List.mem_cons_of_mem _ hl))
      cases a with
      | none => exact this link
      | some l =>
        simp only [List.cons_append, linkLoop]
        rw [if_neg (by rw [decide_eq_false (hb l List.mem_cons_self)]; simp)]
        exact this _
  unfold chooseLink
  rw [this none]

/-- **C167 is violated** when the folder of the archive was in the output directory before: the files that were in it are deleted. With two
folders, on the other hand, the first one is left behind. -/
theorem C167_folders_violated :
    (∃ (d : Disk) (items : List (Text × Bytes)), d.files ["out".toList, "dist".toList, "mine".toList] = some [7] ∧
      (unpack (fun _ => some (inFolder "dist".toList items)) ["out".toList] [9] d).2 = .ok (some ["out".toList, "zones.shp".toList]) ∧
      (unpack (fun _ => some (inFolder "dist".toList items)) ["out".toList] [9] d).1.files ["out".toList, "dist".toList, "mine".toList] = none) ∧
    ∃ (d : Disk) (a b : List (Text × Bytes)), d.dirs ["out".toList, "one".toList] = false ∧
      (unpack (fun _ => some (inFolder "one".toList a ++ inFolder "two".toList b)) ["out".toList] [9] d).2 = .ok (some ["out".toList, "zones.shp".toList]) ∧
      (unpack (fun _ => some (inFolder "one".toList a ++ inFolder "two".toList b)) ["out".toList] [9] d).1.dirs ["out".toList, "one".toList] = true := by
  refine ⟨⟨⟨fun p => if p = ["out".toList, "dist".toList, "mine".toList] then some [7] else none,
      fun p => decide (p <+: ["out".toList, "dist".toList])⟩, [("zones.shp".toList, [2])], ?_⟩,
    ⟨fun _ => none, fun p => decide (p <+: ["out".toList])⟩, [("zones.dbf".toList, [1])], [("zones.shp".toList, [2])], ?_⟩
  · decide +kernel
  · decide +kernel

/-- Cases of the theorems: an empty disk with the directory `/out`, an archive with the folder `dist`, one without. -/
example :
    let d : Disk := ⟨fun _ => none, fun p => decide (p <+: ["out".toList])⟩
    let items : List (Text × Bytes) := [("zones.dbf".toList, [1]), ("zones.shp".toList, [2, 3])]
    (unpack (fun _ => some (inFolder "dist".toList items)) ["out".toList] [9] d).2 = .ok (some ["out".toList, "zones.shp".toList]) ∧
    (unpack (fun _ => some (inFolder "dist".toList items)) ["out".toList] [9] d).1.files ["out".toList, "zones.shp".toList] = some [2, 3] ∧
    (unpack (fun _ => some (atTop items)) ["out".toList] [9] d).2 = .ok (some ["out".toList, "zones.shp".toList]) ∧
    (unpack (fun _ => some (atTop items)) ["out".toList] [9] d).1.files ["out".toList, "zones.shp".toList] = none ∧
    (unpack (fun _ => some (atTop items)) ["out".toList] [9] d).1.dirs ["out".toList] = false := by
  decide +kernel

end Verif.Props
