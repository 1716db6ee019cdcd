import Mathlib.Algebra.Order.Field.Rat
import Mathlib.Tactic.Linarith
import Verif.Model.Comcat
import Verif.Props.PdlSender

/-!
# ComCat and GeoServe queries: C52, C53, C54 and C91-C94
-/

namespace Verif.Props
open Verif Verif.Fs Verif.Comcat

/-! ### Lists in a text -/

/-- A text that lists these words: they are separated by single commas, with any number of commas in
front and behind, as in `,us1,ci2,`. -/
def Lists (t : Text) (ws : List Text) : Prop :=
  ∃ a b : ℕ, t = List.replicate a ',' ++ (List.intercalate [','] ws) ++ List.replicate b ','

/-- A word of such a list. -/
def Word (w : Text) : Prop := w ≠ [] ∧ ',' ∉ w

theorem splitCommas_ne (t : Text) : splitCommas t ≠ [] := by
  cases t with
  | nil => simp [splitCommas]
  | cons c t =>
    rw [splitCommas]
    by_cases h : c = ','
    · simp [h]
    · rw [if_neg h]; cases splitCommas t <;> simp

theorem splitCommas_word {w : Text} (h : ',' ∉ w) : splitCommas w = [w] := by
  induction w with
  | nil => rfl
  | cons c w ih =>
    rw [splitCommas, if_neg (by rintro rfl; simp at h), ih (by simp at h; exact h.2)]

theorem splitCommas_cons {w : Text} (h : ',' ∉ w) (t : Text) :
    splitCommas (w ++ ',' :: t) = w :: splitCommas t := by
  induction w with
  | nil => simp [splitCommas]
  | cons c w ih =>
    rw [List.cons_append, splitCommas, if_neg (by rintro rfl; simp at h),
      ih (by simp at h; exact h.2)]

theorem splitCommas_intercalate {ws : List Text} (hne : ws ≠ []) (h : ∀ w ∈ ws, ',' ∉ w) :
    splitCommas (List.intercalate [','] ws) = ws := by
  induction ws with
  | nil => exact absurd rfl hne
  | cons w ws ih =>
    cases ws with
    | nil => simpa [List.intercalate] using splitCommas_word (h w (by simp))
    | cons v ws =>
      have : List.intercalate [','] (w :: v :: ws) = w ++ ',' :: List.intercalate [','] (v :: ws) := by
        simp [List.intercalate]
      rw [this, splitCommas_cons (h w (by simp)), ih (by simp) (fun u hu => h u (by simp [hu]))]

theorem dropWhile_replicate (a : ℕ) (t : Text) (h : ∀ c, t.head? = some c → c ≠ ',') :
    (List.replicate a ',' ++ t).dropWhile (· = ',') = t := by
  induction a with
  | zero =>
    cases t with
    | nil => rfl
    | cons c t => simp [h c rfl]
  | succ a ih => rw [List.replicate_succ, List.cons_append, List.dropWhile_cons_of_pos (by simp)]; exact ih

theorem head_intercalate {ws : List Text} (h : ∀ w ∈ ws, Word w) :
    ∀ c, (List.intercalate [','] ws).head? = some c → c ≠ ',' := by
  intro c hc
  cases ws with
  | nil => simp [List.intercalate] at hc
  | cons w ws =>
    obtain ⟨h1, h2⟩ := h w (by simp)
    cases w with
    | nil => exact absurd rfl h1
    | cons d w =>
      have : (List.intercalate [','] ((d :: w) :: ws)).head? = some d := by
        cases ws <;> simp [List.intercalate]
      rw [this] at hc
      simp only [Option.some.injEq] at hc
      subst hc
      rintro rfl
      simp at h2

theorem last_intercalate {ws : List Text} (h : ∀ w ∈ ws, Word w) :
    ∀ c, (List.intercalate [','] ws).getLast? = some c → c ≠ ',' := by
  induction ws with
  | nil => intro c hc; simp [List.intercalate] at hc
  | cons w ws ih =>
    intro c hc
    cases ws with
    | nil =>
      simp only [List.intercalate, List.intersperse_singleton, List.flatten_cons, List.flatten_nil,
        List.append_nil] at hc
      rintro rfl
      exact (h w (by simp)).2 (List.mem_of_getLast? hc)
    | cons v ws =>
      have e : List.intercalate [','] (w :: v :: ws) = w ++ ',' :: List.intercalate [','] (v :: ws) := by
        simp [List.intercalate]
      have hne : List.intercalate [','] (v :: ws) ≠ [] := by
        have := (h v (by simp)).1
        cases v with
        | nil => exact absurd rfl this
        | cons d v => cases ws <;> simp [List.intercalate]
      apply ih (fun u hu => h u (by simp [hu])) c
      rw [e, List.getLast?_append_of_ne_nil _ (by simp)] at hc
      rw [List.getLast?_cons] at hc
      cases hl : (List.intercalate [','] (v :: ws)).getLast? with
      | none => rw [List.getLast?_eq_none_iff] at hl; exact absurd hl hne
      | some d => rw [hl] at hc; simpa using hc

theorem strip_lists {t : Text} {ws : List Text} (ht : Lists t ws) (h : ∀ w ∈ ws, Word w) (hne : ws ≠ []) :
    stripCommas t = List.intercalate [','] ws := by
  obtain ⟨a, b, rfl⟩ := ht
  unfold stripCommas
  have hi : List.intercalate [','] ws ≠ [] := by
    cases ws with
    | nil => exact absurd rfl hne
    | cons v ws =>
      have := (h v (by simp)).1
      cases v with
      | nil => exact absurd rfl this
      | cons d v => cases ws <;> simp [List.intercalate]
  rw [List.append_assoc, dropWhile_replicate, List.reverse_append, List.reverse_replicate,
    dropWhile_replicate, List.reverse_reverse]
  · intro c hc
    rw [List.head?_reverse] at hc
    exact last_intercalate h c hc
  · intro c hc
    rw [List.head?_append_of_ne_nil _ hi] at hc
    exact head_intercalate h c hc

theorem split_lists {t : Text} {ws : List Text} (ht : Lists t ws) (h : ∀ w ∈ ws, Word w) (hne : ws ≠ []) :
    splitCommas (stripCommas t) = ws := by
  rw [strip_lists ht h hne, splitCommas_intercalate hne fun w hw => (h w hw).2]

/-! ### C53 -/

/-- **C53.** For a document that lists ids in the usual form, `getAssociatedIds` gives the authoritative
id and the other ids in their order (the list is that before its first occurrence followed by that
behind it), and it raises `ValueError` exactly when the authoritative id is not listed. -/
theorem C53_associated_ids {e : Event} {ids : List Text} (hl : Lists e.ids ids) (hw : ∀ w ∈ ids, Word w)
    (hne : ids ≠ []) :
    (∀ others, getAssociatedIds e = .ok (e.id, others) ↔
      ∃ before after, ids = before ++ e.id :: after ∧ e.id ∉ before ∧ others = before ++ after) ∧
    (∀ r, getAssociatedIds e = .ok r → r.1 = e.id) ∧
    (getAssociatedIds e = .error .valueError ↔ e.id ∉ ids) ∧
    (∀ x, getAssociatedIds e = .error x → x = .valueError) := by
  unfold getAssociatedIds
  rw [split_lists hl hw hne]
  by_cases h : e.id ∈ ids
  · rw [if_pos h]
    refine ⟨?_, ?_, ?_, ?_⟩
    · intro others
      simp only [Except.ok.injEq, Prod.mk.injEq, true_and]
      constructor
      · rintro rfl
        obtain ⟨a, b, h1, h2, h3⟩ := List.exists_erase_eq h
        exact ⟨a, b, h2, h1, h3⟩
      · rintro ⟨a, b, h1, h2, rfl⟩
        rw [h1, List.erase_append_right _ h2, List.erase_cons_head]
    · intro r hr; cases hr; rfl
    · simp [h]
    · intro x hx; cases hx
  · rw [if_neg h]
    refine ⟨?_, ?_, ?_, ?_⟩
    · intro others
      simp only [reduceCtorEq, false_iff]
      rintro ⟨a, b, h1, -⟩
      exact h (by rw [h1]; simp)
    · intro r hr; cases hr
    · simp [h]
    · intro x hx; cases hx; rfl

example : Lists ",at1234,atlas4567,ci2008,".toList ["at1234".toList, "atlas4567".toList, "ci2008".toList] ∧
    getAssociatedIds ⟨",at1234,atlas4567,ci2008,".toList, [], "atlas4567".toList⟩ =
      .ok ("atlas4567".toList, ["at1234".toList, "ci2008".toList]) :=
  ⟨⟨1, 1, by decide⟩, by decide⟩

/-! ### C52 -/

/-- `s` is a longest one among the listed sources the id begins with. -/
def LongestPrefix (sources : List Text) (eid s : Text) : Prop :=
  s ∈ sources ∧ s <+: eid ∧ ∀ s' ∈ sources, s' <+: eid → s'.length ≤ s.length

theorem foldl_max_spec (l : List ℕ) : ∀ a, (∀ x ∈ l, x ≤ l.foldl max a) ∧ a ≤ l.foldl max a ∧
    (l.foldl max a = a ∨ l.foldl max a ∈ l) := by
  induction l with
  | nil => intro a; simp
  | cons x l ih =>
    intro a
    obtain ⟨h1, h2, h3⟩ := ih (max a x)
    rw [List.foldl_cons]
    refine ⟨?_, by omega, ?_⟩
    · intro y hy
      rcases List.mem_cons.1 hy with rfl | hy
      · omega
      · exact h1 y hy
    · rcases h3 with h3 | h3
      · rcases le_total a x with h | h
        · right; rw [h3, max_eq_right h]; simp
        · left; rw [h3, max_eq_left h]
      · right; simp [h3]

theorem pickSource_spec {sources : List Text} {eid : Text} (hs : ∃ s ∈ sources, s ≠ [] ∧ s <+: eid) :
    LongestPrefix sources eid (pickSource sources eid) := by
  obtain ⟨s0, hs0, hne, hpre⟩ := hs
  have hm := foldl_max_spec (slengths eid sources) 0
  set m := (slengths eid sources).foldl max 0 with hmdef
  have hle : ∀ s ∈ sources, s <+: eid → s.length ≤ m := by
    intro s hs hp
    apply hm.1
    unfold slengths
    rw [List.mem_map]
    exact ⟨s, hs, by rw [if_pos (List.isPrefixOf_iff_prefix.2 hp)]⟩
  have hpos : 0 < m := lt_of_lt_of_le (List.length_pos_iff.2 hne) (hle s0 hs0 hpre)
  have hmem : m ∈ slengths eid sources := by
    rcases hm.2.2 with h | h
    · omega
    · exact h
  have hi : (slengths eid sources).idxOf m < (slengths eid sources).length := List.idxOf_lt_length_iff.2 hmem
  have hi' : (slengths eid sources).idxOf m < sources.length := by
    simpa [slengths] using hi
  have hget : (slengths eid sources)[(slengths eid sources).idxOf m]'hi = m := List.getElem_idxOf hi
  have hp : pickSource sources eid = sources[(slengths eid sources).idxOf m]'hi' := by
    unfold pickSource
    rw [← hmdef, List.getD_eq_getElem?_getD, List.getElem?_eq_getElem hi']
    rfl
  have hval : (if (pickSource sources eid).isPrefixOf eid then (pickSource sources eid).length else 0) = m := by
    rw [hp]
    refine Eq.trans ?_ hget
    exact (List.getElem_map (fun s : Text => if s.isPrefixOf eid then s.length else 0)).symm
  have hpp : (pickSource sources eid).isPrefixOf eid = true := by
    by_contra h
    rw [if_neg h] at hval
    omega
  rw [if_pos hpp] at hval
  refine ⟨by rw [hp]; exact List.getElem_mem hi', List.isPrefixOf_iff_prefix.1 hpp, ?_⟩
  intro s hs hp
  rw [hval]
  exact hle s hs hp

/-- Two longest prefixes of the same id are the same. -/
theorem longestPrefix_unique {sources : List Text} {eid s t : Text} (hs : LongestPrefix sources eid s)
    (ht : LongestPrefix sources eid t) : s = t := by
  have : s.length = t.length := le_antisymm (ht.2.2 s hs.1 hs.2.1) (hs.2.2 t ht.1 ht.2.1)
  rcases List.prefix_or_prefix_of_prefix hs.2.1 ht.2.1 with h | h
  · exact h.eq_of_length this
  · exact (h.eq_of_length this.symm).symm

/-- **C52** (partial). When every id begins with a listed source, `getAssociatedSources` succeeds where
`getAssociatedIds` does, the authoritative source is the longest listed source the authoritative id
begins with, and the other sources are, one by one and in the same order, the longest listed sources of
the other ids. What is missing: an id that begins with no listed source, see below. -/
theorem C52_sources_partial {e : Event} {ids sources : List Text} (hl : Lists e.ids ids)
    (hw : ∀ w ∈ ids, Word w) (hls : Lists e.sources sources) (hws : ∀ w ∈ sources, Word w)
    (hcover : ∀ i ∈ ids, ∃ s ∈ sources, s <+: i) {others : List Text}
    (hids : getAssociatedIds e = .ok (e.id, others)) (hid : e.id ∈ ids) :
    ∃ s ss, getAssociatedSources e = .ok (s, ss) ∧ LongestPrefix sources e.id s ∧
      List.Forall₂ (LongestPrefix sources) others ss := by
  have hne : ids ≠ [] := by rintro rfl; simp at hid
  have hnes : sources ≠ [] := by
    obtain ⟨s, hs, -⟩ := hcover _ hid
    rintro rfl; simp at hs
  have hcover' : ∀ i ∈ ids, ∃ s ∈ sources, s ≠ [] ∧ s <+: i := by
    intro i hi
    obtain ⟨s, hs, hp⟩ := hcover i hi
    exact ⟨s, hs, (hws s hs).1, hp⟩
  have hsub : ∀ i ∈ others, i ∈ ids := by
    obtain ⟨a, b, h1, -, rfl⟩ := ((C53_associated_ids hl hw hne).1 others).1 hids
    intro i hi
    rw [h1]
    rcases List.mem_append.1 hi with h | h <;> simp [h]
  refine ⟨pickSource sources e.id, others.map (pickSource sources), ?_, pickSource_spec (hcover' _ hid), ?_⟩
  · unfold getAssociatedSources
    rw [hids, split_lists hls hws hnes]
    simp
  · clear hids
    induction others with
    | nil => exact .nil
    | cons o os ih =>
      exact .cons (pickSource_spec (hcover' o (hsub o (by simp)))) (ih fun i hi => hsub i (by simp [hi]))

/-- The worst case named in the source. -/
example : getAssociatedSources ⟨",at1234,atlas4567,ci2008,".toList, ",atlas,ci,at,".toList, "at1234".toList⟩ =
    .ok ("at".toList, ["atlas".toList, "ci".toList]) := by decide

/-- **C52** violated: an id that begins with no listed source is given the first listed source, whatever
that is. -/
theorem C52_no_prefix_violated {sources : List Text} {eid : Text}
    (h : ∀ s ∈ sources, ¬ s <+: eid) (hne : sources ≠ []) :
    pickSource sources eid = sources.head hne ∧ ¬ pickSource sources eid <+: eid := by
  have h0 : slengths eid sources = List.replicate sources.length 0 := by
    unfold slengths
    rw [List.eq_replicate_iff]
    refine ⟨by simp, ?_⟩
    intro b hb
    obtain ⟨s, hs, rfl⟩ := List.mem_map.1 hb
    rw [if_neg (fun hp => h s hs (List.isPrefixOf_iff_prefix.1 hp))]
  have hmax : ∀ n, (List.replicate n 0).foldl max 0 = 0 := by
    intro n
    induction n with
    | zero => rfl
    | succ n ih => rw [List.replicate_succ, List.foldl_cons, max_self, ih]
  have hp : pickSource sources eid = sources.head hne := by
    unfold pickSource
    rw [h0, hmax]
    cases sources with
    | nil => exact absurd rfl hne
    | cons s ss => simp [List.replicate_succ]
  exact ⟨hp, by rw [hp]; exact h _ (List.head_mem hne)⟩

example : getAssociatedSources ⟨",us1,xx2,".toList, ",us,ci,".toList, "us1".toList⟩ =
    .ok ("us".toList, ["us".toList]) := by decide

/-! ### C54 -/

/-- **C54** (partial). A server that answers at once is asked once and its text is returned. What is
missing: the second attempt. -/
theorem C54_first_answer_partial {server : ℕ → Response} {t : Text} (h : server 0 = .data t) :
    getUrlData server = (.ok (some t), 1) := by
  unfold getUrlData; rw [h]

/-- **C54** violated: after a 503 there is no second request, and the call fails whatever the server
would answer. -/
theorem C54_retry_violated {server : ℕ → Response} (h : server 0 = .httpError 503) :
    getUrlData server = (.error .plain, 1) := by
  unfold getUrlData; rw [h]; rfl

example : ∃ server : ℕ → Response, server 0 = .httpError 503 ∧ server 1 = .data "{}".toList :=
  ⟨fun n => if n = 0 then .httpError 503 else .data "{}".toList, by simp, by simp⟩

/-- **C54** violated: other HTTP errors are not reported: `None` is returned as if it were the text. -/
theorem C54_other_code_violated {server : ℕ → Response} {code : ℕ} (h : server 0 = .httpError code)
    (hc : code ≠ 503) : getUrlData server = (.ok none, 1) := by
  unfold getUrlData; rw [h]; simp [hc]

/-! ### C91: what the constructors report -/

/-- **C91** (partial). `ComCatInfo` succeeds exactly when the first answer is a JSON document, and
otherwise raises `Exception`. What is missing: the same for `GeoServe`. -/
theorem C91_constructor_partial {J : Type} (parse : Text → Option J) (server : ℕ → Response) :
    (∀ j, comCatInfo parse server = .ok j ↔ ∃ t, server 0 = .data t ∧ parse t = some j) ∧
    (∀ x, comCatInfo parse server = .error x → x = .plain) := by
  unfold comCatInfo getJSONContent getUrlData
  cases h : server 0 with
  | data t =>
    simp only [loads]
    cases hp : parse t with
    | none => simp [hp]
    | some k => simp [hp]
  | failure => simp
  | httpError code =>
    by_cases hc : code = 503
    · simp [hc, retry, sleep]
    · simp [hc, loads]

/-- **C91** violated: `GeoServe` ends in `TypeError`, not in the documented `Exception` about the
address, for every HTTP error other than 503. -/
theorem C91_geoserve_violated {J : Type} (parse : Text → Option J) {server : ℕ → Response} {code : ℕ}
    (h : server 0 = .httpError code) (hc : code ≠ 503) : getJSONContent parse server = .error .typeError := by
  unfold getJSONContent
  rw [C54_other_code_violated h hc]
  rfl

/-! ### C92: downloading the grid -/

/-- **C92** (partial). When a local file is asked for, a returned name is the name given and the file then
holds exactly the downloaded text; when the download raises or there is no grid, `None` is returned and
the file is as before; without a local file nothing is written. What is missing: HTTP errors other than
503. -/
theorem C92_grid_partial (url localFile : Option Text) (server : ℕ → Response) (file : Option Text) :
    (∀ name, localFile = some name → ∀ r, (getShakeGrid url localFile server file).1 = some r →
      r = name ∧ ∃ t, server 0 = .data t ∧ (getShakeGrid url localFile server file).2 = some t) ∧
    (localFile = none → getShakeGrid url localFile server file = (url, file)) ∧
    (∀ u name t, url = some u → localFile = some name → server 0 = .data t →
      getShakeGrid url localFile server file = (some name, some t)) ∧
    ((∀ code, code ≠ 503 → server 0 ≠ .httpError code) →
      (getShakeGrid url localFile server file).1 = none →
      (getShakeGrid url localFile server file).2 = file) := by
  cases url with
  | none => cases localFile <;> simp [getShakeGrid]
  | some u =>
    cases localFile with
    | none => simp [getShakeGrid]
    | some name =>
      simp only [getShakeGrid]
      unfold getUrlData
      cases h : server 0 with
      | data t => simp [eq_comm]
      | failure => simp
      | httpError code =>
        by_cases hc : code = 503
        · simp [hc, retry, sleep]
        · simp [hc]

/-- **C92** violated: when the server answers with an HTTP error such as 404, `None` is returned but the
local file has been emptied. -/
theorem C92_emptied_violated (u name old : Text) {server : ℕ → Response} {code : ℕ}
    (h : server 0 = .httpError code) (hc : code ≠ 503) :
    getShakeGrid (some u) (some name) server (some old) = (none, some []) := by
  simp only [getShakeGrid]
  rw [C54_other_code_violated h hc]

/-! ### C93: time, region and region list -/

/-- **C93** (partial). The event time is the origin time without the milliseconds, to the second: it is
less than a second away, not after the origin time for times from 1970 on, and exact for whole seconds.
What is missing: for earlier times it is not before the origin time. -/
theorem C93_time_partial (itime : ℤ) :
    |eventSeconds itime * 1000 - itime| < 1000 ∧
    (0 ≤ itime → eventSeconds itime * 1000 ≤ itime) ∧
    (∀ s, itime = 1000 * s → eventSeconds itime = s) := by
  unfold eventSeconds Py.trunc
  by_cases h : (0 : ℚ) ≤ (itime : ℚ) / 1000
  · rw [if_pos h]
    have h1 := Int.floor_le ((itime : ℚ) / 1000)
    have h2 := Int.lt_floor_add_one ((itime : ℚ) / 1000)
    have h1' : (⌊(itime : ℚ) / 1000⌋ : ℚ) * 1000 ≤ itime := by linarith
    have h2' : (itime : ℚ) < (⌊(itime : ℚ) / 1000⌋ + 1) * 1000 := by linarith
    have h1'' : ⌊(itime : ℚ) / 1000⌋ * 1000 ≤ itime := by exact_mod_cast h1'
    have h2'' : itime < (⌊(itime : ℚ) / 1000⌋ + 1) * 1000 := by exact_mod_cast h2'
    refine ⟨by rw [abs_lt]; constructor <;> omega, fun _ => h1'', ?_⟩
    intro s hs
    omega
  · rw [if_neg h]
    have h1 := Int.le_ceil ((itime : ℚ) / 1000)
    have h2 := Int.ceil_lt_add_one ((itime : ℚ) / 1000)
    have h1' : (itime : ℚ) ≤ (⌈(itime : ℚ) / 1000⌉ : ℚ) * 1000 := by linarith
    have h2' : ((⌈(itime : ℚ) / 1000⌉ : ℚ) - 1) * 1000 < itime := by linarith
    have h1'' : itime ≤ ⌈(itime : ℚ) / 1000⌉ * 1000 := by exact_mod_cast h1'
    have h2'' : (⌈(itime : ℚ) / 1000⌉ - 1) * 1000 < itime := by exact_mod_cast h2'
    refine ⟨by rw [abs_lt]; constructor <;> omega, ?_, ?_⟩
    · intro h0
      exfalso
      apply h
      have : (0 : ℚ) ≤ itime := by exact_mod_cast h0
      linarith
    · intro s hs
      omega

/-- **C93** violated: half a second before 1970 the event time is the second after the origin time. -/
theorem C93_before_1970_violated : eventSeconds (-500) = 0 ∧ ¬ eventSeconds (-500) * 1000 ≤ -500 := by
  have : eventSeconds (-500) = 0 := by decide +kernel
  rw [this]; decide

/-! ### C94: GeoServe -/

/-- **C94** (partial). The authoritative region is the first feature, and ('US', 'NA') when there is
none; the addresses carry the coordinates, radius and population behind their names, for values without
an opening bracket. What is missing: the region dictionary without its metadata. -/
theorem C94_geoserve_partial :
    (∀ f fs, getAuthoritative (f :: fs) = f) ∧
    getAuthoritative [] = ("US".toList, "NA".toList) ∧
    (∀ lat lon radius pop : Text, '[' ∉ lat → '[' ∉ lon → '[' ∉ radius → '[' ∉ pop →
      regurl lat lon = "http://earthquake.usgs.gov/ws/geoserve/regions.json?latitude=".toList ++ lat ++
        "&longitude=".toList ++ lon ∧
      placeurl lat lon radius pop = "http://earthquake.usgs.gov/ws/geoserve/places.json?latitude=".toList ++
        lat ++ "&longitude=".toList ++ lon ++ "&maxradiuskm=".toList ++ radius ++
        "&minpopulation=".toList ++ pop ++ "&type=geonames".toList) := by
  refine ⟨fun _ _ => rfl, rfl, ?_⟩
  intro lat lon radius pop hlat hlon hradius hpop
  have clean : ∀ (v w : Text) (k : Text), '[' ∉ v → replaceAll ('[' :: k) w v = v := by
    intro v w k hv
    apply replaceAll_not_infix
    intro h
    exact hv (h.subset (by simp))
  have whole : ∀ (k v : Text), k ≠ [] → replaceAll k v k = v := by
    intro k v hk
    have e2 := replaceAll_prefix (new := v) (s := []) hk
    rwa [List.append_nil, replaceAll, List.append_nil] at e2
  have k1 : "[LAT]".toList = ['[', 'L', 'A', 'T', ']'] := by decide
  have k2 : "[LON]".toList = ['[', 'L', 'O', 'N', ']'] := by decide
  have k3 : "[RADIUS]".toList = ['[', 'R', 'A', 'D', 'I', 'U', 'S', ']'] := by decide
  have k4 : "[POP]".toList = ['[', 'P', 'O', 'P', ']'] := by decide
  constructor
  · have e : regionsUrl = flat
        [("http://earthquake.usgs.gov/ws/geoserve/regions.json?latitude".toList, '='),
         ("[LAT]".toList, '&'), ("longitude".toList, '=')] "[LON]".toList := by decide +kernel
    have c1 : '[' ∉ "http://earthquake.usgs.gov/ws/geoserve/regions.json?latitude".toList := by
      decide +kernel
    have c2 : '[' ∉ "longitude".toList := by decide
    have e1 : "http://earthquake.usgs.gov/ws/geoserve/regions.json?latitude=".toList =
      "http://earthquake.usgs.gov/ws/geoserve/regions.json?latitude".toList ++ ['='] := by decide +kernel
    have e2 : "&longitude=".toList = '&' :: "longitude".toList ++ ['='] := by decide +kernel
    have n1 : replaceAll "[LAT]".toList lat "[LON]".toList = "[LON]".toList :=
      replaceAll_not_infix (by decide)
    unfold regurl
    rw [e, e1, e2]
    generalize "http://earthquake.usgs.gov/ws/geoserve/regions.json?latitude".toList = u1 at c1 ⊢
    generalize "longitude".toList = u2 at c2 ⊢
    rw [replaceAll_flat (by simp [k1]), n1, replaceAll_flat (by simp [k2])]
    simp only [List.map_cons, List.map_nil, whole "[LAT]".toList lat (by decide),
      whole "[LON]".toList lon (by decide)]
    rw [k1, k2]
    simp only [clean _ _ _ c1, clean _ _ _ c2, clean _ _ _ hlat, flat, List.append_assoc,
      List.cons_append, List.nil_append]
  · have e : placesUrl = flat
        [("http://earthquake.usgs.gov/ws/geoserve/places.json?latitude".toList, '='),
         ("[LAT]".toList, '&'), ("longitude".toList, '='), ("[LON]".toList, '&'),
         ("maxradiuskm".toList, '='), ("[RADIUS]".toList, '&'), ("minpopulation".toList, '='),
         ("[POP]".toList, '&'), ("type".toList, '=')] "geonames".toList := by decide +kernel
    have c1 : '[' ∉ "http://earthquake.usgs.gov/ws/geoserve/places.json?latitude".toList := by
      decide +kernel
    have c2 : '[' ∉ "longitude".toList := by decide
    have c3 : '[' ∉ "maxradiuskm".toList := by decide
    have c4 : '[' ∉ "minpopulation".toList := by decide
    have c5 : '[' ∉ "type".toList := by decide
    have c6 : '[' ∉ "geonames".toList := by decide
    have e1 : "http://earthquake.usgs.gov/ws/geoserve/places.json?latitude=".toList =
      "http://earthquake.usgs.gov/ws/geoserve/places.json?latitude".toList ++ ['='] := by decide +kernel
    have e2 : "&longitude=".toList = '&' :: "longitude".toList ++ ['='] := by decide +kernel
    have e3 : "&maxradiuskm=".toList = '&' :: "maxradiuskm".toList ++ ['='] := by decide +kernel
    have e4 : "&minpopulation=".toList = '&' :: "minpopulation".toList ++ ['='] := by decide +kernel
    have e5 : "&type=geonames".toList = '&' :: "type".toList ++ '=' :: "geonames".toList := by
      decide +kernel
    have n1 : ∀ v, replaceAll "[LAT]".toList v "[LON]".toList = "[LON]".toList :=
      fun v => replaceAll_not_infix (by decide)
    have n2 : ∀ v, replaceAll "[LAT]".toList v "[RADIUS]".toList = "[RADIUS]".toList :=
      fun v => replaceAll_not_infix (by decide)
    have n3 : ∀ v, replaceAll "[LAT]".toList v "[POP]".toList = "[POP]".toList :=
      fun v => replaceAll_not_infix (by decide)
    have n4 : ∀ v, replaceAll "[LON]".toList v "[RADIUS]".toList = "[RADIUS]".toList :=
      fun v => replaceAll_not_infix (by decide)
    have n5 : ∀ v, replaceAll "[LON]".toList v "[POP]".toList = "[POP]".toList :=
      fun v => replaceAll_not_infix (by decide)
    have n6 : ∀ v, replaceAll "[RADIUS]".toList v "[POP]".toList = "[POP]".toList :=
      fun v => replaceAll_not_infix (by decide)
    unfold placeurl
    rw [e, e1, e2, e3, e4, e5]
    generalize "http://earthquake.usgs.gov/ws/geoserve/places.json?latitude".toList = u1 at c1 ⊢
    generalize "longitude".toList = u2 at c2 ⊢
    generalize "maxradiuskm".toList = u3 at c3 ⊢
    generalize "minpopulation".toList = u4 at c4 ⊢
    generalize "type".toList = u5 at c5 ⊢
    generalize "geonames".toList = u6 at c6 ⊢
    rw [replaceAll_flat (by simp [k1])]
    simp only [List.map_cons, List.map_nil, n1, n2, n3]
    rw [replaceAll_flat (by simp [k2])]
    simp only [List.map_cons, List.map_nil, n4, n5]
    rw [replaceAll_flat (by simp [k3])]
    simp only [List.map_cons, List.map_nil, n6]
    rw [replaceAll_flat (by simp [k4])]
    simp only [List.map_cons, List.map_nil, whole "[LAT]".toList lat (by decide),
      whole "[LON]".toList lon (by decide), whole "[RADIUS]".toList radius (by decide),
      whole "[POP]".toList pop (by decide)]
    rw [k1, k2, k3, k4]
    simp only [clean _ _ _ c1, clean _ _ _ c2, clean _ _ _ c3, clean _ _ _ c4, clean _ _ _ c5,
      clean _ _ _ c6, clean _ _ _ hlat, clean _ _ _ hlon, clean _ _ _ hradius, flat,
      List.append_assoc, List.cons_append, List.nil_append]

/-- **C94** violated: the dictionary returned by `getRegions` still has the metadata. -/
theorem C94_metadata_violated {V : Type} (regdict : List (Text × V)) (m : V)
    (h : ("metadata".toList, m) ∈ regdict) : ("metadata".toList, m) ∈ getRegions regdict := h

end Verif.Props
