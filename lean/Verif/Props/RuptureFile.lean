import Verif.Spec.RuptureJson
import Verif.Props.RuptureText

/-!
# C148: which dictionaries are accepted; C149: `get_rupture`
-/

namespace Verif.Props
open Verif.Factory Verif.Spec

theorem exceptBind_ok {ε α β : Type} {x : Except ε α} {f : α → Except ε β} {b : β} :
    (x >>= f) = .ok b ↔ ∃ a, x = .ok a ∧ f a = .ok b := by
  cases x with
  | error e => simp [bind, Except.bind]
  | ok a => simp [bind, Except.bind]

theorem must_ok {α : Type} {x : Option α} {a : α} : must x = .ok a ↔ x = some a := by
  cases x <;> simp [must]

theorem ensure_ok {p : Prop} {e : FErr} {u : Unit} : ensure p e = .ok u ↔ p := by
  unfold ensure; split <;> simp_all

theorem item_some {d : Json} {k : String} {v : Json} (h : d.item k = some v) : ∃ l, d = .obj l ∧ l.lookup k = some v := by
  cases d <;> simp [Json.item] at h
  exact ⟨_, rfl, h⟩

/-- What an accepted dictionary looks like. -/
theorem validate_sound {other : Json → Json → Option Bool} {d : Json} (h : validateJson other d = .ok ()) :
    ∃ gty coords, RuptureDict d gty coords ∧ (gty = .str "MultiPolygon" ∨ gty = .str "Point") := by
  unfold validateJson at h
  simp only [exceptBind_ok, must_ok, ensure_ok] at h
  obtain ⟨ty, h1, _, rfl, fs, h2, n, h3, _, h4, md, h5, ks, h6, _, h7, f, h8, fty, h9, _, rfl, geom, h10, gty, h11, _, h12,
    gks, h13, _, h14, coords, h15, polys, h16, h17⟩ := h
  obtain ⟨top, rfl, h1⟩ := item_some h1
  obtain ⟨feature, rfl, h9⟩ := item_some h9
  obtain ⟨g, rfl, h11⟩ := item_some h11
  have hmd : ∃ m, md = .obj m ∧ ks = m.map (·.1) := by
    cases md <;> simp [Json.keys] at h6
    exact ⟨_, rfl, h6.symm⟩
  obtain ⟨m, rfl, rfl⟩ := hmd
  have hfs : fs = .arr [.obj feature] := by
    cases fs with
    | arr l =>
      simp only [Json.len, Option.some.injEq] at h3
      obtain ⟨x, rfl⟩ := List.length_eq_one_iff.1 (h3.trans h4)
      simp [Json.at] at h8
      rw [h8]
    | str s =>
      simp [Json.at] at h8
    | null => simp [Json.len] at h3
    | num q => simp [Json.len] at h3
    | obj l => simp [Json.at] at h8
  subst hfs
  obtain ⟨⟨k, r⟩, hr, rfl⟩ := List.mem_map.1 h7
  exact ⟨gty, coords, ⟨top, m, feature, g, rfl, h1, h5, ⟨r, hr⟩, h2, h9, h10, h11, h15⟩, h12⟩

theorem ensure_true {p : Prop} (h : p) (e : FErr) : ensure p e = .ok () := ensure_ok.2 h

theorem must_bind {α β : Type} {x : Option α} {a : α} (h : x = some a) (f : α → Except FErr β) : (must x >>= f) = f a := by
  rw [h]; rfl

theorem ensure_bind {β : Type} {p : Prop} (h : p) (e : FErr) (f : Unit → Except FErr β) : (ensure p e >>= f) = f () := by
  rw [ensure_true h]; rfl

theorem lookup_mem_keys {k : String} {l : List (String × Json)} {v : Json} (h : l.lookup k = some v) : k ∈ l.map (·.1) := by
  obtain ⟨l1, l2, rfl, -⟩ := List.lookup_eq_some_iff.1 h
  simp

/-- For a dictionary of the right form only the polygons matter. -/
theorem validate_eq {other : Json → Json → Option Bool} {d gty coords polys : Json} (h : RuptureDict d gty coords)
    (hg : gty = .str "MultiPolygon" ∨ gty = .str "Point") (hc : coords.at 0 = some polys) :
    validateJson other d = checkPolygons other gty polys := by
  obtain ⟨top, m, feature, g, rfl, h1, h5, ⟨r, hr⟩, h2, h9, h10, h11, h15⟩ := h
  unfold validateJson
  rw [must_bind (a := .str "FeatureCollection") h1, ensure_bind rfl, must_bind (a := .arr [.obj feature]) h2,
    must_bind (show (Json.arr [.obj feature]).len = some 1 from rfl), ensure_bind rfl, must_bind (a := .obj m) h5, must_bind (show (Json.obj m).keys = some (m.map (·.1)) from rfl),
    ensure_bind (List.mem_map.2 ⟨_, hr, rfl⟩), must_bind (show (Json.arr [.obj feature]).at 0 = some (.obj feature) from rfl), must_bind (a := .str "Feature") h9,
    ensure_bind rfl, must_bind (a := .obj g) h10, must_bind (show (Json.obj g).item "type" = some gty from h11), ensure_bind hg,
    must_bind (show (Json.obj g).keys = some (g.map (·.1)) from rfl), ensure_bind (lookup_mem_keys h15), must_bind (show (Json.obj g).item "coordinates" = some coords from h15),
    must_bind (a := polys) hc]

theorem listForM_cons {α : Type} (a : α) (l : List α) (f : α → Except FErr Unit) :
    (a :: l).forM f = (f a >>= fun _ => l.forM f) := rfl

theorem forM_range_getElem {α : Type} (h : α → Except FErr Unit) (l : List α) :
    (List.range l.length).forM (fun i => (must l[i]?).bind h) = l.forM h := by
  have key : ∀ (pre l : List α), (List.range' pre.length l.length).forM (fun i => (must (pre ++ l)[i]?).bind h) = l.forM h := by
    intro pre l
    induction l generalizing pre with
    | nil => rfl
    | cons a l ih =>
      rw [List.length_cons, List.range'_succ, listForM_cons, listForM_cons]
      have h1 : (must (pre ++ a :: l)[pre.length]?).bind h = h a := by
        simp [must, Except.bind]
      rw [h1]
      have := ih (pre ++ [a])
      simp only [List.length_append, List.length_singleton, List.append_assoc, List.singleton_append] at this
      rw [this]
  have := key [] l
  rw [List.range_eq_range']
  exact this

/-- A loop of tests. -/
theorem forM_ensure {α : Type} {f : α → Except FErr Unit} {p : α → Bool} {e : FErr} {l : List α}
    (h : ∀ a ∈ l, f a = if p a = true then .ok () else .error e) :
    l.forM f = if l.all p = true then .ok () else .error e := by
  induction l with
  | nil => rfl
  | cons a l ih =>
    rw [listForM_cons, h a (by simp), ih fun b hb => h b (by simp [hb])]
    cases hp : p a <;> simp [hp, bind, Except.bind]

theorem vertJson_inj {v w : Vert} (h : vertJson v = vertJson w) : v = w := by
  unfold vertJson at h
  cases v; cases w
  simpa using h

theorem arr_at_pos (l : List Json) (i : ℕ) : (Json.arr l).at (i : ℤ) = l[i]? := by
  simp [Json.at]

theorem arr_at_neg (l : List Json) {i : ℕ} (h0 : 0 < i) (h : i ≤ l.length) : (Json.arr l).at (-(i : ℤ)) = l[l.length - i]? := by
  unfold Json.at
  simp only
  rw [if_neg (by omega), if_pos (by omega)]
  congr 1
  omega

theorem checkJsonPolygon_eq (other : Json → Json → Option Bool) (p : List Vert) :
    checkJsonPolygon other (.arr (p.map vertJson)) = checkPolygon p := by
  unfold checkJsonPolygon checkPolygon
  rw [must_bind (a := p.length) (by simp [Json.len])]
  by_cases h1 : p.length % 2 = 0
  · rw [if_pos h1]
    simp [ensure, h1, bind, Except.bind]
  · rw [if_neg h1, ensure_bind h1]
    have hne : p ≠ [] := by rintro rfl; simp at h1
    have hpos := List.length_pos_iff.2 hne
    obtain ⟨a, ha⟩ : ∃ a, p.head? = some a := by cases p with
      | nil => exact absurd rfl hne
      | cons a l => exact ⟨a, rfl⟩
    obtain ⟨b, hb⟩ : ∃ b, p.getLast? = some b := ⟨p.getLast hne, List.getLast?_eq_getLast_of_ne_nil hne⟩
    rw [must_bind (a := vertJson a) (by
      have := arr_at_pos (p.map vertJson) 0
      simp only [Nat.cast_zero] at this
      rw [this, ← List.head?_eq_getElem?, List.head?_map, ha]; rfl),
      must_bind (a := vertJson b) (by
      have := arr_at_neg (p.map vertJson) (i := 1) (by omega) (by rw [List.length_map]; omega)
      simp only [Nat.cast_one] at this
      rw [this, List.length_map, List.getElem?_map, ← List.getLast?_eq_getElem?, hb]; rfl), ha, hb]
    by_cases h2 : a = b
    · rw [ensure_bind (by rw [h2]), if_neg (by simp [h2])]
      unfold pairsOrdered nPairs
      apply forM_ensure
      intro j hj
      rw [List.mem_range] at hj
      unfold checkPair
      rw [must_bind (a := .num (vertAt p j).depth) (by
        rw [arr_at_pos, List.getElem?_map, List.getElem?_eq_getElem (by omega)]
        simp [vertJson, Json.at, vertAt, show j < p.length by omega]),
        must_bind (a := .num (vertAt p (p.length - (j + 2))).depth) (by
        have := arr_at_neg (p.map vertJson) (i := j + 2) (by omega) (by simp; omega)
        push_cast at this
        rw [this, List.length_map, List.getElem?_map, List.getElem?_eq_getElem (by omega)]
        simp [vertJson, Json.at, vertAt, show p.length - (j + 2) < p.length by omega]),
        must_bind (show Json.ge other (.num (vertAt p j).depth) (.num (vertAt p (p.length - (j + 2))).depth) =
          some (decide ((vertAt p (p.length - (j + 2))).depth ≤ (vertAt p j).depth)) from rfl)]
      unfold ensure
      by_cases hlt : (vertAt p j).depth < (vertAt p (p.length - (j + 2))).depth
      · simp [hlt]
      · simp [hlt]
    · rw [if_pos (by simpa using h2)]
      have : ¬ vertJson a = vertJson b := fun h => h2 (vertJson_inj h)
      simp [ensure, this, bind, Except.bind]

theorem checkPolygons_eq (other : Json → Json → Option Bool) (ps : List (List Vert)) :
    checkPolygons other (.str "MultiPolygon") (polygonsJson ps) = checkAll ps := by
  unfold checkPolygons polygonsJson
  rw [if_pos rfl, must_bind (a := ps.length) (by simp [Json.len])]
  have h := forM_range_getElem (checkJsonPolygon other) (ps.map fun p => Json.arr (p.map vertJson))
  rw [List.length_map] at h
  simp only [arr_at_pos]
  rw [h]
  clear h
  induction ps with
  | nil => rfl
  | cons p ps ih =>
    rw [List.map_cons, listForM_cons, checkJsonPolygon_eq, ih]
    simp only [checkAll]
    cases checkPolygon p <;> rfl

theorem geom_eq {d : Json} {ps : List (List Vert)} {rest : List Json}
    (h : RuptureDict d (.str "MultiPolygon") (.arr (polygonsJson ps :: rest))) : d.geom = some (.multiPolygon ps) := by
  obtain ⟨top, m, feature, g, rfl, h1, h5, ⟨r, hr⟩, h2, h9, h10, h11, h15⟩ := h
  unfold Json.geom
  have hf : (Json.obj top).item "features" = some (.arr [.obj feature]) := h2
  have hg : (Json.obj feature).item "geometry" = some (.obj g) := h10
  have ht : (Json.obj g).item "type" = some (.str "MultiPolygon") := h11
  have hc : (Json.obj g).item "coordinates" = some (.arr (polygonsJson ps :: rest)) := h15
  rw [hf, Option.bind_some, show (Json.arr [.obj feature]).at 0 = some (.obj feature) from rfl, Option.bind_some, hg,
    Option.bind_some, ht, if_neg (by simp), hc, Option.bind_some,
    show (Json.arr (polygonsJson ps :: rest)).at 0 = some (polygonsJson ps) by simp [Json.at], Option.bind_some]
  have hv : ∀ p : List Vert, (p.map vertJson).mapM Json.vert = some p := by
    intro p
    induction p with
    | nil => rfl
    | cons v p ih =>
      rw [List.map_cons, List.mapM_cons, ih]; rfl
  have hp : ∀ ps : List (List Vert), (ps.map fun p => Json.arr (p.map vertJson)).mapM
      (fun p => p.list.bind fun vs => vs.mapM Json.vert) = some ps := by
    intro ps
    induction ps with
    | nil => rfl
    | cons p ps ih =>
      rw [List.map_cons, List.mapM_cons, ih]
      simp [Json.list, hv]
  rw [show (polygonsJson ps).list = some (ps.map fun p => Json.arr (p.map vertJson)) from rfl, Option.bind_some, hp]
  rfl

/-- **C148.** `validate_json` accepts only feature collections with exactly one feature, a reference in the metadata and a
multi-polygon or a point as geometry. It accepts such a dictionary with a point, and with polygons of numbers if and only if
every polygon is valid; an invalid polygon is a `ValueError`. -/
theorem C148_validate (other : Json → Json → Option Bool) (d : Json) :
    (validateJson other d = .ok () →
      ∃ gty coords, RuptureDict d gty coords ∧ (gty = .str "MultiPolygon" ∨ gty = .str "Point")) ∧
    (∀ x xs, RuptureDict d (.str "Point") (.arr (x :: xs)) → validateJson other d = .ok ()) ∧
    (∀ ps rest, RuptureDict d (.str "MultiPolygon") (.arr (polygonsJson ps :: rest)) →
      (validateJson other d = .ok () ↔ ∀ p ∈ ps, ValidPolygon p) ∧
      ((¬ ∀ p ∈ ps, ValidPolygon p) → validateJson other d = .error .valueError)) := by
  refine ⟨validate_sound, ?_, ?_⟩
  · intro x xs h
    rw [validate_eq h (Or.inr rfl) (polys := x) (by simp [Json.at])]
    unfold checkPolygons
    rw [if_neg (by simp)]
  · intro ps rest h
    rw [validate_eq h (Or.inl rfl) (polys := polygonsJson ps) (by simp [Json.at]), checkPolygons_eq]
    exact checkAll_iff ps

/-! ### C149 -/

section
variable {R : Type} (other : Json → Json → Option Bool) (build : RupKind → Except FErr R) (point : R)
  (load : List Char → Option Json) (num : List Char → Option ℚ)

/-- **C149**, arguments: the first argument must be an `Origin`; without a file the result is a point rupture. -/
theorem C149_arguments (file : Option Source) (newFormat : Bool) :
    getRupture other build point load num false file newFormat = .error .typeError ∧
    getRupture other build point load num true none newFormat = .ok point := ⟨rfl, rfl⟩

/-- **C149**, JSON: a file with a rupture dictionary, whose polygons go along a top edge and back below it, gives a
rupture of quadrilaterals if along each top and each bottom edge neighbouring points differ in depth by no more than 50 m,
and an edge rupture otherwise. -/
theorem C149_json {text : List Char} {d : Json} (hload : load text = some d) {tbs : List (List Vert × List Vert)}
    (hne : ∀ tb ∈ tbs, tb.1 ≠ [] ∧ tb.1.length = tb.2.length)
    (he : ∀ tb ∈ tbs, (∀ v ∈ tb.1, OnEarth v) ∧ ∀ v ∈ tb.2, OnEarth v)
    (hbelow : ∀ tb ∈ tbs, List.Forall₂ (fun t b => t.depth < b.depth) tb.1 tb.2) {rest : List Json}
    (hd : RuptureDict d (.str "MultiPolygon")
      (.arr (polygonsJson (tbs.map fun tb => outline tb.1 tb.2) :: rest))) (newFormat : Bool) :
    let ps := tbs.map fun tb => outline tb.1 tb.2
    let Flat := ∀ tb ∈ tbs, List.IsChain Level tb.1 ∧ List.IsChain Level tb.2
    (∀ r, Flat → build (.quad ps) = .ok r →
      getRupture other build point load num true (some (.path (some text))) newFormat = .ok r) ∧
    (∀ r, ¬ Flat → build (.edge ps) = .ok r →
      getRupture other build point load num true (some (.path (some text))) newFormat = .ok r) := by
  intro ps Flat
  obtain ⟨k1, k2, -⟩ := C101_kind_partial tbs hne he
  have hval : validateJson other d = .ok () := by
    refine (((C148_validate other d).2.2 _ _ hd).1).2 ?_
    intro p hp
    obtain ⟨tb, htb, rfl⟩ := List.mem_map.1 hp
    exact outline_valid (hbelow tb htb) (hne tb htb).1
  have hrun : ∀ k r, fromDictAndOrigin (.multiPolygon ps) = .ok k → build k = .ok r →
      getRupture other build point load num true (some (.path (some text))) newFormat = .ok r := by
    intro k r hk hr
    have : getFromJson other build load (.path (some text)) = .ok r := by
      unfold getFromJson fromJson
      simp only
      rw [must_bind (show some text = some text from rfl), must_bind hload, hval]
      show (must d.geom >>= _) = _
      rw [must_bind (geom_eq hd)]
      show (fromDictAndOrigin (.multiPolygon ps) >>= _) = _
      rw [hk]
      exact hr
    unfold getRupture
    simp only [this]
    rfl
  exact ⟨fun r hf hr => hrun _ _ (k1 ⟨hbelow, hf⟩) hr, fun r hf hr => hrun _ _ (k2 ⟨hbelow, hf⟩) hr⟩

theorem readLinesOf_eq {text : List Char} {ls : List (List Char)} (h : LinesOf text ls) : readLinesOf [] text = ls := by
  have key : ∀ (w : List Char) (cur r : List Char), '\n' ∉ w → readLinesOf cur (w ++ r) = readLinesOf (w.reverse ++ cur) r := by
    intro w
    induction w with
    | nil => intro cur r _; rfl
    | cons c w ih =>
      intro cur r hw
      rw [List.cons_append, readLinesOf, if_neg (by rintro rfl; simp at hw), ih _ _ (fun h => hw (by simp [h]))]
      simp
  induction h with
  | nil => rfl
  | @last w h1 h2 =>
    have := key w [] [] h2
    rw [List.append_nil] at this
    rw [this, readLinesOf, if_neg (by simpa using h1)]
    simp
  | @line w rest ls h1 _ ih =>
    rw [key w [] _ h1, readLinesOf, if_pos rfl, ih]
    simp

/-- The file is not read as JSON: it is an object, or its text is not JSON. -/
inductive TextSource (lines : List (List Char)) : Source → Prop
  | object : TextSource lines (.object lines)
  | path {text} : load text = none → LinesOf text lines → TextSource lines (.path (some text))

/-- What `get_rupture` does with a file that is not read as JSON. -/
theorem getRupture_text {lines : List (List Char)} {src : Source} (hsrc : TextSource load lines src) (newFormat : Bool) :
    getRupture other build point load num true (some src) newFormat = getFromText build num newFormat (some lines) := by
  cases hsrc with
  | object => rfl
  | @path text h1 h2 =>
    have : getFromJson other build load (.path (some text)) = .error .exception := by
      unfold getFromJson
      simp only
      rw [must_bind (show some text = some text from rfl), h1]
      rfl
    unfold getRupture
    simp only [this, Option.map_some, readLinesOf_eq h2]
    rfl

/-- **C149** (partial), text: a file that is not JSON - or any object that is not a `str` - is read line by line. If all its polygons
are closed and, begun at some point, go along the top and back below it, the rupture is made of them, begun at such a point.
If all are closed and one cannot be begun so, `ValueError` is raised, and if one is not closed, `IOError`. What is missing: polygons of one point. -/
theorem C149_text_partial {lines : List (List Char)} {src : Source} (hsrc : TextSource load lines src) (newFormat : Bool)
    {ks : List Kind} (h : List.Forall₂ (LineIs num (newFormat = false)) lines ks)
    (h2 : ∀ p ∈ polygonsOf (fun a b c => if newFormat then ⟨a, b, c⟩ else ⟨b, a, c⟩) ks, 2 ≤ p.length) :
    let ps := polygonsOf (fun a b c => if newFormat then ⟨a, b, c⟩ else ⟨b, a, c⟩) ks
    ((∀ p ∈ ps, Closed p ∧ ∃ q, SamePolygon p q ∧ ValidPolygon q) →
      ∃ qs, List.Forall₂ (fun p q => SamePolygon p q ∧ ValidPolygon q) ps qs ∧
        ∀ k r, fromDictAndOrigin (.multiPolygon qs) = .ok k → build k = .ok r →
          getRupture other build point load num true (some src) newFormat = .ok r) ∧
    ((∀ p ∈ ps, Closed p) → (¬ ∀ p ∈ ps, ∃ q, SamePolygon p q ∧ ValidPolygon q) →
      getRupture other build point load num true (some src) newFormat = .error .valueError) ∧
    ((¬ ∀ p ∈ ps, Closed p) →
      getRupture other build point load num true (some src) newFormat = .error .ioError) := by
  intro ps
  rw [getRupture_text other build point load num hsrc]
  have hread := C100_text_partial num newFormat lines ks h
  obtain ⟨r1, r2, r3⟩ := C62_repair_partial ps h2
  have htext : ∀ x, repairAndValidate ps = .error x → textToJson num newFormat lines = .error x := by
    intro x hx
    unfold textToJson
    rw [hread]
    simp only [ps] at hx
    simp only [hx]
  refine ⟨?_, ?_, ?_⟩
  · intro hp
    obtain ⟨qs, hq, hf⟩ := r1 hp
    refine ⟨qs, hf, ?_⟩
    intro k r hk hr
    have : textToJson num newFormat lines = .ok (references ks, qs) := by
      unfold textToJson
      rw [hread]
      simp only [ps] at hq
      simp only [hq]
    unfold getFromText
    simp only [must, bind, Except.bind, this, hk, hr]
  · intro hc hv
    unfold getFromText
    simp only [must, bind, Except.bind, htext _ (r2 hc hv)]
  · intro hc
    unfold getFromText
    simp only [must, bind, Except.bind, htext _ (r3 hc)]

/-! #### Files that look like JSON -/

theorem splitWords_head (c : Char) (cur r : List Char) :
    ∃ x t, splitWords (cur ++ [c]) r = (c :: x) :: t := by
  induction r generalizing cur with
  | nil => exact ⟨cur.reverse, [], by rw [splitWords, if_neg (by simp)]; simp⟩
  | cons d r ih =>
    rw [splitWords]
    split
    · rw [if_neg (by simp)]
      exact ⟨cur.reverse, splitWords [] r, by simp⟩
    · exact ih (d :: cur)

theorem splitCommas_head (pre : List Char) (cur r : List Char) :
    ∃ x t, splitCommas (cur ++ pre.reverse) r = (pre ++ x) :: t := by
  induction r generalizing cur with
  | nil => exact ⟨cur.reverse, [], by rw [splitCommas]; simp⟩
  | cons d r ih =>
    rw [splitCommas]
    split
    · exact ⟨cur.reverse, splitCommas [] r, by simp⟩
    · exact ih (d :: cur)

theorem brace_not_white : ¬ White '{' := by decide

/-- A line that begins with a brace is refused. -/
theorem readLine_brace {num : List Char → Option ℚ} (hnum : ∀ w x, Gap w → num (w ++ '{' :: x) = none) (nf : Bool)
    (st : RState) {w : List Char} (hw : Gap w) (x : List Char) :
    ∃ e, readLine num nf st (w ++ '{' :: x) = .error e := by
  have hs := strip_head hw brace_not_white x
  have hne : strip (w ++ '{' :: x) ≠ [] := by intro h; rw [h] at hs; simp at hs
  have hv : ∀ (parts : List (List Char)), (∃ g y t, Gap g ∧ parts = (g ++ '{' :: y) :: t) →
      ∃ e, readVert num nf parts = .error e := by
    rintro parts ⟨g, y, t, hg, rfl⟩
    unfold readVert
    split
    · rename_i a b c h
      simp only [List.cons.injEq] at h
      rw [← h.1, hnum g y hg]
      exact ⟨_, rfl⟩
    · exact ⟨_, rfl⟩
  unfold readLine
  simp only
  rw [if_neg hne, if_neg (by rw [hs]; decide), if_neg (by rw [hs]; decide)]
  have hwords : ∃ y t, splitWords [] (w ++ '{' :: x) = ('{' :: y) :: t := by
    rw [splitWords_gap hw, splitWords, if_neg (by rw [isSpace_false brace_not_white]; simp)]
    exact splitWords_head '{' [] x
  have hcommas : ∃ y t, splitCommas [] (w ++ '{' :: x) = (w ++ '{' :: y) :: t := by
    rw [splitCommas_part (not_comma_of_gap hw), splitCommas, if_neg (by decide)]
    obtain ⟨y, t, h⟩ := splitCommas_head (w ++ ['{']) [] x
    refine ⟨y, t, ?_⟩
    simpa using h
  unfold readCoords lineParts
  simp only
  by_cases h1 : (splitWords [] (w ++ '{' :: x)).length = 1
  · rw [if_pos h1]
    cases nf with
    | true => exact ⟨_, rfl⟩
    | false =>
      simp only [Bool.false_eq_true, if_false]
      by_cases h2 : (splitCommas [] (w ++ '{' :: x)).length = 1
      · rw [if_pos h2]; exact ⟨_, rfl⟩
      · rw [if_neg h2]
        obtain ⟨y, t, e⟩ := hcommas
        obtain ⟨e', he⟩ := hv (splitCommas [] (w ++ '{' :: x)) ⟨w, y, t, hw, e⟩
        simp only [he]
        exact ⟨_, rfl⟩
  · rw [if_neg h1]
    obtain ⟨y, t, e⟩ := hwords
    obtain ⟨e', he⟩ := hv (splitWords [] (w ++ '{' :: x)) ⟨[], y, t, fun c hc => by simp at hc, e⟩
    simp only [he]
    exact ⟨_, rfl⟩

theorem readLinesOf_cons (cur r : List Char) (hc : cur ≠ []) : ∃ x t, readLinesOf cur r = (cur.reverse ++ x) :: t := by
  induction r generalizing cur with
  | nil => exact ⟨[], [], by rw [readLinesOf, if_neg (by simpa using hc)]; simp⟩
  | cons d r ih =>
    rw [readLinesOf]
    split
    · exact ⟨[d], readLinesOf [] r, by simp⟩
    · obtain ⟨x, t, h⟩ := ih (d :: cur) (by simp)
      exact ⟨d :: x, t, by rw [h]; simp⟩

theorem newline_white : White '\n' := by decide

theorem readLines_brace {num : List Char → Option ℚ} (hnum : ∀ w x, Gap w → num (w ++ '{' :: x) = none) (nf : Bool)
    (st : RState) {w : List Char} (hw : Gap w) (rest cur : List Char) (hcur : Gap cur) :
    ∃ e, readLines num nf st (readLinesOf cur (w ++ '{' :: rest)) = .error e := by
  induction w generalizing cur with
  | nil =>
    rw [List.nil_append, readLinesOf, if_neg (by decide)]
    obtain ⟨x, t, h⟩ := readLinesOf_cons ('{' :: cur) rest (by simp)
    rw [h, readLines]
    have hg : Gap cur.reverse := fun c hc => hcur c (by simpa using hc)
    obtain ⟨e, he⟩ := readLine_brace hnum nf st hg x
    rw [show ('{' :: cur).reverse ++ x = cur.reverse ++ '{' :: x by simp, he]
    exact ⟨e, rfl⟩
  | cons c w ih =>
    have hw' : Gap w := fun d hd => hw d (by simp [hd])
    rw [List.cons_append, readLinesOf]
    split
    · rename_i hc
      rw [readLines]
      have hg : Gap (c :: cur).reverse := by
        intro d hd
        simp at hd
        rcases hd with hd | rfl
        · exact hcur d hd
        · exact hw d (by simp)
      have : readLine num nf st (c :: cur).reverse = .ok st := by
        unfold readLine
        simp only
        rw [strip_gap hg, if_pos rfl]
      rw [this]
      exact ih hw' [] (fun d hd => by simp at hd)
    · exact ih hw' (c :: cur) (by
        intro d hd
        rcases List.mem_cons.1 hd with rfl | hd
        · exact hw d (by simp)
        · exact hcur d hd)

/-- A text that is not a rupture dictionary with valid polygons: not JSON, or without the keys and types, or with a polygon
that does not go along the top and back below it. -/
def NotRupture (text : List Char) : Prop :=
  load text = none ∨ ∃ d, load text = some d ∧
    ((∀ gty coords, RuptureDict d gty coords → gty ≠ .str "MultiPolygon" ∧ gty ≠ .str "Point") ∨
      ∃ ps rest, RuptureDict d (.str "MultiPolygon") (.arr (polygonsJson ps :: rest)) ∧ ¬ ∀ p ∈ ps, ValidPolygon p)

theorem fromJson_not {text : List Char} (h : NotRupture load text) :
    ∃ e, getFromJson other build load (.path (some text)) = .error e := by
  unfold getFromJson
  simp only
  rw [must_bind (show some text = some text from rfl)]
  rcases h with h | ⟨d, h, h'⟩
  · rw [h]; exact ⟨_, rfl⟩
  · rw [must_bind h]
    have : ∃ e, validateJson other d = .error e := by
      rcases h' with h' | ⟨ps, rest, hd, hv⟩
      · cases hval : validateJson other d with
        | error e => exact ⟨e, rfl⟩
        | ok u =>
          obtain ⟨gty, coords, hd, hg⟩ := (C148_validate other d).1 hval
          obtain ⟨n1, n2⟩ := h' _ _ hd
          rcases hg with hg | hg
          · exact absurd hg n1
          · exact absurd hg n2
      · exact ⟨_, ((C148_validate other d).2.2 ps rest hd).2 hv⟩
    obtain ⟨e, he⟩ := this
    unfold fromJson
    rw [he]
    exact ⟨e, rfl⟩

/-- **C149**, refusal: a file that begins with a brace and is not a rupture dictionary is never taken for text, nor is an
open file that begins with a brace, whatever it holds: `get_rupture` raises `ValueError` or `IOError`. For a file that does
not exist it raises `IOError`. `float` is taken to refuse a text that begins with a brace. -/
theorem C149_refusal (hnum : ∀ w x, Gap w → num (w ++ '{' :: x) = none) (newFormat : Bool) :
    (∀ w rest lines src, Gap w → LinesOf (w ++ '{' :: rest) lines →
      (src = .path (some (w ++ '{' :: rest)) ∧ NotRupture load (w ++ '{' :: rest) ∨ src = .object lines) →
      getRupture other build point load num true (some src) newFormat = .error .valueError ∨
      getRupture other build point load num true (some src) newFormat = .error .ioError) ∧
    getRupture other build point load num true (some (.path none)) newFormat = .error .ioError := by
  refine ⟨?_, rfl⟩
  intro w rest lines src hw hl hsrc
  have hrun : getRupture other build point load num true (some src) newFormat =
      getFromText build num newFormat (some lines) := by
    rcases hsrc with ⟨rfl, hn⟩ | rfl
    · obtain ⟨e, he⟩ := fromJson_not other build load hn
      unfold getRupture
      simp [he, readLinesOf_eq hl]
    · rfl
  obtain ⟨e, he⟩ := readLines_brace hnum newFormat ⟨[], [], []⟩ hw rest [] (fun d hd => by simp at hd)
  rw [readLinesOf_eq hl] at he
  have ht : textToJson num newFormat lines = .error e := by
    unfold textToJson readText
    simp only [he]
  rw [hrun]
  unfold getFromText
  simp only [must, bind, Except.bind, ht]
  cases e with
  | valueError => exact Or.inl rfl
  | exception => exact Or.inr rfl

/-- **C149**, exceptions: with an `Origin`, `get_rupture` returns or raises `ValueError` or `IOError`, and no other
exception. -/
theorem C149_exceptions (file : Option Source) (newFormat : Bool) :
    getRupture other build point load num true file newFormat ≠ .error .typeError := by
  unfold getRupture
  simp only [Bool.true_eq_false, if_false]
  cases file with
  | none => simp
  | some src =>
    simp only
    cases getFromJson other build load src with
    | ok r => simp
    | error e =>
      simp only
      unfold getFromText
      simp only
      split <;> simp

end

/-- The docstring says that a text file always gives a rupture of quadrilaterals. It does not when the top edge is not
level. -/
theorem C149_text_quad_violated (other : Json → Json → Option Bool) :
    let text := "0 0 0\n0 1 1\n0 1 6\n0 0 5\n0 0 0\n".toList
    ∃ ps, getRupture other (fun k => .ok k) .point (fun _ => none) digitNum true (some (.path (some text))) true =
      .ok (.edge ps) := by
  intro text
  have h : textToJson digitNum true (readLinesOf [] text) =
      .ok ([], [outline [⟨0, 0, 0⟩, ⟨0, 1, 1⟩] [⟨0, 0, 5⟩, ⟨0, 1, 6⟩]]) := by decide +kernel
  have hk := (C101_kind_partial [([⟨0, 0, 0⟩, ⟨0, 1, 1⟩], [⟨0, 0, 5⟩, ⟨0, 1, 6⟩])] (by simp)
      (by simp only [List.mem_singleton, forall_eq, List.forall_mem_cons, OnEarth]; norm_num)).2.1
      ⟨by norm_num, by simp [Level]; norm_num⟩
  refine ⟨[outline [⟨0, 0, 0⟩, ⟨0, 1, 1⟩] [⟨0, 0, 5⟩, ⟨0, 1, 6⟩]], ?_⟩
  unfold getRupture getFromJson getFromText
  simp only [must, bind, Except.bind, Option.map_some, h]
  simp only [List.map_cons, List.map_nil] at hk
  simp only [hk]
  rfl

/-- A dictionary with one polygon. -/
def sampleDict (ps : List (List Vert)) : Json :=
  .obj [("metadata", .obj [("id", .str "x"), ("reference", .str "Me")]), ("features", .arr [.obj [("type", .str "Feature"),
    ("geometry", .obj [("coordinates", .arr [polygonsJson ps]), ("type", .str "MultiPolygon")])]]),
    ("type", .str "FeatureCollection")]

theorem sampleDict_is (ps : List (List Vert)) :
    RuptureDict (sampleDict ps) (.str "MultiPolygon") (.arr [polygonsJson ps]) :=
  ⟨_, _, _, _, rfl, rfl, rfl, ⟨.str "Me", by simp⟩, rfl, rfl, rfl, rfl, rfl⟩

/-- A dictionary of one level rupture is read as quadrilaterals; upside down it is refused. -/
example (other : Json → Json → Option Bool) :
    (∃ ps, getRupture other (fun k => .ok k) .point
      (fun _ => some (sampleDict [outline [⟨0, 0, 0⟩, ⟨0, 1, 0⟩] [⟨0, 0, 5⟩, ⟨0, 1, 5⟩]])) digitNum true
      (some (.path (some ['{']))) true = .ok (.quad ps)) ∧
    validateJson other (sampleDict [outline [⟨0, 0, 5⟩, ⟨0, 1, 5⟩] [⟨0, 0, 0⟩, ⟨0, 1, 0⟩]]) = .error .valueError := by
  constructor
  · refine ⟨_, (C149_json other _ _ _ _ rfl (tbs := [([⟨0, 0, 0⟩, ⟨0, 1, 0⟩], [⟨0, 0, 5⟩, ⟨0, 1, 5⟩])]) (by simp)
      (by simp only [List.mem_singleton, forall_eq, List.forall_mem_cons, OnEarth]; norm_num)
      (by simp) (sampleDict_is _) true).1 _ (by simp [Level]; norm_num) rfl⟩
  · refine ((C148_validate other _).2.2 _ _ (sampleDict_is _)).2 ?_
    intro h
    have := (C101_kind_partial [([⟨0, 0, 5⟩, ⟨0, 1, 5⟩], [⟨0, 0, 0⟩, ⟨0, 1, 0⟩])] (by simp)
      (by simp only [List.mem_singleton, forall_eq, List.forall_mem_cons, OnEarth]; norm_num)).2.2 (by simp)
    have h2 := (checkAll_iff _).1.2 h
    simp only [List.map_cons, List.map_nil] at this
    unfold fromDictAndOrigin isQuadRupture at this
    simp only [h2] at this
    revert h2; decide +kernel

/-- A text that begins with a brace and is not JSON; the lines of a text. -/
example : Gap [' '] ∧ NotRupture (fun _ => none) (" {\n".toList) ∧ LinesOf "1 2 3\n4".toList ["1 2 3\n".toList, ['4']] ∧
    ∀ w x, Gap w → digitNum (w ++ '{' :: x) = none := by
  refine ⟨fun c hc => by simp at hc; subst hc; decide, Or.inl rfl,
    .line (w := "1 2 3".toList) (by decide) (.last (by simp) (by decide)), ?_⟩
  intro w x _
  cases w with
  | nil => cases x <;> rfl
  | cons c w => cases w <;> rfl

end Verif.Props
