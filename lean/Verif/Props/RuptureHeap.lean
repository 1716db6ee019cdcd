import Verif.Model.RuptureHeap
import Verif.Props.RuptureDict

/-!
# C188: ruptures do not influence each other
-/

namespace Verif.Props
open Verif.Origin Verif.Factory Verif.RupDict Verif.RupHeap

/-- To a caller the rupture with a number looks like the given one: class, geometry, reference, the dictionary it writes, and its origin. -/
def Shows (h : Heap) (n : ℕ) (r : Rup) : Prop :=
  ∃ obj, h.rups[n]? = some obj ∧ obj.kind = r.kind ∧ obj.geom = r.geom ∧ obj.reference = r.reference ∧ writes h n = some r.geojson ∧
    originOf h n = some r.origin

/-- The call changes a dictionary, or gives it to a constructor. -/
def UsesDict (a : ℕ) : Op → Prop
  | .editDict b _ => b = a
  | .quad b _ => b = a
  | .edge b _ _ => b = a
  | .fromDictAndOrigin b _ _ => b = a
  | _ => False

/-- The call changes the attributes of an origin. -/
def EditsOrigin (a : ℕ) : Op → Prop
  | .editOrigin b _ => b = a
  | _ => False

/-- What every step of a caller leaves as it was. -/
structure Later (h h' : Heap) : Prop where
  rups : h.rups <+: h'.rups
  dictsLen : h.dicts.length ≤ h'.dicts.length
  originsLen : h.origins.length ≤ h'.origins.length
  held : ∀ a ∈ h'.held, a ∈ h.held ∨ h.dicts.length ≤ a

theorem later_refl (h : Heap) : Later h h := ⟨List.prefix_rfl, le_rfl, le_rfl, fun _ h => Or.inl h⟩

theorem later_trans {h h' h'' : Heap} (p : Later h h') (q : Later h' h'') : Later h h'' :=
  ⟨p.rups.trans q.rups, p.dictsLen.trans q.dictsLen, p.originsLen.trans q.originsLen, fun a ha => by
    rcases q.held a ha with h1 | h1
    · exact p.held a h1
    · exact Or.inr (p.dictsLen.trans h1)⟩

theorem later_quad (e : Env) (h : Heap) (a o : ℕ) : Later h (mkQuad e h a o) := by
  unfold mkQuad
  split
  · dsimp only
    split
    · exact ⟨List.prefix_append _ _, by simp, le_rfl, fun _ h => Or.inl h⟩
    · exact ⟨List.prefix_rfl, by simp, le_rfl, fun _ h => Or.inl h⟩
  · exact later_refl h

theorem later_edge (e : Env) (h : Heap) (a o : ℕ) (dx : Val) : Later h (mkEdge e h a o dx) := by
  unfold mkEdge
  split
  · split
    · exact ⟨List.prefix_append _ _, by simp, le_rfl, fun _ h => Or.inl h⟩
    · exact later_refl h
  · exact later_refl h

theorem later_point (e : Env) (h : Heap) (o : ℕ) (ref : String) : Later h (mkPoint e h o ref) := by
  unfold mkPoint
  split
  · exact ⟨List.prefix_append _ _, by simp, le_rfl, fun _ h => Or.inl h⟩
  · exact later_refl h

theorem later_fromDict (e : Env) (h : Heap) (a : ℕ) : Later h (RupHeap.fromDict e h a) := by
  unfold RupHeap.fromDict
  split
  · split
    · exact ⟨List.prefix_append _ _, by simp, by simp, fun _ h => Or.inl h⟩
    · exact later_refl h
  · exact later_refl h

theorem later_both (e : Env) (h : Heap) (a o : ℕ) (dx : Val) : Later h (RupHeap.fromDictAndOrigin e h a o dx) := by
  unfold RupHeap.fromDictAndOrigin
  split
  · split_ifs
    · split
      · exact later_quad e h a o
      · exact later_edge e h a o dx
      · exact later_point e h o _
      · exact later_refl h
    · exact later_refl h
  · exact later_refl h

theorem later_step (e : Env) (h : Heap) (op : Op) : Later h (step e h op) := by
  cases op with
  | newDict d =>
    refine ⟨List.prefix_rfl, by simp [step], le_rfl, fun a ha => ?_⟩
    simp only [step, List.mem_append, List.mem_singleton] at ha
    rcases ha with ha | ha
    · exact Or.inl ha
    · exact Or.inr ha.ge
  | editDict a d =>
    simp only [step]
    split_ifs
    · exact ⟨List.prefix_rfl, by simp, le_rfl, fun _ h => Or.inl h⟩
    · exact later_refl h
  | newOrigin o => exact ⟨List.prefix_rfl, le_rfl, by simp [step], fun _ h => Or.inl h⟩
  | editOrigin a o => exact ⟨List.prefix_rfl, le_rfl, by simp [step], fun _ h => Or.inl h⟩
  | quad a o =>
    simp only [step]
    split_ifs
    · exact later_quad e h a o
    · exact later_refl h
  | edge a o dx =>
    simp only [step]
    split_ifs
    · exact later_edge e h a o dx
    · exact later_refl h
  | point o ref => exact later_point e h o ref
  | fromDict a =>
    simp only [step]
    split_ifs
    · exact later_fromDict e h a
    · exact later_refl h
  | fromDictAndOrigin a o dx =>
    simp only [step]
    split_ifs
    · exact later_both e h a o dx
    · exact later_refl h

theorem dict_quad (e : Env) (h : Heap) (a o x : ℕ) (hx : a ≠ x) : (mkQuad e h a o).dicts[x]? = h.dicts[x]? := by
  unfold mkQuad
  split
  · dsimp only
    split <;> exact List.getElem?_set_ne hx
  · rfl

theorem dict_edge (e : Env) (h : Heap) (a o x : ℕ) (dx : Val) (hx : a ≠ x) : (mkEdge e h a o dx).dicts[x]? = h.dicts[x]? := by
  unfold mkEdge
  split
  · split
    · exact List.getElem?_set_ne hx
    · rfl
  · rfl

theorem dict_point (e : Env) (h : Heap) (o x : ℕ) (ref : String) (hx : x < h.dicts.length) :
    (mkPoint e h o ref).dicts[x]? = h.dicts[x]? := by
  unfold mkPoint
  split
  · exact List.getElem?_append_left hx
  · rfl

theorem dict_fromDict (e : Env) (h : Heap) (a x : ℕ) (hx : x < h.dicts.length) :
    (RupHeap.fromDict e h a).dicts[x]? = h.dicts[x]? := by
  unfold RupHeap.fromDict
  split
  · split
    · exact List.getElem?_append_left hx
    · rfl
  · rfl

/-- A dictionary is changed only by a call that uses it, and by none if the caller does not have it. -/
theorem dict_step (e : Env) (h : Heap) (op : Op) (x : ℕ) (hx : x < h.dicts.length) (hu : ¬ UsesDict x op ∨ x ∉ h.held) :
    (step e h op).dicts[x]? = h.dicts[x]? := by
  have key : ∀ b, b ∈ h.held → (¬ b = x ∨ x ∉ h.held) → b ≠ x := by
    rintro b hb (h1 | h1) rfl
    · exact h1 rfl
    · exact h1 hb
  cases op with
  | newDict d => exact List.getElem?_append_left hx
  | editDict a d =>
    simp only [step]
    split_ifs with ha
    · exact List.getElem?_set_ne (key a ha hu)
    · rfl
  | newOrigin o => rfl
  | editOrigin a o => rfl
  | quad a o =>
    simp only [step]
    split_ifs with ha
    · exact dict_quad e h a o x (key a ha hu)
    · rfl
  | edge a o dx =>
    simp only [step]
    split_ifs with ha
    · exact dict_edge e h a o x dx (key a ha hu)
    · rfl
  | point o ref => exact dict_point e h o x ref hx
  | fromDict a =>
    simp only [step]
    split_ifs with ha
    · exact dict_fromDict e h a x hx
    · rfl
  | fromDictAndOrigin a o dx =>
    simp only [step]
    split_ifs with ha
    · have hne := key a ha hu
      unfold RupHeap.fromDictAndOrigin
      split
      · split_ifs
        · split
          · exact dict_quad e h a o x hne
          · exact dict_edge e h a o x dx hne
          · exact dict_point e h o x _ hx
          · rfl
        · rfl
      · rfl
    · rfl

theorem origins_quad (e : Env) (h : Heap) (a o : ℕ) : (mkQuad e h a o).origins = h.origins := by
  unfold mkQuad
  split
  · dsimp only
    split <;> rfl
  · rfl

theorem origins_edge (e : Env) (h : Heap) (a o : ℕ) (dx : Val) : (mkEdge e h a o dx).origins = h.origins := by
  unfold mkEdge
  split
  · split <;> rfl
  · rfl

theorem origins_point (e : Env) (h : Heap) (o : ℕ) (ref : String) : (mkPoint e h o ref).origins = h.origins := by
  unfold mkPoint
  split <;> rfl

theorem origin_fromDict (e : Env) (h : Heap) (a x : ℕ) (hx : x < h.origins.length) :
    (RupHeap.fromDict e h a).origins[x]? = h.origins[x]? := by
  unfold RupHeap.fromDict
  split
  · split
    · exact List.getElem?_append_left hx
    · rfl
  · rfl

/-- The attributes of an origin are changed only by a call that changes them. -/
theorem origin_step (e : Env) (h : Heap) (op : Op) (x : ℕ) (hx : x < h.origins.length) (hu : ¬ EditsOrigin x op) :
    (step e h op).origins[x]? = h.origins[x]? := by
  cases op with
  | newDict d => rfl
  | editDict a d =>
    simp only [step]
    split_ifs <;> rfl
  | newOrigin o => exact List.getElem?_append_left hx
  | editOrigin a o => exact List.getElem?_set_ne hu
  | quad a o =>
    simp only [step]
    split_ifs
    · rw [origins_quad]
    · rfl
  | edge a o dx =>
    simp only [step]
    split_ifs
    · rw [origins_edge]
    · rfl
  | point o ref => exact congrArg (·[x]?) (origins_point e h o ref)
  | fromDict a =>
    simp only [step]
    split_ifs
    · exact origin_fromDict e h a x hx
    · rfl
  | fromDictAndOrigin a o dx =>
    simp only [step]
    split_ifs
    · unfold RupHeap.fromDictAndOrigin
      split
      · split_ifs
        · split
          · rw [origins_quad]
          · rw [origins_edge]
          · rw [origins_point]
          · rfl
        · rfl
      · rfl
    · rfl

theorem later_run (e : Env) (ops : List Op) : ∀ h, Later h (run e h ops) := by
  induction ops with
  | nil => exact later_refl
  | cons op ops ih => exact fun h => later_trans (later_step e h op) (ih _)

theorem dict_run (e : Env) (x : ℕ) (ops : List Op) : ∀ h : Heap, x < h.dicts.length → ((∀ op ∈ ops, ¬ UsesDict x op) ∨ x ∉ h.held) →
    (run e h ops).dicts[x]? = h.dicts[x]? := by
  induction ops with
  | nil => exact fun _ _ _ => rfl
  | cons op ops ih =>
    intro h hx hu
    have hl := later_step e h op
    refine (ih (step e h op) (hx.trans_le hl.dictsLen) ?_).trans (dict_step e h op x hx ?_)
    · rcases hu with hu | hu
      · exact Or.inl fun o ho => hu o (List.mem_cons_of_mem _ ho)
      · refine Or.inr fun hm => ?_
        rcases hl.held x hm with h1 | h1
        · exact hu h1
        · omega
    · exact hu.imp (fun hu => hu op List.mem_cons_self) id

theorem origin_run (e : Env) (x : ℕ) (ops : List Op) : ∀ h : Heap, x < h.origins.length → (∀ op ∈ ops, ¬ EditsOrigin x op) →
    (run e h ops).origins[x]? = h.origins[x]? := by
  induction ops with
  | nil => exact fun _ _ _ => rfl
  | cons op ops ih =>
    intro h hx hu
    exact (ih (step e h op) (hx.trans_le (later_step e h op).originsLen) fun o ho => hu o (List.mem_cons_of_mem _ ho)).trans
      (origin_step e h op x hx (hu op List.mem_cons_self))

/-- The addresses the caller has are those of dictionaries. -/
theorem held_lt (e : Env) (ops : List Op) : ∀ h : Heap, (∀ a ∈ h.held, a < h.dicts.length) →
    ∀ a ∈ (run e h ops).held, a < (run e h ops).dicts.length := by
  induction ops with
  | nil => exact fun _ hh => hh
  | cons op ops ih =>
    intro h hh
    refine ih _ fun a ha => ?_
    have hl := later_step e h op
    cases op with
    | newDict d =>
      simp only [step, List.mem_append, List.mem_singleton, List.length_append, List.length_singleton] at ha ⊢
      rcases ha with ha | ha
      · exact (hh a ha).trans (Nat.lt_succ_self _)
      · omega
    | newOrigin o => exact hh a ha
    | editOrigin b o => exact hh a ha
    | editDict b d =>
      refine (hh a ?_).trans_le hl.dictsLen
      simp only [step] at ha
      split_ifs at ha <;> exact ha
    | quad b o =>
      refine (hh a ?_).trans_le hl.dictsLen
      simp only [step] at ha
      split_ifs at ha
      · unfold mkQuad at ha
        split at ha
        · dsimp only at ha
          split at ha <;> exact ha
        · exact ha
      · exact ha
    | edge b o dx =>
      refine (hh a ?_).trans_le hl.dictsLen
      simp only [step] at ha
      split_ifs at ha
      · unfold mkEdge at ha
        split at ha
        · split at ha <;> exact ha
        · exact ha
      · exact ha
    | point o ref =>
      refine (hh a ?_).trans_le hl.dictsLen
      simp only [step, mkPoint] at ha
      split at ha <;> exact ha
    | fromDict b =>
      refine (hh a ?_).trans_le hl.dictsLen
      simp only [step] at ha
      split_ifs at ha
      · unfold RupHeap.fromDict at ha
        split at ha
        · split at ha <;> exact ha
        · exact ha
      · exact ha
    | fromDictAndOrigin b o dx =>
      refine (hh a ?_).trans_le hl.dictsLen
      simp only [step] at ha
      split_ifs at ha
      · unfold RupHeap.fromDictAndOrigin at ha
        split at ha
        · split_ifs at ha
          · split at ha
            · unfold mkQuad at ha
              split at ha
              · dsimp only at ha
                split at ha <;> exact ha
              · exact ha
            · unfold mkEdge at ha
              split at ha
              · split at ha <;> exact ha
              · exact ha
            · unfold mkPoint at ha
              split at ha <;> exact ha
            · exact ha
          · exact ha
        · exact ha
      · exact ha

/-- A rupture looks the same as long as neither its dictionary nor its origin is changed. -/
theorem shows_run (e : Env) (h : Heap) (ops : List Op) (n : ℕ) (r : Rup) (obj : Obj) (ho : h.rups[n]? = some obj) (hs : Shows h n r)
    (hd : (∀ op ∈ ops, ¬ UsesDict obj.geojson op) ∨ obj.geojson ∉ h.held) (hu : ∀ op ∈ ops, ¬ EditsOrigin obj.origin op) :
    Shows (run e h ops) n r := by
  obtain ⟨obj', h0, h1, h2, h3, h4, h5⟩ := hs
  obtain rfl : obj = obj' := Option.some.inj (ho.symm.trans h0)
  have hn : (run e h ops).rups[n]? = some obj := by
    obtain ⟨t, ht⟩ := (later_run e ops h).rups
    rw [← ht, List.getElem?_append_left (List.getElem?_eq_some_iff.mp h0).1, h0]
  simp only [writes, originOf, h0, Option.bind_some] at h4 h5
  refine ⟨obj, hn, h1, h2, h3, ?_, ?_⟩
  · simp only [writes, hn, Option.bind_some]
    rw [dict_run e _ ops h (List.getElem?_eq_some_iff.mp h4).1 hd, h4]
  · simp only [originOf, hn, Option.bind_some]
    rw [origin_run e _ ops h (List.getElem?_eq_some_iff.mp h5).1 hu, h5]

/-- **C188**: a rupture made by `rupture_from_dict` is that of C168, and stays so whatever is done with the dictionary and with other ruptures
afterwards, as long as nobody changes its own origin. -/
theorem C188_from_dict (e : Env) (before after : List Op) (a : ℕ) (d : RDict) (r : Rup) (ha : a ∈ (run e empty before).held)
    (hd : (run e empty before).dicts[a]? = some d) (hr : ruptureFromDict e.parse e.hist e.date e.fmt e.strp e.strpAlt d = .ok r)
    (hu : ∀ op ∈ after, ¬ EditsOrigin (run e empty before).origins.length op) :
    Shows (run e empty (before ++ [.fromDict a] ++ after)) (run e empty before).rups.length r := by
  have hh := held_lt e before empty (by simp [empty])
  simp only [run, List.foldl_append, List.foldl_cons, List.foldl_nil] at *
  generalize before.foldl (step e) empty = h at *
  have hs : step e h (.fromDict a) = { h with
      dicts := h.dicts ++ [r.geojson]
      origins := h.origins ++ [r.origin]
      rups := h.rups ++ [⟨r.kind, r.geom, r.reference, h.origins.length, h.dicts.length⟩] } := by
    simp only [step, if_pos ha, RupHeap.fromDict, hd, hr]
  rw [hs]
  refine shows_run e _ after _ r ⟨r.kind, r.geom, r.reference, h.origins.length, h.dicts.length⟩ (by simp) ?_ ?_ hu
  · exact ⟨_, List.getElem?_concat_length .., rfl, rfl, rfl, by simp [writes], by simp [originOf]⟩
  · exact Or.inr fun hm => lt_irrefl _ (hh _ hm)

/-- **C188**: so is a `PointRupture`, made from any origin. -/
theorem C188_point (e : Env) (before after : List Op) (o : ℕ) (org : Dict) (ref : String) (ho : (run e empty before).origins[o]? = some org)
    (hu : ∀ op ∈ after, ¬ EditsOrigin o op) :
    Shows (run e empty (before ++ [.point o ref] ++ after)) (run e empty before).rups.length (pointRup e.hist e.fmt org ref) := by
  have hh := held_lt e before empty (by simp [empty])
  simp only [run, List.foldl_append, List.foldl_cons, List.foldl_nil] at *
  generalize before.foldl (step e) empty = h at *
  have hs : step e h (.point o ref) = { h with
      dicts := h.dicts ++ [(pointRup e.hist e.fmt org ref).geojson]
      rups := h.rups ++ [⟨.point, (pointRup e.hist e.fmt org ref).geom, (pointRup e.hist e.fmt org ref).reference, o, h.dicts.length⟩] } := by
    simp only [step, mkPoint, ho]
  rw [hs]
  refine shows_run e _ after _ _ _ (List.getElem?_concat_length ..) ?_ ?_ hu
  · exact ⟨_, List.getElem?_concat_length .., rfl, rfl, rfl, by simp [writes], by simp [originOf, ho, pointRup]⟩
  · exact Or.inr fun hm => lt_irrefl _ (hh _ hm)

/-- **C188** (what holds of the constructors that are given a dictionary): the rupture is that of C168 as long as the dictionary is not changed and is not
given to another constructor. -/
theorem C188_given_partial (e : Env) (before after : List Op) (a o : ℕ) (d : RDict) (org : Dict) (ha : a ∈ (run e empty before).held)
    (hd : (run e empty before).dicts[a]? = some d) (ho : (run e empty before).origins[o]? = some org)
    (hu : ∀ op ∈ after, ¬ EditsOrigin o op ∧ ¬ UsesDict a op) :
    (∀ r, quadRup e.date e.fmt d org = .ok r →
      Shows (run e empty (before ++ [.quad a o] ++ after)) (run e empty before).rups.length r) ∧
    ∀ dx r, edgeRup e.hist e.fmt d org dx = .ok r →
      Shows (run e empty (before ++ [.edge a o dx] ++ after)) (run e empty before).rups.length r := by
  simp only [run, List.foldl_append, List.foldl_cons, List.foldl_nil] at *
  generalize before.foldl (step e) empty = h at *
  have hlt := (List.getElem?_eq_some_iff.mp hd).1
  constructor
  · intro r hr
    have hg : r.kind = .quad ∧ r.geojson = ⟨addOrigin e.date e.fmt org d.metadata, d.geom⟩ ∧ r.origin = org := by
      unfold quadRup at hr
      dsimp only at hr
      split at hr
      · exact absurd hr (by simp)
      · obtain rfl := Except.ok.inj hr; exact ⟨rfl, rfl, rfl⟩
    have hs : step e h (.quad a o) = { h with
        dicts := h.dicts.set a r.geojson
        rups := h.rups ++ [⟨.quad, r.geom, r.reference, o, a⟩] } := by
      simp only [step, if_pos ha, mkQuad, hd, ho, hr, hg.2.1]
    rw [hs]
    refine shows_run e _ after _ r _ (List.getElem?_concat_length ..) ?_ ?_ fun op hop => (hu op hop).1
    · exact ⟨_, List.getElem?_concat_length .., hg.1.symm, rfl, rfl, by simp [writes, hlt], by simp [originOf, ho, hg.2.2]⟩
    · exact Or.inl fun op hop => (hu op hop).2
  · intro dx r hr
    have hg : r.kind = .edge ∧ r.origin = org := by
      unfold edgeRup at hr
      split at hr
      · exact absurd hr (by simp)
      · obtain rfl := Except.ok.inj hr; exact ⟨rfl, rfl⟩
    have hs : step e h (.edge a o dx) = { h with
        dicts := h.dicts.set a r.geojson
        rups := h.rups ++ [⟨.edge, r.geom, r.reference, o, a⟩] } := by
      simp only [step, if_pos ha, mkEdge, hd, ho, hr]
    rw [hs]
    refine shows_run e _ after _ r _ (List.getElem?_concat_length ..) ?_ ?_ fun op hop => (hu op hop).1
    · exact ⟨_, List.getElem?_concat_length .., hg.1.symm, rfl, rfl, by simp [writes, hlt], by simp [originOf, ho, hg.2]⟩
    · exact Or.inl fun op hop => (hu op hop).2

/-- **C188**: `rupture_from_dict_and_origin` gives the caller's dictionary itself to the constructor, so that the same holds of it; only for a point the
dictionary is not used. -/
theorem C188_and_origin (e : Env) (h : Heap) (a o : ℕ) (dx : Val) (d : RDict) (hd : h.dicts[a]? = some d) (ha : a ∈ h.held)
    (hr : d.metadata.has "reference") :
    (∀ ps, Factory.fromDictAndOrigin d.geom = .ok (.quad ps) → step e h (.fromDictAndOrigin a o dx) = step e h (.quad a o)) ∧
    (∀ ps, Factory.fromDictAndOrigin d.geom = .ok (.edge ps) → step e h (.fromDictAndOrigin a o dx) = step e h (.edge a o dx)) ∧
    (d.geom = .point → step e h (.fromDictAndOrigin a o dx) = step e h (.point o "Origin")) := by
  refine ⟨fun ps h1 => ?_, fun ps h1 => ?_, fun h1 => ?_⟩
  · simp only [step, if_pos ha, RupHeap.fromDictAndOrigin, hd, if_pos hr, h1]
  · simp only [step, if_pos ha, RupHeap.fromDictAndOrigin, hd, if_pos hr, h1]
  · have h2 : Factory.fromDictAndOrigin d.geom = .ok .point := by rw [h1]; rfl
    simp only [step, if_pos ha, RupHeap.fromDictAndOrigin, hd, if_pos hr, h2]

/-- **C188**: class, geometry and reference of a rupture never change, whatever a caller does. -/
theorem C188_constant (e : Env) (before after : List Op) (n : ℕ) (obj : Obj) (h : (run e empty before).rups[n]? = some obj) :
    (run e empty (before ++ after)).rups[n]? = some obj := by
  have hr : run e empty (before ++ after) = run e (run e empty before) after := by simp [run, List.foldl_append]
  obtain ⟨t, ht⟩ := (later_run e after (run e empty before)).rups
  rw [hr, ← ht, List.getElem?_append_left (List.getElem?_eq_some_iff.mp h).1, h]

/-- **C188**: `rupture_from_dict` and `PointRupture` change no dictionary and no origin that was there before. -/
theorem C188_argument (e : Env) (h : Heap) (op : Op) (hop : (∃ a, op = .fromDict a) ∨ ∃ o ref, op = .point o ref) :
    (∀ x < h.dicts.length, (step e h op).dicts[x]? = h.dicts[x]?) ∧ ∀ x < h.origins.length, (step e h op).origins[x]? = h.origins[x]? := by
  rcases hop with ⟨a, rfl⟩ | ⟨o, ref, rfl⟩
  · exact ⟨fun x hx => dict_step e h _ x hx (Or.inl id), fun x hx => origin_step e h _ x hx id⟩
  · exact ⟨fun x hx => dict_step e h _ x hx (Or.inl id), fun x hx => origin_step e h _ x hx id⟩

theorem get_mesh_dx (parse : String → Option Fl) (m : Dict) : (construct parse m).2.get "mesh_dx" = m.get "mesh_dx" := by
  have h1 : (moveType m).get "mesh_dx" = m.get "mesh_dx" := by
    unfold moveType
    split
    · rw [get_del, if_neg (by decide), get_set, if_neg (by decide)]
    · rfl
  have h2 : (fillMech (moveType m)).get "mesh_dx" = m.get "mesh_dx" := by
    rw [← h1]
    unfold fillMech
    split
    · split_ifs
      · rw [get_set, if_neg (by decide)]
      · rfl
    · rw [get_set, if_neg (by decide)]
  unfold construct
  dsimp only
  split_ifs
  · rfl
  · split <;> try rfl
    split <;> try rfl
    split <;> try rfl
    split
    · split
      · exact h2
      · split <;> exact h2
    · exact h2

/-- A dictionary with `mesh_dx` in its metadata is never read as a quadrilateral rupture. -/
theorem mesh_dx_read (e : Env) (m : RDict) (dx : Val) (hm : m.metadata.get "mesh_dx" = some dx) (r : Rup)
    (hr : ruptureFromDict e.parse e.hist e.date e.fmt e.strp e.strpAlt m = .ok r) : r.kind ≠ .quad := by
  have ht : ∀ m', readTime e.strp e.strpAlt m.metadata = .ok m' → m'.get "mesh_dx" = some dx := by
    intro m' h
    unfold readTime at h
    split at h
    · exact absurd h (by simp)
    · split at h
      · obtain rfl := Except.ok.inj h
        rw [get_set, if_neg (by decide), hm]
      · obtain rfl := Except.ok.inj h
        rw [get_set, if_neg (by decide), hm]
      · exact absurd h (by simp)
    · exact absurd h (by simp)
  unfold ruptureFromDict at hr
  split at hr
  · exact absurd hr (by simp)
  · next m' hm' =>
    have h1 := ht m' hm'
    have h2 := get_mesh_dx e.parse m'
    rw [h1] at h2
    split at hr
    · exact absurd hr (by simp)
    · next o' m'' hc =>
      rw [hc] at h2
      split at hr
      · obtain rfl := Except.ok.inj hr
        exact fun h => nomatch h
      · simp only [show m''.get "mesh_dx" = some dx from h2, edgeRup] at hr
        split at hr
        · exact absurd hr (by simp)
        · obtain rfl := Except.ok.inj hr
          exact fun h => nomatch h

theorem quad_ok (date : ℕ → Bool) (fmt : ℕ → String) (d : RDict) (o : Dict) (hu : UniqueKeys o) (hd : (d.metadata.get "reference").isSome) :
    ∃ r, quadRup date fmt d o = .ok r := by
  have h := get_addOrigin date fmt o hu "reference" d.metadata
  unfold quadRup
  dsimp only
  cases hr : (addOrigin date fmt o d.metadata).get "reference" with
  | some r => exact ⟨_, rfl⟩
  | none =>
    rw [hr] at h
    cases ho : o.lookup "reference" with
    | some v => simp [ho] at h
    | none => simp only [ho] at h; rw [← h] at hd; exact absurd hd (by simp)

theorem run_quad (e : Env) (h : Heap) (a o : ℕ) (d : RDict) (org : Dict) (ha : a ∈ h.held) (hd : h.dicts[a]? = some d)
    (ho : h.origins[o]? = some org) (hu : UniqueKeys org) (hr : (d.metadata.get "reference").isSome) :
    ∃ r, step e h (.quad a o) =
      { h with dicts := h.dicts.set a ⟨addOrigin e.date e.fmt org d.metadata, d.geom⟩, rups := h.rups ++ [⟨.quad, d.geom, r, o, a⟩] } := by
  obtain ⟨r, hq⟩ := quad_ok e.date e.fmt d org hu hr
  refine ⟨r.reference, ?_⟩
  simp only [step, if_pos ha, mkQuad, hd, ho, hq]
  unfold quadRup at hq
  dsimp only at hq
  split at hq
  · exact absurd hq (by simp)
  · obtain rfl := Except.ok.inj hq; rfl

/-- The metadata keep their reference when the attributes of an origin are added. -/
theorem reference_kept (date : ℕ → Bool) (fmt : ℕ → String) (o m : Dict) (hu : UniqueKeys o) (hr : (m.get "reference").isSome) :
    ((addOrigin date fmt o m).get "reference").isSome := by
  rw [get_addOrigin date fmt o hu]
  cases o.lookup "reference" with
  | some v => rfl
  | none => exact hr

/-- **C188, violated**: two ruptures made from one dictionary with two origins: the first one then writes the attributes of the second origin,
although its own origin is still the first. -/
theorem C188_twice_violated (e : Env) (d : RDict) (o₁ o₂ : Dict) (k : String) (v : Val) (hd : (d.metadata.get "reference").isSome)
    (hu₁ : UniqueKeys o₁) (hu₂ : UniqueKeys o₂) (hv : o₂.get k = some v) :
    let h := run e empty [.newDict d, .newOrigin o₁, .newOrigin o₂, .quad 0 0, .quad 0 1]
    (∃ m, writes h 0 = some m ∧ m.metadata.get k = some (stamp e.date e.fmt v)) ∧ originOf h 0 = some o₁ := by
  intro h
  obtain ⟨r₁, h1⟩ := run_quad e ⟨[d], [0], [o₁, o₂], []⟩ 0 0 d o₁ (by simp) rfl rfl hu₁ hd
  obtain ⟨r₂, h2⟩ := run_quad e ⟨[⟨addOrigin e.date e.fmt o₁ d.metadata, d.geom⟩], [0], [o₁, o₂], [⟨.quad, d.geom, r₁, 0, 0⟩]⟩ 0 1 _ o₂
    (by simp) rfl rfl hu₂ (reference_kept _ _ _ _ hu₁ hd)
  have hh : h = _ := (congrArg (fun x => step e x (.quad 0 1)) h1).trans h2
  rw [hh]
  refine ⟨⟨_, rfl, ?_⟩, rfl⟩
  show (addOrigin _ _ _ _).get k = _
  have hv' : o₂.lookup k = some v := hv
  rw [get_addOrigin _ _ _ hu₂, hv']

/-- **C188, violated**: a quadrilateral rupture and then an edge rupture are made from one dictionary: what the first one writes is never read
as a quadrilateral rupture. -/
theorem C188_class_violated (e : Env) (d : RDict) (o : Dict) (dx : Val) (hd : (d.metadata.get "reference").isSome) (hu : UniqueKeys o) :
    let h := run e empty [.newDict d, .newOrigin o, .quad 0 0, .edge 0 0 dx]
    (∃ obj, h.rups[0]? = some obj ∧ obj.kind = .quad) ∧
    ∃ m, writes h 0 = some m ∧ ∀ r, ruptureFromDict e.parse e.hist e.date e.fmt e.strp e.strpAlt m = .ok r → r.kind ≠ .quad := by
  intro h
  obtain ⟨r₁, h1⟩ := run_quad e ⟨[d], [0], [o], []⟩ 0 0 d o (by simp) rfl rfl hu hd
  have hk := reference_kept e.date e.fmt o _ hu hd
  obtain ⟨ref, hr⟩ := Option.isSome_iff_exists.mp hk
  have h2 : step e ⟨[⟨addOrigin e.date e.fmt o d.metadata, d.geom⟩], [0], [o], [⟨.quad, d.geom, r₁, 0, 0⟩]⟩ (.edge 0 0 dx) =
      ⟨[⟨(addOrigin e.hist e.fmt o (addOrigin e.date e.fmt o d.metadata)).set "mesh_dx" dx, d.geom⟩], [0], [o],
        [⟨.quad, d.geom, r₁, 0, 0⟩, ⟨.edge, d.geom, some ref, 0, 0⟩]⟩ := by
    simp only [step, mkEdge, edgeRup, List.mem_singleton, if_true, List.getElem?_cons_zero, hr, List.set_cons_zero, List.cons_append, List.nil_append]
  have hh : h = _ := (congrArg (fun x => step e x (.edge 0 0 dx)) h1).trans h2
  rw [hh]
  refine ⟨⟨_, rfl, rfl⟩, _, rfl, fun r hr => ?_⟩
  refine mesh_dx_read e _ dx ?_ r hr
  show (Dict.set _ _ _).get _ = _
  rw [get_set, if_pos rfl]

/-- **C188, violated**: a dictionary without reference makes the constructor of `QuadRupture` fail, but the attributes of the origin are in the
dictionary of the caller by then. -/
theorem C188_failed_violated (e : Env) (d : RDict) (o : Dict) (k : String) (v : Val) (hd : d.metadata.get "reference" = none)
    (hu : UniqueKeys o) (hn : o.get "reference" = none) (hv : o.get k = some v) :
    let h := run e empty [.newDict d, .newOrigin o, .quad 0 0]
    h.rups = [] ∧ ∃ m, h.dicts[0]? = some m ∧ m.metadata.get k = some (stamp e.date e.fmt v) := by
  intro h
  have hn' : o.lookup "reference" = none := hn
  have hr : (addOrigin e.date e.fmt o d.metadata).get "reference" = none := by
    rw [get_addOrigin _ _ _ hu, hn']
    exact hd
  have hh : h = ⟨[⟨addOrigin e.date e.fmt o d.metadata, d.geom⟩], [0], [o], []⟩ := by
    show step e ⟨[d], [0], [o], []⟩ (.quad 0 0) = _
    simp only [step, mkQuad, quadRup, List.mem_singleton, if_true, List.getElem?_cons_zero, hr, List.set_cons_zero]
  rw [hh]
  refine ⟨rfl, _, rfl, ?_⟩
  have hv' : o.lookup k = some v := hv
  show (addOrigin _ _ _ _).get k = _
  rw [get_addOrigin _ _ _ hu, hv']

/-- **C188, violated**: when the mechanism of an origin is changed, a rupture made from it has the new rake in its origin and its context and writes the old
one. -/
theorem C188_stale_violated (e : Env) (o : Dict) (x y : Fl) (ref : String) (hu : UniqueKeys o) (hx : o.get "rake" = some (.num x)) :
    let h := run e empty [.newOrigin o, .point 0 ref, .editOrigin 0 (o.set "rake" (.num y))]
    (∃ m, writes h 0 = some m ∧ m.metadata.get "rake" = some (.num x)) ∧
    ∃ o', originOf h 0 = some o' ∧ o'.get "rake" = some (.num y) := by
  intro h
  have hh : h = ⟨[⟨addOrigin e.hist e.fmt o [("reference", .str ref)], .point⟩], [], [o.set "rake" (.num y)], [⟨.point, .point, some (.str ref), 0, 0⟩]⟩ := rfl
  rw [hh]
  refine ⟨⟨_, rfl, ?_⟩, _, rfl, ?_⟩
  · have hx' : o.lookup "rake" = some (.num x) := hx
    show (addOrigin _ _ _ _).get _ = _
    rw [get_addOrigin _ _ _ hu, hx']
    rfl
  · rw [get_set, if_pos rfl]

/-! ### The hypotheses are met -/

/-- A sample: numbers and times are read as lengths of texts. -/
def sampleEnv : Env := ⟨fun _ => none, fun _ => true, fun _ => true, fun n => String.ofList (List.replicate n 'x'), fun s => some s.length, fun _ => none⟩

/-- An origin. -/
def heapOrigin (mag : ℚ) : Dict :=
  [("id", .str "ci1"), ("netid", .str "ci"), ("network", .str "CI"), ("lat", .num (.fin 34)), ("lon", .num (.fin (-118))), ("depth", .num (.fin 7)),
    ("locstring", .str "here"), ("mag", .num (.fin mag)), ("time", .other 3), ("mech", .str "SS"), ("rake", .num (.fin 0))]

/-- A dictionary of a rupture with its origin, as read from a file. -/
def heapDict : RDict :=
  ⟨("reference", .str "someone") :: (heapOrigin 6).map (fun p => (p.1, stamp (fun _ => true) sampleEnv.fmt p.2)),
    .multiPolygon [[⟨0, 0, 0⟩, ⟨1, 0, 0⟩, ⟨1, 0, 9⟩, ⟨0, 0, 9⟩, ⟨0, 0, 0⟩]]⟩

/-- `C188_from_dict`: a rupture is made from a dictionary, and afterwards the dictionary is given to both constructors with another origin. -/
example : ∃ r, ruptureFromDict sampleEnv.parse sampleEnv.hist sampleEnv.date sampleEnv.fmt sampleEnv.strp sampleEnv.strpAlt heapDict = .ok r ∧
    r.kind = .quad ∧
    Shows (run sampleEnv empty ([.newDict heapDict] ++ [.fromDict 0] ++ [.newOrigin (heapOrigin 7), .quad 0 1, .edge 0 1 .null])) 0 r := by
  refine ⟨_, rfl, rfl, C188_from_dict sampleEnv [.newDict heapDict] _ 0 heapDict _ (by decide) rfl rfl ?_⟩
  intro op hop
  simp only [List.mem_cons, List.not_mem_nil, or_false] at hop
  rcases hop with rfl | rfl | rfl <;> exact id

/-- `C188_given_partial`: two dictionaries, two origins, two ruptures. -/
example : ∃ r, quadRup sampleEnv.date sampleEnv.fmt heapDict (heapOrigin 6) = .ok r ∧
    Shows (run sampleEnv empty ([.newDict heapDict, .newDict heapDict, .newOrigin (heapOrigin 6), .newOrigin (heapOrigin 7)] ++ [.quad 0 0] ++
      [.edge 1 1 .null, .editDict 1 ⟨[], .point⟩, .editOrigin 1 []])) 0 r := by
  refine ⟨_, rfl, (C188_given_partial sampleEnv [.newDict heapDict, .newDict heapDict, .newOrigin (heapOrigin 6), .newOrigin (heapOrigin 7)] _ 0 0
    heapDict _ (by decide) rfl rfl ?_).1 _ rfl⟩
  intro op hop
  simp only [List.mem_cons, List.not_mem_nil, or_false] at hop
  rcases hop with rfl | rfl | rfl <;> constructor <;> intro h <;> simp [UsesDict, EditsOrigin] at h

/-- `C188_twice_violated`: the rupture of the earthquake of magnitude 6 writes magnitude 7. -/
example : (writes (run sampleEnv empty [.newDict heapDict, .newOrigin (heapOrigin 6), .newOrigin (heapOrigin 7), .quad 0 0, .quad 0 1]) 0).bind
    (fun m => m.metadata.get "mag") = some (.num (.fin 7)) := by
  obtain ⟨⟨m, h1, h2⟩, -⟩ := C188_twice_violated sampleEnv heapDict (heapOrigin 6) (heapOrigin 7) "mag" (.num (.fin 7)) rfl
    (by unfold UniqueKeys; decide) (by unfold UniqueKeys; decide) rfl
  simp only [h1, Option.bind_some, h2]
  rfl

end Verif.Props
