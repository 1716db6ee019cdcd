import Verif.Spec.ComcatDoc
import Verif.Props.Double
import Verif.Props.Comcat

/-!
# C192: what a query object reports, whatever a program does with what it was given
-/

namespace Verif.Props
open Verif Verif.Docs Verif.Spec

/-! ### Documents in a part of the memory -/

/-- A reference does not lead into the addresses from `lo` to `hi`. -/
def DocOutside (lo hi : ℕ) (r : Ref) : Prop := ∀ n, r = .addr n → n < lo ∨ hi ≤ n

/-- A reference leads nowhere else. -/
def DocInside (lo hi : ℕ) (r : Ref) : Prop := ∀ n, r = .addr n → lo ≤ n ∧ n < hi

mutual
/-- A reference shows a value in a part of the memory. -/
def Lies (lo hi : ℕ) (h : Heap) : Ref → Doc → Prop
  | r, .atom a => r = .atom a
  | r, .list xs => ∃ n rs, r = .addr n ∧ lo ≤ n ∧ n < hi ∧ h[n]? = some (.list rs) ∧ LiesItems lo hi h rs xs
  | r, .dict ps => ∃ n rs, r = .addr n ∧ lo ≤ n ∧ n < hi ∧ h[n]? = some (.dict rs) ∧ LiesMembers lo hi h rs ps
/-- Item by item. -/
def LiesItems (lo hi : ℕ) (h : Heap) : List Ref → List Doc → Prop
  | [], [] => True
  | r :: rs, d :: ds => Lies lo hi h r d ∧ LiesItems lo hi h rs ds
  | _, _ => False
/-- Item by item, with the same keys. -/
def LiesMembers (lo hi : ℕ) (h : Heap) : List (Docs.Text × Ref) → List (Docs.Text × Doc) → Prop
  | [], [] => True
  | p :: rs, q :: ds => p.1 = q.1 ∧ Lies lo hi h p.2 q.2 ∧ LiesMembers lo hi h rs ds
  | _, _ => False
end

mutual
theorem lies_mono {lo hi lo' hi' : ℕ} {h h' : Heap} (hl : lo' ≤ lo) (hh : hi ≤ hi') (hag : ∀ n, lo ≤ n → n < hi → h'[n]? = h[n]?) :
    ∀ (d : Doc) {r : Ref}, Lies lo hi h r d → Lies lo' hi' h' r d
  | .atom a, r, hr => by simpa only [Lies] using hr
  | .list xs, r, hr => by
    obtain ⟨n, rs, e, h1, h2, h3, h4⟩ := by simpa only [Lies] using hr
    simp only [Lies]
    exact ⟨n, rs, e, by omega, by omega, (hag n h1 h2).trans h3, liesItems_mono hl hh hag xs h4⟩
  | .dict ps, r, hr => by
    obtain ⟨n, rs, e, h1, h2, h3, h4⟩ := by simpa only [Lies] using hr
    simp only [Lies]
    exact ⟨n, rs, e, by omega, by omega, (hag n h1 h2).trans h3, liesMembers_mono hl hh hag ps h4⟩
theorem liesItems_mono {lo hi lo' hi' : ℕ} {h h' : Heap} (hl : lo' ≤ lo) (hh : hi ≤ hi') (hag : ∀ n, lo ≤ n → n < hi → h'[n]? = h[n]?) :
    ∀ (ds : List Doc) {rs : List Ref}, LiesItems lo hi h rs ds → LiesItems lo' hi' h' rs ds
  | [], [], _ => by simp only [LiesItems]
  | [], _ :: _, hr => by simp only [LiesItems] at hr
  | _ :: _, [], hr => by simp only [LiesItems] at hr
  | d :: ds, r :: rs, hr => by
    simp only [LiesItems] at hr ⊢
    exact ⟨lies_mono hl hh hag d hr.1, liesItems_mono hl hh hag ds hr.2⟩
theorem liesMembers_mono {lo hi lo' hi' : ℕ} {h h' : Heap} (hl : lo' ≤ lo) (hh : hi ≤ hi') (hag : ∀ n, lo ≤ n → n < hi → h'[n]? = h[n]?) :
    ∀ (ds : List (Docs.Text × Doc)) {rs : List (Docs.Text × Ref)}, LiesMembers lo hi h rs ds → LiesMembers lo' hi' h' rs ds
  | [], [], _ => by simp only [LiesMembers]
  | [], _ :: _, hr => by simp only [LiesMembers] at hr
  | _ :: _, [], hr => by simp only [LiesMembers] at hr
  | (k, d) :: ds, r :: rs, hr => by
    simp only [LiesMembers] at hr ⊢
    exact ⟨hr.1, lies_mono hl hh hag d hr.2.1, liesMembers_mono hl hh hag ds hr.2.2⟩
end

mutual
theorem lies_displays {lo hi : ℕ} {h : Heap} : ∀ (d : Doc) {r : Ref}, Lies lo hi h r d → Displays h r d
  | .atom a, r, hr => by simpa only [Lies, Displays] using hr
  | .list xs, r, hr => by
    obtain ⟨n, rs, e, -, -, h3, h4⟩ := by simpa only [Lies] using hr
    simp only [Displays]
    exact ⟨n, rs, e, h3, liesItems_displays xs h4⟩
  | .dict ps, r, hr => by
    obtain ⟨n, rs, e, -, -, h3, h4⟩ := by simpa only [Lies] using hr
    simp only [Displays]
    exact ⟨n, rs, e, h3, liesMembers_displays ps h4⟩
theorem liesItems_displays {lo hi : ℕ} {h : Heap} : ∀ (ds : List Doc) {rs : List Ref}, LiesItems lo hi h rs ds → DisplaysItems h rs ds
  | [], [], _ => by simp only [DisplaysItems]
  | [], _ :: _, hr => by simp only [LiesItems] at hr
  | _ :: _, [], hr => by simp only [LiesItems] at hr
  | d :: ds, r :: rs, hr => by
    simp only [LiesItems, DisplaysItems] at hr ⊢
    exact ⟨lies_displays d hr.1, liesItems_displays ds hr.2⟩
theorem liesMembers_displays {lo hi : ℕ} {h : Heap} :
    ∀ (ds : List (Docs.Text × Doc)) {rs : List (Docs.Text × Ref)}, LiesMembers lo hi h rs ds → DisplaysMembers h rs ds
  | [], [], _ => by simp only [DisplaysMembers]
  | [], _ :: _, hr => by simp only [LiesMembers] at hr
  | _ :: _, [], hr => by simp only [LiesMembers] at hr
  | (k, d) :: ds, r :: rs, hr => by
    simp only [LiesMembers, DisplaysMembers] at hr ⊢
    exact ⟨hr.1, lies_displays d hr.2.1, liesMembers_displays ds hr.2.2⟩
end

theorem lies_inside {lo hi : ℕ} {h : Heap} {d : Doc} {r : Ref} (hr : Lies lo hi h r d) : DocInside lo hi r := by
  intro n e
  subst e
  cases d with
  | atom a => simp only [Lies] at hr; cases hr
  | list xs =>
    obtain ⟨m, rs, e, h1, h2, -⟩ := by simpa only [Lies] using hr
    cases e; exact ⟨h1, h2⟩
  | dict xs =>
    obtain ⟨m, rs, e, h1, h2, -⟩ := by simpa only [Lies] using hr
    cases e; exact ⟨h1, h2⟩

theorem outside_atom (lo hi : ℕ) (a : Atom) : DocOutside lo hi (.atom a) := fun _ e => nomatch e

theorem liesItems_mem {lo hi : ℕ} {h : Heap} : ∀ {ds : List Doc} {rs : List Ref}, LiesItems lo hi h rs ds → ∀ r ∈ rs, ∃ d ∈ ds, Lies lo hi h r d
  | [], [], _, r, hr => nomatch hr
  | [], _ :: _, hr, _, _ => by simp only [LiesItems] at hr
  | _ :: _, [], hr, _, _ => by simp only [LiesItems] at hr
  | d :: ds, x :: rs, hr, r, hm => by
    simp only [LiesItems] at hr
    rcases List.mem_cons.1 hm with e | hm
    · subst e; exact ⟨d, by simp, hr.1⟩
    · obtain ⟨d', h1, h2⟩ := liesItems_mem hr.2 r hm
      exact ⟨d', by simp [h1], h2⟩

theorem liesMembers_mem {lo hi : ℕ} {h : Heap} :
    ∀ {ds : List (Docs.Text × Doc)} {rs : List (Docs.Text × Ref)}, LiesMembers lo hi h rs ds → ∀ r ∈ rs, ∃ d ∈ ds, Lies lo hi h r.2 d.2
  | [], [], _, r, hr => nomatch hr
  | [], _ :: _, hr, _, _ => by simp only [LiesMembers] at hr
  | _ :: _, [], hr, _, _ => by simp only [LiesMembers] at hr
  | d :: ds, x :: rs, hr, r, hm => by
    simp only [LiesMembers] at hr
    rcases List.mem_cons.1 hm with e | hm
    · subst e; exact ⟨d, by simp, hr.2.1⟩
    · obtain ⟨d', h1, h2⟩ := liesMembers_mem hr.2.2 r hm
      exact ⟨d', by simp [h1], h2⟩

/-- What `json.loads` makes: new objects that refer to one another only. -/
structure DocLoaded (h : Heap) (h' : Heap) : Prop where
  ext : ∃ e, h' = h ++ e
  within : ∀ n nd, h.length ≤ n → h'[n]? = some nd → ∀ r ∈ nd.children, DocInside h.length h'.length r

theorem DocLoaded.refl (h : Heap) : DocLoaded h h where
  ext := ⟨[], by simp⟩
  within := by
    intro n nd hn he
    rw [List.getElem?_eq_none hn] at he
    cases he

theorem DocLoaded.len {h h' : Heap} (a : DocLoaded h h') : h.length ≤ h'.length := by
  obtain ⟨e, rfl⟩ := a.ext
  simp

theorem DocLoaded.same {h h' : Heap} (a : DocLoaded h h') {n : ℕ} (hn : n < h.length) : h'[n]? = h[n]? := by
  obtain ⟨e, rfl⟩ := a.ext
  rw [List.getElem?_append_left hn]

theorem DocLoaded.trans {h h' h'' : Heap} (a : DocLoaded h h') (b : DocLoaded h' h'') : DocLoaded h h'' where
  ext := by
    obtain ⟨e, rfl⟩ := a.ext
    obtain ⟨f, rfl⟩ := b.ext
    exact ⟨e ++ f, by simp⟩
  within := by
    intro n nd hn he r hr m hm
    have l1 := a.len
    have l2 := b.len
    by_cases hlt : n < h'.length
    · rw [b.same hlt] at he
      have := a.within n nd hn he r hr m hm
      omega
    · have := b.within n nd (by omega) he r hr m hm
      omega

theorem DocLoaded.snoc {h h' : Heap} (a : DocLoaded h h') {nd : Node} (hc : ∀ r ∈ nd.children, DocInside h.length h'.length r) : DocLoaded h (h' ++ [nd]) where
  ext := by
    obtain ⟨e, rfl⟩ := a.ext
    exact ⟨e ++ [nd], by simp⟩
  within := by
    intro n nd' hn he r hr m hm
    have l1 := a.len
    simp only [List.length_append, List.length_singleton]
    by_cases hlt : n < h'.length
    · rw [List.getElem?_append_left hlt] at he
      have := a.within n nd' hn he r hr m hm
      omega
    · rw [List.getElem?_append_right (by omega)] at he
      have h0 : n - h'.length = 0 := by
        by_contra h0
        rw [List.getElem?_eq_none (by simp; omega)] at he
        cases he
      rw [h0] at he
      simp only [List.getElem?_cons_zero, Option.some.injEq] at he
      subst he
      have := hc r hr m hm
      omega

mutual
theorem load_spec (h : Heap) : ∀ d : Doc, DocLoaded h (load h d).1 ∧ Lies h.length (load h d).1.length (load h d).1 (load h d).2 d
  | .atom a => ⟨by simpa only [load] using DocLoaded.refl h, by simp only [load, Lies]⟩
  | .list xs => by
    obtain ⟨h1, h2⟩ := loadItems_spec h xs
    have hl := h1.len
    simp only [load]
    refine ⟨h1.snoc ?_, ?_⟩
    · intro r hr
      obtain ⟨d, -, hd⟩ := liesItems_mem h2 r hr
      exact lies_inside hd
    · simp only [Lies]
      refine ⟨_, _, rfl, hl, by simp, List.getElem?_concat_length, liesItems_mono le_rfl (by simp) ?_ xs h2⟩
      intro n _ hn
      exact List.getElem?_append_left hn
  | .dict ps => by
    obtain ⟨h1, h2⟩ := loadMembers_spec h ps
    have hl := h1.len
    simp only [load]
    refine ⟨h1.snoc ?_, ?_⟩
    · intro r hr
      obtain ⟨p, hp, rfl⟩ := List.mem_map.1 hr
      obtain ⟨d, -, hd⟩ := liesMembers_mem h2 p hp
      exact lies_inside hd
    · simp only [Lies]
      refine ⟨_, _, rfl, hl, by simp, List.getElem?_concat_length, liesMembers_mono le_rfl (by simp) ?_ ps h2⟩
      intro n _ hn
      exact List.getElem?_append_left hn
theorem loadItems_spec (h : Heap) :
    ∀ ds : List Doc, DocLoaded h (loadItems h ds).1 ∧ LiesItems h.length (loadItems h ds).1.length (loadItems h ds).1 (loadItems h ds).2 ds
  | [] => ⟨by simpa only [loadItems] using DocLoaded.refl h, by simp only [loadItems, LiesItems]⟩
  | d :: ds => by
    obtain ⟨h1, h2⟩ := load_spec h d
    obtain ⟨h3, h4⟩ := loadItems_spec (load h d).1 ds
    simp only [loadItems, LiesItems]
    refine ⟨h1.trans h3, lies_mono le_rfl h3.len (fun n _ hn => h3.same hn) d h2, ?_⟩
    exact liesItems_mono h1.len le_rfl (fun _ _ _ => rfl) ds h4
theorem loadMembers_spec (h : Heap) :
    ∀ ds : List (Docs.Text × Doc), DocLoaded h (loadMembers h ds).1 ∧
      LiesMembers h.length (loadMembers h ds).1.length (loadMembers h ds).1 (loadMembers h ds).2 ds
  | [] => ⟨by simpa only [loadMembers] using DocLoaded.refl h, by simp only [loadMembers, LiesMembers]⟩
  | (k, d) :: ds => by
    obtain ⟨h1, h2⟩ := load_spec h d
    obtain ⟨h3, h4⟩ := loadMembers_spec (load h d).1 ds
    simp only [loadMembers, LiesMembers]
    refine ⟨h1.trans h3, trivial, lies_mono le_rfl h3.len (fun n _ hn => h3.same hn) d h2, ?_⟩
    exact liesMembers_mono h1.len le_rfl (fun _ _ _ => rfl) ds h4
end

/-! ### Programs do not reach what they were not given -/

/-- A part of the memory is as at first, and neither the program nor an object elsewhere refers to it. -/
structure DocApart (lo hi : ℕ) (h₀ : Heap) (w : World) : Prop where
  long : hi ≤ w.heap.length
  agree : ∀ n, lo ≤ n → n < hi → w.heap[n]? = h₀[n]?
  out : ∀ n nd, n < lo ∨ hi ≤ n → w.heap[n]? = some nd → ∀ r ∈ nd.children, DocOutside lo hi r
  held : ∀ r ∈ w.held, DocOutside lo hi r

theorem DocApart.reach {lo hi : ℕ} {h₀ : Heap} {w : World} (a : DocApart lo hi h₀ w) {r : Ref} (hr : Reach w r) : DocOutside lo hi r := by
  induction hr with
  | atom x => exact outside_atom lo hi x
  | held hm => exact a.held _ hm
  | child _ he hc ih => exact a.out _ _ (ih _ rfl) he _ hc

/-- The allowed methods make new objects only, and refer to nothing in a part of the memory. -/
def DocKeeps {Q : Type} (object : Heap → Q → Heap × Except Err (List Ref)) (allowed : Q → Prop) (lo hi : ℕ) (h₀ : Heap) : Prop :=
  ∀ w, DocApart lo hi h₀ w → ∀ q, allowed q →
    (∃ nds, (object w.heap q).1 = w.heap ++ nds ∧ ∀ nd ∈ nds, ∀ r ∈ nd.children, DocOutside lo hi r) ∧
      ∀ rs, (object w.heap q).2 = .ok rs → ∀ r ∈ rs, DocOutside lo hi r

theorem DocApart.append {lo hi : ℕ} {h₀ : Heap} {w : World} (a : DocApart lo hi h₀ w) {nds : List Node} {held : List Ref}
    (hn : ∀ nd ∈ nds, ∀ r ∈ nd.children, DocOutside lo hi r) (hh : ∀ r ∈ held, DocOutside lo hi r) : DocApart lo hi h₀ ⟨w.heap ++ nds, held⟩ where
  long := by
    have := a.long
    simp only [List.length_append]
    omega
  agree := by
    intro n h1 h2
    have := a.long
    rw [← a.agree n h1 h2]
    exact List.getElem?_append_left (by omega)
  out := by
    intro n nd ho he r hr
    by_cases hlt : n < w.heap.length
    · simp only [List.getElem?_append_left hlt] at he
      exact a.out n nd ho he r hr
    · simp only [List.getElem?_append_right (Nat.le_of_not_lt hlt)] at he
      exact hn nd (List.mem_of_getElem? he) r hr
  held := hh

theorem DocApart.step {Q : Type} {object : Heap → Q → Heap × Except Err (List Ref)} {allowed : Q → Prop} {lo hi : ℕ} {h₀ : Heap}
    (hk : DocKeeps object allowed lo hi h₀) {u v : World} (a : DocApart lo hi h₀ u) (hs : Docs.Step object allowed u v) : DocApart lo hi h₀ v := by
  cases hs with
  | call q hq =>
    obtain ⟨⟨nds, e, hn⟩, hr⟩ := hk u a q hq
    rw [e]
    refine a.append hn ?_
    intro r hm
    rcases hx : (object u.heap q).2 with x | rs
    · rw [hx] at hm
      exact a.held r hm
    · rw [hx] at hm
      rcases List.mem_append.1 hm with hm | hm
      · exact hr rs hx r hm
      · exact a.held r hm
  | make nd hc =>
    refine a.append ?_ ?_
    · intro nd' hm r hr
      rw [List.mem_singleton] at hm
      subst hm
      exact a.reach (hc r hr)
    · intro r hm
      rcases List.mem_cons.1 hm with e | hm
      · subst e
        intro n en
        cases en
        exact .inr a.long
      · exact a.held r hm
  | change n nd hn hc =>
    have ho := a.reach hn n rfl
    refine ⟨by simpa using a.long, ?_, ?_, a.held⟩
    · intro m h1 h2
      rw [← a.agree m h1 h2]
      exact List.getElem?_set_ne (by omega)
    · intro m nd' hm he r hr
      by_cases e : n = m
      · subst e
        simp only [List.getElem?_set_self'] at he
        rcases hx : u.heap[n]? with _ | y
        · simp [hx] at he
        · simp only [hx, Option.map_some, Option.some.injEq, Functor.map, Function.const] at he
          subst he
          exact a.reach (hc r hr)
      · simp only [List.getElem?_set_ne e] at he
        exact a.out m nd' hm he r hr

theorem DocApart.runs {Q : Type} {object : Heap → Q → Heap × Except Err (List Ref)} {allowed : Q → Prop} {lo hi : ℕ} {h₀ : Heap}
    (hk : DocKeeps object allowed lo hi h₀) {u v : World} (a : DocApart lo hi h₀ u) (hs : Runs object allowed u v) : DocApart lo hi h₀ v := by
  induction hs with
  | start => exact a
  | step _ h ih => exact ih.step hk h

/-! ### Reading from memory and from the document -/

/-- The same exception, or related values. -/
def DocBoth {α β : Type} (R : α → β → Prop) : Except Err α → Except Err β → Prop
  | .ok a, .ok b => R a b
  | .error e, .error e' => e = e'
  | _, _ => False

theorem DocBoth.bind {α β γ δ : Type} {R : α → β → Prop} {S : γ → δ → Prop} {x : Except Err α} {y : Except Err β} {f : α → Except Err γ}
    {g : β → Except Err δ} (h : DocBoth R x y) (hf : ∀ a b, R a b → DocBoth S (f a) (g b)) : DocBoth S (x >>= f) (y >>= g) := by
  rcases x with x | x <;> rcases y with y | y
  · exact h
  · exact h.elim
  · exact h.elim
  · exact hf x y h

/-- `x['key']` of a document. -/
def docIndex (key : Docs.Text) : Doc → Except Err Doc
  | .dict ps =>
    match ps.lookup key with
    | some d => .ok d
    | none => .error .keyError
  | _ => .error .typeError

theorem lookup_lies {lo hi : ℕ} {h : Heap} (key : Docs.Text) :
    ∀ {ds : List (Docs.Text × Doc)} {rs : List (Docs.Text × Ref)}, LiesMembers lo hi h rs ds →
      (rs.lookup key = none ∧ ds.lookup key = none) ∨ ∃ r d, rs.lookup key = some r ∧ ds.lookup key = some d ∧ Lies lo hi h r d
  | [], [], _ => .inl ⟨rfl, rfl⟩
  | [], _ :: _, hr => by simp only [LiesMembers] at hr
  | _ :: _, [], hr => by simp only [LiesMembers] at hr
  | (k, d) :: ds, (k', r) :: rs, hr => by
    simp only [LiesMembers] at hr
    obtain ⟨rfl, h1, h2⟩ := hr
    by_cases e : key = k'
    · subst e
      exact .inr ⟨r, d, by simp, by simp, h1⟩
    · have : (key == k') = false := by simpa using e
      simp only [List.lookup_cons, this]
      exact lookup_lies key h2

theorem index_both {lo hi : ℕ} {h : Heap} (key : Docs.Text) (r : Ref) (d : Doc) (hr : Lies lo hi h r d) :
    DocBoth (Lies lo hi h) (index h key r) (docIndex key d) := by
  cases d with
  | atom a =>
    simp only [Lies] at hr
    subst hr
    exact rfl
  | list xs =>
    obtain ⟨n, rs, e, -, -, h3, h4⟩ := by simpa only [Lies] using hr
    subst e
    simp only [index, h3, docIndex, DocBoth]
  | dict ps =>
    obtain ⟨n, rs, e, -, -, h3, h4⟩ := by simpa only [Lies] using hr
    subst e
    simp only [index, h3, docIndex]
    rcases lookup_lies key h4 with ⟨e1, e2⟩ | ⟨r', d', e1, e2, h5⟩
    · simp only [e1, e2, DocBoth]
    · simp only [e1, e2, DocBoth]
      exact h5

/-- `x[0]` of a document. -/
def docFirst : Doc → Except Err Doc
  | .atom (.str (c :: _)) => .ok (.atom (.str [c]))
  | .atom (.str []) => .error .indexError
  | .atom _ => .error .typeError
  | .list (d :: _) => .ok d
  | .list [] => .error .indexError
  | .dict _ => .error .keyError

theorem first_both {lo hi : ℕ} {h : Heap} (r : Ref) (d : Doc) (hr : Lies lo hi h r d) : DocBoth (Lies lo hi h) (first h r) (docFirst d) := by
  cases d with
  | atom a =>
    simp only [Lies] at hr
    subst hr
    rcases a with _ | _ | _ | _ | (_ | ⟨c, s⟩) | _ <;> simp [first, docFirst, DocBoth, Lies]
  | list xs =>
    obtain ⟨n, rs, e, -, -, h3, h4⟩ := by simpa only [Lies] using hr
    subst e
    rcases rs with _ | ⟨r, rs⟩ <;> rcases xs with _ | ⟨x, xs⟩ <;> simp only [LiesItems] at h4 <;> simp only [first, h3, docFirst, DocBoth]
    exact h4.1
  | dict ps =>
    obtain ⟨n, rs, e, -, -, h3, h4⟩ := by simpa only [Lies] using hr
    subst e
    simp only [first, h3, docFirst, DocBoth]

/-- `len(x)` of a document. -/
def docLength : Doc → Except Err ℕ
  | .atom (.str s) => .ok s.length
  | .atom _ => .error .typeError
  | .list xs => .ok xs.length
  | .dict ps => .ok ps.length

theorem liesItems_length {lo hi : ℕ} {h : Heap} : ∀ {ds : List Doc} {rs : List Ref}, LiesItems lo hi h rs ds → rs.length = ds.length
  | [], [], _ => rfl
  | [], _ :: _, hr => by simp only [LiesItems] at hr
  | _ :: _, [], hr => by simp only [LiesItems] at hr
  | d :: ds, x :: rs, hr => by
    simp only [LiesItems] at hr
    simp [liesItems_length hr.2]

theorem liesMembers_keys {lo hi : ℕ} {h : Heap} :
    ∀ {ds : List (Docs.Text × Doc)} {rs : List (Docs.Text × Ref)}, LiesMembers lo hi h rs ds → rs.map Prod.fst = ds.map Prod.fst
  | [], [], _ => rfl
  | [], _ :: _, hr => by simp only [LiesMembers] at hr
  | _ :: _, [], hr => by simp only [LiesMembers] at hr
  | d :: ds, x :: rs, hr => by
    simp only [LiesMembers] at hr
    simp [liesMembers_keys hr.2.2, hr.1]

theorem length_both {lo hi : ℕ} {h : Heap} (r : Ref) (d : Doc) (hr : Lies lo hi h r d) : DocBoth Eq (Docs.length h r) (docLength d) := by
  cases d with
  | atom a =>
    simp only [Lies] at hr
    subst hr
    rcases a with _ | _ | _ | _ | _ | _ <;> simp [Docs.length, docLength, DocBoth]
  | list xs =>
    obtain ⟨n, rs, e, -, -, h3, h4⟩ := by simpa only [Lies] using hr
    subst e
    simp only [Docs.length, h3, docLength, DocBoth]
    exact liesItems_length h4
  | dict ps =>
    obtain ⟨n, rs, e, -, -, h3, h4⟩ := by simpa only [Lies] using hr
    subst e
    simp only [Docs.length, h3, docLength, DocBoth]
    simpa using congrArg List.length (liesMembers_keys h4)

/-- What one iterates over in a document. -/
def docItems : Doc → Except Err (List Doc)
  | .atom (.str s) => .ok (s.map fun c => .atom (.str [c]))
  | .atom _ => .error .typeError
  | .list xs => .ok xs
  | .dict ps => .ok (ps.map fun p => .atom (.str p.1))

theorem liesItems_atoms {lo hi : ℕ} {h : Heap} {α : Type} (f : α → Atom) :
    ∀ xs : List α, LiesItems lo hi h (xs.map fun x => .atom (f x)) (xs.map fun x => .atom (f x))
  | [] => by simp only [List.map_nil, LiesItems]
  | x :: xs => by
    simp only [List.map_cons, LiesItems, Lies]
    exact ⟨trivial, liesItems_atoms f xs⟩

theorem items_both {lo hi : ℕ} {h : Heap} (r : Ref) (d : Doc) (hr : Lies lo hi h r d) : DocBoth (LiesItems lo hi h) (items h r) (docItems d) := by
  cases d with
  | atom a =>
    simp only [Lies] at hr
    subst hr
    rcases a with _ | _ | _ | _ | s | _ <;> simp only [items, docItems, DocBoth]
    exact liesItems_atoms (fun c => .str [c]) s
  | list xs =>
    obtain ⟨n, rs, e, -, -, h3, h4⟩ := by simpa only [Lies] using hr
    subst e
    simp only [items, h3, docItems, DocBoth]
    exact h4
  | dict ps =>
    obtain ⟨n, rs, e, -, -, h3, h4⟩ := by simpa only [Lies] using hr
    subst e
    simp only [items, h3, docItems, DocBoth]
    have := liesItems_atoms (lo := lo) (hi := hi) (h := h) (fun k => Atom.str k) (ps.map Prod.fst)
    have e1 : (rs.map fun p => Ref.atom (.str p.1)) = (ps.map Prod.fst).map fun k => .atom (.str k) := by
      rw [← liesMembers_keys h4, List.map_map]; rfl
    have e2 : (ps.map fun p => Doc.atom (.str p.1)) = (ps.map Prod.fst).map fun k => .atom (.str k) := by
      rw [List.map_map]; rfl
    rw [e1, e2]
    exact this

/-- A text in a document. -/
def docText : Doc → Except Err Docs.Text
  | .atom (.str s) => .ok s
  | _ => .error .attributeError

theorem text_both {lo hi : ℕ} {h : Heap} (r : Ref) (d : Doc) (hr : Lies lo hi h r d) : DocBoth Eq (Docs.text r) (docText d) := by
  cases d with
  | atom a =>
    simp only [Lies] at hr
    subst hr
    rcases a with _ | _ | _ | _ | _ | _ <;> simp [Docs.text, docText, DocBoth]
  | list xs =>
    obtain ⟨n, rs, e, -⟩ := by simpa only [Lies] using hr
    subst e
    simp only [Docs.text, docText, DocBoth]
  | dict xs =>
    obtain ⟨n, rs, e, -⟩ := by simpa only [Lies] using hr
    subst e
    simp only [Docs.text, docText, DocBoth]

/-- `a, b, c = x` of a document. -/
def docUnpack (d : Doc) : Except Err (Doc × Doc × Doc) :=
  match docItems d with
  | .error e => .error e
  | .ok [a, b, c] => .ok (a, b, c)
  | .ok _ => .error .valueError

theorem unpack_both {lo hi : ℕ} {h : Heap} (r : Ref) (d : Doc) (hr : Lies lo hi h r d) :
    DocBoth (fun (p : Ref × Ref × Ref) (q : Doc × Doc × Doc) => Lies lo hi h p.1 q.1 ∧ Lies lo hi h p.2.1 q.2.1 ∧ Lies lo hi h p.2.2 q.2.2)
      (unpack3 h r) (docUnpack d) := by
  have h1 := items_both r d hr
  unfold unpack3 docUnpack
  generalize items h r = x at h1 ⊢
  generalize docItems d = y at h1 ⊢
  rcases x with e | rs <;> rcases y with e' | ds
  · exact h1
  · exact h1.elim
  · exact h1.elim
  · simp only [DocBoth] at h1
    have hl := liesItems_length h1
    rcases rs with _ | ⟨r1, _ | ⟨r2, _ | ⟨r3, _ | ⟨r4, rs⟩⟩⟩⟩ <;> rcases ds with _ | ⟨d1, _ | ⟨d2, _ | ⟨d3, _ | ⟨d4, ds⟩⟩⟩⟩ <;>
      simp at hl <;> try exact rfl
    simp only [LiesItems] at h1
    exact ⟨h1.1, h1.2.1, h1.2.2.1⟩

/-- A time in a document. -/
def docTime : Doc → Except Err ℤ
  | .atom a => toTime (.atom a)
  | _ => .error .typeError

theorem time_both {lo hi : ℕ} {h : Heap} (r : Ref) (d : Doc) (hr : Lies lo hi h r d) : DocBoth Eq (toTime r) (docTime d) := by
  have refl : ∀ x : Except Err ℤ, DocBoth Eq x x := by
    rintro (x | x) <;> exact rfl
  cases d with
  | atom a =>
    simp only [Lies] at hr
    subst hr
    exact refl _
  | list xs =>
    obtain ⟨n, rs, e, -⟩ := by simpa only [Lies] using hr
    subst e
    exact rfl
  | dict xs =>
    obtain ⟨n, rs, e, -⟩ := by simpa only [Lies] using hr
    subst e
    exact rfl

/-! ### ComCatInfo -/

/-- `docIndex` twice. -/
def docField (a b : String) (d : Doc) : Except Err Doc := docIndex a.toList d >>= docIndex b.toList

theorem field_both {lo hi : ℕ} {h : Heap} (a b : String) (r : Ref) (d : Doc) (hr : Lies lo hi h r d) :
    DocBoth (Lies lo hi h) (index h a.toList r >>= index h b.toList) (docField a b d) :=
  (index_both a.toList r d hr).bind (index_both b.toList)

theorem docIndex_ok {key : Docs.Text} {d v : Doc} : docIndex key d = .ok v ↔ ∃ ps, d = .dict ps ∧ ps.lookup key = some v := by
  cases d with
  | atom a => simp [docIndex]
  | list xs => simp [docIndex]
  | dict ps =>
    simp only [docIndex]
    rcases hx : ps.lookup key with _ | x <;> simp [hx]

theorem under_cons {d v : Doc} {k : String} {ks : List String} :
    under d (k :: ks) = some v ↔ ∃ x, docIndex k.toList d = .ok x ∧ under x ks = some v := by
  cases d with
  | atom a => simp [under, docIndex]
  | list xs => simp [under, docIndex]
  | dict ps =>
    simp only [under, docIndex]
    rcases hx : ps.lookup k.toList with _ | x <;> simp

theorem under_nil {d v : Doc} : under d [] = some v ↔ d = v := by
  cases d <;> simp [under]

theorem docBind_ok {α β : Type} {x : Except Err α} {f : α → Except Err β} {b : β} : (x >>= f) = .ok b ↔ ∃ a, x = .ok a ∧ f a = .ok b := by
  rcases x with e | a
  · exact ⟨fun h => (nomatch h), fun ⟨_, h, _⟩ => (nomatch h)⟩
  · exact ⟨fun h => ⟨a, rfl, h⟩, fun ⟨_, h, h'⟩ => by cases h; exact h'⟩

theorem docField_ok {a b : String} {d v : Doc} : docField a b d = .ok v ↔ under d [a, b] = some v := by
  simp only [docField, docBind_ok, under_cons, under_nil, exists_eq_right]

/-- The fields of ids. -/
def docIdFields (d : Doc) : Except Err (Docs.Text × Doc) := do
  let ids ← docField "properties" "ids" d >>= docText
  let authid ← docIndex "id".toList d
  return (ids, authid)

theorem idFields_both {lo hi : ℕ} {h : Heap} (r : Ref) (d : Doc) (hr : Lies lo hi h r d) :
    DocBoth (fun (p : Docs.Text × Ref) (q : Docs.Text × Doc) => p.1 = q.1 ∧ Lies lo hi h p.2 q.2) (idFields h r) (docIdFields d) := by
  unfold idFields docIdFields
  refine ((field_both "properties" "ids" r d hr).bind text_both).bind ?_
  rintro a _ rfl
  refine (index_both "id".toList r d hr).bind ?_
  intro x y hxy
  exact ⟨rfl, hxy⟩

/-- Ids of a document. -/
def docIds (d : Doc) : Except Err (Docs.Text × List Docs.Text) := do
  let f ← docIdFields d
  match f.2 with
  | .atom (.str authid) => ofComcat (Comcat.getAssociatedIds ⟨f.1, [], authid⟩)
  | _ => .error .valueError

/-- Sources of a document. -/
def docSources (d : Doc) : Except Err (Docs.Text × List Docs.Text) := do
  let s ← docField "properties" "sources" d >>= docText
  let f ← docIdFields d
  match f.2 with
  | .atom (.str authid) => ofComcat (Comcat.getAssociatedSources ⟨f.1, s, authid⟩)
  | _ => .error .valueError

theorem both_refl {α : Type} (x : Except Err α) : DocBoth Eq x x := by
  rcases x with x | x <;> exact rfl

/-- A text by a reference. -/
def onRef {α : Type} (f : Docs.Text → Except Err α) : Ref → Except Err α
  | .atom (.str a) => f a
  | _ => .error .valueError

/-- A text in a document. -/
def onDoc {α : Type} (f : Docs.Text → Except Err α) : Doc → Except Err α
  | .atom (.str a) => f a
  | _ => .error .valueError

theorem authid_both {lo hi : ℕ} {h : Heap} {α : Type} (f : Docs.Text → Except Err α) (r : Ref) (d : Doc) (hr : Lies lo hi h r d) :
    DocBoth Eq (onRef f r) (onDoc f d) := by
  cases d with
  | atom a =>
    simp only [Lies] at hr
    subst hr
    cases a <;> exact both_refl _
  | list xs =>
    obtain ⟨n, rs, e, -⟩ := by simpa only [Lies] using hr
    subst e
    exact rfl
  | dict xs =>
    obtain ⟨n, rs, e, -⟩ := by simpa only [Lies] using hr
    subst e
    exact rfl

theorem ids_both {lo hi : ℕ} {h : Heap} (r : Ref) (d : Doc) (hr : Lies lo hi h r d) : DocBoth Eq (Docs.ids h r) (docIds d) := by
  unfold Docs.ids docIds
  refine (idFields_both r d hr).bind ?_
  rintro ⟨a, x⟩ ⟨b, y⟩ ⟨e, hxy⟩
  subst e
  exact authid_both (fun authid => ofComcat (Comcat.getAssociatedIds ⟨a, [], authid⟩)) x y hxy

theorem sources_both {lo hi : ℕ} {h : Heap} (r : Ref) (d : Doc) (hr : Lies lo hi h r d) : DocBoth Eq (Docs.sources h r) (docSources d) := by
  unfold Docs.sources docSources
  refine ((field_both "properties" "sources" r d hr).bind text_both).bind ?_
  rintro s _ rfl
  refine (idFields_both r d hr).bind ?_
  rintro ⟨a, x⟩ ⟨b, y⟩ ⟨e, hxy⟩
  subst e
  exact authid_both (fun authid => ofComcat (Comcat.getAssociatedSources ⟨a, s, authid⟩)) x y hxy

/-- Parameters of a document. -/
def docParams (d : Doc) : Except Err (List (Docs.Text × Doc)) := do
  let c ← docField "geometry" "coordinates" d >>= docUnpack
  let t ← docField "properties" "time" d >>= docTime
  let mag ← docField "properties" "mag" d
  return [("time".toList, .atom (.time t)), ("lat".toList, c.2.1), ("lon".toList, c.1), ("depth".toList, c.2.2), ("magnitude".toList, mag)]

theorem params_both {lo hi : ℕ} {h : Heap} (r : Ref) (d : Doc) (hr : Lies lo hi h r d) :
    DocBoth (LiesMembers lo hi h) (Docs.params h r) (docParams d) := by
  unfold Docs.params docParams
  refine ((field_both "geometry" "coordinates" r d hr).bind unpack_both).bind ?_
  intro c c' hc
  refine ((field_both "properties" "time" r d hr).bind time_both).bind ?_
  rintro t _ rfl
  refine (field_both "properties" "mag" r d hr).bind ?_
  intro m m' hm
  simp only [pure, Except.pure, DocBoth, LiesMembers, Lies, true_and, and_true]
  exact ⟨hc.2.1, hc.1, hc.2.2, hm⟩

/-- The grid of a document. -/
def docGrid (d : Doc) : Except Err Doc :=
  docIndex "properties".toList d >>= docIndex "products".toList >>= docIndex "shakemap".toList >>= docFirst >>=
    docIndex "contents".toList >>= docIndex "download/grid.xml".toList >>= docIndex "url".toList

theorem grid_both {lo hi : ℕ} {h : Heap} (r : Ref) (d : Doc) (hr : Lies lo hi h r d) : DocBoth (Lies lo hi h) (gridUrl h r) (docGrid d) :=
  ((((((index_both _ r d hr).bind (index_both _)).bind (index_both _)).bind first_both).bind (index_both _)).bind (index_both _)).bind
    (index_both _)

/-- What the methods docReport of a document. -/
def docReport (d : Doc) : Ask → Except Err (List Doc)
  | .ids => docIds d >>= fun p => .ok [.atom (.str p.1), .list (p.2.map fun s => .atom (.str s))]
  | .sources => docSources d >>= fun p => .ok [.atom (.str p.1), .list (p.2.map fun s => .atom (.str s))]
  | .params => docParams d >>= fun ps => .ok [.dict ps]
  | .location => docField "properties" "place" d >>= fun v => .ok [v]
  | .tsunami => docField "properties" "tsunami" d >>= fun v => .ok [v]
  | .grid => match docGrid d with | .ok v => .ok [v] | .error _ => .ok [.atom .none]
  | .url => docField "properties" "url" d >>= fun v => .ok [v]

theorem pair_report {h : Heap} {x y : Except Err (Docs.Text × List Docs.Text)} (hxy : DocBoth Eq x y) :
    DocBoth (DisplaysItems (returnPair h x).1) (returnPair h x).2 (y >>= fun p => .ok [.atom (.str p.1), .list (p.2.map fun s => .atom (.str s))]) := by
  rcases x with x | p <;> rcases y with y | q
  · exact hxy
  · exact hxy.elim
  · exact hxy.elim
  · obtain rfl : p = q := hxy
    simp only [returnPair, bind, Except.bind, DocBoth, DisplaysItems, Displays, true_and, and_true]
    exact ⟨h.length, _, rfl, List.getElem?_concat_length, liesItems_displays _ (liesItems_atoms (lo := 0) (hi := 0) Atom.str p.2)⟩

theorem one_report {lo hi : ℕ} {h : Heap} {x : Except Err Ref} {y : Except Err Doc} (hxy : DocBoth (Lies lo hi h) x y) :
    DocBoth (DisplaysItems h) (one x) (y >>= fun v => .ok [v]) := by
  rcases x with x | p <;> rcases y with y | q
  · exact hxy
  · exact hxy.elim
  · exact hxy.elim
  · simp only [one, bind, Except.bind, DocBoth, DisplaysItems, and_true]
    exact lies_displays q hxy

theorem comcat_report {lo hi : ℕ} {h : Heap} (hl : hi ≤ h.length) {root : Ref} {d : Doc} (hr : Lies lo hi h root d) (q : Ask) :
    DocBoth (DisplaysItems (comcat root h q).1) (comcat root h q).2 (docReport d q) := by
  cases q with
  | ids => exact pair_report (ids_both root d hr)
  | sources => exact pair_report (sources_both root d hr)
  | location => exact one_report (field_both "properties" "place" root d hr)
  | tsunami => exact one_report (field_both "properties" "tsunami" root d hr)
  | url => exact one_report (field_both "properties" "url" root d hr)
  | grid =>
    have h1 := grid_both root d hr
    simp only [comcat, docReport]
    generalize gridUrl h root = x at h1 ⊢
    generalize docGrid d = y at h1 ⊢
    rcases x with x | p <;> rcases y with y | q
    · simp only [DocBoth, DisplaysItems, Displays, and_true]
    · exact h1.elim
    · exact h1.elim
    · simp only [DocBoth, DisplaysItems, and_true]
      exact lies_displays q h1
  | params =>
    have h1 := params_both root d hr
    simp only [comcat, docReport]
    generalize Docs.params h root = x at h1 ⊢
    generalize docParams d = y at h1 ⊢
    rcases x with x | p <;> rcases y with y | q
    · exact h1
    · exact h1.elim
    · exact h1.elim
    · simp only [returnDict, bind, Except.bind, DocBoth, DisplaysItems, Displays, and_true]
      refine ⟨h.length, _, rfl, List.getElem?_concat_length, liesMembers_displays q (liesMembers_mono (lo' := lo) (hi' := hi) le_rfl le_rfl ?_ q h1)⟩
      intro n _ hn
      exact List.getElem?_append_left (by omega)

/-- A reference that shows a number, a text or the like is no address. -/
theorem scalar_outside {lo hi lo' hi' : ℕ} {h : Heap} {r : Ref} {d : Doc} (hr : Lies lo hi h r d) (hs : ScalarDoc d) : DocOutside lo' hi' r := by
  obtain ⟨a, rfl⟩ := hs
  simp only [Lies] at hr
  subst hr
  exact outside_atom _ _ a

theorem both_ok {α β : Type} {R : α → β → Prop} {x : Except Err α} {y : Except Err β} (h : DocBoth R x y) {a : α} (e : x = .ok a) :
    ∃ b, y = .ok b ∧ R a b := by
  subst e
  rcases y with y | b
  · exact h.elim
  · exact ⟨b, rfl, h⟩

theorem docGrid_scalar {d v : Doc} (hs : EventScalars d) (hv : docGrid d = .ok v) : ScalarDoc v := by
  simp only [docGrid, docBind_ok] at hv
  obtain ⟨c, ⟨b, ⟨m, ⟨l, ⟨x2, ⟨x1, h1, h2⟩, h3⟩, h4⟩, h5⟩, h6⟩, h7⟩ := hv
  have hu : under d ["properties", "products", "shakemap"] = some l := by
    simp only [under_cons, under_nil]
    exact ⟨x1, h1, x2, h2, l, h3, rfl⟩
  rcases l with a | (_ | ⟨m', ms⟩) | ps
  · have : ∃ a, m = .atom a := by
      rcases a with _ | _ | _ | _ | (_ | ⟨c, s⟩) | _ <;> simp [docFirst] at h4
      exact ⟨_, h4.symm⟩
    obtain ⟨a, rfl⟩ := this
    simp [docIndex] at h5
  · simp [docFirst] at h4
  · simp only [docFirst, Except.ok.injEq] at h4
    subst h4
    refine hs.grid _ ms v hu ?_
    simp only [under_cons, under_nil]
    exact ⟨b, h5, c, h6, v, h7, rfl⟩
  · simp [docFirst] at h4

theorem comcat_keeps {lo hi : ℕ} {h₀ : Heap} {root : Ref} {d : Doc} (hr : Lies lo hi h₀ root d) (hs : EventScalars d) :
    DocKeeps (comcat root) (fun _ => True) lo hi h₀ := by
  intro w a q _
  have hw : Lies lo hi w.heap root d := lies_mono le_rfl le_rfl a.agree d hr
  have pair : ∀ x : Except Err (Docs.Text × List Docs.Text),
      (∃ nds, (returnPair w.heap x).1 = w.heap ++ nds ∧ ∀ nd ∈ nds, ∀ r ∈ nd.children, DocOutside lo hi r) ∧
        ∀ rs, (returnPair w.heap x).2 = .ok rs → ∀ r ∈ rs, DocOutside lo hi r := by
    rintro (x | p)
    · exact ⟨⟨[], by simp [returnPair], by simp⟩, by simp [returnPair]⟩
    · refine ⟨⟨_, rfl, ?_⟩, ?_⟩
      · intro nd hn r hm
        rw [List.mem_singleton] at hn
        subst hn
        obtain ⟨s, -, rfl⟩ := List.mem_map.1 hm
        exact outside_atom _ _ _
      · intro rs e r hm
        simp only [returnPair, Except.ok.injEq] at e
        subst e
        simp only [List.mem_cons, List.not_mem_nil, or_false] at hm
        rcases hm with rfl | rfl
        · exact outside_atom _ _ _
        · intro n e
          cases e
          exact .inr a.long
  have single : ∀ (x : Except Err Ref) (y : Except Err Doc), DocBoth (Lies lo hi w.heap) x y → (∀ v, y = .ok v → ScalarDoc v) →
      ∀ rs, one x = .ok rs → ∀ r ∈ rs, DocOutside lo hi r := by
    rintro (x | x) y hxy hsc rs e r hm
    · cases e
    · simp only [one, Except.ok.injEq] at e
      subst e
      rw [List.mem_singleton] at hm
      subst hm
      obtain ⟨v, e, hv⟩ := both_ok hxy rfl
      exact scalar_outside hv (hsc v e)
  have none' : ∃ nds, w.heap = w.heap ++ nds ∧ ∀ nd ∈ nds, ∀ r ∈ nd.children, DocOutside lo hi r := ⟨[], by simp, by simp⟩
  cases q with
  | ids => exact pair _
  | sources => exact pair _
  | location => exact ⟨none', single _ _ (field_both "properties" "place" root d hw) fun v e => hs.place v (docField_ok.1 e)⟩
  | tsunami => exact ⟨none', single _ _ (field_both "properties" "tsunami" root d hw) fun v e => hs.tsunami v (docField_ok.1 e)⟩
  | url => exact ⟨none', single _ _ (field_both "properties" "url" root d hw) fun v e => hs.url v (docField_ok.1 e)⟩
  | grid =>
    refine ⟨none', ?_⟩
    have h1 := grid_both root d hw
    intro rs e r hm
    simp only [comcat] at e
    rcases hx : gridUrl w.heap root with x | x
    · rw [hx] at e
      simp only [Except.ok.injEq] at e
      subst e
      rw [List.mem_singleton] at hm
      subst hm
      exact outside_atom _ _ _
    · rw [hx] at e
      simp only [Except.ok.injEq] at e
      subst e
      rw [List.mem_singleton] at hm
      subst hm
      obtain ⟨v, e, hv⟩ := both_ok h1 hx
      exact scalar_outside hv (docGrid_scalar hs e)
  | params =>
    have h1 := params_both root d hw
    simp only [comcat]
    rcases hx : Docs.params w.heap root with x | ps
    · exact ⟨⟨[], by simp [returnDict], by simp⟩, by simp [returnDict]⟩
    · obtain ⟨ds, e, hd⟩ := both_ok h1 hx
      refine ⟨⟨_, rfl, ?_⟩, ?_⟩
      · intro nd hn r hm
        rw [List.mem_singleton] at hn
        subst hn
        obtain ⟨p, hp, rfl⟩ := List.mem_map.1 hm
        obtain ⟨v, hv, hl⟩ := liesMembers_mem hd p hp
        refine scalar_outside hl ?_
        simp only [docParams, docBind_ok, pure, Except.pure, Except.ok.injEq] at e
        obtain ⟨c, ⟨cd, hc1, hc2⟩, t, ⟨td, ht1, ht2⟩, m, hm, rfl⟩ := e
        have hcs : ScalarDoc c.1 ∧ ScalarDoc c.2.1 ∧ ScalarDoc c.2.2 := by
          have hu := docField_ok.1 hc1
          have hall : ∀ xs, docItems cd = .ok xs → ∀ x ∈ xs, ScalarDoc x := by
            intro xs hxs x hx
            cases cd with
            | atom at' =>
              cases at' <;> simp [docItems] at hxs
              subst hxs
              obtain ⟨y, -, rfl⟩ := List.mem_map.1 hx
              exact ⟨_, rfl⟩
            | list ys =>
              simp only [docItems, Except.ok.injEq] at hxs
              subst hxs
              exact hs.coordinates _ hu x hx
            | dict ps =>
              simp only [docItems, Except.ok.injEq] at hxs
              subst hxs
              obtain ⟨y, -, rfl⟩ := List.mem_map.1 hx
              exact ⟨_, rfl⟩
          unfold docUnpack at hc2
          rcases hi : docItems cd with e | xs
          · rw [hi] at hc2; cases hc2
          · rw [hi] at hc2 hall
            rcases xs with _ | ⟨x1, _ | ⟨x2, _ | ⟨x3, _ | ⟨x4, xs⟩⟩⟩⟩ <;> simp only [Except.ok.injEq, reduceCtorEq] at hc2
            subst hc2
            exact ⟨hall _ rfl x1 (by simp), hall _ rfl x2 (by simp), hall _ rfl x3 (by simp)⟩
        simp only [List.mem_cons, List.not_mem_nil, or_false] at hv
        rcases hv with rfl | rfl | rfl | rfl | rfl
        · exact ⟨_, rfl⟩
        · exact hcs.2.1
        · exact hcs.1
        · exact hcs.2.2
        · exact hs.mag m (docField_ok.1 hm)
      · intro rs e r hm
        simp only [returnDict, Except.ok.injEq] at e
        subst e
        rw [List.mem_singleton] at hm
        subst hm
        intro n e
        cases e
        exact .inr a.long

mutual
theorem displays_unique {h : Heap} : ∀ (d : Doc) {r : Ref} {d' : Doc}, Displays h r d → Displays h r d' → d = d'
  | .atom a, r, d', h1, h2 => by
    simp only [Displays] at h1
    subst h1
    cases d' with
    | atom b => simp only [Displays, Ref.atom.injEq] at h2; rw [h2]
    | list xs => simp only [Displays] at h2; obtain ⟨_, _, e, _⟩ := h2; cases e
    | dict xs => simp only [Displays] at h2; obtain ⟨_, _, e, _⟩ := h2; cases e
  | .list xs, r, d', h1, h2 => by
    simp only [Displays] at h1
    obtain ⟨n, rs, rfl, h3, h4⟩ := h1
    cases d' with
    | atom b => simp only [Displays] at h2; cases h2
    | list ys =>
      simp only [Displays] at h2
      obtain ⟨m, qs, e, h5, h6⟩ := h2
      cases e
      rw [h3] at h5
      cases h5
      rw [displaysItems_unique xs h4 h6]
    | dict ys =>
      simp only [Displays] at h2
      obtain ⟨m, qs, e, h5, h6⟩ := h2
      cases e
      rw [h3] at h5
      cases h5
  | .dict xs, r, d', h1, h2 => by
    simp only [Displays] at h1
    obtain ⟨n, rs, rfl, h3, h4⟩ := h1
    cases d' with
    | atom b => simp only [Displays] at h2; cases h2
    | list ys =>
      simp only [Displays] at h2
      obtain ⟨m, qs, e, h5, h6⟩ := h2
      cases e
      rw [h3] at h5
      cases h5
    | dict ys =>
      simp only [Displays] at h2
      obtain ⟨m, qs, e, h5, h6⟩ := h2
      cases e
      rw [h3] at h5
      cases h5
      rw [displaysMembers_unique xs h4 h6]
theorem displaysItems_unique {h : Heap} : ∀ (ds : List Doc) {rs : List Ref} {ds' : List Doc}, DisplaysItems h rs ds → DisplaysItems h rs ds' → ds = ds'
  | [], [], [], _, _ => rfl
  | [], [], _ :: _, _, h2 => by simp only [DisplaysItems] at h2
  | [], _ :: _, _, h1, _ => by simp only [DisplaysItems] at h1
  | _ :: _, [], _, h1, _ => by simp only [DisplaysItems] at h1
  | _ :: _, _ :: _, [], _, h2 => by simp only [DisplaysItems] at h2
  | d :: ds, r :: rs, d' :: ds', h1, h2 => by
    simp only [DisplaysItems] at h1 h2
    rw [displays_unique d h1.1 h2.1, displaysItems_unique ds h1.2 h2.2]
theorem displaysMembers_unique {h : Heap} : ∀ (ds : List (Docs.Text × Doc)) {rs : List (Docs.Text × Ref)} {ds' : List (Docs.Text × Doc)},
    DisplaysMembers h rs ds → DisplaysMembers h rs ds' → ds = ds'
  | [], [], [], _, _ => rfl
  | [], [], _ :: _, _, h2 => by simp only [DisplaysMembers] at h2
  | [], _ :: _, _, h1, _ => by simp only [DisplaysMembers] at h1
  | _ :: _, [], _, h1, _ => by simp only [DisplaysMembers] at h1
  | _ :: _, _ :: _, [], _, h2 => by simp only [DisplaysMembers] at h2
  | (k, d) :: ds, r :: rs, (k', d') :: ds', h1, h2 => by
    simp only [DisplaysMembers] at h1 h2
    rw [displays_unique d h1.2.1 h2.2.1, displaysMembers_unique ds h1.2.2 h2.2.2, ← h1.1, ← h2.1]
end

theorem gives_of_both {Q : Type} {object : Heap → Q → Heap × Except Err (List Ref)} {w : World} {q : Q} {y : Except Err (List Doc)}
    (hb : DocBoth (DisplaysItems (object w.heap q).1) (object w.heap q).2 y) :
    (∀ ds, Gives object w q ds ↔ y = .ok ds) ∧ ∀ e, GivesError object w q e ↔ y = .error e := by
  unfold Gives GivesError
  generalize (object w.heap q).2 = x at hb ⊢
  rcases x with x | rs <;> rcases y with y | vs
  · obtain rfl : x = y := hb
    simp
  · exact hb.elim
  · exact hb.elim
  · refine ⟨fun ds => ⟨?_, ?_⟩, fun e => by simp⟩
    · rintro ⟨rs', e, h⟩
      cases e
      rw [displaysItems_unique _ hb h]
    · intro e
      cases e
      exact ⟨rs, rfl, hb⟩

theorem opened_apart (d : Doc) : DocApart 0 (load [] d).1.length (load [] d).1 (opened d) ∧
    Lies 0 (load [] d).1.length (load [] d).1 (load [] d).2 d := by
  refine ⟨⟨le_rfl, fun _ _ _ => rfl, ?_, by simp [opened]⟩, (load_spec [] d).2⟩
  intro n nd ho he
  have : (load [] d).1[n]? = none := List.getElem?_eq_none (by omega)
  rw [opened, this] at he
  cases he

theorem comcat_gives {d : Doc} (hs : EventScalars d) {w : World} (hr : Runs (comcatOf d) (fun _ => True) (opened d) w) (q : Ask) :
    (∀ ds, Gives (comcatOf d) w q ds ↔ docReport d q = .ok ds) ∧ ∀ e, GivesError (comcatOf d) w q e ↔ docReport d q = .error e := by
  obtain ⟨a, hl⟩ := opened_apart d
  have aw := a.runs (comcat_keeps hl hs) hr
  exact gives_of_both (comcat_report aw.long (lies_mono le_rfl le_rfl aw.agree d hl) q)

/-- C192: whatever a program has called, and whatever it did with what it was given, each method of `ComCatInfo` gives what it would have given at first, or
the same exception. -/
theorem C192_same {d : Doc} (hs : EventScalars d) {w : World} (hr : Runs (comcatOf d) (fun _ => True) (opened d) w) (q : Ask) :
    (∀ ds, Gives (comcatOf d) w q ds ↔ Gives (comcatOf d) (opened d) q ds) ∧
      ∀ e, GivesError (comcatOf d) w q e ↔ GivesError (comcatOf d) (opened d) q e := by
  obtain ⟨h1, h2⟩ := comcat_gives hs hr q
  obtain ⟨h3, h4⟩ := comcat_gives hs .start q
  exact ⟨fun ds => (h1 ds).trans (h3 ds).symm, fun e => (h2 e).trans (h4 e).symm⟩

theorem docSingle_ok {x : Except Err Doc} {v : Doc} : (x >>= fun u => (.ok [u] : Except Err (List Doc))) = .ok [v] ↔ x = .ok v := by
  rw [docBind_ok]
  constructor
  · rintro ⟨u, h, e⟩
    cases e
    exact h
  · intro h
    exact ⟨v, h, rfl⟩

/-- C192: location, tsunami flag and address are those of the document. -/
theorem C192_fields {d : Doc} (hs : EventScalars d) {w : World} (hr : Runs (comcatOf d) (fun _ => True) (opened d) w) (v : Doc) :
    (Gives (comcatOf d) w .location [v] ↔ under d ["properties", "place"] = some v) ∧
      (Gives (comcatOf d) w .tsunami [v] ↔ under d ["properties", "tsunami"] = some v) ∧
      (Gives (comcatOf d) w .url [v] ↔ under d ["properties", "url"] = some v) := by
  refine ⟨?_, ?_, ?_⟩
  · exact ((comcat_gives hs hr .location).1 [v]).trans (docSingle_ok.trans docField_ok)
  · exact ((comcat_gives hs hr .tsunami).1 [v]).trans (docSingle_ok.trans docField_ok)
  · exact ((comcat_gives hs hr .url).1 [v]).trans (docSingle_ok.trans docField_ok)

theorem docGrid_ok {d v : Doc} : docGrid d = .ok v ↔ ∃ m ms, under d ["properties", "products", "shakemap"] = some (.list (m :: ms)) ∧
    under m ["contents", "download/grid.xml", "url"] = some v := by
  simp only [docGrid, docBind_ok, under_cons, under_nil]
  constructor
  · rintro ⟨c, ⟨b, ⟨m, ⟨l, ⟨x2, ⟨x1, h1, h2⟩, h3⟩, h4⟩, h5⟩, h6⟩, h7⟩
    rcases l with a | (_ | ⟨m', ms⟩) | ps
    · have : ∃ a, m = .atom a := by
        rcases a with _ | _ | _ | _ | (_ | ⟨c, s⟩) | _ <;> simp [docFirst] at h4
        exact ⟨_, h4.symm⟩
      obtain ⟨a, rfl⟩ := this
      simp [docIndex] at h5
    · simp [docFirst] at h4
    · simp only [docFirst, Except.ok.injEq] at h4
      subst h4
      exact ⟨_, ms, ⟨x1, h1, x2, h2, _, h3, rfl⟩, b, h5, c, h6, v, h7, rfl⟩
    · simp [docFirst] at h4
  · rintro ⟨m, ms, ⟨x1, h1, x2, h2, _, h3, rfl⟩, b, h5, c, h6, _, h7, rfl⟩
    exact ⟨c, ⟨b, ⟨m, ⟨_, ⟨x2, ⟨x1, h1, h2⟩, h3⟩, rfl⟩, h5⟩, h6⟩, h7⟩

/-- C192: the address of the grid is the one of the first ShakeMap of the document, and None if there is none. -/
theorem C192_grid {d : Doc} (hs : EventScalars d) {w : World} (hr : Runs (comcatOf d) (fun _ => True) (opened d) w) :
    (∀ m ms v, under d ["properties", "products", "shakemap"] = some (.list (m :: ms)) →
      under m ["contents", "download/grid.xml", "url"] = some v → Gives (comcatOf d) w .grid [v]) ∧
    ((¬ ∃ m ms v, under d ["properties", "products", "shakemap"] = some (.list (m :: ms)) ∧
      under m ["contents", "download/grid.xml", "url"] = some v) → Gives (comcatOf d) w .grid [.atom .none]) := by
  constructor
  · intro m ms v h1 h2
    rw [(comcat_gives hs hr .grid).1]
    simp only [docReport, docGrid_ok.2 ⟨m, ms, h1, h2⟩]
  · intro hn
    rw [(comcat_gives hs hr .grid).1]
    rcases hx : docGrid d with e | v
    · simp only [docReport, hx]
    · obtain ⟨m, ms, h1, h2⟩ := docGrid_ok.1 hx
      exact (hn ⟨m, ms, v, h1, h2⟩).elim

/-- C192: the parameters are those of the document, and the time is the second in which the event began, for events from 1970 on. -/
theorem C192_params {d : Doc} (hs : EventScalars d) {w : World} (hr : Runs (comcatOf d) (fun _ => True) (opened d) w) {lon lat depth mag : Doc} {t s : ℤ}
    (hc : under d ["geometry", "coordinates"] = some (.list [lon, lat, depth])) (ht : under d ["properties", "time"] = some (.atom (.int t)))
    (hm : under d ["properties", "mag"] = some mag) (h0 : 0 ≤ t) (h9 : t < 253402300800000) (h1 : 1000 * s ≤ t) (h2 : t < 1000 * s + 1000) :
    Gives (comcatOf d) w .params [.dict [("time".toList, .atom (.time s)), ("lat".toList, lat), ("lon".toList, lon), ("depth".toList, depth),
      ("magnitude".toList, mag)]] := by
  rw [(comcat_gives hs hr .params).1]
  have hsec : Dbl.seconds t = s := by
    rw [C176_time t (by rw [abs_of_nonneg h0]; omega)]
    unfold Comcat.eventSeconds Py.trunc
    rw [if_pos (by positivity)]
    rw [Int.floor_eq_iff]
    constructor
    · rw [le_div_iff₀ (by norm_num)]
      have : ((1000 * s : ℤ) : ℚ) ≤ t := by exact_mod_cast h1
      push_cast at this
      linarith
    · rw [div_lt_iff₀ (by norm_num)]
      have : (t : ℚ) < ((1000 * s + 1000 : ℤ) : ℚ) := by exact_mod_cast h2
      push_cast at this
      linarith
  have hin : inRange s = true := by
    simp only [inRange, decide_eq_true_eq]
    omega
  have e3 : docTime (.atom (.int t)) = .ok s := by
    simp only [docTime, toTime, Docs.seconds, hsec, bind, Except.bind, hin, if_true]
  simp only [docReport, docParams, docField_ok.2 hc, docField_ok.2 ht, docField_ok.2 hm, bind, Except.bind, docUnpack, docItems, e3, pure, Except.pure]

/-- C192: an event before the year 1 or after the year 9999 has no parameters, `ValueError` is raised. -/
theorem C192_range {d : Doc} (hs : EventScalars d) {w : World} (hr : Runs (comcatOf d) (fun _ => True) (opened d) w) {lon lat depth : Doc} {t : ℤ}
    (hc : under d ["geometry", "coordinates"] = some (.list [lon, lat, depth])) (ht : under d ["properties", "time"] = some (.atom (.int t)))
    (hb : |t| < 2 ^ 53) (ho : 253402300800000 ≤ t ∨ t ≤ -62135596801000) : GivesError (comcatOf d) w .params .valueError := by
  rw [(comcat_gives hs hr .params).2]
  have hin : inRange (Dbl.seconds t) = false := by
    rw [C176_time t hb]
    unfold Comcat.eventSeconds Py.trunc
    simp only [inRange, decide_eq_false_iff_not, not_and_or, not_le]
    rcases ho with ho | ho
    · right
      have : (253402300800000 : ℚ) ≤ t := by exact_mod_cast ho
      rw [if_pos (by positivity), Int.lt_iff_add_one_le, Int.le_floor, le_div_iff₀ (by norm_num)]
      push_cast
      linarith
    · left
      have : (t : ℚ) ≤ -62135596801000 := by exact_mod_cast ho
      rw [if_neg (by rw [not_le]; exact div_neg_of_neg_of_pos (by linarith) (by norm_num))]
      have : ⌈(t : ℚ) / 1000⌉ ≤ -62135596801 := by
        rw [Int.ceil_le, div_le_iff₀ (by norm_num)]
        push_cast
        linarith
      omega
  have e3 : docTime (.atom (.int t)) = .error .valueError := by
    simp [docTime, toTime, Docs.seconds, bind, Except.bind, hin]
  simp only [docReport, docParams, docField_ok.2 hc, docField_ok.2 ht, bind, Except.bind, docUnpack, docItems, e3]

theorem docIdFields_ok {d : Doc} {s i : Docs.Text} (hi : under d ["properties", "ids"] = some (.atom (.str s)))
    (ha : under d ["id"] = some (.atom (.str i))) : docIdFields d = .ok (s, .atom (.str i)) := by
  have h2 : docIndex "id".toList d = .ok (.atom (.str i)) := by
    obtain ⟨x, h, e⟩ := under_cons.1 ha
    rw [under_nil] at e
    rw [h, e]
  simp only [docIdFields, docField_ok.2 hi, bind, Except.bind, docText, h2, pure, Except.pure]

theorem docPair_ok {x : Except Err (Docs.Text × List Docs.Text)} {i : Docs.Text} {others : List Docs.Text} :
    (x >>= fun p => (.ok [.atom (.str p.1), .list (p.2.map fun s => .atom (.str s))] : Except Err (List Doc))) =
      .ok [.atom (.str i), .list (others.map fun s => .atom (.str s))] ↔ x = .ok (i, others) := by
  rw [docBind_ok]
  constructor
  · rintro ⟨⟨a, os⟩, h, e⟩
    simp only [Except.ok.injEq, List.cons.injEq, Doc.atom.injEq, Atom.str.injEq, Doc.list.injEq, and_true] at e
    have hinj : Function.Injective fun s : Docs.Text => Doc.atom (.str s) := by
      intro a b e
      simpa using e
    rw [h, e.1, hinj.list_map e.2]
  · intro h
    exact ⟨_, h, rfl⟩

theorem ofComcat_ok {α : Type} {x : Except Comcat.Err α} {a : α} : ofComcat x = .ok a ↔ x = .ok a := by
  rcases x with x | x <;> simp [ofComcat]

/-- C192: the ids are those listed in the document without the authoritative one. -/
theorem C192_ids {d : Doc} (hs : EventScalars d) {w : World} (hr : Runs (comcatOf d) (fun _ => True) (opened d) w) {s i : Docs.Text}
    {ids : List Docs.Text} (hi : under d ["properties", "ids"] = some (.atom (.str s))) (ha : under d ["id"] = some (.atom (.str i)))
    (hl : Lists s ids) (hw : ∀ w ∈ ids, Word w) (hne : ids ≠ []) (others : List Docs.Text) :
    Gives (comcatOf d) w .ids [.atom (.str i), .list (others.map fun s => .atom (.str s))] ↔
      ∃ before after, ids = before ++ i :: after ∧ i ∉ before ∧ others = before ++ after := by
  rw [(comcat_gives hs hr .ids).1]
  simp only [docReport]
  rw [docPair_ok]
  simp only [docIds, docIdFields_ok hi ha, bind, Except.bind, ofComcat_ok]
  exact (C53_associated_ids (e := ⟨s, [], i⟩) hl hw hne).1 others

/-- C192: the sources are, for each id, a longest listed one with which it begins. -/
theorem C192_sources {d : Doc} (hs : EventScalars d) {w : World} (hr : Runs (comcatOf d) (fun _ => True) (opened d) w) {s i src : Docs.Text}
    {ids sources others : List Docs.Text} (hi : under d ["properties", "ids"] = some (.atom (.str s))) (ha : under d ["id"] = some (.atom (.str i)))
    (hsrc : under d ["properties", "sources"] = some (.atom (.str src)))
    (hl : Lists s ids) (hw : ∀ w ∈ ids, Word w) (hne : ids ≠ []) (hls : Lists src sources) (hws : ∀ w ∈ sources, Word w) (hcover : ∀ j ∈ ids, ∃ s ∈ sources, s <+: j)
    (hids : Gives (comcatOf d) w .ids [.atom (.str i), .list (others.map fun s => .atom (.str s))]) :
    ∃ a as, Gives (comcatOf d) w .sources [.atom (.str a), .list (as.map fun s => .atom (.str s))] ∧ LongestPrefix sources i a ∧
      List.Forall₂ (LongestPrefix sources) others as := by
  rw [(comcat_gives hs hr .ids).1] at hids
  simp only [docReport] at hids
  rw [docPair_ok] at hids
  simp only [docIds, docIdFields_ok hi ha, bind, Except.bind, ofComcat_ok] at hids
  have hids' : Comcat.getAssociatedIds ⟨s, src, i⟩ = .ok (i, others) := hids
  have hmem : i ∈ ids := by
    obtain ⟨b, a, e, -⟩ := ((C53_associated_ids (e := ⟨s, src, i⟩) hl hw hne).1 others).1 hids'
    rw [e]
    simp
  obtain ⟨a, as, h1, h2, h3⟩ := C52_sources_partial (e := ⟨s, src, i⟩) hl hw hls hws hcover hids' hmem
  refine ⟨a, as, ?_, h2, h3⟩
  rw [(comcat_gives hs hr .sources).1]
  simp only [docReport]
  rw [docPair_ok]
  simp only [docSources, docField_ok.2 hsrc, docText, docIdFields_ok hi ha, bind, Except.bind, ofComcat_ok]
  exact h1

/-! ### GeoServe -/

theorem DocApart.index {lo hi : ℕ} {h₀ : Heap} {w : World} (a : DocApart lo hi h₀ w) {r r' : Ref} {key : Docs.Text} (hr : DocOutside lo hi r)
    (he : index w.heap key r = .ok r') : DocOutside lo hi r' := by
  cases r with
  | atom x => cases he
  | addr n =>
    simp only [Docs.index] at he
    rcases hx : w.heap[n]? with _ | (xs | ps)
    · rw [hx] at he; cases he
    · rw [hx] at he; cases he
    · rw [hx] at he
      simp only at he
      rcases hy : ps.lookup key with _ | y
      · rw [hy] at he; cases he
      · rw [hy] at he
        cases he
        refine a.out n _ (hr n rfl) hx _ (List.mem_map.2 ⟨(key, r'), ?_, rfl⟩)
        clear hx
        induction ps with
        | nil => cases hy
        | cons p ps ih =>
          rw [List.lookup_cons] at hy
          by_cases e : key = p.1
          · have : (key == p.1) = true := by simpa using e
            rw [this] at hy
            cases hy
            rw [e]
            simp
          · have : (key == p.1) = false := by simpa using e
            rw [this] at hy
            exact List.mem_cons_of_mem _ (ih hy)

theorem DocApart.first {lo hi : ℕ} {h₀ : Heap} {w : World} (a : DocApart lo hi h₀ w) {r r' : Ref} (hr : DocOutside lo hi r)
    (he : first w.heap r = .ok r') : DocOutside lo hi r' := by
  cases r with
  | atom x =>
    rcases x with _ | _ | _ | _ | (_ | ⟨c, s⟩) | _ <;> simp [Docs.first] at he
    rw [← he]
    exact outside_atom _ _ _
  | addr n =>
    simp only [Docs.first] at he
    rcases hx : w.heap[n]? with _ | ((_ | ⟨x, xs⟩) | ps)
    · rw [hx] at he; cases he
    · rw [hx] at he; cases he
    · rw [hx] at he
      cases he
      exact a.out n _ (hr n rfl) hx _ (by simp [Node.children])
    · rw [hx] at he; cases he

/-- What `getAuthoritative` reports of a document. -/
def docAuthoritative (d : Doc) : Except Err (Doc × Doc) := do
  let fs ← docField "authoritative" "features" d
  let n ← docLength fs
  if n = 0 then return (.atom (.str "US".toList), .atom (.str "NA".toList))
  else
    let p ← docFirst fs >>= docIndex "properties".toList
    let network ← docIndex "network".toList p
    let type ← docIndex "type".toList p
    return (network, type)

theorem authoritative_both {lo hi : ℕ} {h : Heap} (r : Ref) (d : Doc) (hr : Lies lo hi h r d) :
    DocBoth (fun (p : Ref × Ref) (q : Doc × Doc) => Lies lo hi h p.1 q.1 ∧ Lies lo hi h p.2 q.2) (Docs.authoritative h r) (docAuthoritative d) := by
  unfold Docs.authoritative docAuthoritative
  refine (field_both "authoritative" "features" r d hr).bind ?_
  intro fs fd hf
  refine (length_both fs fd hf).bind ?_
  rintro n _ rfl
  by_cases h0 : n = 0
  · simp only [if_pos h0, pure, Except.pure, DocBoth, Lies, and_self]
  · simp only [if_neg h0]
    refine ((first_both fs fd hf).bind (index_both _)).bind ?_
    intro p p' hp
    refine (index_both _ p p' hp).bind ?_
    intro a a' ha
    refine (index_both _ p p' hp).bind ?_
    intro b b' hb
    exact ⟨ha, hb⟩

/-- Two documents in memory, one after the other. -/
theorem served_apart (places regions : Doc) :
    let h₁ := (load [] places).1
    let h₂ := (load h₁ regions).1
    DocApart 0 h₁.length h₂ (served places regions) ∧ Lies 0 h₁.length h₂ (load [] places).2 places ∧
      DocApart h₁.length h₂.length h₂ (served places regions) ∧ Lies h₁.length h₂.length h₂ (load h₁ regions).2 regions := by
  intro h₁ h₂
  obtain ⟨a1, a2⟩ := load_spec [] places
  obtain ⟨b1, b2⟩ := load_spec h₁ regions
  refine ⟨⟨b1.len, fun _ _ _ => rfl, ?_, by simp [served]⟩, ?_, ⟨le_rfl, fun _ _ _ => rfl, ?_, by simp [served]⟩, b2⟩
  · intro n nd ho he r hr m hm
    exact .inr (b1.within n nd (by omega) he r hr m hm).1
  · exact lies_mono le_rfl le_rfl (fun n _ hn => b1.same hn) places a2
  · intro n nd ho he r hr m hm
    rcases ho with ho | ho
    · rw [served, b1.same ho] at he
      exact .inl (a1.within n nd (Nat.zero_le _) he r hr m hm).2
    · have : h₂[n]? = none := List.getElem?_eq_none ho
      rw [served] at he
      rw [this] at he
      cases he

theorem docOne_ok {x : Except Err Ref} {rs : List Ref} (h : one x = .ok rs) : ∃ r, x = .ok r ∧ rs = [r] := by
  rcases x with x | x
  · cases h
  · exact ⟨x, rfl, by simpa [one] using h.symm⟩

theorem docAuthoritative_scalar {d : Doc} (hs : RegionScalars d) {p : Doc × Doc} (hp : docAuthoritative d = .ok p) : ScalarDoc p.1 ∧ ScalarDoc p.2 := by
  simp only [docAuthoritative, docBind_ok] at hp
  obtain ⟨fs, h1, n, h2, h3⟩ := hp
  have hu := docField_ok.1 h1
  by_cases h0 : n = 0
  · simp only [if_pos h0, pure, Except.pure, Except.ok.injEq] at h3
    subst h3
    exact ⟨⟨_, rfl⟩, ⟨_, rfl⟩⟩
  · simp only [if_neg h0, docBind_ok, pure, Except.pure, Except.ok.injEq] at h3
    obtain ⟨f, ⟨g, h4, h5⟩, a, h6, b, h7, rfl⟩ := h3
    rcases fs with x | (_ | ⟨m, ms⟩) | ps
    · rcases x with _ | _ | _ | _ | (_ | ⟨c, s⟩) | _ <;> simp [docFirst] at h4
      rw [← h4] at h5
      simp [docIndex] at h5
    · simp [docFirst] at h4
    · simp only [docFirst, Except.ok.injEq] at h4
      subst h4
      constructor
      · refine hs.network _ ms _ hu ?_
        simp only [under_cons, under_nil]
        exact ⟨f, h5, a, h6, rfl⟩
      · refine hs.type _ ms _ hu ?_
        simp only [under_cons, under_nil]
        exact ⟨f, h5, b, h7, rfl⟩
    · simp [docFirst] at h4

theorem regions_keeps {places regions : Doc} (hs : RegionScalars regions) :
    DocKeeps (geoserveOf places regions) (fun q => q ≠ .regions) (load [] places).1.length (load (load [] places).1 regions).1.length
      (load (load [] places).1 regions).1 := by
  obtain ⟨-, -, -, hl⟩ := served_apart places regions
  have hpl : DocOutside (load [] places).1.length (load (load [] places).1 regions).1.length (load [] places).2 := by
    intro n e
    have := lies_inside (load_spec [] places).2 n e
    exact .inl this.2
  intro u au q hq
  have hlu := lies_mono le_rfl le_rfl au.agree regions hl
  have none' : ∃ nds, u.heap = u.heap ++ nds ∧ ∀ nd ∈ nds, ∀ r ∈ nd.children,
      DocOutside (load [] places).1.length (load (load [] places).1 regions).1.length r := ⟨[], by simp, by simp⟩
  cases q with
  | regions => exact (hq rfl).elim
  | places =>
    refine ⟨none', ?_⟩
    intro rs e r hm
    obtain ⟨x, e', rfl⟩ := docOne_ok e
    rw [List.mem_singleton] at hm
    subst hm
    obtain ⟨y, e1, e2⟩ := docBind_ok.1 e'
    exact au.index (au.index hpl e1) e2
  | authoritative =>
    refine ⟨none', ?_⟩
    intro rs e r hm
    have hb := authoritative_both _ _ hlu
    simp only [geoserveOf, geoserve] at e
    rcases hx : Docs.authoritative u.heap (load (load [] places).1 regions).2 with x | p
    · rw [hx] at e; cases e
    · rw [hx] at e
      simp only [Except.ok.injEq] at e
      subst e
      obtain ⟨q, e, h1, h2⟩ := both_ok hb hx
      obtain ⟨s1, s2⟩ := docAuthoritative_scalar hs e
      simp only [List.mem_cons, List.not_mem_nil, or_false] at hm
      rcases hm with rfl | rfl
      · exact scalar_outside h1 s1
      · exact scalar_outside h2 s2

/-- C192: `getAuthoritative` gives the network and the type of the first region of the document, or US and NA if there is none, whatever a program has
called except `getRegions`, and whatever it did with what it was given. -/
theorem C192_authoritative_partial {places regions : Doc} (hs : RegionScalars regions) {w : World}
    (hr : Runs (geoserveOf places regions) (fun q => q ≠ .regions) (served places regions) w) :
    (under regions ["authoritative", "features"] = some (.list []) →
      Gives (geoserveOf places regions) w .authoritative [.atom (.str "US".toList), .atom (.str "NA".toList)]) ∧
    (∀ f fs network type, under regions ["authoritative", "features"] = some (.list (f :: fs)) → under f ["properties", "network"] = some network →
      under f ["properties", "type"] = some type → Gives (geoserveOf places regions) w .authoritative [network, type]) := by
  obtain ⟨-, -, a, hl⟩ := served_apart places regions
  have aw := a.runs (regions_keeps hs) hr
  have hb := authoritative_both _ _ (lies_mono le_rfl le_rfl aw.agree regions hl)
  have hg : ∀ x y, docAuthoritative regions = .ok (x, y) → Gives (geoserveOf places regions) w .authoritative [x, y] := by
    intro x y e
    rw [e] at hb
    unfold Gives
    simp only [geoserveOf, geoserve]
    rcases hx : Docs.authoritative w.heap (load (load [] places).1 regions).2 with z | p
    · rw [hx] at hb; exact hb.elim
    · rw [hx] at hb
      refine ⟨_, rfl, ?_⟩
      simp only [DisplaysItems, and_true]
      exact ⟨lies_displays _ hb.1, lies_displays _ hb.2⟩
  constructor
  · intro hu
    apply hg
    simp [docAuthoritative, docField_ok.2 hu, bind, Except.bind, docLength, pure, Except.pure]
  · intro f fs network type hu h1 h2
    apply hg
    obtain ⟨p, hp, h1⟩ := under_cons.1 h1
    obtain ⟨p', hp', h2⟩ := under_cons.1 h2
    rw [hp] at hp'
    cases hp'
    obtain ⟨x, hx, e⟩ := under_cons.1 h1
    rw [under_nil] at e
    subst e
    obtain ⟨y, hy, e⟩ := under_cons.1 h2
    rw [under_nil] at e
    subst e
    simp only [docAuthoritative, docField_ok.2 hu, bind, Except.bind, docLength, docFirst, hp, hx, hy, pure, Except.pure, List.length_cons,
      Nat.add_eq_zero_iff, one_ne_zero, and_false, if_false]

/-- C192: `getRegions` gives the whole document of regions as long as it has not been called, whatever else a program has done; if the service sent
something else than a dictionary, it ends in an AttributeError. -/
theorem C192_regions_partial {places regions : Doc} (hs : RegionScalars regions) {w : World}
    (hr : Runs (geoserveOf places regions) (fun q => q ≠ .regions) (served places regions) w) :
    (∀ ps, regions = .dict ps → Gives (geoserveOf places regions) w .regions [regions]) ∧
      ((¬ ∃ ps, regions = .dict ps) → GivesError (geoserveOf places regions) w .regions .attributeError) := by
  obtain ⟨-, -, a, hl⟩ := served_apart places regions
  have aw := a.runs (regions_keeps hs) hr
  have hw := lies_mono le_rfl le_rfl aw.agree regions hl
  constructor
  · intro ps e
    have hd := lies_displays _ hw
    rw [e] at hw
    simp only [Lies] at hw
    obtain ⟨n, rs, e1, -, -, e2, -⟩ := hw
    unfold Gives
    simp only [geoserveOf, geoserve]
    have hg : hasGet w.heap (load (load [] places).1 regions).2 = .ok () := by
      rw [e, e1]
      simp [hasGet, e2]
    rw [hg]
    refine ⟨_, rfl, ?_⟩
    simp only [DisplaysItems, and_true]
    exact hd
  · intro hn
    unfold GivesError
    simp only [geoserveOf, geoserve]
    have hg : hasGet w.heap (load (load [] places).1 regions).2 = .error .attributeError := by
      generalize (load (load [] places).1 regions).2 = r at hw
      cases regions with
      | atom x =>
        simp only [Lies] at hw
        rw [hw]
        rfl
      | list xs =>
        simp only [Lies] at hw
        obtain ⟨n, rs, e1, -, -, e2, -⟩ := hw
        rw [e1]
        simp [hasGet, e2]
      | dict ps => exact absurd ⟨ps, rfl⟩ hn
    rw [hg]

/-- C192: `getPlaces` gives the places of the document as long as it has not been called, whatever else a program has done. -/
theorem C192_places_partial {places regions : Doc} {w : World}
    (hr : Runs (geoserveOf places regions) (fun q => q ≠ .places) (served places regions) w) (v : Doc) :
    Gives (geoserveOf places regions) w .places [v] ↔ under places ["geonames", "features"] = some v := by
  obtain ⟨a, hl, -, hl'⟩ := served_apart places regions
  have hreg : DocOutside 0 (load [] places).1.length (load (load [] places).1 regions).2 := by
    intro n e
    exact .inr (lies_inside hl' n e).1
  have hk : DocKeeps (geoserveOf places regions) (fun q => q ≠ .places) 0 (load [] places).1.length (load (load [] places).1 regions).1 := by
    intro u au q hq
    have none' : ∃ nds, u.heap = u.heap ++ nds ∧ ∀ nd ∈ nds, ∀ r ∈ nd.children,
        DocOutside 0 (load [] places).1.length r := ⟨[], by simp, by simp⟩
    cases q with
    | places => exact (hq rfl).elim
    | regions =>
      refine ⟨none', ?_⟩
      intro rs e r hm
      simp only [geoserveOf, geoserve] at e
      rcases hx : hasGet u.heap (load (load [] places).1 regions).2 with x | x
      · rw [hx] at e; cases e
      · rw [hx] at e
        simp only [Except.ok.injEq] at e
        subst e
        rw [List.mem_singleton] at hm
        subst hm
        exact hreg
    | authoritative =>
      refine ⟨none', ?_⟩
      intro rs e r hm
      simp only [geoserveOf, geoserve] at e
      rcases hx : Docs.authoritative u.heap (load (load [] places).1 regions).2 with x | p
      · rw [hx] at e; cases e
      · rw [hx] at e
        simp only [Except.ok.injEq] at e
        subst e
        have hp : DocOutside 0 (load [] places).1.length p.1 ∧ DocOutside 0 (load [] places).1.length p.2 := by
          simp only [Docs.authoritative, docBind_ok] at hx
          obtain ⟨fs, ⟨x, h1, h1'⟩, n, h2, h3⟩ := hx
          by_cases h0 : n = 0
          · simp only [if_pos h0, pure, Except.pure, Except.ok.injEq] at h3
            subst h3
            exact ⟨outside_atom _ _ _, outside_atom _ _ _⟩
          · simp only [if_neg h0, docBind_ok, pure, Except.pure, Except.ok.injEq] at h3
            obtain ⟨f, ⟨g, h4, h5⟩, a', h6, b, h7, rfl⟩ := h3
            have o := au.index (au.first (au.index (au.index hreg h1) h1') h4) h5
            exact ⟨au.index o h6, au.index o h7⟩
        simp only [List.mem_cons, List.not_mem_nil, or_false] at hm
        rcases hm with rfl | rfl
        · exact hp.1
        · exact hp.2
  have aw := a.runs hk hr
  have hb := one_report (field_both "geonames" "features" _ _ (lies_mono le_rfl le_rfl aw.agree places hl))
  exact ((gives_of_both (object := geoserveOf places regions) (q := .places) hb).1 [v]).trans (docSingle_ok.trans docField_ok)

/-- A document of places, for the examples. -/
def onePlace : Doc :=
  .dict [("geonames".toList, .dict [("features".toList, .list [.dict [("id".toList, .atom (.int 5419384))]])])]

/-- A document of regions, for the examples. -/
def oneRegion : Doc :=
  .dict [("authoritative".toList, .dict [("features".toList, .list [.dict [("properties".toList,
    .dict [("network".toList, .atom (.str "CI".toList)), ("type".toList, .atom (.str "anss".toList))])]])])]

/-- C192 violated: after `geo.getRegions()['authoritative']['features'].clear()` the authoritative region is US, not CI. -/
theorem C192_regions_violated : ∃ w, Runs (geoserveOf onePlace oneRegion) (fun _ => True) (served onePlace oneRegion) w ∧
    Gives (geoserveOf onePlace oneRegion) (served onePlace oneRegion) .authoritative [.atom (.str "CI".toList), .atom (.str "anss".toList)] ∧
    Gives (geoserveOf onePlace oneRegion) w .authoritative [.atom (.str "US".toList), .atom (.str "NA".toList)] := by
  refine ⟨_, .step (.step .start (.call _ .regions trivial)) (.change _ 6 (.list []) ?_ ?_), ?_, ?_⟩
  · refine .child (n := 7) (nd := .dict [("features".toList, .addr 6)]) ?_ rfl (by simp [Node.children])
    refine .child (n := 8) (nd := .dict [("authoritative".toList, .addr 7)]) ?_ rfl (by simp [Node.children])
    exact .held (List.mem_cons_self ..)
  · simp [Node.children]
  · exact ⟨[.atom (.str "CI".toList), .atom (.str "anss".toList)], rfl, by simp [DisplaysItems, Displays]⟩
  · exact ⟨_, rfl, by simp [DisplaysItems, Displays]⟩

/-- C192 violated: after `geo.getPlaces().clear()` there are no places. -/
theorem C192_places_violated : ∃ w, Runs (geoserveOf onePlace oneRegion) (fun _ => True) (served onePlace oneRegion) w ∧
    Gives (geoserveOf onePlace oneRegion) (served onePlace oneRegion) .places [.list [.dict [("id".toList, .atom (.int 5419384))]]] ∧
    Gives (geoserveOf onePlace oneRegion) w .places [.list []] := by
  refine ⟨_, .step (.step .start (.call _ .places trivial)) (.change _ 1 (.list []) ?_ ?_), ?_, ?_⟩
  · exact .held (List.mem_cons_self ..)
  · simp [Node.children]
  · refine ⟨[.addr 1], rfl, ?_⟩
    simp only [DisplaysItems, Displays, and_true]
    refine ⟨1, [.addr 0], rfl, rfl, ?_⟩
    simp only [DisplaysItems, Displays, and_true]
    refine ⟨0, [("id".toList, .atom (.int 5419384))], rfl, rfl, ?_⟩
    simp [DisplaysMembers, Displays]
  · refine ⟨[.addr 1], rfl, ?_⟩
    simp only [DisplaysItems, Displays, and_true]
    exact ⟨1, [], rfl, rfl, by simp [DisplaysItems]⟩

/-- An event document, for the examples. -/
def oneEvent : Doc :=
  .dict [("id".toList, .atom (.str "us1".toList)),
    ("geometry".toList, .dict [("coordinates".toList, .list [.atom (.float (-117)), .atom (.float 35), .atom (.int 10)])]),
    ("properties".toList, .dict [("ids".toList, .atom (.str ",us1,ci2,".toList)), ("sources".toList, .atom (.str ",us,ci,".toList)),
      ("time".toList, .atom (.int 1562383193040)), ("mag".toList, .atom (.float (71 / 10))), ("place".toList, .atom (.str "Ridgecrest".toList)),
      ("tsunami".toList, .atom (.int 0)), ("url".toList, .atom (.str "https://x/us1".toList)),
      ("products".toList, .dict [("shakemap".toList, .list [.dict [("contents".toList, .dict [("download/grid.xml".toList,
        .dict [("url".toList, .atom (.str "https://x/grid.xml".toList))])])]])])])]

/-- The example is an event document. -/
theorem oneEvent_scalars : EventScalars oneEvent where
  place v h := ⟨_, (Option.some.inj h).symm⟩
  tsunami v h := ⟨_, (Option.some.inj h).symm⟩
  url v h := ⟨_, (Option.some.inj h).symm⟩
  mag v h := ⟨_, (Option.some.inj h).symm⟩
  coordinates vs h v hv := by
    have e : Doc.list [.atom (.float (-117)), .atom (.float 35), .atom (.int 10)] = .list vs := Option.some.inj h
    simp only [Doc.list.injEq] at e
    subst e
    simp only [List.mem_cons, List.not_mem_nil, or_false] at hv
    rcases hv with rfl | rfl | rfl <;> exact ⟨_, rfl⟩
  grid m ms v h1 h2 := by
    have e : Doc.list [.dict [("contents".toList, .dict [("download/grid.xml".toList,
        .dict [("url".toList, .atom (.str "https://x/grid.xml".toList))])])]] = .list (m :: ms) := Option.some.inj h1
    simp only [Doc.list.injEq, List.cons.injEq] at e
    obtain ⟨rfl, -⟩ := e
    exact ⟨_, (Option.some.inj h2).symm⟩

/-- A program that asks for the ids and then empties the list it got: `getEventParams` still gives the parameters. -/
example : ∃ w, Runs (comcatOf oneEvent) (fun _ => True) (opened oneEvent) w ∧ w.heap ≠ (opened oneEvent).heap ∧
    Gives (comcatOf oneEvent) w .params [.dict [("time".toList, .atom (.time 1562383193)), ("lat".toList, .atom (.float 35)),
      ("lon".toList, .atom (.float (-117))), ("depth".toList, .atom (.int 10)), ("magnitude".toList, .atom (.float (71 / 10)))]] := by
  have hr : Runs (comcatOf oneEvent) (fun _ => True) (opened oneEvent) _ := .step .start (.call _ .ids trivial)
  have hr' := hr.step (.change _ 9 (.list []) (.held (by decide +kernel)) (by simp [Node.children]))
  refine ⟨_, hr', by decide +kernel, ?_⟩
  exact C192_params oneEvent_scalars hr' rfl rfl rfl (by norm_num) (by norm_num) (by norm_num) (by norm_num)

/-- The ids and sources of the example. -/
example : Lists ",us1,ci2,".toList ["us1".toList, "ci2".toList] ∧ Lists ",us,ci,".toList ["us".toList, "ci".toList] ∧
    LongestPrefix ["us".toList, "ci".toList] "ci2".toList "ci".toList := by
  refine ⟨⟨1, 1, by decide⟩, ⟨1, 1, by decide⟩, by decide, by decide, by decide⟩

/-- The region of the example is as `C192_authoritative_partial` wants it. -/
example : RegionScalars oneRegion where
  network f fs v h1 h2 := by
    have e : Doc.list [.dict [("properties".toList, .dict [("network".toList, .atom (.str "CI".toList)),
        ("type".toList, .atom (.str "anss".toList))])]] = .list (f :: fs) := Option.some.inj h1
    simp only [Doc.list.injEq, List.cons.injEq] at e
    obtain ⟨rfl, -⟩ := e
    exact ⟨_, (Option.some.inj h2).symm⟩
  type f fs v h1 h2 := by
    have e : Doc.list [.dict [("properties".toList, .dict [("network".toList, .atom (.str "CI".toList)),
        ("type".toList, .atom (.str "anss".toList))])]] = .list (f :: fs) := Option.some.inj h1
    simp only [Doc.list.injEq, List.cons.injEq] at e
    obtain ⟨rfl, -⟩ := e
    exact ⟨_, (Option.some.inj h2).symm⟩

end Verif.Props
