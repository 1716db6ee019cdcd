import Verif.Model.RuptureStop
import Verif.Lemmas.JsonPrefix
import Verif.Props.RuptureOutput
import Verif.Props.NumberUse

/-!
# C215: a rupture file whose writing was interrupted is not taken for a rupture
-/

namespace Verif.Props
open Verif.Json Verif.Spec

section json
variable {F : Type}

theorem scan_more (fl : Floats F) {n : ℕ} (k : ℕ) {s : Text} {x : Val F × Text} (h : scan fl n s = some x) :
    scan fl (n + k) s = some x := by
  induction k with
  | zero => exact h
  | succ k ih => exact (scan_mono fl (n + k)).1 ih

/-- If a beginning of a text that is more than white space is read, and starts with a brace or bracket, the text is read too, up to the end
of the beginning. -/
theorem loads_beginning {fl : Floats F} {p q : Text} {c : Char} {s : Text} (hp : p = c :: s) (hc : c = '{' ∨ c = '[') {v : Val F}
    (h : loads fl p = some v) : ∃ n r, scan fl n (p ++ q) = some (v, r ++ q) ∧ skip r = [] := by
  have hw : white c = false := by rcases hc with rfl | rfl <;> decide
  unfold loads at h
  simp only [Option.bind_eq_bind, Option.bind_eq_some_iff, Prod.exists] at h
  obtain ⟨w, r, hs, h⟩ := h
  rw [show skip p = p by rw [hp, skip_cons hw]] at hs
  split_ifs at h with hr
  simp only [Option.pure_def, Option.some.injEq] at h
  subst h
  refine ⟨_, r, (scan_append fl _).1 q hs (Or.inr ?_), hr⟩
  rw [hp]
  rcases hc with rfl | rfl
  · exact Or.inl rfl
  · exact Or.inr rfl

/-- **C215**, the text. What `json.dump` has written of a list or dictionary cannot be read before it is complete: no beginning of the text,
and nothing that it writes of a value that it cannot write. -/
theorem C215_json {fl : Floats F} (hfl : FloatsOk fl) {v : Val F} (hv : IsCollection v) {p : Text} (hp : p <+: (stream fl v).1)
    (h : p ≠ (stream fl v).1 ∨ (stream fl v).2 = false) : loads fl p = none := by
  obtain ⟨q, hq⟩ := hp
  obtain ⟨c, s, hs, hc⟩ : ∃ c s, (stream fl v).1 = c :: s ∧ (c = '{' ∨ c = '[') := by
    match v, hv with
    | .list xs, _ => exact ⟨_, _, by rw [stream]; rfl, Or.inr rfl⟩
    | .tuple xs, _ => exact ⟨_, _, by rw [stream]; rfl, Or.inr rfl⟩
    | .dict xs, _ => exact ⟨_, _, by rw [stream]; rfl, Or.inl rfl⟩
  cases p with
  | nil => rfl
  | cons d p =>
    have hd : d = c := by
      rw [hs] at hq
      cases hq; rfl
    subst hd
    cases hl : loads fl (d :: p) with
    | none => rfl
    | some w =>
      exfalso
      obtain ⟨n, r, hn, hr⟩ := loads_beginning (q := q) rfl hc hl
      rw [hq] at hn
      cases hdump : dumps fl v with
      | none =>
        rw [(stream_broken hfl v hdump).2 n] at hn
        cases hn
      | some t =>
        have ht := stream_dumps v hdump
        rw [ht] at hn h hq
        rcases h with h | h
        · have h1 := scan_collection hfl hv (n := t.length + 1) [] hdump (by omega)
          rw [List.append_nil] at h1
          have h2 := scan_more fl n h1
          have h3 := scan_more fl (t.length + 1) hn
          rw [show n + (t.length + 1) = t.length + 1 + n by omega, h2] at h3
          simp only [Option.some.injEq, Prod.mk.injEq] at h3
          have hq0 : q = [] := (List.append_eq_nil_iff.1 h3.2.symm).2
          rw [hq0, List.append_nil] at hq
          exact h hq
        · cases h

end json

section file
open Verif.Origin Verif.Factory Verif.RupDict

/-- The dictionary of a rupture begins with a brace. -/
theorem document_dict (r : Rup) : ∃ ps, document r = .dict ps := by
  unfold document docOf
  split <;> exact ⟨_, rfl⟩

theorem linesOf_total (t : Text) : ∃ ls, LinesOf t ls := by
  have key : ∀ n, ∀ t : Text, t.length ≤ n → ∃ ls, LinesOf t ls := by
    intro n
    induction n with
    | zero => 
      intro t ht
      have : t = [] := List.length_eq_zero_iff.1 (by omega)
      exact ⟨[], by rw [this]; exact .nil⟩
    | succ n ih =>
      intro t ht
      by_cases h : '\n' ∈ t
      · obtain ⟨w, rest, rfl, hw⟩ := List.eq_append_cons_of_mem h
        obtain ⟨ls, hl⟩ := ih rest (by simp at ht; omega)
        exact ⟨_, .line hw hl⟩
      · by_cases h0 : t = []
        · exact ⟨[], by rw [h0]; exact .nil⟩
        · exact ⟨_, .last h0 h⟩
  exact key _ t le_rfl

variable {R : Type} (dict : Json.Val Fl → Option Factory.Json) (other : Factory.Json → Factory.Json → Option Bool)
  (build : RupKind → Except FErr R) (point : R) (newFormat : Bool)

/-- **C215** (partial). Whatever rupture is written over whatever file, and wherever the process stops - or the writing fails - after the first
character has reached the file and before the last one has, `get_rupture` raises `ValueError` or `IOError` for the file that is left. Missing:
the file that was emptied only, see `C215_empty_violated`. -/
theorem C215_refused_partial {fl : Floats Fl} (hfl : FloatsOk fl) (old : Option Text) (r : Rup) (n : ℕ) (h0 : 0 < n)
    (h : n < (writeGeoJson fl old r).1.length ∨ (writeGeoJson fl old r).2 = false) :
    ruptureOf fl dict other build point newFormat (stoppedAt fl old r (.after n)) = .error .valueError ∨
    ruptureOf fl dict other build point newFormat (stoppedAt fl old r (.after n)) = .error .ioError := by
  obtain ⟨ps, hps⟩ := document_dict r
  have hl : loads fl ((writeGeoJson fl old r).1.take n) = none := by
    unfold writeGeoJson at h ⊢
    refine C215_json hfl (v := document r) (by rw [hps]; trivial) (List.take_prefix _ _) ?_
    rcases h with h | h
    · left
      intro he
      have := congrArg List.length he
      rw [List.length_take] at this
      omega
    · exact Or.inr h
  obtain ⟨rest, hb⟩ : ∃ rest, (writeGeoJson fl old r).1.take n = [] ++ '{' :: rest := by
    unfold writeGeoJson
    rw [hps, stream]
    obtain ⟨m, rfl⟩ : ∃ m, n = m + 1 := ⟨n - 1, by omega⟩
    exact ⟨_, rfl⟩
  obtain ⟨ls, hls⟩ := linesOf_total ([] ++ '{' :: rest)
  have := C198_refusal (R := R) other build point (fun t => (loads fl t).bind dict) newFormat (w := []) (rest := rest) (lines := ls)
    (src := .path (some ([] ++ '{' :: rest))) (by simp [Gap]) hls (Or.inl ⟨rfl, Or.inl (by rw [← hb]; simp only [hl]; rfl)⟩)
  unfold ruptureOf stoppedAt
  simp only [hb]
  exact this

/-- **C215** is violated for every rupture and every old file when the process stops after the file was opened and before anything was written:
the empty file is read, without an error, as a rupture of no quadrilaterals. (The constructor of `QuadRupture` accepts that:
impactutils/rupture/quad_rupture.py:51-79, 796-822.) -/
theorem C215_empty_violated (fl : Floats Fl) (old : Option Text) (r : Rup) {x : R} (hx : build (.quad []) = .ok x) :
    ruptureOf fl dict other build point newFormat (stoppedAt fl old r (.after 0)) = .ok x := by
  have h1 : loads fl [] = none := rfl
  have h2 : textToJson Num.number newFormat [] = .ok ([], []) := rfl
  have h3 : fromDictAndOrigin (.multiPolygon []) = .ok (.quad []) := rfl
  unfold ruptureOf stoppedAt getRupture getFromJson getFromText
  simp only [List.take_zero, must, h1, Option.bind_none, bind, Except.bind, Option.map_some, readLinesOf, List.isEmpty_nil, if_true, h2, h3, hx]
  rfl

end file

/-! ### Cases that meet the hypotheses -/

section examples
open Verif.Origin Verif.Factory Verif.RupDict

/-- The file of a point, cut off in the middle of its metadata. -/
example : stoppedAt numbered (some "old".toList) (pointRup (fun _ => false) (fun _ => "") [("id", .str "us1")]) (.after 40) =
      some "{\"type\": \"FeatureCollection\", \"metadata\"".toList ∧
    40 < (writeGeoJson numbered (some "old".toList) (pointRup (fun _ => false) (fun _ => "") [("id", .str "us1")])).1.length := by
  constructor <;> decide +kernel

/-- A file that stops within a time that cannot be written is complete up to there. -/
example : (writeGeoJson numbered none (pointRup (fun _ => false) (fun _ => "") [("time", .other 0)])).2 = false := by decide +kernel

/-- A constructor that accepts a rupture without quadrilaterals. -/
example : (fun k => .ok k : RupKind → Except FErr RupKind) (.quad []) = .ok (.quad []) := rfl

end examples

end Verif.Props
