import Verif.Props.RuptureText
import Verif.Model.QuadRupture

/-!
# Writing rupture text files: C111
-/

namespace Verif.Props
open Verif.Factory Verif.Rup Verif.QuadR
open Verif.Spec (White Word Gap Kind LineIs references groups polygonsOf)

/-- How `float` and a format go together: a formatted number is a word that is read as a number. -/
structure FmtRead (num : List Char → Option ℚ) (fmt : ℝ → List Char) (r : ℝ → ℚ) : Prop where
  word : ∀ x, Word (fmt x)
  hash : ∀ x, (fmt x).head? ≠ some '#'
  gt : ∀ x, (fmt x).head? ≠ some '>'
  read : ∀ x, num (fmt x) = some (r x)

/-- How `float` and the format `.4f` go together when numbers are exact: a formatted number is a word that is read as a number,
at most half a unit of the fourth decimal away. -/
structure Fmt4 (num : List Char → Option ℚ) (fmt : ℝ → List Char) (r : ℝ → ℚ) : Prop extends FmtRead num fmt r where
  near : ∀ x, |(r x : ℝ) - x| ≤ 1 / 20000

/-- What the lines of the file stand for. -/
def writtenKinds (r : ℝ → ℚ) (reference : List Char) (qs : List (Quad Point)) : List Kind :=
  let k := fun p : Point => Kind.vertex (r p.lat) (r p.lon) (r p.depth)
  .reference (reference.filter (· ≠ '#')) ::
    qs.flatMap fun q => [k q.p0, k q.p1, k q.p2, k q.p3, k q.p0, .separator]

theorem written_lines {num : List Char → Option ℚ} {fmt : ℝ → List Char} {r : ℝ → ℚ} (h : FmtRead num fmt r)
    (old : Prop) (reference : List Char) (href : ∀ c, reference.getLast? = some c → ¬ White c)
    (qs : List (Quad Point)) :
    List.Forall₂ (LineIs num old) (writeText fmt reference qs) (writtenKinds r reference qs) := by
  have g0 : Gap [] := by intro c hc; simp at hc
  have g1 : Gap [' '] := by intro c hc; simp at hc; subst hc; decide
  have g2 : Gap ['\n'] := by intro c hc; simp at hc; subst hc; decide
  have hv : ∀ p : Point, LineIs num old
      (fmt p.lat ++ [' '] ++ fmt p.lon ++ [' '] ++ fmt p.depth ++ ['\n'])
      (.vertex (r p.lat) (r p.lon) (r p.depth)) := fun p =>
    LineIs.vertex (w0 := []) g0 (h.word _) g1 (by simp) (h.word _) g1 (by simp) (h.word _) g2 (h.hash _) (h.gt _)
      (h.read _) (h.read _) (h.read _)
  unfold writeText writtenKinds
  constructor
  · exact LineIs.reference (w := []) (body := reference) (w' := ['\n']) g0 g2 href
  · induction qs with
    | nil => exact .nil
    | cons q qs ih =>
      rw [List.flatMap_cons, List.flatMap_cons]
      exact .cons (hv _) (.cons (hv _) (.cons (hv _) (.cons (hv _) (.cons (hv _)
        (.cons (LineIs.separator (w := []) (rest := ['\n']) g0) ih)))))

theorem written_polygons (m : ℚ → ℚ → ℚ → Vert) (r : ℝ → ℚ) (reference : List Char) (qs : List (Quad Point)) :
    references (writtenKinds r reference qs) = reference.filter (· ≠ '#') ∧
    polygonsOf m (writtenKinds r reference qs) = qs.map fun q =>
      [q.p0, q.p1, q.p2, q.p3, q.p0].map fun p => m (r p.lat) (r p.lon) (r p.depth) := by
  unfold writtenKinds polygonsOf
  constructor
  · show reference.filter (· ≠ '#') ++ references _ = _
    have : ∀ qs : List (Quad Point), references (qs.flatMap fun q =>
        [Kind.vertex (r q.p0.lat) (r q.p0.lon) (r q.p0.depth), .vertex (r q.p1.lat) (r q.p1.lon) (r q.p1.depth),
         .vertex (r q.p2.lat) (r q.p2.lon) (r q.p2.depth), .vertex (r q.p3.lat) (r q.p3.lon) (r q.p3.depth),
         .vertex (r q.p0.lat) (r q.p0.lon) (r q.p0.depth), .separator]) = [] := by
      intro qs
      induction qs with
      | nil => rfl
      | cons q qs ih => rw [List.flatMap_cons]; simpa [references] using ih
    rw [this, List.append_nil]
  · show (groups m (qs.flatMap _)).filter _ = _
    induction qs with
    | nil => rfl
    | cons q qs ih =>
      rw [List.flatMap_cons]
      simp only [List.cons_append, List.nil_append, groups, List.map_cons, List.map_nil]
      simp only [List.filter_cons, List.isEmpty_cons, Bool.not_false, if_true]
      congr 1

theorem write_read {num : List Char → Option ℚ} {fmt : ℝ → List Char} {r : ℝ → ℚ}
    (h : FmtRead num fmt r) (isNew : Bool) (reference : List Char)
    (href : ∀ c, reference.getLast? = some c → ¬ White c) (qs : List (Quad Point)) :
    readText num isNew (writeText fmt reference qs) = .ok (reference.filter (· ≠ '#'), qs.map fun q =>
      [q.p0, q.p1, q.p2, q.p3, q.p0].map fun p => if isNew then ⟨r p.lat, r p.lon, r p.depth⟩ else ⟨r p.lon, r p.lat, r p.depth⟩) := by
  cases isNew
  · have := C100_text_partial num false _ _ (written_lines h (false = false) reference href qs)
    rw [(written_polygons (fun _ _ _ => ⟨0, 0, 0⟩) r reference qs).1, (written_polygons _ r reference qs).2] at this
    exact this
  · have := C100_text_partial num true _ _ (written_lines h (true = false) reference href qs)
    rw [(written_polygons (fun _ _ _ => ⟨0, 0, 0⟩) r reference qs).1, (written_polygons _ r reference qs).2] at this
    exact this

/-- **C111** (partial). A rupture written to a text file and read with `new_format=False` gives the same
reference, without `#`, and a closed polygon for each quadrilateral with its corners to within half a unit
of the fourth decimal. What is missing: the default format, see below, and references with line breaks. -/
theorem C111_write_read_partial {num : List Char → Option ℚ} {fmt : ℝ → List Char} {r : ℝ → ℚ}
    (h : Fmt4 num fmt r) (reference : List Char)
    (href : ∀ c, reference.getLast? = some c → ¬ White c) (qs : List (Quad Point)) :
    ∃ ps, readText num false (writeText fmt reference qs) = .ok (reference.filter (· ≠ '#'), ps) ∧
      List.Forall₂ (fun (q : Quad Point) (p : List Vert) =>
        List.Forall₂ (fun (c : Point) (v : Vert) => |(v.lon : ℝ) - c.lon| ≤ 1 / 20000 ∧
          |(v.lat : ℝ) - c.lat| ≤ 1 / 20000 ∧ |(v.depth : ℝ) - c.depth| ≤ 1 / 20000)
          [q.p0, q.p1, q.p2, q.p3, q.p0] p) qs ps := by
  have := C100_text_partial num false _ _ (written_lines h.toFmtRead (false = false) reference href qs)
  rw [(written_polygons (fun _ _ _ => ⟨0, 0, 0⟩) r reference qs).1, (written_polygons _ r reference qs).2] at this
  refine ⟨_, this, ?_⟩
  rw [List.forall₂_map_right_iff]
  apply List.forall₂_same.2
  intro q _
  rw [List.forall₂_map_right_iff]
  apply List.forall₂_same.2
  intro p _
  exact ⟨h.near _, h.near _, h.near _⟩

/-- **C111** violated: read with the default format, latitude and longitude are exchanged. -/
theorem C111_default_format_violated {num : List Char → Option ℚ} {fmt : ℝ → List Char} {r : ℝ → ℚ}
    (h : Fmt4 num fmt r) (reference : List Char)
    (href : ∀ c, reference.getLast? = some c → ¬ White c) (qs : List (Quad Point)) :
    ∃ ps, readText num true (writeText fmt reference qs) = .ok (reference.filter (· ≠ '#'), ps) ∧
      List.Forall₂ (fun (q : Quad Point) (p : List Vert) =>
        List.Forall₂ (fun (c : Point) (v : Vert) => |(v.lon : ℝ) - c.lat| ≤ 1 / 20000 ∧
          |(v.lat : ℝ) - c.lon| ≤ 1 / 20000 ∧ |(v.depth : ℝ) - c.depth| ≤ 1 / 20000)
          [q.p0, q.p1, q.p2, q.p3, q.p0] p) qs ps := by
  have := C100_text_partial num true _ _ (written_lines h.toFmtRead (true = false) reference href qs)
  rw [(written_polygons (fun _ _ _ => ⟨0, 0, 0⟩) r reference qs).1, (written_polygons _ r reference qs).2] at this
  refine ⟨_, this, ?_⟩
  rw [List.forall₂_map_right_iff]
  apply List.forall₂_same.2
  intro q _
  rw [List.forall₂_map_right_iff]
  apply List.forall₂_same.2
  intro p _
  exact ⟨h.near _, h.near _, h.near _⟩

/-- Numbers can be written and read in this way: here a sign and as many strokes as there are units of the
fourth decimal. -/
example : ∃ num fmt r, Fmt4 num fmt r := by
  let n : ℝ → ℤ := fun x => round (x * 10000)
  let fmt : ℝ → List Char := fun x => (if 0 ≤ n x then '+' else '-') :: List.replicate (n x).natAbs 'I'
  let num : List Char → Option ℚ := fun s =>
    some (if s.head? = some '+' then ((s.length - 1 : ℕ) : ℚ) / 10000 else -((s.length - 1 : ℕ) : ℚ) / 10000)
  refine ⟨num, fmt, fun x => (n x : ℚ) / 10000, ⟨?_, ?_, ?_, ?_⟩, ?_⟩
  · intro x
    refine ⟨by simp [fmt], ?_⟩
    intro c hc
    simp only [fmt, List.mem_cons] at hc
    rcases hc with rfl | hc
    · split_ifs <;> decide
    · rw [List.eq_of_mem_replicate hc]; decide
  · intro x
    simp only [fmt, List.head?_cons]
    split_ifs <;> decide
  · intro x
    simp only [fmt, List.head?_cons]
    split_ifs <;> decide
  · intro x
    simp only [num, fmt, List.head?_cons, List.length_cons, List.length_replicate, Nat.add_sub_cancel]
    congr 1
    by_cases h : 0 ≤ n x
    · rw [if_pos h, if_pos rfl]
      congr 1
      rw [← Int.cast_natCast, Int.natAbs_of_nonneg h]
    · rw [if_neg h, if_neg (by decide)]
      congr 1
      have : ((n x).natAbs : ℤ) = -(n x) := by omega
      have h2 : (((n x).natAbs : ℤ) : ℚ) = -(n x : ℚ) := by rw [this]; push_cast; rfl
      rw [Int.cast_natCast] at h2
      rw [h2]; ring
  · intro x
    have h := abs_sub_round (x * 10000)
    have e : (((n x : ℚ) / 10000 : ℚ) : ℝ) - x = -(x * 10000 - (n x : ℝ)) / 10000 := by
      push_cast; ring
    rw [e, abs_div, abs_neg]
    rw [abs_of_pos (show (0 : ℝ) < 10000 by norm_num)]
    rw [div_le_iff₀ (by norm_num)]
    calc |x * 10000 - (n x : ℝ)| ≤ 1 / 2 := h
      _ = _ := by norm_num

end Verif.Props
