import Verif.Spec.NumberUse
import Verif.Props.PyNumber
import Verif.Props.CityFile
import Verif.Props.RuptureFile

/-!
# C198 used: files with Python's numbers
-/

namespace Verif.Props
open Verif.Num Verif.Spec Verif.Dbl
open Verif.Json (Text PyFloat nearestFloat)

theorem word_chars {u w : Text} (hw : u.map Char.toLower = w) (hl : ∀ c ∈ w, c ∈ "infaty".toList) : ',' ∉ u ∧ '{' ∉ u := by
  have hm : ∀ c ∈ u, c.toLower ∈ "infaty".toList := fun c hc => hl _ (hw ▸ List.mem_map_of_mem hc)
  exact ⟨fun h => absurd (hm _ h) (by decide), fun h => absurd (hm _ h) (by decide)⟩

/-- Numbers have no commas and no braces in them. -/
theorem number_chars {s : Text} {x : ℚ} (h : number s = some x) : ',' ∉ s ∧ '{' ∉ s := by
  unfold number at h
  rw [Option.bind_eq_some_iff] at h
  obtain ⟨f, hf, -⟩ := h
  obtain ⟨w, m, w', t, neg, u, rfl, hw, hw', hm, ht, hu⟩ := (C198_float s).1 f hf
  have key : ',' ∉ u ∧ '{' ∉ u := by
    rcases hu with ⟨q, hn, -⟩ | ⟨h, -⟩ | ⟨h, -⟩
    · have := numeral_chars hn
      exact ⟨fun h => by rcases this _ h with h | h <;> exact absurd h (by decide), fun h => by rcases this _ h with h | h <;> exact absurd h (by decide)⟩
    · simp only [List.mem_cons, List.not_mem_nil, or_false] at h
      rcases h with h | h
      · exact word_chars h (by decide)
      · exact word_chars h (by decide)
    · exact word_chars h (by decide)
  have go : ∀ c, c ∉ u → c ≠ '+' → c ≠ '-' → c ≠ '_' → c.toNat ∉ [32, 9, 10, 11, 12, 13, 133, 160] → c ∉ w ++ m ++ w' := by
    intro c h1 h2 h3 h4 h5 hc
    rcases List.mem_append.1 hc with hc | hc
    · rcases List.mem_append.1 hc with hc | hc
      · exact h5 (hw c hc)
      · have hct : c ∈ t := hm.1 ▸ List.mem_filter.2 ⟨hc, by simpa using h4⟩
        rcases ht with ⟨rfl, -⟩ | ⟨rfl, -⟩ | ⟨rfl, -⟩
        · exact h1 hct
        · exact (List.mem_cons.1 hct).elim h2 h1
        · exact (List.mem_cons.1 hct).elim h3 h1
    · exact h5 (hw' c hc)
  exact ⟨go ',' key.1 (by decide) (by decide) (by decide) (by decide), go '{' key.2 (by decide) (by decide) (by decide) (by decide)⟩

theorem no_comma (a : Text) : number (a ++ [',']) = none := by
  cases h : number (a ++ [',']) with
  | none => rfl
  | some x => exact absurd (by simp) (number_chars h).1

theorem no_brace (w x : Text) : number (w ++ '{' :: x) = none := by
  cases h : number (w ++ '{' :: x) with
  | none => rfl
  | some q => exact absurd (by simp) (number_chars h).2

open Verif.Factory in
/-- C100 is violated with Python's `float`: a comma and a space between the numbers are refused in both formats, and commas alone in the new one. -/
theorem C198_commas_violated (st : RState) {a b c : List Char} (ha : Word a) (hb : Word b) (hc : Word c) (h1 : a.head? ≠ some '#') (h2 : a.head? ≠ some '>') :
    (∀ nf, readLine number nf st (a ++ ", ".toList ++ b ++ ", ".toList ++ c) = .error .valueError) ∧
    readLine number true st (a ++ ",".toList ++ b ++ ",".toList ++ c) = .error .exception :=
  C100_commas_violated number no_comma st ha hb hc h1 h2

theorem nearest_neg {q x : ℚ} (h : NearestDouble q x) : NearestDouble (-q) (-x) := by
  have hneg : ∀ {d : ℚ}, IsDouble d → IsDouble (-d) := by
    rintro d ⟨m, e, h1, h2, rfl⟩
    exact ⟨-m, e, by rwa [abs_neg], h2, by push_cast; ring⟩
  refine ⟨hneg h.1, fun d hd => ?_⟩
  have := h.2 (-d) (hneg hd)
  rw [show -x - -q = -(x - q) by ring, abs_neg, show d - -q = -(-d - q) by ring, abs_neg]
  exact this

theorem coordinate_read {t : Text} {q : ℚ} (h : Coordinate t q) : ∃ x, number t = some x ∧ NearestDouble q x := by
  obtain ⟨neg, u, y, h1, h2, h3, rfl⟩ := h
  have hy := numeral_nonneg h2
  have h0 : 0 ≤ rnd y := rnd_nonneg hy
  have hlt : rnd y < 2 ^ 1024 := by
    have hd : IsDouble (2 ^ 1000 : ℚ) := ⟨1, 1000, by norm_num, by norm_num, by simp⟩
    have := rnd_mono h3
    rw [rnd_double hd] at this
    exact lt_of_le_of_lt this (pow_lt_pow_right₀ (by norm_num) (by norm_num))
  have hf : nearestFloat neg y = .fin neg (rnd y) ⟨h0, rnd_idem y, hlt⟩ := by
    unfold nearestFloat
    rw [dif_pos ⟨h0, rnd_idem y, hlt⟩]
  unfold number
  rw [read_numeral h1 h2, Option.bind_some, hf]
  refine ⟨_, rfl, ?_⟩
  cases neg
  · simpa using rnd_nearest y
  · simpa using nearest_neg (rnd_nearest y)

open Verif.Cities in
/-- **C198**, for city files: a GeoNames file whose records are written well gives one city for each of them, with the doubles nearest to the coordinates in the record and the
population that is written there. -/
theorem C198_cities (rs : List (List (List Char))) (hw : ∀ r ∈ rs, Writable r) (h : ∀ r ∈ rs, WrittenWell r) :
    ∃ ps, fromGeoNames number pyInt (geoText rs) = .ok ps ∧ List.Forall₂ CityRecord rs ps := by
  have hp : ∀ r ∈ rs, ∃ p, GeoMeans number pyInt r (some p) ∧ CityRecord r p := by
    intro r hr
    obtain ⟨f2, f4, f5, f7, f8, f14, name, lat, lon, kind, country, pop, q1, q2, n, a1, a2, a3, a4, a5, a6, b1, b2, b3, b4, b5, b6, c1, c2, c3, c4, c5⟩ := h r hr
    obtain ⟨x, hx, hx'⟩ := coordinate_read c3
    obtain ⟨y, hy, hy'⟩ := coordinate_read c4
    have hn := (C198_int pop n).2 c5
    have hc : decide (kind = "PPLC".toList ∨ kind = "PPLA".toList) = true ↔ kind = "PPLC".toList ∨ kind = "PPLA".toList := decide_eq_true_iff
    exact ⟨_, .city f2 f4 f5 f7 f8 f14 name lat lon kind country pop x y n _ a1 a2 a3 a4 a5 a6 b1 b2 b3 b4 b5 b6 c1 c2 hx hy hn hc,
      f2, f4, f5, f7, f8, f14, lat, lon, kind, pop, q1, q2, a1, a2, a3, a4, a5, a6, b1, b2, b3, b4, b5, b6, c1, c2, c3, hx', c4, hy', c5, hc⟩
  have : ∃ ps, List.Forall₂ (fun r p => GeoMeans number pyInt r (some p) ∧ CityRecord r p) rs ps := by
    clear hw h
    induction rs with
    | nil => exact ⟨[], .nil⟩
    | cons r rs ih =>
      obtain ⟨p, hp1⟩ := hp r (by simp)
      obtain ⟨ps, hps⟩ := ih fun r hr => hp r (by simp [hr])
      exact ⟨p :: ps, .cons hp1 hps⟩
  obtain ⟨ps, hps⟩ := this
  refine ⟨ps, ?_, hps.imp fun _ _ h => h.2⟩
  have := C162_cities number pyInt rs (ps.map some) hw (by
    rw [List.forall₂_map_right_iff]
    exact hps.imp fun _ _ h => h.1)
  have hr : ∀ l : List Place, (l.map some).reduceOption = l := fun l => by induction l with
    | nil => rfl
    | cons a l ih => exact congrArg (a :: ·) ih
  rwa [hr] at this

open Verif.Factory in
/-- **C149** with Python's `float`: a file that begins with a brace and is not a rupture dictionary is never taken for text. -/
theorem C198_refusal {R : Type} (other : Json → Json → Option Bool) (build : RupKind → Except FErr R) (point : R) (load : List Char → Option Json) (newFormat : Bool)
    {w rest : List Char} {lines : List (List Char)} {src : Source} (hw : Gap w) (hl : LinesOf (w ++ '{' :: rest) lines)
    (h : src = .path (some (w ++ '{' :: rest)) ∧ NotRupture load (w ++ '{' :: rest) ∨ src = .object lines) :
    getRupture other build point load number true (some src) newFormat = .error .valueError ∨
    getRupture other build point load number true (some src) newFormat = .error .ioError :=
  (C149_refusal other build point load number (fun w x _ => no_brace w x) newFormat).1 w rest lines src hw hl h

/-- A record of the file. -/
example : ∃ r : List (List Char), Writable r ∧ WrittenWell r := by
  have v1 : decimalValue ("47".toList ++ "60621".toList) = 4760621 := by decide +kernel
  have v2 : decimalValue ("122".toList ++ "33207".toList) = 12233207 := by decide +kernel
  have h1 : Coordinate "47.60621".toList (4760621 * 10 ^ (0 - ("60621".toList.length : ℤ))) := ⟨false, "47.60621".toList, _, .inl ⟨rfl, by decide⟩,
    ⟨"47".toList, ".60621".toList, "60621".toList, [], 0, by decide, by decide, by decide, .inr (by decide), .inl ⟨rfl, rfl⟩, by rw [v1]⟩,
    le_trans (b := 10 ^ 7) (by rw [show "60621".toList.length = 5 by decide]; norm_num) (le_trans (b := 2 ^ 200) (by norm_num) (pow_le_pow_right₀ (by norm_num) (by norm_num))), by simp⟩
  have h2 : Coordinate "-122.33207".toList (-(12233207 * 10 ^ (0 - ("33207".toList.length : ℤ)))) := ⟨true, "122.33207".toList, _, .inr (.inr ⟨by decide, rfl⟩),
    ⟨"122".toList, ".33207".toList, "33207".toList, [], 0, by decide, by decide, by decide, .inr (by decide), .inl ⟨rfl, rfl⟩, by rw [v2]⟩,
    le_trans (b := 10 ^ 8) (by rw [show "33207".toList.length = 5 by decide]; norm_num) (le_trans (b := 2 ^ 200) (by norm_num) (pow_le_pow_right₀ (by norm_num) (by norm_num))), by simp⟩
  have ht : ∀ s : List Char, (∀ c ∈ s, ¬ White c) → TrimsTo s s := fun s hs => ⟨[], [], by simp [Gap], by simp [Gap], by simp,
    fun c hc => hs c (List.mem_of_mem_head? hc), fun c hc => hs c (List.mem_of_getLast? hc)⟩
  refine ⟨[[], [], "Seattle".toList, [], "47.60621".toList, "-122.33207".toList, [], "PPLA2".toList, "US".toList, [], [], [], [], [], "608660".toList], ?_,
    _, _, _, _, _, _, _, _, _, _, _, _, _, _, 608660, rfl, rfl, rfl, rfl, rfl, rfl, ht _ ?_, ht _ ?_, ht _ ?_, ht _ ?_, ht _ ?_, ht _ ?_, by decide, by decide, h1, h2, ?_⟩
  · exact ⟨by simp, by decide⟩
  iterate 6 · decide
  · exact (C198_int _ _).1 (by decide +kernel)

end Verif.Props
