import Verif.Model.GeoBytes
import Verif.Spec.GeoBytes
import Verif.Props.CityFile
import Verif.Props.Utf8
import Verif.Props.EventXml

/-!
# C219: GeoNames files are in UTF-8
-/

namespace Verif.Props
open Verif Verif.Cities Verif.Spec
open Verif.Factory (strip isSpace)

namespace Geo

/-- The characters that are read for a character of the file. -/
def raw (c : Char) : List Char := (Utf8.encodeCp c.toNat).map Char.ofNat

theorem toNat_small {n : ℕ} (h : n < 256) : (Char.ofNat n).toNat = n := by
  have hv : n.isValidChar := Or.inl (by omega)
  rw [Char.ofNat, dif_pos hv]
  rfl

/-- A character outside ASCII gives characters outside ASCII, the first of which is not a blank. -/
theorem raw_cases (c : Char) : (c.toNat ≤ 127 ∧ raw c = [c]) ∨
    (127 < c.toNat ∧ (∀ d ∈ raw c, 127 < d.toNat) ∧ ∃ d ∈ raw c, ¬ White d) := by
  have hv : c.toNat < 55296 ∨ 57343 < c.toNat ∧ c.toNat < 1114112 := c.valid
  have nw : ∀ n, 192 ≤ n → n < 256 → ¬ White (Char.ofNat n) := by
    intro n h1 h2 hw
    rw [← isSpace_iff] at hw
    have := toNat_small h2
    unfold isSpace at hw
    simp only [Bool.or_eq_true, Bool.and_eq_true, decide_eq_true_eq, this] at hw
    rcases hw with (((h | h) | h) | h) | h
    · rw [h] at this
      have e : ' '.toNat = 32 := rfl
      omega
    all_goals omega
  unfold raw Utf8.encodeCp
  split_ifs with h1 h2 h3
  · refine Or.inl ⟨by omega, ?_⟩
    rw [List.map_cons, List.map_nil, Char.ofNat_toNat]
  all_goals
    refine Or.inr ⟨by omega, ?_, ?_⟩
    · intro d hd
      simp only [List.map_cons, List.map_nil, List.mem_cons, List.not_mem_nil, or_false] at hd
      casesm* _ ∨ _ <;> subst_vars <;> rw [toNat_small (by omega)] <;> omega
    · refine ⟨_, List.mem_cons_self, nw _ (by omega) (by omega)⟩

theorem raw_ascii {f : List Char} (h : ∀ c ∈ f, c.toNat ≤ 127) : f.flatMap raw = f := by
  induction f with
  | nil => rfl
  | cons c f ih =>
    rcases raw_cases c with h1 | h1
    · rw [List.flatMap_cons, h1.2, ih fun d hd => h d (by simp [hd])]; rfl
    · have := h c (by simp); omega

theorem mem_raw {f : List Char} {d : Char} (hd : d.toNat ≤ 127) : d ∈ f.flatMap raw → d ∈ f := by
  intro h
  obtain ⟨c, hc, hm⟩ := List.mem_flatMap.1 h
  rcases raw_cases c with h1 | h1
  · rw [h1.2, List.mem_singleton] at hm
    rw [hm]; exact hc
  · have := h1.2.1 d hm; omega

theorem raw_one {c : Char} (h : c.toNat ≤ 127) : raw c = [c] := by
  rcases raw_cases c with h1 | h1
  · exact h1.2
  · omega

theorem raw_intercalate (r : List (List Char)) : (List.intercalate ['\t'] r).flatMap raw = List.intercalate ['\t'] (r.map fun f => f.flatMap raw) := by
  induction r with
  | nil => rfl
  | cons f r ih =>
    cases r with
    | nil => simp [List.intercalate]
    | cons g r =>
      have e : ∀ (f g : List Char) r, List.intercalate ['\t'] (f :: g :: r) = f ++ '\t' :: List.intercalate ['\t'] (g :: r) := by
        intro f g r; simp [List.intercalate]
      rw [e, List.map_cons, List.map_cons, e, List.flatMap_append, List.flatMap_cons, ih, raw_one (by decide)]
      rfl

theorem raw_geoText (rs : List (List (List Char))) : (geoText rs).flatMap raw = geoText (rs.map fun r => r.map fun f => f.flatMap raw) := by
  induction rs with
  | nil => rfl
  | cons r rs ih =>
    have e : ∀ (r : List (List Char)) rs, geoText (r :: rs) = List.intercalate ['\t'] r ++ '\n' :: geoText rs := by
      intro r rs; simp [geoText]
    rw [e, List.map_cons, e, List.flatMap_append, List.flatMap_cons, ih, raw_intercalate, raw_one (by decide)]
    rfl

theorem no_return {rs : List (List (List Char))} (h : ∀ r ∈ rs, ∀ f ∈ r, '\r' ∉ f) : '\r' ∉ geoText rs := by
  intro hm
  unfold geoText at hm
  rw [List.mem_flatten] at hm
  obtain ⟨l, hl, hm⟩ := hm
  obtain ⟨r, hr, rfl⟩ := List.mem_map.1 hl
  have key : ∀ r : List (List Char), (∀ f ∈ r, '\r' ∉ f) → '\r' ∉ List.intercalate ['\t'] r := by
    intro r
    induction r with
    | nil => intro _; simp
    | cons f r ih =>
      intro h
      have hf := h f (by simp)
      have hr := ih fun g hg => h g (by simp [hg])
      cases r with
      | nil => simpa [List.intercalate] using hf
      | cons g r =>
        have e : List.intercalate ['\t'] (f :: g :: r) = f ++ '\t' :: List.intercalate ['\t'] (g :: r) := by
          simp [List.intercalate]
        rw [e]
        simp only [List.mem_append, List.mem_cons, not_or]
        exact ⟨hf, by decide, hr⟩
  rcases List.mem_append.1 hm with hm | hm
  · exact key r (h r hr) hm
  · exact absurd hm (by decide)

/-- The text that is read. -/
theorem openText_geo {rs : List (List (List Char))} (h : ∀ r ∈ rs, ∀ f ∈ r, '\r' ∉ f) :
    openText (utf8Bytes (geoText rs)) = geoText (rs.map fun r => r.map fun f => f.flatMap raw) := by
  have e : ∀ t : List Char, (utf8Bytes t).map Char.ofNat = t.flatMap raw := by
    intro t
    induction t with
    | nil => rfl
    | cons c t ih => rw [utf8Bytes_cons, List.map_append, ih]; rfl
  unfold openText
  rw [e, raw_geoText, Xml.lineEnds_none]
  rw [← raw_geoText]
  exact fun hm => no_return h (mem_raw (by decide) hm)

/-- A record that is read stands for what the record of the file stands for. -/
theorem means_raw (num : List Char → Option ℚ) (int : List Char → Option ℤ) {r : List (List Char)} (hr : GeoRecord r) {o : Option Place}
    (h : GeoMeans num int r o) : GeoMeans num int (r.map fun f => f.flatMap raw) o := by
  have get : ∀ {i : ℕ} {f : List Char}, r[i]? = some f → (r.map fun f => f.flatMap raw)[i]? = some (f.flatMap raw) := by
    intro i f h
    rw [List.getElem?_map, h]; rfl
  have got : ∀ {i : ℕ} {f : List Char}, i ∈ [4, 5, 7, 8, 14] → r[i]? = some f → (r.map fun f => f.flatMap raw)[i]? = some f := by
    intro i f hi h
    rw [get h, raw_ascii (hr.plain i hi f h)]
  cases h with
  | blank f h t =>
    rcases hr.name f h with ha | ⟨c, hc, -, hw⟩
    · exact .blank f (by rw [get h, raw_ascii ha]) t
    · obtain ⟨w, w', g, g', e, -, -⟩ := t
      rw [e, List.append_nil] at hc
      exact absurd ((List.mem_append.1 hc).elim (g c) (g' c)) hw
  | foreign f name h t hc =>
    obtain ⟨c, hc, hn⟩ := hc
    have hcf : c ∈ f := by
      obtain ⟨w, w', -, -, e, -, -⟩ := t
      rw [e]; simp [hc]
    obtain ⟨d, hd, hw⟩ : ∃ d ∈ f.flatMap raw, 127 < d.toNat ∧ ¬ White d := by
      rcases raw_cases c with h1 | ⟨-, h2, d, h3, h4⟩
      · omega
      · exact ⟨d, List.mem_flatMap.2 ⟨c, hcf, h3⟩, h2 d h3, h4⟩
    obtain ⟨t', ht'⟩ := trims_exists (f.flatMap raw)
    refine .foreign _ t' (get h) ht' ⟨d, ?_, hw.1⟩
    obtain ⟨w, w', g, g', e, -, -⟩ := ht'
    rw [e] at hd
    rcases List.mem_append.1 hd with hd | hd
    · rcases List.mem_append.1 hd with hd | hd
      · exact absurd (g d hd) hw.2
      · exact hd
    · exact absurd (g' d hd) hw.2
  | city f2 f4 f5 f7 f8 f14 name lat lon kind country pop x y n cap h2 h4 h5 h7 h8 h14 t2 t4 t5 t7 t8 t14 hne ha hx hy hn hcap =>
    have h2' : (r.map fun f => f.flatMap raw)[2]? = some f2 := by
      rcases hr.name f2 h2 with hp | ⟨c, hc, hn, hw⟩
      · rw [get h2, raw_ascii hp]
      · obtain ⟨w, w', g, g', e, -, -⟩ := t2
        rw [e] at hc
        rcases List.mem_append.1 hc with hc | hc
        · rcases List.mem_append.1 hc with hc | hc
          · exact absurd (g c hc) hw
          · have := ha c hc; omega
        · exact absurd (g' c hc) hw
    exact .city f2 f4 f5 f7 f8 f14 name lat lon kind country pop x y n cap h2' (got (by decide) h4) (got (by decide) h5) (got (by decide) h7)
      (got (by decide) h8) (got (by decide) h14) t2 t4 t5 t7 t8 t14 hne ha hx hy hn hcap

end Geo

/-- **C219**. The files of GeoNames are in UTF-8, while `fromGeoNames` reads them as Latin-1. The result is right all the same: whatever alphabets
the names and the other names in the records are in, there is one city for each record whose ASCII name is not blank, in the order of the
file, with the name, country, coordinates, capital flag and population that stand in the record. -/
theorem C219_utf8 (num : List Char → Option ℚ) (int : List Char → Option ℤ) (rs : List (List (List Char))) (os : List (Option Place))
    (hr : ∀ r ∈ rs, GeoRecord r) (h : List.Forall₂ (GeoMeans num int) rs os) :
    fromGeoFile num int (utf8Bytes (geoText rs)) = .ok os.reduceOption := by
  unfold fromGeoFile
  rw [Geo.openText_geo fun r hm => (hr r hm).noReturn]
  refine C162_cities num int _ os ?_ ?_
  · intro q hq
    obtain ⟨r, hm, rfl⟩ := List.mem_map.1 hq
    refine ⟨by simpa using (hr r hm).writable.1, ?_⟩
    intro g hg
    obtain ⟨f, hf, rfl⟩ := List.mem_map.1 hg
    have := (hr r hm).writable.2 f hf
    exact ⟨fun h => this.1 (Geo.mem_raw (by decide) h), fun h => this.2 (Geo.mem_raw (by decide) h)⟩
  · induction h with
    | nil => exact .nil
    | @cons r o rs os h1 h2 ih =>
      exact .cons (Geo.means_raw num int (hr r (by simp)) h1) (ih fun q hq => hr q (by simp [hq]))

/-- **C219**, the other direction: a record whose name has a character that is not ASCII and not a blank gives no city, whatever its other fields are. -/
theorem C219_foreign (num : List Char → Option ℚ) (int : List Char → Option ℤ) (rs : List (List (List Char))) (r : List (List Char)) (rest : List (List (List Char)))
    (os os' : List (Option Place)) (hr : ∀ q ∈ rs ++ r :: rest, GeoRecord q) (h : List.Forall₂ (GeoMeans num int) rs os)
    (h' : List.Forall₂ (GeoMeans num int) rest os') (f : List Char) (hf : r[2]? = some f) (hc : ∃ c ∈ f, 127 < c.toNat ∧ ¬ White c) :
    fromGeoFile num int (utf8Bytes (geoText (rs ++ r :: rest))) = .ok (os.reduceOption ++ os'.reduceOption) := by
  have hm : GeoMeans num int r none := by
    obtain ⟨c, hc, hn, hw⟩ := hc
    obtain ⟨t, ht⟩ := trims_exists f
    refine .foreign f t hf ht ⟨c, ?_, hn⟩
    obtain ⟨w, w', g, g', e, -, -⟩ := ht
    rw [e] at hc
    rcases List.mem_append.1 hc with hc | hc
    · rcases List.mem_append.1 hc with hc | hc
      · exact absurd (g c hc) hw
      · exact hc
    · exact absurd (g' c hc) hw
  rw [C219_utf8 num int _ (os ++ none :: os') hr (List.rel_append h (.cons hm h'))]
  simp [List.reduceOption]

/-- A file with two records, one of which has an umlaut in its name; both have other names in another alphabet. -/
def geoBoth : List (List (List Char)) :=
  [["1", "Paris", "Paris", "Париж,à", "48", "-3.5", "P", "PPLC", "FR", "", "", "", "", "", "12"].map String.toList,
   ["2", "Köln", "Köln", "à", "48", "-3.5", "P", "PPLA", "DE", "", "", "", "", "", "12"].map String.toList]

theorem geoBoth_records : ∀ r ∈ geoBoth, GeoRecord r := by
  have hi : ∀ i : ℕ, i ∈ [4, 5, 7, 8, 14] → i = 4 ∨ i = 5 ∨ i = 7 ∨ i = 8 ∨ i = 14 := by
    intro i h
    simpa using h
  intro r hr
  unfold geoBoth at hr
  simp only [List.mem_cons, List.not_mem_nil, or_false] at hr
  rcases hr with rfl | rfl
  · refine ⟨by unfold Writable; decide +kernel, by decide +kernel, ?_, ?_⟩
    · intro i h f hf
      rcases hi i h with rfl | rfl | rfl | rfl | rfl <;> (have := Option.some.inj hf; subst this; decide +kernel)
    · intro f hf
      have := Option.some.inj hf
      subst this
      exact Or.inl (by decide +kernel)
  · refine ⟨by unfold Writable; decide +kernel, by decide +kernel, ?_, ?_⟩
    · intro i h f hf
      rcases hi i h with rfl | rfl | rfl | rfl | rfl <;> (have := Option.some.inj hf; subst this; decide +kernel)
    · intro f hf
      have := Option.some.inj hf
      subst this
      exact Or.inr ⟨'ö', by decide +kernel, by decide +kernel, by unfold White; decide +kernel⟩

example : fromGeoFile geoNum (fun _ => some 12) (utf8Bytes (geoText geoBoth)) =
    .ok [⟨"Paris".toList, "FR".toList, 48, -7 / 2, true, 12⟩] := by
  decide +kernel

end Verif.Props
