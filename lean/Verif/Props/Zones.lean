import Verif.Model.Time
import Verif.Lemmas.Rounding

/-!
# C12, C13, C14, C17, C18: time-zone look-up
-/

namespace Verif.Props
open Verif Verif.Time

/-! ## C12-C14: raster -/

/-- A raster with non-empty shape, positive resolution and extents in order. -/
structure Ordinary (r : Raster) : Prop where
  lon : r.minLon ≤ r.maxLon
  lat : r.minLat ≤ r.maxLat
  resx : 0 < r.resx
  resy : 0 < r.resy
  rows : 0 < r.rows
  cols : 0 < r.cols

example : Ordinary defaultRaster := by
  constructor <;> norm_num [defaultRaster]

/-- The three supported method names. -/
def Supported (method : String) : Prop := method = "floor" ∨ method = "ceil" ∨ method = "round"

theorem clamp_mem (x lo hi : ℚ) (h : lo ≤ hi) : lo ≤ clamp x lo hi ∧ clamp x lo hi ≤ hi := by
  unfold clamp
  split_ifs with h1 h2
  · exact ⟨h, le_rfl⟩
  · exact ⟨le_rfl, h⟩
  · exact ⟨not_lt.1 h2, not_lt.1 h1⟩

theorem rounding_nonneg {method : String} {f : ℚ → ℤ} (h : rounding method = some f) (q : ℚ)
    (hq : 0 ≤ q) : 0 ≤ f q := by
  unfold rounding at h
  split_ifs at h <;> cases h
  · have := Py.round_mono hq
    have h0 : Py.round 0 = 0 := by exact_mod_cast Py.round_intCast 0
    rwa [h0] at this
  · exact Int.floor_nonneg.2 hq
  · exact Int.ceil_nonneg hq

theorem index_clamp (c n : ℤ) (hc : 0 ≤ c) (hn : 0 < n) :
    0 ≤ (if c ≥ n then n - 1 else c) ∧ (if c ≥ n then n - 1 else c) < n := by
  split_ifs <;> omega

/-- C12: an unsupported rounding method is rejected, and only that. -/
theorem C12_unsupported_iff (r : Raster) (lat lon : ℚ) (method : String) :
    rasterCell r lat lon method = none ↔ ¬ Supported method := by
  unfold rasterCell rounding Supported
  split_ifs with h1 h2 h3 <;> simp_all

/-- C12: for an ordinary raster the cell read is inside the raster, for every coordinate and every
supported rounding method. -/
theorem C12_in_range (r : Raster) (hr : Ordinary r) (lat lon : ℚ) (method : String)
    (hm : Supported method) :
    ∃ row col, rasterCell r lat lon method = some (row, col) ∧
      0 ≤ row ∧ row < r.rows ∧ 0 ≤ col ∧ col < r.cols := by
  have hs : rounding method ≠ none := by
    intro h0
    have : rasterCell r lat lon method = none := by unfold rasterCell; rw [h0]
    exact (C12_unsupported_iff r lat lon method).1 this hm
  obtain ⟨f, hf⟩ := Option.ne_none_iff_exists'.1 hs
  unfold rasterCell
  rw [hf]
  have h1 := clamp_mem lon r.minLon r.maxLon hr.lon
  have h2 := clamp_mem lat r.minLat r.maxLat hr.lat
  have hn : ¬ (r.maxLon < r.minLon ∧ clamp lon r.minLon r.maxLon < r.minLon) :=
    fun h => absurd h.1 (not_lt.2 hr.lon)
  simp only [hn, if_false]
  have hc := rounding_nonneg hf ((clamp lon r.minLon r.maxLon - r.minLon) / r.resx)
    (div_nonneg (by linarith) hr.resx.le)
  have hw := rounding_nonneg hf ((r.maxLat - clamp lat r.minLat r.maxLat) / r.resy)
    (div_nonneg (by linarith) hr.resy.le)
  have h3 := hr.rows
  have h4 := hr.cols
  refine ⟨_, _, rfl, ?_, ?_, ?_, ?_⟩ <;> split_ifs <;> omega

/-- C12: with 'floor', a raster whose cells tile its extents and coordinates inside the extents, the
cell read contains the point (the last row/column takes the far edge). -/
theorem C12_floor_contains (r : Raster) (hr : Ordinary r)
    (hx : r.maxLon - r.minLon = r.cols * r.resx) (hy : r.maxLat - r.minLat = r.rows * r.resy)
    (lat lon : ℚ) (h1 : r.minLon ≤ lon) (h2 : lon ≤ r.maxLon) (h3 : r.minLat ≤ lat)
    (h4 : lat ≤ r.maxLat) :
    ∃ row col, rasterCell r lat lon "floor" = some (row, col) ∧
      r.minLon + col * r.resx ≤ lon ∧ lon ≤ r.minLon + (col + 1) * r.resx ∧
      (lon < r.maxLon → lon < r.minLon + (col + 1) * r.resx) ∧
      lat ≤ r.maxLat - row * r.resy ∧ r.maxLat - (row + 1) * r.resy ≤ lat ∧
      (r.minLat < lat → r.maxLat - (row + 1) * r.resy < lat) := by
  have hcl : clamp lon r.minLon r.maxLon = lon := by
    unfold clamp; rw [if_neg (not_lt.2 h2), if_neg (not_lt.2 h1)]
  have hct : clamp lat r.minLat r.maxLat = lat := by
    unfold clamp; rw [if_neg (not_lt.2 h4), if_neg (not_lt.2 h3)]
  have hn : ¬ (r.maxLon < r.minLon ∧ lon < r.minLon) := fun h => absurd h.1 (not_lt.2 hr.lon)
  have hround : rounding "floor" = some Int.floor := by simp [rounding]
  have key : ∀ (d res : ℚ) (n : ℤ), 0 < res → 0 < n → 0 ≤ d → d ≤ n * res →
      let c := if ⌊d / res⌋ ≥ n then n - 1 else ⌊d / res⌋
      (c : ℚ) * res ≤ d ∧ d ≤ (c + 1) * res ∧ (d < n * res → d < (c + 1) * res) := by
    intro d res n hres hnpos hd hdn
    have f1 := Int.floor_le (d / res)
    have f2 := Int.lt_floor_add_one (d / res)
    rw [le_div_iff₀ hres] at f1
    rw [div_lt_iff₀ hres] at f2
    simp only
    split_ifs with hge
    · have hge' : (n : ℚ) ≤ ⌊d / res⌋ := by exact_mod_cast hge
      have : (n : ℚ) * res ≤ ⌊d / res⌋ * res := mul_le_mul_of_nonneg_right hge' hres.le
      push_cast
      refine ⟨?_, ?_, ?_⟩
      · linarith
      · linarith
      · intro h; linarith
    · exact ⟨f1, f2.le, fun _ => f2⟩
  have kx := key (lon - r.minLon) r.resx r.cols hr.resx hr.cols (by linarith) (by linarith)
  have ky := key (r.maxLat - lat) r.resy r.rows hr.resy hr.rows (by linarith) (by linarith)
  unfold rasterCell
  rw [hround]
  simp only [hcl, hct, hn, if_false]
  refine ⟨_, _, rfl, ?_, ?_, ?_, ?_, ?_, ?_⟩
  · linarith [kx.1]
  · linarith [kx.2.1]
  · intro h; linarith [kx.2.2 (by linarith)]
  · linarith [ky.1]
  · linarith [ky.2.1]
  · intro h; linarith [ky.2.2 (by linarith)]

/-- Non-vacuity: the default raster tiles its extents. -/
example : defaultRaster.maxLon - defaultRaster.minLon = defaultRaster.cols * defaultRaster.resx ∧
    defaultRaster.maxLat - defaultRaster.minLat = defaultRaster.rows * defaultRaster.resy := by
  norm_num [defaultRaster]

/-- C13 is violated: for a raster crossing the date line, the column read depends only on whether the
longitude is above the raster's eastern edge; every longitude is sent to an edge column. -/
theorem C13_dateline_violated (r : Raster) (hd : r.maxLon < r.minLon) (lat lon lon' : ℚ)
    (method : String) (hside : lon > r.maxLon ↔ lon' > r.maxLon) :
    rasterCell r lat lon method = rasterCell r lat lon' method := by
  have : clamp lon r.minLon r.maxLon = clamp lon' r.minLon r.maxLon := by
    unfold clamp
    by_cases h : lon > r.maxLon
    · rw [if_pos h, if_pos (hside.1 h)]
    · have h' : ¬ lon' > r.maxLon := fun hc => h (hside.2 hc)
      rw [if_neg h, if_neg h', if_pos (by linarith [not_lt.1 h]), if_pos (by linarith [not_lt.1 h'])]
  unfold rasterCell
  rw [this]

/-- C13, concrete: in a raster from 170 E to 170 W with 20 one-degree columns, 171 E and 179 E are
read from the same (last) column, although eight columns lie between them. -/
theorem C13_dateline_witness :
    rasterCell ⟨170, -170, -10, 10, 1, 1, 20, 20⟩ 0 171 "floor" = some (10, 19) ∧
    rasterCell ⟨170, -170, -10, 10, 1, 1, 20, 20⟩ 0 179 "floor" = some (10, 19) ∧
    rasterCell ⟨170, -170, -10, 10, 1, 1, 20, 20⟩ 0 (-175) "floor" = some (10, 0) := by
  decide +kernel

/-- C13 (what holds): even then the cell read is inside the raster. -/
theorem C13_in_range_partial (r : Raster) (hd : r.maxLon < r.minLon) (hw : r.minLon ≤ r.maxLon + 360)
    (hlat : r.minLat ≤ r.maxLat) (hresx : 0 < r.resx) (hresy : 0 < r.resy) (hrows : 0 < r.rows)
    (hcols : 0 < r.cols) (lat lon : ℚ) (method : String) (hm : Supported method) :
    ∃ row col, rasterCell r lat lon method = some (row, col) ∧
      0 ≤ row ∧ row < r.rows ∧ 0 ≤ col ∧ col < r.cols := by
  have hs : rounding method ≠ none := by
    intro h0
    have : rasterCell r lat lon method = none := by unfold rasterCell; rw [h0]
    exact (C12_unsupported_iff r lat lon method).1 this hm
  obtain ⟨f, hf⟩ := Option.ne_none_iff_exists'.1 hs
  have h2 := clamp_mem lat r.minLat r.maxLat hlat
  unfold rasterCell
  rw [hf]
  simp only
  have hl : 0 ≤ (if r.maxLon < r.minLon ∧ clamp lon r.minLon r.maxLon < r.minLon then
      clamp lon r.minLon r.maxLon + 360 else clamp lon r.minLon r.maxLon) - r.minLon := by
    unfold clamp
    split_ifs <;> simp_all
  have hc := rounding_nonneg hf _ (div_nonneg hl hresx.le)
  have hw := rounding_nonneg hf ((r.maxLat - clamp lat r.minLat r.maxLat) / r.resy)
    (div_nonneg (by linarith) hresy.le)
  exact ⟨_, _, rfl, (index_clamp _ _ hw hrows).1, (index_clamp _ _ hw hrows).2,
    (index_clamp _ _ hc hcols).1, (index_clamp _ _ hc hcols).2⟩

/-- C14 is violated: the conversions ignore the rounding method altogether, even an unsupported one. -/
theorem C14_method_ignored_violated {T : Type} (convert : String → T → T) (r : Raster)
    (cells : ℤ → ℤ → ℤ) (codes : List (String × ℤ)) (t : T) (lat lon : ℚ) (m m' : String) :
    toLocaltime convert r cells codes t lat lon m = toLocaltime convert r cells codes t lat lon m' ∧
    toUtctime convert r cells codes t lat lon m = toUtctime convert r cells codes t lat lon m' :=
  ⟨rfl, rfl⟩

/-- C14, concrete: with 'ceil' the zone of the point is "B" but the conversion uses zone "A". -/
theorem C14_wrong_zone_witness :
    ∃ (r : Raster) (cells : ℤ → ℤ → ℤ) (codes : List (String × ℤ)) (lat lon : ℚ),
      Ordinary r ∧ getTimezoneCode r cells codes lat lon "ceil" = .ok "B" ∧
      toLocaltime (fun code (_ : String) => code) r cells codes "" lat lon "ceil" = .ok "A" := by
  refine ⟨⟨0, 2, 0, 2, 1, 1, 2, 2⟩, fun _ c => c, [("A", 0), ("B", 1)], 2, 1 / 2, ?_, ?_, ?_⟩
  · constructor <;> norm_num
  · decide +kernel
  · decide +kernel

/-- C14 (what holds): with 'floor' the conversions use the zone of `get_timezone_code`. -/
theorem C14_floor_partial {T : Type} (convert : String → T → T) (r : Raster)
    (cells : ℤ → ℤ → ℤ) (codes : List (String × ℤ)) (t : T) (lat lon : ℚ) (code : String)
    (h : getTimezoneCode r cells codes lat lon "floor" = .ok code) :
    toLocaltime convert r cells codes t lat lon "floor" = .ok (convert code t) ∧
    toUtctime convert r cells codes t lat lon "floor" = .ok (convert code t) := by
  unfold toLocaltime toUtctime
  rw [h]
  exact ⟨rfl, rfl⟩

/-- The code returned is a name whose value is the one stored in the cell read. -/
theorem C12_code_matches (r : Raster) (cells : ℤ → ℤ → ℤ) (codes : List (String × ℤ)) (lat lon : ℚ)
    (method code : String) (h : getTimezoneCode r cells codes lat lon method = .ok code) :
    ∃ row col v, rasterCell r lat lon method = some (row, col) ∧ (code, v) ∈ codes ∧
      v = cells row col := by
  unfold getTimezoneCode at h
  split at h
  · cases h
  · rename_i row col hcell
    split at h
    · rename_i kv hkv
      cases h
      exact ⟨row, col, kv.2, hcell, List.mem_of_find?_eq_some hkv,
        by simpa using List.find?_some hkv⟩
    · cases h

/-! ## C17, C18: LocalTime -/

/-- A zone contains the point: the point is in its bounding box and the first containment test that
does not raise says so. -/
def Contains (f : Feature) (lat lon : ℚ) : Prop :=
  f.ymin ≤ lat ∧ lat ≤ f.ymax ∧ f.xmin ≤ lon ∧ lon ≤ f.xmax ∧
    (f.projected = some true ∨ (f.projected = none ∧ f.geographic = some true))

theorem isInside_iff (f : Feature) : isInside f = true ↔
    (f.projected = some true ∨ (f.projected = none ∧ f.geographic = some true)) := by
  unfold isInside
  rcases f.projected with _ | (_ | _) <;> rcases f.geographic with _ | (_ | _) <;> simp

theorem contains_iff (f : Feature) (lat lon : ℚ) :
    Contains f lat lon ↔ outsideBounds f lat lon = false ∧ isInside f = true := by
  unfold Contains outsideBounds
  rw [isInside_iff]
  simp only [Bool.or_eq_false_iff, decide_eq_false_iff_not, not_lt, gt_iff_lt]
  tauto

theorem scanZones_spec (tzOffset : String → ℚ → ℚ) (utc lat lon : ℚ) (fs : List Feature)
    (last : Option String) :
    (∃ before f after, fs = before ++ f :: after ∧ (∀ g ∈ before, ¬ Contains g lat lon) ∧
      Contains f lat lon ∧
      scanZones tzOffset utc lat lon fs last = (some f.tzid, some (tzOffset f.tzid utc))) ∨
    ((∀ g ∈ fs, ¬ Contains g lat lon) ∧
      ∃ z, scanZones tzOffset utc lat lon fs last = (z, none) ∧ (fs ≠ [] → z ≠ none) ∧
        (fs = [] → z = last)) := by
  induction fs generalizing last with
  | nil => right; exact ⟨by simp, last, rfl, by simp, by simp⟩
  | cons f fs ih =>
    by_cases hc : Contains f lat lon
    · left
      obtain ⟨h1, h2⟩ := (contains_iff f lat lon).1 hc
      exact ⟨[], f, fs, rfl, by simp, hc, by simp [scanZones, h1, h2]⟩
    · have hstep : scanZones tzOffset utc lat lon (f :: fs) last =
          scanZones tzOffset utc lat lon fs (some f.tzid) := by
        rw [contains_iff] at hc
        rw [scanZones]
        by_cases h1 : outsideBounds f lat lon = true
        · simp [h1]
        · have h2 : isInside f = false := by
            rw [Bool.not_eq_true] at h1
            by_contra h; exact hc ⟨h1, by simpa using h⟩
          simp [h1, h2]
      rw [hstep]
      rcases ih (some f.tzid) with ⟨b, g, a, h1, h2, h3, h4⟩ | ⟨h1, z, h2, h3, h4⟩
      · left
        refine ⟨f :: b, g, a, by rw [h1]; rfl, ?_, h3, h4⟩
        intro x hx
        rcases List.mem_cons.1 hx with rfl | hx
        · exact hc
        · exact h2 x hx
      · right
        refine ⟨?_, z, h2, fun _ => ?_, by simp⟩
        · intro x hx
          rcases List.mem_cons.1 hx with rfl | hx
          · exact hc
          · exact h1 x hx
        · by_cases hnil : fs = []
          · rw [h4 hnil]; simp
          · exact h3 hnil

/-- C17: on a non-empty zone list, the local time is UTC plus the offset of the first zone containing
the point, and otherwise UTC plus a whole number of hours within half an hour of lon/15. -/
theorem C17_local_time (tzOffset : String → ℚ → ℚ) (fs : List Feature) (hne : fs ≠ [])
    (utc lat lon : ℚ) :
    ∃ o, localTime tzOffset fs utc lat lon = .ok o ∧
      ((∃ before f after, fs = before ++ f :: after ∧ (∀ g ∈ before, ¬ Contains g lat lon) ∧
          Contains f lat lon ∧ getLocalTime o = .ok (.time (utc + tzOffset f.tzid utc))) ∨
        ((∀ g ∈ fs, ¬ Contains g lat lon) ∧ ∃ hours : ℤ, |lon / 15 - hours| ≤ 1 / 2 ∧
          getLocalTime o = .ok (.time (utc + hours * 3600)))) := by
  unfold localTime
  rcases scanZones_spec tzOffset utc lat lon fs none with ⟨b, f, a, h1, h2, h3, h4⟩ | ⟨h1, z, h2, h3, -⟩
  · rw [h4]
    exact ⟨_, rfl, Or.inl ⟨b, f, a, h1, h2, h3, rfl⟩⟩
  · rw [h2]
    obtain ⟨s, hs⟩ := Option.ne_none_iff_exists'.1 (h3 hne)
    rw [hs]
    exact ⟨_, rfl, Or.inr ⟨h1, Py.round (lon / 15), Py.round_abs_sub_le _, rfl⟩⟩

/-- Non-vacuity: a zone that contains the point behind one that does not. -/
example : Contains ⟨"B", 0, 0, 10, 10, none, some true, 0⟩ 5 5 ∧
    ¬ Contains ⟨"A", 0, 0, 4, 4, some true, some true, 0⟩ 5 5 := by
  constructor
  · refine ⟨?_, ?_, ?_, ?_, Or.inr ⟨rfl, rfl⟩⟩ <;> norm_num
  · intro h; have := h.2.1; norm_num at this

/-- C17 for the Natural Earth class: the first zone containing the point decides (no bounding box);
an unknown zone name falls back to the zone's own hour offset. -/
theorem C17_local_time_NE (tzOffset : String → ℚ → Option ℚ) (fs : List Feature) (hne : fs ≠ [])
    (utc lon : ℚ) :
    ∃ o, localTimeNE tzOffset fs utc lon = .ok o ∧
      ((∃ before f after, fs = before ++ f :: after ∧ (∀ g ∈ before, isInside g = false) ∧
          isInside f = true ∧ getLocalTime o =
            .ok (.time (utc + (tzOffset f.tzid utc).getD (f.zoneHours * 3600)))) ∨
        ((∀ g ∈ fs, isInside g = false) ∧ ∃ hours : ℤ, |lon / 15 - hours| ≤ 1 / 2 ∧
          getLocalTime o = .ok (.time (utc + hours * 3600)))) := by
  have spec : ∀ (l : List Feature) (last : Option String),
      (∃ before f after z, l = before ++ f :: after ∧ (∀ g ∈ before, isInside g = false) ∧
        isInside f = true ∧ scanZonesNE tzOffset utc l last =
          (some z, some ((tzOffset f.tzid utc).getD (f.zoneHours * 3600)))) ∨
      ((∀ g ∈ l, isInside g = false) ∧ ∃ z, scanZonesNE tzOffset utc l last = (z, none) ∧
        (l ≠ [] → z ≠ none) ∧ (l = [] → z = last)) := by
    intro l
    induction l with
    | nil => intro last; right; exact ⟨by simp, last, rfl, by simp, by simp⟩
    | cons f l ih =>
      intro last
      by_cases hc : isInside f = true
      · left
        cases ht : tzOffset f.tzid utc with
        | some o => exact ⟨[], f, l, f.tzid, rfl, by simp, hc, by simp [scanZonesNE, hc, ht]⟩
        | none => exact ⟨[], f, l, "undefined", rfl, by simp, hc, by simp [scanZonesNE, hc, ht]⟩
      · have hstep : scanZonesNE tzOffset utc (f :: l) last =
            scanZonesNE tzOffset utc l (some f.tzid) := by
          unfold scanZonesNE
          rw [if_neg hc]
          cases l <;> rfl
        rw [hstep]
        rcases ih (some f.tzid) with ⟨b, g, a, z, h1, h2, h3, h4⟩ | ⟨h1, z, h2, h3, h4⟩
        · left
          refine ⟨f :: b, g, a, z, by rw [h1]; rfl, ?_, h3, h4⟩
          intro x hx
          rcases List.mem_cons.1 hx with rfl | hx
          · simpa using hc
          · exact h2 x hx
        · right
          refine ⟨?_, z, h2, fun _ => ?_, by simp⟩
          · intro x hx
            rcases List.mem_cons.1 hx with rfl | hx
            · simpa using hc
            · exact h1 x hx
          · by_cases hnil : l = []
            · rw [h4 hnil]; simp
            · exact h3 hnil
  unfold localTimeNE
  rcases spec fs none with ⟨b, f, a, z, h1, h2, h3, h4⟩ | ⟨h1, z, h2, h3, -⟩
  · rw [h4]
    exact ⟨_, rfl, Or.inl ⟨b, f, a, h1, h2, h3, rfl⟩⟩
  · rw [h2]
    obtain ⟨s, hs⟩ := Option.ne_none_iff_exists'.1 (h3 hne)
    rw [hs]
    exact ⟨_, rfl, Or.inr ⟨h1, Py.round (lon / 15), Py.round_abs_sub_le _, rfl⟩⟩

/-- C18 (what holds): on every constructed object `getLocalTime` and `getUTCOffset` return values, and
the local time is UTC plus the offset; the offset is a timedelta when a zone contains the point. -/
theorem C18_accessors_partial (tzOffset : String → ℚ → ℚ) (fs : List Feature) (utc lat lon : ℚ)
    (o : Obj) (h : localTime tzOffset fs utc lat lon = .ok o) :
    ∃ t off, getLocalTime o = .ok (.time t) ∧ getUTCOffset o = .ok (.offset off) ∧
      t = utc + (match off with | .timedelta s => s | .int n => n * 3600) ∧
      ((∃ f ∈ fs, Contains f lat lon) → ∃ s, off = .timedelta s) := by
  unfold localTime at h
  rcases scanZones_spec tzOffset utc lat lon fs none with ⟨b, f, a, h1, h2, h3, h4⟩ | ⟨h1, z, h2, h3, -⟩
  · rw [h4] at h
    cases h
    exact ⟨_, _, rfl, rfl, rfl, fun _ => ⟨_, rfl⟩⟩
  · rw [h2] at h
    unfold finishZone at h
    cases z with
    | none => simp at h
    | some s =>
      cases h
      exact ⟨_, _, rfl, rfl, rfl, fun ⟨f, hf, hc⟩ => absurd hc (h1 f hf)⟩

/-- C18 is violated: `getTimeZone` raises AttributeError on every constructed object. -/
theorem C18_getTimeZone_violated (tzOffset : String → ℚ → ℚ) (fs : List Feature) (utc lat lon : ℚ)
    (o : Obj) (h : localTime tzOffset fs utc lat lon = .ok o) :
    getTimeZone o = .error .attributeError := by
  unfold localTime finishZone at h
  simp only at h
  split at h
  · cases h
  · cases h; rfl

/-- C18 is violated: construction fails on an empty zone list. -/
theorem C18_empty_violated (tzOffset : String → ℚ → ℚ) (utc lat lon : ℚ) :
    localTime tzOffset [] utc lat lon = .error .unboundLocal := rfl

/-- C18 is violated: away from every zone the offset is a bare int, not a timedelta. -/
theorem C18_nautical_int_violated (tzOffset : String → ℚ → ℚ) (f : Feature) (utc lat lon : ℚ)
    (h : ¬ Contains f lat lon) :
    ∃ o n, localTime tzOffset [f] utc lat lon = .ok o ∧ getUTCOffset o = .ok (.offset (.int n)) := by
  unfold localTime
  rcases scanZones_spec tzOffset utc lat lon [f] none with ⟨b, g, a, h1, h2, h3, h4⟩ | ⟨h1, z, h2, h3, -⟩
  · exfalso
    have hg : g ∈ [f] := by rw [h1]; simp
    simp only [List.mem_singleton] at hg
    subst hg; exact h h3
  · rw [h2]
    obtain ⟨s, hs⟩ := Option.ne_none_iff_exists'.1 (h3 (by simp))
    rw [hs]
    exact ⟨_, Py.round (lon / 15), rfl, rfl⟩

end Verif.Props
