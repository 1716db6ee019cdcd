import Verif.Model.CityGrid
import Verif.Spec.CityGrid
import Verif.Spec.Double
import Verif.Props.Cities
import Verif.Props.DoubleColors

/-!
# C197: limitByGrid in binary arithmetic
-/

namespace Verif.Props
open Verif Verif.Cities Verif.Spec Verif.Dbl

theorem cellMin_zero {lo : ℚ} (h : IsDouble lo) (d : ℚ) : cellMin lo d 0 = lo := by
  unfold cellMin
  rw [Nat.cast_zero, rnd_zero, zero_mul, rnd_zero, add_zero, rnd_double h]

theorem grid_near {lo hi : ℚ} (h : lo ≤ hi) (h1 : |lo| ≤ 360) (h2 : |hi| ≤ 360) {n : ℕ} (hn : 0 < n) (hb : n ≤ 2 ^ 40) {j : ℕ} (hj : j ≤ n) :
    |cellWidth lo hi n - (hi - lo) / n| ≤ 2048 / n / 2 ^ 53 ∧ |cellMin lo (cellWidth lo hi n) j - border lo hi n j| ≤ 3584 / 2 ^ 53 := by
  have hnq : (0 : ℚ) < n := by exact_mod_cast hn
  have hn1 : (1 : ℚ) ≤ n := by exact_mod_cast hn
  have hnb : (n : ℚ) ≤ 2 ^ 40 := by exact_mod_cast hb
  have hjn : (j : ℚ) ≤ n := by exact_mod_cast hj
  have hj0 : (0 : ℚ) ≤ j := by positivity
  obtain ⟨a1, a2⟩ := abs_le.1 h1
  obtain ⟨b1, b2⟩ := abs_le.1 h2
  set D := hi - lo with hD
  have hD0 : 0 ≤ D := by rw [hD]; linarith
  have hD1 : D ≤ 720 := by rw [hD]; linarith
  have e1 : |rnd D - D| ≤ 1024 / 2 ^ 53 := rnd_one (by rw [abs_of_nonneg hD0]; linarith) (by norm_num)
  set D' := rnd D with hD'
  obtain ⟨c1, c2⟩ := abs_le.1 e1
  have hD'0 : 0 ≤ D' := rnd_nonneg hD0
  have hD'1 : D' ≤ 721 := by
    have : (1024 : ℚ) / 2 ^ 53 ≤ 1 := by norm_num
    linarith
  have rn : rnd n = n := rnd_double (nat_double (hb.trans (by norm_num)))
  have rj : rnd j = j := rnd_double (nat_double ((hj.trans hb).trans (by norm_num)))
  have hq : |D' / n| ≤ 1024 / n := by
    rw [abs_of_nonneg (by positivity)]
    exact div_le_div_of_nonneg_right (by linarith) hnq.le
  have hB : (2 : ℚ) ^ (-1022 : ℤ) ≤ 1024 / n := by
    rw [le_div_iff₀ hnq]
    have hz : (2 : ℚ) ^ (-1022 : ℤ) ≤ 2 ^ (-40 : ℤ) := zpow_le_zpow_right₀ (by norm_num) (by norm_num)
    calc (2 : ℚ) ^ (-1022 : ℤ) * n ≤ 2 ^ (-40 : ℤ) * 2 ^ 40 := mul_le_mul hz hnb hnq.le (by positivity)
      _ ≤ 1024 := by norm_num
  have e2 : |rnd (D' / n) - D' / n| ≤ 1024 / n / 2 ^ 53 := rnd_bound hq hB
  have hw : cellWidth lo hi n = rnd (D' / n) := by unfold cellWidth; rw [rn]
  set d := rnd (D' / n) with hd
  have e3 : |d - D / n| ≤ 2048 / n / 2 ^ 53 := by
    have : |D' / n - D / n| ≤ 1024 / n / 2 ^ 53 := by
      rw [← sub_div, abs_div, abs_of_pos hnq, div_right_comm]
      exact div_le_div_of_nonneg_right e1 hnq.le
    calc |d - D / n| ≤ |d - D' / n| + |D' / n - D / n| := abs_sub_le _ _ _
      _ ≤ 1024 / n / 2 ^ 53 + 1024 / n / 2 ^ 53 := add_le_add e2 this
      _ = _ := by ring
  have e4 : |j * d - D * j / n| ≤ 2048 / 2 ^ 53 := by
    have : j * d - D * j / n = j * (d - D / n) := by ring
    rw [this, abs_mul, abs_of_nonneg hj0]
    calc (j : ℚ) * |d - D / n| ≤ n * (2048 / n / 2 ^ 53) := mul_le_mul hjn e3 (abs_nonneg _) hnq.le
      _ = _ := by field_simp
  have hf0 : 0 ≤ D * j / n := by positivity
  have hf1 : D * j / n ≤ D := by
    rw [div_le_iff₀ hnq]
    exact mul_le_mul_of_nonneg_left hjn hD0
  obtain ⟨g1, g2⟩ := abs_le.1 e4
  have hs : (2048 : ℚ) / 2 ^ 53 ≤ 1 / 8 := by norm_num
  have e5 : |rnd (j * d) - j * d| ≤ 1024 / 2 ^ 53 := rnd_one (abs_le.2 ⟨by linarith, by linarith⟩) (by norm_num)
  obtain ⟨k1, k2⟩ := abs_le.1 e5
  have hs' : (1024 : ℚ) / 2 ^ 53 ≤ 1 / 8 := by norm_num
  have hbd : border lo hi n j = lo + D * j / n := rfl
  have e6 : |rnd (lo + rnd (j * d)) - (lo + rnd (j * d))| ≤ 512 / 2 ^ 53 := by
    refine rnd_one (abs_le.2 ⟨by linarith, by linarith⟩) (by norm_num)
  obtain ⟨l1, l2⟩ := abs_le.1 e6
  have hc : cellMin lo d j = rnd (lo + rnd (j * d)) := by unfold cellMin; rw [rj]
  rw [hw]
  refine ⟨e3, ?_⟩
  rw [hc, hbd, abs_le]
  generalize rnd (lo + rnd (j * d)) = X at *
  generalize rnd (j * d) = Y at *
  generalize j * d = Z at *
  generalize D * j / n = W at *
  constructor <;> linarith

theorem cellMax_near {lo hi : ℚ} (h : lo ≤ hi) (h1 : |lo| ≤ 360) (h2 : |hi| ≤ 360) {n : ℕ} (hn : 0 < n) (hb : n ≤ 2 ^ 40) {j : ℕ} (hj : j < n) :
    |cellMax lo (cellWidth lo hi n) j - border lo hi n (j + 1)| ≤ 6144 / 2 ^ 53 := by
  have hnq : (0 : ℚ) < n := by exact_mod_cast hn
  have hn1 : (1 : ℚ) ≤ n := by exact_mod_cast hn
  obtain ⟨e1, e2⟩ := grid_near h h1 h2 hn hb hj.le
  have e3 : (2048 : ℚ) / n / 2 ^ 53 ≤ 2048 / 2 ^ 53 := by
    apply div_le_div_of_nonneg_right _ (by positivity)
    exact div_le_self (by norm_num) hn1
  have hbd : border lo hi n (j + 1) = border lo hi n j + (hi - lo) / n := by unfold border; push_cast; ring
  have hjn : ((j + 1 : ℕ) : ℚ) ≤ n := by exact_mod_cast hj
  have hlo : lo ≤ border lo hi n (j + 1) := by
    have : 0 ≤ (hi - lo) * (j + 1 : ℕ) / n := by
      have := sub_nonneg.2 h
      positivity
    unfold border; linarith
  have hhi : border lo hi n (j + 1) ≤ hi := by
    have : (hi - lo) * (j + 1 : ℕ) / n ≤ hi - lo := by
      rw [div_le_iff₀ hnq]
      exact mul_le_mul_of_nonneg_left hjn (sub_nonneg.2 h)
    unfold border; linarith
  obtain ⟨a1, a2⟩ := abs_le.1 h1
  obtain ⟨b1, b2⟩ := abs_le.1 h2
  obtain ⟨c1, c2⟩ := abs_le.1 e1
  obtain ⟨d1, d2⟩ := abs_le.1 e2
  unfold cellMax
  set m := cellMin lo (cellWidth lo hi n) j
  set w := cellWidth lo hi n
  have s1 : (3584 : ℚ) / 2 ^ 53 ≤ 1 / 8 := by norm_num
  have s2 : (2048 : ℚ) / 2 ^ 53 ≤ 1 / 8 := by norm_num
  have e6 : |rnd (m + w) - (m + w)| ≤ 512 / 2 ^ 53 := by
    refine rnd_one (abs_le.2 ⟨by linarith, by linarith⟩) (by norm_num)
  obtain ⟨l1, l2⟩ := abs_le.1 e6
  rw [hbd, abs_le]
  constructor <;> linarith

/-- The limits of the cells in binary arithmetic against the exact ones. -/
theorem strip_binary {lo hi : ℚ} (hd : IsDouble lo) (h : lo ≤ hi) (h1 : |lo| ≤ 360) (h2 : |hi| ≤ 360) {n : ℕ} (hn : 0 < n) (hb : n ≤ 2 ^ 40) {j : ℕ} (hj : j < n)
    (x : ℚ) : (InStrip (-(1 / 2 ^ 40)) lo hi n j x → cellMin lo (cellWidth lo hi n) j < x ∧ x ≤ cellMax lo (cellWidth lo hi n) j) ∧
      (cellMin lo (cellWidth lo hi n) j < x → x ≤ cellMax lo (cellWidth lo hi n) j → InStrip (1 / 2 ^ 40) lo hi n j x) := by
  obtain ⟨_, e2⟩ := grid_near h h1 h2 hn hb hj.le
  have e3 := cellMax_near h h1 h2 hn hb hj
  obtain ⟨d1, d2⟩ := abs_le.1 e2
  obtain ⟨f1, f2⟩ := abs_le.1 e3
  have s1 : (3584 : ℚ) / 2 ^ 53 ≤ 1 / 2 ^ 40 := by norm_num
  have s2 : (6144 : ℚ) / 2 ^ 53 ≤ 1 / 2 ^ 40 := by norm_num
  unfold InStrip
  by_cases h0 : j = 0
  · subst h0
    have hz : border lo hi n 0 = lo := by unfold border; simp
    rw [cellMin_zero hd, if_pos rfl, if_pos rfl, hz]
    constructor
    · rintro ⟨p, q⟩
      exact ⟨by linarith, by linarith⟩
    · intro p q
      exact ⟨by linarith, by linarith⟩
  · rw [if_neg h0, if_neg h0]
    constructor
    · rintro ⟨p, q⟩
      exact ⟨by linarith, by linarith⟩
    · intro p q
      exact ⟨by linarith, by linarith⟩

/-- The limits of the cells of a table. -/
def inBinary (xmin xmax ymin ymax : ℚ) (nx ny i j : ℕ) (c : City) : Bool :=
  decide (c.lat > cellMin ymin (cellWidth ymin ymax ny) i) && decide (c.lat ≤ cellMax ymin (cellWidth ymin ymax ny) i) &&
    decide (c.lon > cellMin xmin (cellWidth xmin xmax nx) j) && decide (c.lon ≤ cellMax xmin (cellWidth xmin xmax nx) j)

theorem binaryGrid_eq (sort : List City → List City) (t : Table) (h : HasColumns t)
    (hp : "pop" ∈ t.columns) (nx ny : ℕ) (k : ℤ) (hnx : 0 < nx) (hny : 0 < ny)
    {xmin xmax ymin ymax : ℚ} (hb : IsBounds t.rows xmin xmax ymin ymax) :
    Dbl.limitByGrid sort t nx ny k = .ok { t with rows := (((List.range ny).map (fun i =>
      (List.range nx).map (fun j => sliceTo (sort (t.rows.filter (inBinary xmin xmax ymin ymax nx ny i j))) k))).flatten).flatten } := by
  obtain ⟨b1, b2, b3, b4⟩ := colMin_of_isBounds hb
  have hcell : ∀ i j, Dbl.gridCell sort t xmin ymin (cellWidth xmin xmax nx) (cellWidth ymin ymax ny) k i j =
      .ok (sliceTo (sort (t.rows.filter (inBinary xmin xmax ymin ymax nx ny i j))) k) := by
    intro i j
    unfold Dbl.gridCell limitByBounds
    rw [(C21_constructor _).1 (by exact h)]
    rfl
  unfold Dbl.limitByGrid
  simp only [b1, b2, b3, b4]
  rw [if_neg (by simpa using hp), if_neg (by omega)]
  have hrow : ∀ i ∈ List.range ny, (List.range nx).mapM (fun j => Dbl.gridCell sort t xmin ymin (cellWidth xmin xmax nx) (cellWidth ymin ymax ny) k i j) =
      .ok ((List.range nx).map (fun j => sliceTo (sort (t.rows.filter (inBinary xmin xmax ymin ymax nx ny i j))) k)) := by
    intro i _
    exact mapM_ok _ _ _ (fun j _ => hcell i j)
  rw [mapM_ok _ _ _ hrow]
  exact (C21_constructor _).1 h

theorem ordinary_bounds {t : Table} (ho : DoubleTable t) {xmin xmax ymin ymax : ℚ} (hb : IsBounds t.rows xmin xmax ymin ymax) :
    (IsDouble xmin ∧ |xmin| ≤ 360 ∧ |xmax| ≤ 360 ∧ xmin ≤ xmax) ∧ (IsDouble ymin ∧ |ymin| ≤ 360 ∧ |ymax| ≤ 360 ∧ ymin ≤ ymax) := by
  have hx : xmin ≤ xmax := hb.1.2 hb.2.1.1
  have hy : ymin ≤ ymax := hb.2.2.1.2 hb.2.2.2.1
  obtain ⟨⟨⟨a, ha, rfl⟩, _⟩, ⟨⟨b, hb, rfl⟩, _⟩, ⟨⟨c, hc, rfl⟩, _⟩, ⟨⟨d, hd, rfl⟩, _⟩⟩ := hb
  exact ⟨⟨(ho a ha).1, (ho a ha).2.2.1, (ho b hb).2.2.1, hx⟩, ⟨(ho c hc).2.1, (ho c hc).2.2.2, (ho d hd).2.2.2, hy⟩⟩

theorem inBinary_iff {xmin xmax ymin ymax : ℚ} {nx ny i j : ℕ} {c : City} : inBinary xmin xmax ymin ymax nx ny i j c = true ↔
    (cellMin xmin (cellWidth xmin xmax nx) j < c.lon ∧ c.lon ≤ cellMax xmin (cellWidth xmin xmax nx) j) ∧
      (cellMin ymin (cellWidth ymin ymax ny) i < c.lat ∧ c.lat ≤ cellMax ymin (cellWidth ymin ymax ny) i) := by
  unfold inBinary
  simp only [Bool.and_eq_true, decide_eq_true_eq, gt_iff_lt]
  tauto

theorem inBinary_has {t : Table} (ho : DoubleTable t) {xmin xmax ymin ymax : ℚ} (hb : IsBounds t.rows xmin xmax ymin ymax) {nx ny : ℕ} (hnx : 0 < nx) (hny : 0 < ny)
    (hx : nx ≤ 2 ^ 40) (hy : ny ≤ 2 ^ 40) {i j : ℕ} (hi : i < ny) (hj : j < nx) (c : City) :
    ((⟨xmin, xmax, ymin, ymax, nx, ny⟩ : Grid).has (-(1 / 2 ^ 40)) i j c → inBinary xmin xmax ymin ymax nx ny i j c = true) ∧
      (inBinary xmin xmax ymin ymax nx ny i j c = true → (⟨xmin, xmax, ymin, ymax, nx, ny⟩ : Grid).has (1 / 2 ^ 40) i j c) := by
  obtain ⟨⟨x0, x1, x2, x3⟩, ⟨y0, y1, y2, y3⟩⟩ := ordinary_bounds ho hb
  obtain ⟨p1, p2⟩ := strip_binary x0 x3 x1 x2 hnx hx hj c.lon
  obtain ⟨q1, q2⟩ := strip_binary y0 y3 y1 y2 hny hy hi c.lat
  rw [inBinary_iff]
  exact ⟨fun ⟨a, b⟩ => ⟨p1 a, q1 b⟩, fun ⟨a, b⟩ => ⟨p2 a.1 a.2, q2 b.1 b.2⟩⟩

/-- C197 (partial): on a table of ordinary coordinates limitByGrid puts the most populous cities of each cell one after the other, where the cells are
those of the exact grid up to 2^-40 degrees: cities further inside are never left out of account, and cities further outside never taken. -/
theorem C197_cells_partial (sort : List City → List City) (hs : SortsDown City.pop sort) (t : Table) (h : HasColumns t) (hp : "pop" ∈ t.columns)
    (ho : DoubleTable t) (nx ny k : ℕ) (hnx : 0 < nx) (hny : 0 < ny) (hx : nx ≤ 2 ^ 40) (hy : ny ≤ 2 ^ 40)
    (xmin xmax ymin ymax : ℚ) (hb : IsBounds t.rows xmin xmax ymin ymax) :
    ∃ (t' : Table) (block pool : ℕ → ℕ → List City) (P : ℕ → ℕ → City → Prop), Dbl.limitByGrid sort t nx ny k = .ok t' ∧ t'.columns = t.columns ∧
      t'.rows = (((List.range ny).map fun i => (List.range nx).map fun j => block i j).flatten).flatten ∧
      ∀ i < ny, ∀ j < nx, TopK City.pop k (pool i j) (block i j) ∧ KeepsExactly (P i j) t.rows (pool i j) ∧
        (∀ c, (⟨xmin, xmax, ymin, ymax, nx, ny⟩ : Grid).has (-(1 / 2 ^ 40)) i j c → P i j c) ∧
        (∀ c, P i j c → (⟨xmin, xmax, ymin, ymax, nx, ny⟩ : Grid).has (1 / 2 ^ 40) i j c) := by
  refine ⟨_, fun i j => sliceTo (sort (t.rows.filter (inBinary xmin xmax ymin ymax nx ny i j))) k,
    fun i j => t.rows.filter (inBinary xmin xmax ymin ymax nx ny i j), fun i j c => inBinary xmin xmax ymin ymax nx ny i j c = true,
    binaryGrid_eq sort t h hp nx ny k hnx hny hb, rfl, rfl, ?_⟩
  intro i hi j hj
  refine ⟨topK_of_sort sort hs k _, keepsExactly_filter _ _ (fun _ => Iff.rfl) _, fun c => (inBinary_has ho hb hnx hny hx hy hi hj c).1,
    fun c => (inBinary_has ho hb hnx hny hx hy hi hj c).2⟩

theorem count_strips {α : Type} [DecidableEq α] (f : ℕ → List α) (a : α) (i0 n : ℕ) (h : ∀ i < n, i ≠ i0 → a ∉ f i) :
    (((List.range n).map f).flatten).count a = if i0 < n then (f i0).count a else 0 := by
  induction n with
  | zero => simp
  | succ n ih =>
    rw [List.range_succ, List.map_append, List.flatten_append, List.count_append, ih (fun i hi => h i (by omega))]
    simp only [List.map_cons, List.map_nil, List.flatten_cons, List.flatten_nil, List.append_nil]
    rcases Nat.lt_trichotomy i0 n with hc | hc | hc
    · rw [if_pos hc, if_pos (by omega), List.count_eq_zero.2 (h n (by omega) (by omega)), add_zero]
    · subst hc; simp
    · rw [if_neg (by omega), if_neg (by omega), List.count_eq_zero.2 (h n (by omega) (by omega))]

theorem count_cells {α : Type} [DecidableEq α] (f : ℕ → ℕ → List α) (a : α) {i0 j0 nx ny : ℕ} (hi : i0 < ny) (hj : j0 < nx)
    (h : ∀ i < ny, ∀ j < nx, a ∈ f i j → i = i0 ∧ j = j0) :
    ((((List.range ny).map fun i => (List.range nx).map fun j => f i j).flatten).flatten).count a = (f i0 j0).count a := by
  have e : (((List.range ny).map fun i => (List.range nx).map fun j => f i j).flatten).flatten =
      ((List.range ny).map fun i => ((List.range nx).map fun j => f i j).flatten).flatten := by
    rw [List.flatten_flatten, List.map_map]; rfl
  rw [e, count_strips _ a i0, if_pos hi, count_strips _ a j0, if_pos hj]
  · intro j hj' hne hc
    exact hne (h i0 hi j hj' hc).2
  · intro i hi' hne hc
    obtain ⟨l, hl, hcl⟩ := List.mem_flatten.1 hc
    obtain ⟨j, hj', rfl⟩ := List.mem_map.1 hl
    exact hne (h i hi' j (List.mem_range.1 hj') hcl).1

/-- Cities of which it is known which cell they are in. -/
theorem binary_count (sort : List City → List City) (hs : SortsDown City.pop sort) (rows : List City) (k : ℕ) {xmin xmax ymin ymax : ℚ} {nx ny i0 j0 : ℕ}
    (hi : i0 < ny) (hj : j0 < nx) (c : City) (h : ∀ i < ny, ∀ j < nx, inBinary xmin xmax ymin ymax nx ny i j c = true → i = i0 ∧ j = j0) :
    ((((List.range ny).map fun i => (List.range nx).map fun j =>
      sliceTo (sort (rows.filter (inBinary xmin xmax ymin ymax nx ny i j))) k).flatten).flatten).count c ≤ rows.count c ∧
    (inBinary xmin xmax ymin ymax nx ny i0 j0 c = true → rows.length ≤ k → ((((List.range ny).map fun i => (List.range nx).map fun j =>
      sliceTo (sort (rows.filter (inBinary xmin xmax ymin ymax nx ny i j))) k).flatten).flatten).count c = rows.count c) := by
  have hm : ∀ i < ny, ∀ j < nx, c ∈ sliceTo (sort (rows.filter (inBinary xmin xmax ymin ymax nx ny i j))) k → i = i0 ∧ j = j0 := by
    intro i hi' j hj' hc
    obtain ⟨rest, hr, _⟩ := topK_of_sort sort hs k (rows.filter (inBinary xmin xmax ymin ymax nx ny i j))
    exact h i hi' j hj' (List.mem_filter.1 (hr.subset (List.mem_append_left _ hc))).2
  rw [count_cells (fun i j => sliceTo (sort (rows.filter (inBinary xmin xmax ymin ymax nx ny i j))) k) c hi hj hm]
  obtain ⟨rest, hr, hl, _⟩ := topK_of_sort sort hs k (rows.filter (inBinary xmin xmax ymin ymax nx ny i0 j0))
  have hc := hr.count_eq c
  rw [List.count_append] at hc
  have hle : (rows.filter (inBinary xmin xmax ymin ymax nx ny i0 j0)).count c ≤ rows.count c := List.filter_sublist.count_le c
  refine ⟨by omega, fun hb hk => ?_⟩
  have hlen : rest = [] := by
    have h1 := hr.length_eq
    rw [List.length_append, hl] at h1
    have h2 := List.length_filter_le (inBinary xmin xmax ymin ymax nx ny i0 j0) rows
    exact List.length_eq_zero_iff.1 (by omega)
  rw [hlen, List.count_nil, add_zero] at hc
  rw [hc, List.count_filter hb]

theorem clear_strip {e lo hi x : ℚ} {n j : ℕ} (hj : j < n) (h : ClearOf e lo hi n x) :
    (border lo hi n j < x → x ≤ border lo hi n (j + 1) → InStrip (-e) lo hi n j x) ∧
      (InStrip e lo hi n j x → border lo hi n j < x ∧ x ≤ border lo hi n (j + 1)) := by
  obtain ⟨h0, _, h⟩ := h
  have u := h (j + 1) (by omega) (by omega)
  have z : border lo hi n 0 = lo := by unfold border; simp
  constructor
  · intro a b
    refine ⟨?_, ?_⟩
    · split_ifs with hz
      · linarith
      · have v := h j (by omega) hj.le
        rw [abs_of_pos (by linarith)] at v
        linarith
    · rw [abs_of_nonpos (by linarith)] at u
      linarith
  · rintro ⟨a, b⟩
    refine ⟨?_, ?_⟩
    · split_ifs at a with hz
      · linarith
      · have v := h j (by omega) hj.le
        by_contra hc
        rw [abs_of_nonpos (by linarith)] at v
        linarith
    · by_contra hc
      rw [abs_of_pos (by linarith)] at u
      linarith

/-- C197 (partial): a city that is not within 2^-40 degrees of a border occurs at most as often as in the table, and exactly as often if the number of cities
per cell is not limited. -/
theorem C197_clear_partial (sort : List City → List City) (hs : SortsDown City.pop sort) (t : Table) (h : HasColumns t) (hp : "pop" ∈ t.columns)
    (ho : DoubleTable t) (nx ny k : ℕ) (hnx : 0 < nx) (hny : 0 < ny) (hx : nx ≤ 2 ^ 40) (hy : ny ≤ 2 ^ 40)
    (xmin xmax ymin ymax : ℚ) (hb : IsBounds t.rows xmin xmax ymin ymax) (c : City) (h1 : ClearOf (1 / 2 ^ 40) xmin xmax nx c.lon)
    (h2 : ClearOf (1 / 2 ^ 40) ymin ymax ny c.lat) :
    ∃ t', Dbl.limitByGrid sort t nx ny k = .ok t' ∧ t'.rows.count c ≤ t.rows.count c ∧ (t.rows.length ≤ k → t'.rows.count c = t.rows.count c) := by
  obtain ⟨⟨x0, x1, x2, x3⟩, ⟨y0, y1, y2, y3⟩⟩ := ordinary_bounds ho hb
  refine ⟨_, binaryGrid_eq sort t h hp nx ny k hnx hny hb, ?_⟩
  obtain ⟨⟨i0, j0⟩, ⟨hi, hj, hc⟩, hu⟩ := C23_cells_cover xmin xmax ymin ymax c.lon c.lat nx ny hnx hny h1.1 h1.2.1 h2.1 h2.2.1
  have hiff : ∀ i j, InCell xmin xmax ymin ymax nx ny i j c.lon c.lat ↔ (border xmin xmax nx j < c.lon ∧ c.lon ≤ border xmin xmax nx (j + 1)) ∧
      (border ymin ymax ny i < c.lat ∧ c.lat ≤ border ymin ymax ny (i + 1)) := by
    intro i j
    unfold InCell border
    push_cast
    tauto
  have hone : ∀ i < ny, ∀ j < nx, inBinary xmin xmax ymin ymax nx ny i j c = true → i = i0 ∧ j = j0 := by
    intro i hi' j hj' hin
    obtain ⟨a, b⟩ := (inBinary_has ho hb hnx hny hx hy hi' hj' c).2 hin
    have := hu (i, j) ⟨hi', hj', (hiff i j).2 ⟨(clear_strip hj' h1).2 a, (clear_strip hi' h2).2 b⟩⟩
    exact ⟨congrArg Prod.fst this, congrArg Prod.snd this⟩
  obtain ⟨r1, r2⟩ := binary_count sort hs t.rows k hi hj c hone
  refine ⟨r1, fun hk => r2 ?_ hk⟩
  obtain ⟨⟨u1, u2⟩, ⟨v1, v2⟩⟩ := (hiff i0 j0).1 hc
  exact (inBinary_has ho hb hnx hny hx hy hi hj c).1 ⟨(clear_strip hj h1).1 u1 u2, (clear_strip hi h2).1 v1 v2⟩

theorem cell_two {lo hi : ℚ} (hd : IsDouble lo) (n : ℕ) : cellMax lo (cellWidth lo hi n) 0 = cellMin lo (cellWidth lo hi n) 1 := by
  have hw : IsDouble (cellWidth lo hi n) := rnd_isDouble _
  unfold cellMax
  rw [cellMin_zero hd]
  unfold cellMin
  rw [Nat.cast_one, rnd_double one_double, one_mul, rnd_double hw]

theorem two_apart {lo hi x : ℚ} (hd : IsDouble lo) {n j j' : ℕ} (hn : n ≤ 2) (hj : j < n) (hj' : j' < n)
    (a : cellMin lo (cellWidth lo hi n) j < x ∧ x ≤ cellMax lo (cellWidth lo hi n) j)
    (b : cellMin lo (cellWidth lo hi n) j' < x ∧ x ≤ cellMax lo (cellWidth lo hi n) j') : j = j' := by
  have e := cell_two (hi := hi) hd n
  rcases (by omega : j = j' ∨ j = 0 ∧ j' = 1 ∨ j = 1 ∧ j' = 0) with h | ⟨rfl, rfl⟩ | ⟨rfl, rfl⟩
  · exact h
  · linarith [a.2, b.1]
  · linarith [a.1, b.2]

theorem two_cover {lo hi x : ℚ} (hd : IsDouble lo) (h : lo ≤ hi) (h1 : |lo| ≤ 360) (h2 : |hi| ≤ 360) {n : ℕ} (hn : 0 < n) (hn2 : n ≤ 2) (ha : lo < x)
    (hb : x ≤ hi - 1 / 2 ^ 40) : ∃ j < n, cellMin lo (cellWidth lo hi n) j < x ∧ x ≤ cellMax lo (cellWidth lo hi n) j := by
  have e3 := cellMax_near h h1 h2 hn (hn2.trans (by norm_num)) (j := n - 1) (by omega)
  have hz : border lo hi n (n - 1 + 1) = hi := by
    have : (n : ℚ) ≠ 0 := by exact_mod_cast hn.ne'
    rw [Nat.sub_add_cancel hn]
    unfold border
    field_simp
    ring
  rw [hz] at e3
  have s2 : (6144 : ℚ) / 2 ^ 53 ≤ 1 / 2 ^ 40 := by norm_num
  have hl : x ≤ cellMax lo (cellWidth lo hi n) (n - 1) := by
    have := (abs_le.1 e3).1
    linarith
  by_cases hc : x ≤ cellMax lo (cellWidth lo hi n) 0
  · exact ⟨0, hn, by rw [cellMin_zero hd]; exact ha, hc⟩
  · have e := cell_two (hi := hi) hd n
    rcases (by omega : n = 1 ∨ n = 2) with rfl | rfl
    · exact absurd hl hc
    · exact ⟨1, by omega, by rw [← e]; linarith, hl⟩

/-- C197: with up to two columns and two rows, as by default, no city is repeated, and none is lost that is off the western and southern edge and more than
2^-40 degrees off the eastern and northern one. -/
theorem C197_default_partial (sort : List City → List City) (hs : SortsDown City.pop sort) (t : Table) (h : HasColumns t) (hp : "pop" ∈ t.columns)
    (ho : DoubleTable t) (nx ny k : ℕ) (hnx : 0 < nx) (hny : 0 < ny) (hx : nx ≤ 2) (hy : ny ≤ 2)
    (xmin xmax ymin ymax : ℚ) (hb : IsBounds t.rows xmin xmax ymin ymax) :
    ∃ t', Dbl.limitByGrid sort t nx ny k = .ok t' ∧ t'.rows.Subperm t.rows ∧
      ∀ c ∈ t.rows, c.lon ≠ xmin → c.lat ≠ ymin → c.lon ≤ xmax - 1 / 2 ^ 40 → c.lat ≤ ymax - 1 / 2 ^ 40 → t.rows.length ≤ k →
        t'.rows.count c = t.rows.count c := by
  obtain ⟨⟨x0, x1, x2, x3⟩, ⟨y0, y1, y2, y3⟩⟩ := ordinary_bounds ho hb
  refine ⟨_, binaryGrid_eq sort t h hp nx ny k hnx hny hb, ?_, ?_⟩
  · rw [List.subperm_ext_iff]
    intro c hc
    obtain ⟨l, hl, hcl⟩ := List.mem_flatten.1 hc
    obtain ⟨l2, hl2, hll⟩ := List.mem_flatten.1 hl
    obtain ⟨i, hi, rfl⟩ := List.mem_map.1 hl2
    obtain ⟨j, hj, rfl⟩ := List.mem_map.1 hll
    obtain ⟨rest, hr, _⟩ := topK_of_sort sort hs k (t.rows.filter (inBinary xmin xmax ymin ymax nx ny i j))
    have hin := inBinary_iff.1 (List.mem_filter.1 (hr.subset (List.mem_append_left _ hcl))).2
    refine (binary_count sort hs t.rows k (List.mem_range.1 hi) (List.mem_range.1 hj) c ?_).1
    intro i' hi' j' hj' hin'
    have hin' := inBinary_iff.1 hin'
    exact ⟨two_apart y0 hy hi' (List.mem_range.1 hi) hin'.2 hin.2, two_apart x0 hx hj' (List.mem_range.1 hj) hin'.1 hin.1⟩
  · intro c hc n1 n2 a b hk
    have hlo : xmin < c.lon := lt_of_le_of_ne (hb.1.2 ⟨c, hc, rfl⟩) (Ne.symm n1)
    have hla : ymin < c.lat := lt_of_le_of_ne (hb.2.2.1.2 ⟨c, hc, rfl⟩) (Ne.symm n2)
    obtain ⟨j, hj, pj⟩ := two_cover x0 x3 x1 x2 hnx hx hlo a
    obtain ⟨i, hi, pi⟩ := two_cover y0 y3 y1 y2 hny hy hla b
    refine (binary_count sort hs t.rows k hi hj c ?_).2 (inBinary_iff.2 ⟨pj, pi⟩) hk
    intro i' hi' j' hj' hin'
    have hin' := inBinary_iff.1 hin'
    exact ⟨two_apart y0 hy hi' hi hin'.2 pi, two_apart x0 hx hj' hj hin'.1 pj⟩

theorem dyadic_double {m : ℤ} {e : ℕ} (hm : |m| < 2 ^ 53) (he : e ≤ 1074) : IsDouble (m / 2 ^ e) :=
  ⟨m, -(e : ℤ), hm, by omega, by rw [zpow_neg, zpow_natCast, div_eq_mul_inv]⟩

theorem whole_cells {A B : ℤ} (hA : |(A : ℚ) / 2 ^ 20| ≤ 360) (hB : |(B : ℚ) / 2 ^ 20| ≤ 360) {a j : ℕ} (ha : a ≤ 20) (hj : j < 2 ^ a) :
    cellMin (A / 2 ^ 20) (cellWidth (A / 2 ^ 20) (B / 2 ^ 20) (2 ^ a)) j = border (A / 2 ^ 20) (B / 2 ^ 20) (2 ^ a) j ∧
    cellMax (A / 2 ^ 20) (cellWidth (A / 2 ^ 20) (B / 2 ^ 20) (2 ^ a)) j = border (A / 2 ^ 20) (B / 2 ^ 20) (2 ^ a) (j + 1) := by
  have key : ∀ C : ℤ, |(C : ℚ) / 2 ^ 20| ≤ 360 → |C| ≤ 377487360 := by
    intro C hC
    rw [abs_div, abs_of_pos (by positivity : (0 : ℚ) < 2 ^ 20), div_le_iff₀ (by positivity)] at hC
    norm_num at hC
    exact_mod_cast hC
  have kA := abs_le.1 (key A hA)
  have kB := abs_le.1 (key B hB)
  have h2a : (2 : ℤ) ^ a ≤ 2 ^ 20 := pow_le_pow_right₀ (by norm_num) ha
  have h2a1 : (1 : ℤ) ≤ 2 ^ a := one_le_pow₀ (by norm_num)
  have hjz : (j : ℤ) + 1 ≤ 2 ^ a := by exact_mod_cast hj
  have hj0 : (0 : ℤ) ≤ j := by positivity
  have p2 : (0 : ℚ) < 2 ^ a := by positivity
  have bAB : |B - A| ≤ 754974720 := abs_le.2 ⟨by linarith [kA.1, kA.2, kB.1, kB.2], by linarith [kA.1, kA.2, kB.1, kB.2]⟩
  have hj20 : (j : ℤ) + 1 ≤ 2 ^ 20 := hjz.trans h2a
  have bj : |(j : ℤ) * (B - A)| ≤ 1048576 * 754974720 := by
    rw [abs_mul, abs_of_nonneg hj0]
    exact mul_le_mul (by norm_num at hj20; omega) bAB (abs_nonneg _) (by norm_num)
  have bj1 : |((j : ℤ) + 1) * (B - A)| ≤ 1048576 * 754974720 := by
    rw [abs_mul, abs_of_nonneg (by omega)]
    exact mul_le_mul (by norm_num at hj20; omega) bAB (abs_nonneg _) (by norm_num)
  have bA : |A * 2 ^ a| ≤ 377487360 * 1048576 := by
    rw [abs_mul, abs_of_nonneg (by positivity : (0 : ℤ) ≤ 2 ^ a)]
    exact mul_le_mul (key A hA) (by norm_num at h2a; exact h2a) (by positivity) (by norm_num)
  have r1 : rnd ((B : ℚ) / 2 ^ 20 - A / 2 ^ 20) = (B - A) / 2 ^ 20 := by
    have e : (B : ℚ) / 2 ^ 20 - A / 2 ^ 20 = ((B - A : ℤ) : ℚ) / 2 ^ 20 := by push_cast; ring
    rw [e, rnd_double (dyadic_double (lt_of_le_of_lt bAB (by norm_num)) (by norm_num))]
    push_cast
    ring
  have r2 : rnd (((2 ^ a : ℕ) : ℚ)) = 2 ^ a := by
    rw [rnd_double (nat_double ((Nat.pow_le_pow_right (by norm_num) ha).trans (by norm_num)))]
    push_cast
    rfl
  have r3 : rnd (j : ℚ) = j := rnd_double (nat_double (by
    have : j ≤ 2 ^ 20 := by exact_mod_cast (by omega : (j : ℤ) ≤ 2 ^ 20)
    exact this.trans (by norm_num)))
  have w : cellWidth (A / 2 ^ 20) (B / 2 ^ 20) (2 ^ a) = ((B - A : ℤ) : ℚ) / 2 ^ (20 + a) := by
    unfold cellWidth
    rw [r1, r2]
    have e : ((B : ℚ) - A) / 2 ^ 20 / 2 ^ a = ((B - A : ℤ) : ℚ) / 2 ^ (20 + a) := by rw [pow_add]; push_cast; field_simp
    rw [e, rnd_double (dyadic_double (lt_of_le_of_lt bAB (by norm_num)) (by omega))]
  have m : cellMin (A / 2 ^ 20) (cellWidth (A / 2 ^ 20) (B / 2 ^ 20) (2 ^ a)) j = ((A * 2 ^ a + j * (B - A) : ℤ) : ℚ) / 2 ^ (20 + a) := by
    unfold cellMin
    rw [w, r3]
    have e : (j : ℚ) * (((B - A : ℤ) : ℚ) / 2 ^ (20 + a)) = ((j * (B - A) : ℤ) : ℚ) / 2 ^ (20 + a) := by push_cast; ring
    rw [e, rnd_double (dyadic_double (lt_of_le_of_lt bj (by norm_num)) (by omega))]
    have e' : (A : ℚ) / 2 ^ 20 + ((j * (B - A) : ℤ) : ℚ) / 2 ^ (20 + a) = ((A * 2 ^ a + j * (B - A) : ℤ) : ℚ) / 2 ^ (20 + a) := by
      rw [pow_add]; push_cast; field_simp
    rw [e', rnd_double (dyadic_double (lt_of_le_of_lt (abs_add_le _ _) (lt_of_le_of_lt (add_le_add bA bj) (by norm_num))) (by omega))]
  constructor
  · rw [m]
    unfold border
    rw [pow_add]; push_cast; field_simp
  · unfold cellMax
    rw [m, w]
    have e : ((A * 2 ^ a + j * (B - A) : ℤ) : ℚ) / 2 ^ (20 + a) + ((B - A : ℤ) : ℚ) / 2 ^ (20 + a) = ((A * 2 ^ a + (j + 1) * (B - A) : ℤ) : ℚ) / 2 ^ (20 + a) := by
      push_cast; ring
    rw [e, rnd_double (dyadic_double (lt_of_le_of_lt (abs_add_le _ _) (lt_of_le_of_lt (add_le_add bA bj1) (by norm_num))) (by omega))]
    unfold border
    rw [pow_add]; push_cast; field_simp

theorem bounds_exist {rows : List City} (h : rows ≠ []) : ∃ xmin xmax ymin ymax, IsBounds rows xmin xmax ymin ymax := by
  have key : ∀ f : City → ℚ, ∃ m M, IsLeast {x | ∃ c ∈ rows, f c = x} m ∧ IsGreatest {x | ∃ c ∈ rows, f c = x} M := by
    intro f
    have hne : rows.map f ≠ [] := by simpa using h
    cases h1 : (rows.map f).min? with
    | none => exact absurd (List.min?_eq_none_iff.1 h1) hne
    | some m =>
      cases h2 : (rows.map f).max? with
      | none => exact absurd (List.max?_eq_none_iff.1 h2) hne
      | some M =>
        obtain ⟨p, q⟩ := List.min?_eq_some_iff.1 h1
        obtain ⟨u, v⟩ := List.max?_eq_some_iff.1 h2
        refine ⟨m, M, ⟨List.mem_map.1 p, ?_⟩, ⟨List.mem_map.1 u, ?_⟩⟩
        · rintro x ⟨c, hc, rfl⟩
          exact q _ (List.mem_map_of_mem hc)
        · rintro x ⟨c, hc, rfl⟩
          exact v _ (List.mem_map_of_mem hc)
  obtain ⟨a, b, h1, h2⟩ := key City.lon
  obtain ⟨c, d, h3, h4⟩ := key City.lat
  exact ⟨a, b, c, d, h1, h2, h3, h4⟩

/-- C197: if the coordinates are whole multiples of 2^-20 degrees and the numbers of columns and rows powers of two, the result is the exact one. -/
theorem C197_whole_partial (sort : List City → List City) (t : Table) (h : HasColumns t) (hp : "pop" ∈ t.columns)
    (ho : ∀ c ∈ t.rows, (∃ A : ℤ, c.lon = A / 2 ^ 20) ∧ (∃ B : ℤ, c.lat = B / 2 ^ 20) ∧ |c.lon| ≤ 360 ∧ |c.lat| ≤ 360) (hne : t.rows ≠ []) (a b : ℕ) (k : ℤ)
    (ha : a ≤ 20) (hb : b ≤ 20) : Dbl.limitByGrid sort t (2 ^ a) (2 ^ b) k = Cities.limitByGrid sort t (2 ^ a) (2 ^ b) k := by
  obtain ⟨xmin, xmax, ymin, ymax, hbd⟩ : ∃ xmin xmax ymin ymax, IsBounds t.rows xmin xmax ymin ymax := bounds_exist hne
  rw [binaryGrid_eq sort t h hp _ _ k (by positivity) (by positivity) hbd, limitByGrid_eq sort t h hp _ _ k (by positivity) (by positivity) hbd]
  congr 4
  have hbd' := hbd
  obtain ⟨⟨⟨c1, m1, rfl⟩, _⟩, ⟨⟨c2, m2, rfl⟩, _⟩, ⟨⟨c3, m3, rfl⟩, _⟩, ⟨⟨c4, m4, rfl⟩, _⟩⟩ := hbd'
  obtain ⟨⟨A, hA⟩, _, bA, _⟩ := ho c1 m1
  obtain ⟨⟨B, hB⟩, _, bB, _⟩ := ho c2 m2
  obtain ⟨_, ⟨C, hC⟩, _, bC⟩ := ho c3 m3
  obtain ⟨_, ⟨D, hD⟩, _, bD⟩ := ho c4 m4
  rw [hA] at bA
  rw [hB] at bB
  rw [hC] at bC
  rw [hD] at bD
  apply List.map_congr_left
  intro i hi
  apply List.map_congr_left
  intro j hj
  congr 2
  unfold cellRows
  apply List.filter_congr
  intro c _
  obtain ⟨x1, x2⟩ := whole_cells bA bB ha (List.mem_range.1 hj)
  obtain ⟨y1, y2⟩ := whole_cells bC bD hb (List.mem_range.1 hi)
  rw [Bool.eq_iff_iff, inBinary_iff, hA, hB, hC, hD, x1, x2, y1, y2, decide_eq_true_eq]
  unfold InCell border
  push_cast
  tauto

/-- A sort by population that can be evaluated. -/
def byPop (xs : List City) : List City := xs.insertionSort (fun a b => b.pop ≤ a.pop)

/-- A table with populations. -/
def popTable (rows : List City) : Table := ⟨["name", "lat", "lon", "pop"], rows⟩

/-- The names and longitudes of a result. -/
def namesOf (r : Except Err Table) : List String := (r.toOption.map fun t => t.rows.map City.name).getD []

/-- C197 violated: the easternmost city is lost although every cell has room (longitudes -170.3, -160 and -146.4 with the default grid of two by two). -/
theorem C197_edge_violated : ∃ t : Table, DoubleTable t ∧ (∃ c ∈ t.rows, c.name = "east" ∧ c.lon = rnd (-1464 / 10)) ∧
    namesOf (Dbl.limitByGrid byPop t 2 2 20) = ["middle"] ∧ namesOf (Cities.limitByGrid byPop t 2 2 20) = ["middle", "east"] := by
  refine ⟨popTable [⟨"west", 0, rnd (-1703 / 10), 5⟩, ⟨"middle", 1, -160, 5⟩, ⟨"east", 2, rnd (-1464 / 10), 9⟩], ?_, ?_, by decide +kernel, by decide +kernel⟩
  · intro c hc
    simp only [popTable, List.mem_cons, List.not_mem_nil, or_false] at hc
    have b1 : |rnd (-1703 / 10)| ≤ 360 := by decide +kernel
    have b2 : |rnd (-1464 / 10)| ≤ 360 := by decide +kernel
    rcases hc with rfl | rfl | rfl
    · exact ⟨rnd_isDouble _, zero_double, b1, by norm_num⟩
    · exact ⟨⟨-160, 0, by norm_num, by norm_num, by norm_num⟩, one_double, by norm_num, by norm_num⟩
    · exact ⟨rnd_isDouble _, ⟨2, 0, by norm_num, by norm_num, by norm_num⟩, b2, by norm_num⟩
  · exact ⟨⟨"east", 2, rnd (-1464 / 10), 9⟩, by simp [popTable], rfl, rfl⟩

/-- C197 violated: a city between two cells is lost, although it is neither on an edge nor on an exact border (longitudes 31, 102.33333333333333 and 138 with
three columns). -/
theorem C197_gap_violated :
    namesOf (Dbl.limitByGrid byPop (popTable [⟨"west", 0, 31, 5⟩, ⟨"middle", 1, rnd (307 / 3), 9⟩, ⟨"east", 2, 138, 5⟩]) 3 1 20) = ["east"] ∧
    namesOf (Cities.limitByGrid byPop (popTable [⟨"west", 0, 31, 5⟩, ⟨"middle", 1, rnd (307 / 3), 9⟩, ⟨"east", 2, 138, 5⟩]) 3 1 20) = ["middle", "east"] := by
  constructor <;> decide +kernel

/-- C197 violated: a city where two cells overlap is reported twice (longitudes 153.6, 154.20000000000002 and 154.5 with three columns). -/
theorem C197_twice_violated :
    namesOf (Dbl.limitByGrid byPop (popTable [⟨"west", 0, rnd (1536 / 10), 5⟩, ⟨"middle", 1, 5425430176097895 / 2 ^ 45, 9⟩, ⟨"east", 2, 309 / 2, 5⟩]) 3 1 20) =
      ["middle", "middle", "east"] ∧
    namesOf (Cities.limitByGrid byPop (popTable [⟨"west", 0, rnd (1536 / 10), 5⟩, ⟨"middle", 1, 5425430176097895 / 2 ^ 45, 9⟩, ⟨"east", 2, 309 / 2, 5⟩]) 3 1 20) =
      ["middle", "east"] := by
  constructor <;> decide +kernel

/-- The hypotheses of the theorems above are met by a table of four cities. -/
example : DoubleTable sampleTable ∧ HasColumns sampleTable ∧ "pop" ∈ sampleTable.columns ∧ IsBounds sampleTable.rows 1 3 1 3 ∧
    ClearOf (1 / 2 ^ 40) 1 3 3 2 ∧ namesOf (Dbl.limitByGrid byPop sampleTable 2 2 20) = ["B", "B", "C", "D"] := by
  refine ⟨?_, by unfold HasColumns sampleTable; decide, by decide, ?_, ?_, by decide +kernel⟩
  · have two : IsDouble 2 := ⟨2, 0, by norm_num, by norm_num, by norm_num⟩
    have three : IsDouble 3 := ⟨3, 0, by norm_num, by norm_num, by norm_num⟩
    intro c hc
    simp only [sampleTable, List.mem_cons, List.not_mem_nil, or_false] at hc
    rcases hc with rfl | rfl | rfl | rfl | rfl
    · exact ⟨one_double, one_double, by norm_num, by norm_num⟩
    · exact ⟨two, two, by norm_num, by norm_num⟩
    · exact ⟨two, three, by norm_num, by norm_num⟩
    · exact ⟨three, three, by norm_num, by norm_num⟩
    · exact ⟨two, two, by norm_num, by norm_num⟩
  · unfold IsBounds sampleTable IsLeast IsGreatest lowerBounds upperBounds
    simp
    refine ⟨?_, ?_, ?_, ?_⟩ <;> · rintro a (rfl | rfl | rfl | rfl) <;> norm_num
  · refine ⟨by norm_num, by norm_num, ?_⟩
    intro j h1 h2
    unfold border
    interval_cases j <;> norm_num

end Verif.Props
