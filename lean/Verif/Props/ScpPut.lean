import Verif.Props.ScpTree
import Verif.Spec.ScpWire

/-!
# C150, C151: what `put` sends
-/

namespace Verif.Props
open Verif Spec ScpWire
open Verif.Fs hiding exec parts get
open Verif.Scp (wireName pops rstrip commonPrefix)

/-! ### Numbers -/

theorem decimal_eq (n : ℤ) : decimal n = digits n := by
  unfold decimal digits
  rw [Int.toString_eq_repr, Int.repr_eq_if]
  by_cases h : n < 0
  · rw [if_pos h, if_neg (by omega), String.toList_append, Nat.toList_repr, show (-n).toNat = n.natAbs by omega]
    rfl
  · rw [if_neg h, if_pos (by omega), Nat.toList_repr, show n.toNat = n.natAbs by omega]
    rfl

theorem modeText_eq {m : ℕ} (h : 512 ≤ m) : modeText m = octal4 m := by
  have e : Nat.toDigits 8 m = Nat.toDigits 8 (m / 8 / 8 / 8) ++ [Nat.digitChar (m / 8 / 8 % 8)] ++ [Nat.digitChar (m / 8 % 8)] ++
      [Nat.digitChar (m % 8)] := by
    rw [Nat.toDigits_of_base_le (by norm_num) (by omega : 8 ≤ m), Nat.toDigits_of_base_le (by norm_num) (by omega : 8 ≤ m / 8),
      Nat.toDigits_of_base_le (by norm_num) (by omega : 8 ≤ m / 8 / 8)]
  have e2 : m / 8 / 8 / 8 = m / 512 := by omega
  have e3 : m / 8 / 8 = m / 64 := by omega
  have e4 : ∃ l, Nat.toDigits 8 (m / 512) = l ++ [Nat.digitChar (m / 512 % 8)] := by
    by_cases h8 : m / 512 < 8
    · exact ⟨[], by rw [Nat.toDigits_of_lt_base h8, Nat.mod_eq_of_lt h8]; rfl⟩
    · exact ⟨_, Nat.toDigits_of_base_le (by norm_num) (by omega)⟩
  obtain ⟨l, hl⟩ := e4
  unfold modeText octal4
  simp only
  rw [e, e2, e3, hl]
  have : ∀ (x : Text) (a b c d : Char), (x ++ [a] ++ [b] ++ [c] ++ [d]).drop ((x ++ [a] ++ [b] ++ [c] ++ [d]).length - 4) = [a, b, c, d] := by
    intro x a b c d
    rw [show x ++ [a] ++ [b] ++ [c] ++ [d] = x ++ [a, b, c, d] by simp]
    simp
  have h2 := this ("0o".toList ++ l) (Nat.digitChar (m / 512 % 8)) (Nat.digitChar (m / 64 % 8)) (Nat.digitChar (m / 8 % 8))
    (Nat.digitChar (m % 8))
  simpa only [List.append_assoc] using h2

theorem whole_pyInt (q : ℚ) : Whole q (pyInt q) := by
  unfold Whole pyInt
  by_cases h : q < 0
  · rw [if_pos h]
    have h1 := Int.floor_le (-q)
    have h2 := Int.lt_floor_add_one (-q)
    have h3 : (0 : ℤ) ≤ ⌊-q⌋ := Int.floor_nonneg.2 (by linarith)
    have h4 : (0 : ℚ) ≤ (⌊-q⌋ : ℚ) := by exact_mod_cast h3
    push_cast
    rw [abs_neg, abs_of_nonneg h4, abs_of_neg h]
    refine ⟨h1, h2, ?_⟩
    nlinarith
  · rw [if_neg h]
    push Not at h
    have h1 := Int.floor_le q
    have h2 := Int.lt_floor_add_one q
    have h4 : (0 : ℚ) ≤ (⌊q⌋ : ℚ) := by exact_mod_cast Int.floor_nonneg.2 h
    rw [abs_of_nonneg h4, abs_of_nonneg h]
    exact ⟨h1, h2, by positivity⟩

/-! ### Replies -/

theorem confirmations_cons (r : Reply) (rs : List Reply) :
    confirmations (r :: rs) = if confirms r then confirmations rs + 1 else 0 := by
  unfold confirmations
  rw [List.takeWhile_cons]
  split <;> simp_all

theorem confirmations_drop (n : ℕ) (rs : List Reply) (h : n ≤ confirmations rs) :
    confirmations (rs.drop n) = confirmations rs - n := by
  induction n generalizing rs with
  | zero => simp
  | succ n ih =>
    cases rs with
    | nil => simp [confirmations] at h
    | cons r rs =>
      rw [confirmations_cons] at h ⊢
      by_cases hr : confirms r
      · rw [if_pos hr] at h ⊢
        rw [List.drop_succ_cons, ih _ (by omega)]; omega
      · rw [if_neg hr] at h; omega

theorem recvConfirm_cases (rs : List Reply) :
    (1 ≤ confirmations rs ∧ recvConfirm rs = .ok (rs.drop 1)) ∨ (confirmations rs = 0 ∧ ∃ e, recvConfirm rs = .error e) := by
  cases rs with
  | nil => exact Or.inr ⟨rfl, _, rfl⟩
  | cons r rs =>
    rw [confirmations_cons]
    cases r with
    | timeout => exact Or.inr ⟨rfl, _, rfl⟩
    | data msg stderr =>
      unfold recvConfirm confirms
      by_cases h : msg.head? = some '\x00'
      · left; simp [h]
      · right
        rw [if_neg (by simpa using h)]
        simp only
        rw [if_neg h]
        refine ⟨trivial, ?_⟩
        by_cases h1 : msg.head? = some '\x01'
        · rw [if_pos h1]; exact ⟨_, rfl⟩
        · rw [if_neg h1]
          cases stderr with
          | some e => exact ⟨_, rfl⟩
          | none =>
            by_cases h2 : msg = []
            · exact ⟨.noResponse, by simp [h2]⟩
            · exact ⟨.invalid msg, by simp [h2]⟩

/-! ### Parts and their confirmations -/

/-- The actions send the parts, each after the confirmation of the part before. -/
def Plays (acts : List Act) (ps : List Text) : Prop :=
  ∀ as rs,
    (ps.length ≤ confirmations rs → exec (acts ++ as) rs =
      ((exec as (rs.drop ps.length)).1, ps.flatten ++ (exec as (rs.drop ps.length)).2.1, (exec as (rs.drop ps.length)).2.2)) ∧
    (confirmations rs < ps.length →
      ∃ e rest, exec (acts ++ as) rs = (.scpException e, (ps.take (confirmations rs + 1)).flatten, rest))

theorem plays_nil : Plays [] [] := by
  intro as rs
  exact ⟨fun _ => by simp, fun h => by simp at h⟩

theorem plays_append {a b : List Act} {p q : List Text} (ha : Plays a p) (hb : Plays b q) : Plays (a ++ b) (p ++ q) := by
  intro as rs
  obtain ⟨a1, a2⟩ := ha (b ++ as) rs
  rw [List.append_assoc]
  constructor
  · intro h
    rw [List.length_append] at h
    obtain ⟨b1, -⟩ := hb as (rs.drop p.length)
    rw [a1 (by omega), b1 (by rw [confirmations_drop _ _ (by omega)]; omega)]
    simp [List.drop_drop]
  · intro h
    rw [List.length_append] at h
    by_cases hp : p.length ≤ confirmations rs
    · obtain ⟨-, b2⟩ := hb as (rs.drop p.length)
      rw [confirmations_drop _ _ hp] at b2
      obtain ⟨e, rest, he⟩ := b2 (by omega)
      refine ⟨e, rest, ?_⟩
      rw [a1 hp, he, List.take_append, List.take_of_length_le (by omega : p.length ≤ _), List.flatten_append,
        show confirmations rs + 1 - p.length = confirmations rs - p.length + 1 by omega]
    · obtain ⟨e, rest, he⟩ := a2 (by omega)
      refine ⟨e, rest, ?_⟩
      rw [he, List.take_append_of_le_length (by omega)]

theorem exec_sends (cs : List Text) (as : List Act) (rs : List Reply) :
    exec (cs.map .send ++ as) rs = ((exec as rs).1, cs.flatten ++ (exec as rs).2.1, (exec as rs).2.2) := by
  induction cs with
  | nil => simp
  | cons c cs ih => rw [List.map_cons, List.cons_append, exec, ih]; simp

theorem plays_part (cs : List Text) : Plays (cs.map .send ++ [.confirm]) [cs.flatten] := by
  intro as rs
  have h0 : exec ((cs.map Act.send ++ [.confirm]) ++ as) rs = ((exec (.confirm :: as) rs).1,
      cs.flatten ++ (exec (.confirm :: as) rs).2.1, (exec (.confirm :: as) rs).2.2) := by
    rw [List.append_assoc, exec_sends]; rfl
  rw [h0]
  rcases recvConfirm_cases rs with ⟨h1, h2⟩ | ⟨h1, e, h2⟩
  · refine ⟨fun _ => ?_, fun h => ?_⟩
    · simp only [exec, h2]; simp
    · simp at h; omega
  · refine ⟨fun h => ?_, fun _ => ⟨e, rs.tail, ?_⟩⟩
    · simp at h; omega
    · simp only [exec, h2, h1]; simp

theorem plays_one (b : Text) : Plays [.send b, .confirm] [b] := by
  have := plays_part [b]
  simpa using this

/-! ### Files -/

theorem sendData_spec {buff : ℕ} (hb : 0 < buff) (content : Text) (fuel pos : ℕ) (hpos : pos ≤ content.length)
    (hf : content.length - pos ≤ fuel) :
    ∃ cs : List Text, sendData buff content.length content fuel pos = some (cs.map .send) ∧ cs.flatten = content.drop pos := by
  induction fuel generalizing pos with
  | zero =>
    refine ⟨[], ?_, ?_⟩
    · rw [sendData, if_neg (by omega)]; rfl
    · rw [List.drop_eq_nil_of_le (by omega)]; rfl
  | succ n ih =>
    by_cases h : pos < content.length
    · have hl : ((content.drop pos).take buff).length = min buff (content.length - pos) := by simp
      obtain ⟨cs, h1, h2⟩ := ih (pos + ((content.drop pos).take buff).length) (by omega) (by omega)
      refine ⟨(content.drop pos).take buff :: cs, ?_, ?_⟩
      · rw [sendData, if_pos h]
        simp only [h1, Option.map_some, List.map_cons]
      · rw [List.flatten_cons, h2, hl]
        by_cases hm : buff ≤ content.length - pos
        · rw [min_eq_left hm, ← List.drop_drop, List.take_append_drop]
        · rw [min_eq_right (by omega), List.take_of_length_le (by simp; omega),
            show pos + (content.length - pos) = content.length by omega, List.drop_length]
          simp
    · refine ⟨[], ?_, ?_⟩
      · rw [sendData, if_neg h]; rfl
      · rw [List.drop_eq_nil_of_le (by omega)]; rfl

/-- The parts of several messages. -/
def itemParts (items : List Item) : List Text := items.flatMap Item.parts

theorem time_plays (preserve : Bool) (s : Stat) :
    ∃ times, TimeLine preserve s times ∧ Plays (if preserve then sendTime s else []) (itemParts times) := by
  cases preserve with
  | false => exact ⟨[], rfl, plays_nil⟩
  | true =>
    refine ⟨[.time (pyInt s.mtime) (pyInt s.atime)], ⟨_, _, whole_pyInt _, whole_pyInt _, rfl⟩, ?_⟩
    have := plays_one ("T".toList ++ digits (pyInt s.mtime) ++ " 0 ".toList ++ digits (pyInt s.atime) ++ " 0\n".toList)
    simp only [if_true, sendTime, decimal_eq]
    simpa [itemParts, Item.parts] using this

theorem parts_append (a b : List Item) : itemParts (a ++ b) = itemParts a ++ itemParts b := by
  simp [itemParts]

theorem sendFile_spec {disk : Text → Option Local} {buff : ℕ} (hb : 0 < buff) (preserve : Bool) {name : Text}
    (h : Sendable disk name) :
    ∃ items, Announces disk preserve name items ∧ ∃ K, ∀ fuel, K ≤ fuel →
      ∃ acts, sendFile disk buff preserve fuel name = some acts ∧ Plays acts (itemParts items) := by
  obtain ⟨stat, content, hd, hs, hm, hn⟩ := h
  obtain ⟨times, ht, hp⟩ := time_plays preserve stat
  refine ⟨_, ⟨stat, content, times, hd, ht, rfl⟩, content.length, ?_⟩
  intro fuel hf
  obtain ⟨cs, h1, h2⟩ := sendData_spec hb content fuel 0 (by omega) (by omega)
  unfold sendFile
  rw [hd]
  simp only [hs, h1, Option.map_some]
  refine ⟨_, rfl, ?_⟩
  rw [parts_append, List.append_assoc (_ ++ _), List.append_assoc]
  apply plays_append hp
  have e : itemParts [Item.file (octal4 stat.mode) (baseName name) content] =
      [['C'] ++ modeText stat.mode ++ [' '] ++ decimal content.length ++ [' '] ++ wireName (baseName name) ++ ['\n']] ++
        [content ++ ['\x00']] := by
    rw [modeText_eq hm, decimal_eq, wireName_plain hn]
    simp [itemParts, Item.parts]
  rw [e]
  apply plays_append (plays_one _)
  have := plays_part (cs ++ [['\x00']])
  simpa [h2] using this

theorem inTurn_spec {α : Type} {f : ℕ → α → Option (List Act)} {P : α → List Item → Prop} {xs : List α}
    (h : ∀ x ∈ xs, ∃ items, P x items ∧ ∃ K, ∀ fuel, K ≤ fuel → ∃ acts, f fuel x = some acts ∧ Plays acts (itemParts items)) :
    ∃ itemss, List.Forall₂ P xs itemss ∧ ∃ K, ∀ fuel, K ≤ fuel →
      ∃ acts, inTurn (f fuel) xs = some acts ∧ Plays acts (itemParts itemss.flatten) := by
  induction xs with
  | nil => exact ⟨[], .nil, 0, fun fuel _ => ⟨[], rfl, plays_nil⟩⟩
  | cons x xs ih =>
    obtain ⟨items, hP, K, hK⟩ := h x (by simp)
    obtain ⟨itemss, hPs, K', hK'⟩ := ih fun y hy => h y (by simp [hy])
    refine ⟨items :: itemss, .cons hP hPs, max K K', ?_⟩
    intro fuel hf
    obtain ⟨a, ha, pa⟩ := hK fuel (le_trans (le_max_left _ _) hf)
    obtain ⟨b, hb, pb⟩ := hK' fuel (le_trans (le_max_right _ _) hf)
    refine ⟨a ++ b, ?_, ?_⟩
    · rw [inTurn, ha, hb]
    · rw [List.flatten_cons, parts_append]; exact plays_append pa pb

/-- How `put` ends and what it sends, for given parts. -/
theorem exec_plays {acts : List Act} {ps : List Text} (h : Plays acts ps) (rs : List Reply) :
    (ps.length < confirmations rs → exec (.confirm :: acts) rs = (.done, ps.flatten, rs.drop (ps.length + 1))) ∧
    (confirmations rs ≤ ps.length →
      ∃ e rest, exec (.confirm :: acts) rs = (.scpException e, (ps.take (confirmations rs)).flatten, rest)) := by
  obtain ⟨h1, h2⟩ := h [] (rs.drop 1)
  rw [List.append_nil] at h1 h2
  rcases recvConfirm_cases rs with ⟨c1, c2⟩ | ⟨c1, e, c2⟩
  · rw [confirmations_drop _ _ c1] at h1 h2
    refine ⟨fun hk => ?_, fun hk => ?_⟩
    · rw [exec, c2]
      simp only
      rw [h1 (by omega)]
      simp [exec]
    · obtain ⟨e, rest, he⟩ := h2 (by omega)
      refine ⟨e, rest, ?_⟩
      rw [exec, c2]
      simp only
      rw [he, show confirmations rs - 1 + 1 = confirmations rs by omega]
  · refine ⟨fun hk => by omega, fun _ => ⟨e, rs.tail, ?_⟩⟩
    rw [exec, c2, c1]
    simp

/-- **C150**: `put` sends, for every file in turn, its times if they are to be kept, its mode, size and name, and its
content, whatever the size of the buffer. It sends each part only after the part before was confirmed: if `k`
confirmations come before something else, a refusal or silence, it has sent exactly the first `k` parts. It returns
normally if all parts were confirmed, and otherwise raises `SCPException`. -/
theorem C150_put {disk : Text → Option Local} (walk : Text → Option (List (Text × List Text))) {buff : ℕ} (hb : 0 < buff)
    (preserve : Bool) {files : List Text} (h : ∀ name ∈ files, Sendable disk name) :
    ∃ itemss, List.Forall₂ (Announces disk preserve) files itemss ∧ ∃ K, ∀ fuel, K ≤ fuel → ∀ replies,
      let ps := itemss.flatten.flatMap Item.parts
      let k := confirmations replies
      (ps.length < k → put disk walk buff false preserve fuel files replies =
        some (.done, ps.flatten, replies.drop (ps.length + 1))) ∧
      (k ≤ ps.length → ∃ e rest, put disk walk buff false preserve fuel files replies =
        some (.scpException e, (ps.take k).flatten, rest)) := by
  obtain ⟨itemss, h1, K, hK⟩ := inTurn_spec (f := sendFile disk buff preserve) (P := Announces disk preserve)
    (xs := files) fun name hn => sendFile_spec hb preserve (h name hn)
  refine ⟨itemss, h1, K, ?_⟩
  intro fuel hf replies
  obtain ⟨acts, ha, hp⟩ := hK fuel hf
  obtain ⟨e1, e2⟩ := exec_plays hp replies
  have hput : put disk walk buff false preserve fuel files replies = some (exec (.confirm :: acts) replies) := by
    unfold put sendFiles
    rw [if_neg (by simp), ha]
    rfl
  refine ⟨fun hk => ?_, fun hk => ?_⟩
  · rw [hput, e1 hk]; rfl
  · obtain ⟨e, rest, he⟩ := e2 hk
    exact ⟨e, rest, by rw [hput, he]; rfl⟩

/-! ### The bytes can be read in one way only -/

/-- The number written in decimal digits. -/
def valueOf (l : Text) : ℕ := l.foldl (fun v c => 10 * v + (c.toNat - 48)) 0

theorem valueOf_toDigits (n : ℕ) : valueOf (Nat.toDigits 10 n) = n := by
  induction n using Nat.strong_induction_on with
  | _ n ih =>
    by_cases h : n < 10
    · rw [Nat.toDigits_of_lt_base h]
      simp [valueOf, Nat.toNat_digitChar_sub_48_of_lt_ten h]
    · rw [Nat.toDigits_of_base_le (by norm_num) (by omega)]
      have := ih (n / 10) (by omega)
      unfold valueOf at this ⊢
      rw [List.foldl_append, this]
      simp only [List.foldl_cons, List.foldl_nil]
      rw [Nat.toNat_digitChar_sub_48_of_lt_ten (by omega)]
      omega

theorem digits_nat (n : ℕ) : digits n = Nat.toDigits 10 n := by
  rw [← decimal_eq]
  unfold decimal
  rw [if_neg (by omega)]
  rfl

theorem digits_char {n : ℤ} {c : Char} (h : c ∈ digits n) : c = '-' ∨ c.isDigit := by
  rw [← decimal_eq] at h
  unfold decimal at h
  rcases List.mem_append.1 h with h | h
  · split at h <;> simp at h
    exact Or.inl h
  · exact Or.inr (Nat.isDigit_of_mem_toDigits (by norm_num) (by norm_num) h)

theorem digits_plain {n : ℤ} {c : Char} (h : c ≠ '-') (h2 : c.isDigit = false) : c ∉ digits n := by
  intro hc
  rcases digits_char hc with rfl | h3
  · exact h rfl
  · rw [h2] at h3; simp at h3

theorem digits_inj {n m : ℤ} (h : digits n = digits m) : n = m := by
  rw [← decimal_eq, ← decimal_eq] at h
  unfold decimal at h
  have hd : ∀ k : ℕ, (Nat.toDigits 10 k).head? ≠ some '-' := by
    intro k hk
    have := Nat.isDigit_of_mem_toDigits (b := 10) (by norm_num) (by norm_num) (List.mem_of_head? hk)
    simp at this
  have key : ∀ a b : ℕ, Nat.toDigits 10 a = Nat.toDigits 10 b → a = b := by
    intro a b e
    rw [← valueOf_toDigits a, e, valueOf_toDigits]
  by_cases hn : n < 0 <;> by_cases hm : m < 0
  · rw [if_pos hn, if_pos hm] at h
    have := key _ _ (List.append_cancel_left h)
    omega
  · rw [if_pos hn, if_neg hm] at h
    rw [List.nil_append] at h
    exact absurd (by rw [← h]; rfl) (hd m.natAbs)
  · rw [if_neg hn, if_pos hm] at h
    rw [List.nil_append] at h
    exact absurd (by rw [h]; rfl) (hd n.natAbs)
  · rw [if_neg hn, if_neg hm] at h
    have := key _ _ (List.append_cancel_left h)
    omega

/-- A text up to the first occurrence of a character. -/
theorem until_inj {c : Char} {a b x y : Text} (ha : c ∉ a) (hb : c ∉ b) (h : a ++ c :: x = b ++ c :: y) : a = b ∧ x = y := by
  induction a generalizing b with
  | nil =>
    cases b with
    | nil => simpa using h
    | cons d b => simp at h; exact absurd h.1 (by rintro rfl; simp at hb)
  | cons d a ih =>
    cases b with
    | nil => simp at h; exact absurd h.1 (by rintro rfl; simp at ha)
    | cons e b =>
      simp only [List.cons_append, List.cons.injEq] at h
      obtain ⟨h1, h2⟩ := ih (fun hc => ha (by simp [hc])) (fun hc => hb (by simp [hc])) h.2
      exact ⟨by rw [h.1, h1], h2⟩

/-- **C150**, meaning: the bytes of a list of messages determine the messages. -/
theorem C150_readable {a b : List Item} (ha : ∀ i ∈ a, i.Proper) (hb : ∀ i ∈ b, i.Proper)
    (h : a.flatMap Item.wire = b.flatMap Item.wire) : a = b := by
  induction a generalizing b with
  | nil =>
    cases b with
    | nil => rfl
    | cons j b => cases j <;> simp [Item.wire, Item.parts] at h
  | cons i a ih =>
    cases b with
    | nil => cases i <;> simp [Item.wire, Item.parts] at h
    | cons j b =>
      have sp : ∀ n : ℤ, ' ' ∉ digits n := fun n => digits_plain (by decide) (by decide)
      have rest : ∀ {x y : Text}, x = y → x = a.flatMap Item.wire → y = b.flatMap Item.wire → a = b :=
        fun e hx hy => ih (fun k hk => ha k (by simp [hk])) (fun k hk => hb k (by simp [hk])) (by rw [← hx, e, hy])
      have pi := ha i (by simp)
      have pj := hb j (by simp)
      cases i with
      | time m t =>
        cases j with
        | time m' t' =>
          simp only [List.flatMap_cons, Item.wire, Item.parts, List.flatten_cons, List.flatten_nil, List.append_nil,
            List.append_assoc] at h
          obtain ⟨e1, h⟩ := until_inj (sp m) (sp m') (List.append_cancel_left h)
          have h : digits t ++ ' ' :: ("0\n".toList ++ a.flatMap Item.wire) =
              digits t' ++ ' ' :: ("0\n".toList ++ b.flatMap Item.wire) := by simpa using h
          obtain ⟨e2, h⟩ := until_inj (sp t) (sp t') h
          rw [digits_inj e1, digits_inj e2, rest (List.append_cancel_left h) rfl rfl]
        | _ => simp [Item.wire, Item.parts] at h
      | file mode name content =>
        cases j with
        | file mode' name' content' =>
          simp only [List.flatMap_cons, Item.wire, Item.parts, List.flatten_cons, List.flatten_nil, List.append_nil,
            List.append_assoc] at h
          obtain ⟨e1, h⟩ := until_inj pi.1 pj.1 (List.append_cancel_left h)
          obtain ⟨e2, h⟩ := until_inj (sp _) (sp _) h
          obtain ⟨e3, h⟩ := until_inj pi.2 pj.2 h
          have e4 := digits_inj e2
          have h : content ++ (['\x00'] ++ a.flatMap Item.wire) = content' ++ (['\x00'] ++ b.flatMap Item.wire) := h
          obtain ⟨e5, h⟩ := List.append_inj h (by exact_mod_cast e4)
          rw [e1, e3, e5, rest (List.append_cancel_left h) rfl rfl]
        | _ => simp [Item.wire, Item.parts] at h
      | dir mode name =>
        cases j with
        | dir mode' name' =>
          simp only [List.flatMap_cons, Item.wire, Item.parts, List.flatten_cons, List.flatten_nil, List.append_nil,
            List.append_assoc] at h
          obtain ⟨e1, h⟩ := until_inj pi.1 pj.1 (List.append_cancel_left h)
          have h : name ++ '\n' :: a.flatMap Item.wire = name' ++ '\n' :: b.flatMap Item.wire := by simpa using h
          obtain ⟨e3, h⟩ := until_inj pi.2 pj.2 h
          rw [e1, e3, rest h rfl rfl]
        | _ => simp [Item.wire, Item.parts] at h
      | up =>
        cases j with
        | up =>
          simp only [List.flatMap_cons, Item.wire, Item.parts, List.flatten_cons, List.flatten_nil, List.append_nil] at h
          rw [rest (List.append_cancel_left h) rfl rfl]
        | _ => simp [Item.wire, Item.parts] at h

/-! ### Trees -/

theorem plays_popds (n : ℕ) : Plays (sendPopds n) (itemParts (List.replicate n Item.up)) := by
  induction n with
  | zero => exact plays_nil
  | succ n ih =>
    have h1 : sendPopds (n + 1) = sendPopd ++ sendPopds n := by simp [sendPopds, List.replicate_succ]
    have h2 : itemParts (List.replicate (n + 1) Item.up) = ["E\n".toList] ++ itemParts (List.replicate n Item.up) := by
      simp [itemParts, List.replicate_succ, Item.parts]
    rw [h1, h2]
    exact plays_append (plays_one _) ih

theorem replicate_singletons {α : Type} (n : ℕ) (x : α) : (List.replicate n [x]).flatten = List.replicate n x := by
  induction n with
  | zero => rfl
  | succ n ih => simp [List.replicate_succ, ih]

theorem carries_pops (disk : Text → Option Local) (preserve : Bool) (n : ℕ) :
    List.Forall₂ (Carries disk preserve) (List.replicate n .pop) (List.replicate n [.up]) := by
  induction n with
  | zero => exact .nil
  | succ n ih => exact .cons rfl ih

theorem walkActs_spec {disk : Text → Option Local} {buff : ℕ} (hb : 0 < buff) (preserve : Bool) {fuel : ℕ}
    {w : List (Text × List (Text × Bytes))} (hw : OnDisk disk w) (hn : ∀ d ∈ w, '\n' ∉ baseName d.1 ∧ ∀ f ∈ d.2, EntryName f.1)
    (hf : ∀ d ∈ w, NoTrail d.1 ∧ ∀ f ∈ d.2, f.2.length ≤ fuel) {last : Text} {es : List Scp.Event}
    (h : Scp.sendWalk fuel last w = some es) :
    ∃ acts itemss, walkActs disk buff preserve fuel last (w.map fun d => (d.1, d.2.map Prod.fst)) =
        some (Scp.pushed es, acts) ∧
      List.Forall₂ (Carries disk preserve) es itemss ∧ Plays acts (itemParts itemss.flatten) := by
  induction w generalizing last es with
  | nil =>
    simp only [Scp.sendWalk, Option.some.injEq] at h
    subst h
    exact ⟨[], [], rfl, .nil, plays_nil⟩
  | cons d w ih =>
    obtain ⟨root, files⟩ := d
    obtain ⟨⟨l, hl, hm⟩, hfs⟩ := hw (root, files) (by simp)
    obtain ⟨hnr, hnf⟩ := hn (root, files) (by simp)
    obtain ⟨htr, hlen⟩ := hf (root, files) (by simp)
    simp only at hl hm hfs hnr hnf htr hlen
    rw [Scp.sendWalk] at h
    cases h1 : Scp.chdir fuel last root with
    | none => simp [h1] at h
    | some e1 =>
      cases h2 : Scp.sendWalk fuel root w with
      | none => simp [h1, h2] at h
      | some e2 =>
        simp only [h1, h2, Option.some.injEq] at h
        obtain ⟨c, iw, hwa, hci, hpc⟩ := ih (fun d hd => hw d (by simp [hd])) (fun d hd => hn d (by simp [hd]))
          (fun d hd => hf d (by simp [hd])) h2
        -- the change of directory
        unfold Scp.chdir at h1
        obtain ⟨n, hn1, hn2⟩ := Option.map_eq_some_iff.1 h1
        obtain ⟨times, ht, hpt⟩ := time_plays preserve l.stat
        have hchdir : chdirActs disk preserve fuel last root = some (n, sendPopds n ++ sendPushd disk preserve root) := by
          unfold chdirActs
          rw [hn1]; rfl
        have hpush : Plays (sendPushd disk preserve root) (itemParts (times ++ [.dir (octal4 l.stat.mode) (baseName root)])) := by
          unfold sendPushd
          rw [hl]
          simp only
          rw [parts_append]
          apply plays_append hpt
          have := plays_one (['D'] ++ modeText l.stat.mode ++ " 0 ".toList ++ wireName (baseName root) ++ ['\n'])
          rw [modeText_eq hm, wireName_plain hnr] at this ⊢
          simpa [itemParts, Item.parts] using this
        -- the files
        have hfiles : ∃ ifs acts, List.Forall₂ (Carries disk preserve) (Scp.sendFiles files) ifs ∧
            sendFiles disk buff preserve fuel (files.map fun f => join root f.1) = some acts ∧ Plays acts (itemParts ifs.flatten) := by
          clear h hci hwa hpc hn1 hn2 h1 h2 hw hn hf
          unfold sendFiles
          induction files with
          | nil => exact ⟨[], [], .nil, rfl, plays_nil⟩
          | cons f files ihf =>
            obtain ⟨ifs, acts, i1, i2, i3⟩ := ihf (fun f hf => hfs f (by simp [hf])) (fun f hf => hnf f (by simp [hf]))
              (fun f hf => hlen f (by simp [hf]))
            obtain ⟨stat, s1, s2, s3⟩ := hfs f (by simp)
            have hname := hnf f (by simp)
            have hbase : baseName (join root f.1) = f.1 := by
              rw [join_noTrail htr hname.no_slash, baseName_append hname.no_slash]
            have hlt : (toText f.2).length = f.2.length := by simp [toText]
            obtain ⟨times, ht, hp⟩ := time_plays preserve stat
            obtain ⟨cs, c1, c2⟩ := sendData_spec hb (toText f.2) fuel 0 (by omega) (by rw [hlt]; simpa using hlen f (by simp))
            have hplay : ∃ a, sendFile disk buff preserve fuel (join root f.1) = some a ∧
                Plays a (itemParts (times ++ [.file (octal4 stat.mode) f.1 (toText f.2)])) := by
              unfold sendFile
              rw [s1]
              simp only [s2, ← hlt, c1, Option.map_some]
              refine ⟨_, rfl, ?_⟩
              rw [parts_append, List.append_assoc (_ ++ _), List.append_assoc]
              apply plays_append hp
              have e : itemParts [Item.file (octal4 stat.mode) f.1 (toText f.2)] =
                  [['C'] ++ modeText stat.mode ++ [' '] ++ decimal (toText f.2).length ++ [' '] ++
                    wireName (baseName (join root f.1)) ++ ['\n']] ++ [toText f.2 ++ ['\x00']] := by
                rw [modeText_eq s3, decimal_eq, hbase, wireName_plain hname.no_newline]
                simp [itemParts, Item.parts]
              rw [e]
              apply plays_append (plays_one _)
              have := plays_part (cs ++ [['\x00']])
              simpa [c2] using this
            obtain ⟨a, ha, hpa⟩ := hplay
            refine ⟨(times ++ [.file (octal4 stat.mode) f.1 (toText f.2)]) :: ifs, a ++ acts, ?_, ?_, ?_⟩
            · have : Scp.sendFiles (f :: files) = .file f.1 f.2 :: Scp.sendFiles files := by
                simp [Scp.sendFiles, wireName_plain hname.no_newline]
              rw [this]
              refine .cons ⟨join root f.1, hbase, ⟨stat, toText f.2, times, s1, ht, by rw [hbase]⟩, ?_⟩ i1
              rw [s1]; rfl
            · rw [List.map_cons, inTurn, ha, i2]
            · rw [List.flatten_cons, parts_append]
              exact plays_append hpa i3
        obtain ⟨ifs, b, j1, j2, j3⟩ := hfiles
        refine ⟨sendPopds n ++ sendPushd disk preserve root ++ b ++ c,
          List.replicate n [.up] ++ [times ++ [.dir (octal4 l.stat.mode) (baseName root)]] ++ ifs ++ iw, ?_, ?_, ?_⟩
        · rw [List.map_cons, walkActs, hchdir]
          have : (files.map Prod.fst).map (join root) = files.map fun f => join root f.1 := by simp
          simp only [this, j2, hwa]
          rw [← h, ← hn2, pushed_append, pushed_append, pushed_append, pushed_pops, pushed_files]
          simp only [Scp.pushed]
          congr 2
          omega
        · rw [← h, ← hn2, wireName_plain hnr]
          refine List.rel_append (List.rel_append (List.rel_append (carries_pops _ _ _) (.cons ?_ .nil)) j1) hci
          exact ⟨root, l, times, rfl, hl, ht, rfl⟩
        · simp only [List.flatten_append, parts_append, replicate_singletons, List.flatten_cons, List.flatten_nil, List.append_nil]
          refine plays_append (plays_append (plays_append (plays_popds n) ?_) j3) hpc
          rw [← parts_append]
          exact hpush

/-! More rounds make no difference. -/

theorem pops_mono : ∀ {n m : ℕ} {cur common : Text} {r : ℕ}, n ≤ m → Scp.pops n cur common = some r →
    Scp.pops m cur common = some r := by
  intro n
  induction n with
  | zero =>
    intro m cur common r _ h
    rw [Scp.pops] at h
    by_cases he : cur = common
    · rw [if_pos he] at h
      cases m <;> simp [Scp.pops, he] <;> simpa using h
    · rw [if_neg he] at h; simp at h
  | succ n ih =>
    intro m cur common r hnm h
    cases m with
    | zero => omega
    | succ m =>
      rw [Scp.pops] at h ⊢
      by_cases he : cur = common
      · rwa [if_pos he] at h ⊢
      · rw [if_neg he] at h ⊢
        obtain ⟨r', hr', rfl⟩ := Option.map_eq_some_iff.1 h
        rw [ih (by omega) hr']
        rfl

theorem sendData_mono {buff size : ℕ} {content : Text} : ∀ {n m pos : ℕ} {r : List Act}, n ≤ m →
    sendData buff size content n pos = some r → sendData buff size content m pos = some r := by
  intro n
  induction n with
  | zero =>
    intro m pos r _ h
    rw [sendData] at h
    by_cases he : pos < size
    · rw [if_pos he] at h; simp at h
    · rw [if_neg he] at h
      cases m <;> simpa [sendData, he] using h
  | succ n ih =>
    intro m pos r hnm h
    cases m with
    | zero => omega
    | succ m =>
      rw [sendData] at h ⊢
      by_cases he : pos < size
      · rw [if_pos he] at h ⊢
        obtain ⟨r', hr', rfl⟩ := Option.map_eq_some_iff.1 h
        rw [Option.map_eq_some_iff]
        exact ⟨r', ih (by omega) hr', rfl⟩
      · rwa [if_neg he] at h ⊢

theorem sendFile_mono {disk : Text → Option Local} {buff : ℕ} {preserve : Bool} {n m : ℕ} {name : Text} {r : List Act}
    (hnm : n ≤ m) (h : sendFile disk buff preserve n name = some r) : sendFile disk buff preserve m name = some r := by
  unfold sendFile at h ⊢
  cases hd : disk name with
  | none => rw [hd] at h; exact h
  | some f =>
    rw [hd] at h
    obtain ⟨stat, content⟩ := f
    cases content with
    | none => exact h
    | some c =>
      simp only at h ⊢
      obtain ⟨r', hr', rfl⟩ := Option.map_eq_some_iff.1 h
      rw [sendData_mono hnm hr']
      rfl

theorem inTurn_mono {α : Type} {f g : α → Option (List Act)} (h : ∀ x r, f x = some r → g x = some r) :
    ∀ {xs : List α} {r : List Act}, inTurn f xs = some r → inTurn g xs = some r := by
  intro xs
  induction xs with
  | nil => intro r hr; exact hr
  | cons x xs ih =>
    intro r hr
    rw [inTurn] at hr ⊢
    cases h1 : f x with
    | none => simp [h1] at hr
    | some a =>
      cases h2 : inTurn f xs with
      | none => simp [h1, h2] at hr
      | some b =>
        rw [h _ _ h1, ih h2]
        simpa [h1, h2] using hr

theorem walkActs_mono {disk : Text → Option Local} {buff : ℕ} {preserve : Bool} {n m : ℕ} (hnm : n ≤ m) :
    ∀ {w : List (Text × List Text)} {last : Text} {r}, walkActs disk buff preserve n last w = some r →
      walkActs disk buff preserve m last w = some r := by
  intro w
  induction w with
  | nil => intro last r h; exact h
  | cons d w ih =>
    obtain ⟨root, names⟩ := d
    intro last r h
    rw [walkActs] at h ⊢
    cases h1 : chdirActs disk preserve n last root with
    | none => simp [h1] at h
    | some a =>
      cases h2 : sendFiles disk buff preserve n (names.map (join root)) with
      | none => simp [h1, h2] at h
      | some b =>
        cases h3 : walkActs disk buff preserve n root w with
        | none => simp [h1, h2, h3] at h
        | some c =>
          have h1' : chdirActs disk preserve m last root = some a := by
            unfold chdirActs at h1 ⊢
            obtain ⟨q, hq, rfl⟩ := Option.map_eq_some_iff.1 h1
            rw [pops_mono hnm hq]
            rfl
          have h2' : sendFiles disk buff preserve m (names.map (join root)) = some b :=
            inTurn_mono (fun x r => sendFile_mono hnm) h2
          rw [h1', h2', ih h3]
          simpa [h1, h2, h3] using h

theorem sendRecursive_mono {disk : Text → Option Local} {walk : Text → Option (List (Text × List Text))} {buff : ℕ}
    {preserve : Bool} {n m : ℕ} {files : List Text} {r : List Act} (hnm : n ≤ m)
    (h : sendRecursive disk walk buff preserve n files = some r) :
    sendRecursive disk walk buff preserve m files = some r := by
  refine inTurn_mono ?_ h
  intro base r hr
  cases hw : walk base with
  | none =>
    rw [hw] at hr
    exact inTurn_mono (fun x r => sendFile_mono hnm) hr
  | some w =>
    rw [hw] at hr
    simp only [sendTree] at hr ⊢
    obtain ⟨q, hq, rfl⟩ := Option.map_eq_some_iff.1 hr
    rw [walkActs_mono hnm hq]
    rfl

theorem walk_entries (D : Scp.Dirs) (hD : TreeOk D) : ∀ {parent : Text}, NoTrail parent → ∀ d ∈ Scp.walk parent D,
    '\n' ∉ baseName d.1 ∧ (∀ f ∈ d.2, EntryName f.1) ∧ NoTrail d.1 := by
  induction D with
  | nil => intro parent _ d hd; simp [Scp.walk] at hd
  | cons name files subs rest ih1 ih2 =>
    intro parent hp d hd
    obtain ⟨hn, hf, _, hs, hr⟩ := hD
    have hj : join parent name = parent ++ '/' :: name := join_noTrail hp hn.no_slash
    have hnt : NoTrail (join parent name) := by
      have := noTrail_append (s := parent ++ ['/']) (noTrail_name hn)
      simpa [hj] using this
    rw [Scp.walk, List.cons_append, List.mem_cons, List.mem_append] at hd
    rcases hd with rfl | hd | hd
    · refine ⟨?_, hf, hnt⟩
      rw [hj, baseName_append hn.no_slash]
      exact hn.no_newline
    · exact ih1 hs hnt d hd
    · exact ih2 hr hp d hd

/-- **C151**: `put` with `recursive=True` of a directory sends messages from which the receiver makes exactly this tree:
every directory with its mode and, if asked for, its times, every file with its mode, times and content, each in its place.
Each part is sent only after the part before was confirmed, as in C150. -/
theorem C151_put_recursive {disk : Text → Option Local} {walk : Text → Option (List (Text × List Text))} {buff : ℕ}
    (hb : 0 < buff) (preserve : Bool) {pre name : Text} (hpre : pre = [] ∨ pre.getLast? = some '/') (hname : EntryName name)
    {files : List (Text × Bytes)} (hfiles : ∀ f ∈ files, EntryName f.1) {subs : Scp.Dirs} (hsubs : TreeOk subs)
    (hd : OnDisk disk (Scp.walkBase (pre ++ name) files subs))
    (hw : walk (pre ++ name) = some ((Scp.walkBase (pre ++ name) files subs).map fun d => (d.1, d.2.map Prod.fst))) :
    ∃ es itemss, Recreates es (.cons name files subs .nil) ∧ List.Forall₂ (Carries disk preserve) es itemss ∧
      ∃ K, ∀ fuel, K ≤ fuel → ∀ replies,
      let ps := itemss.flatten.flatMap Item.parts
      let k := confirmations replies
      (ps.length < k → put disk walk buff true preserve fuel [pre ++ name] replies =
        some (.done, ps.flatten, replies.drop (ps.length + 1))) ∧
      (k ≤ ps.length → ∃ e rest, put disk walk buff true preserve fuel [pre ++ name] replies =
        some (.scpException e, (ps.take k).flatten, rest)) := by
  obtain ⟨es, K1, h1, h2⟩ := C56_recursive_partial hpre hname hfiles hsubs
  have hnt : NoTrail (pre ++ name) := noTrail_append (noTrail_name hname)
  have hbase : baseName (pre ++ name) = name := by
    rcases hpre with rfl | h
    · exact baseName_word hname.no_slash
    · obtain ⟨p, rfl⟩ : ∃ p, pre = p ++ ['/'] := by
        cases pre using List.reverseRecOn with
        | nil => simp at h
        | append_singleton p c =>
          simp at h; exact ⟨p, by rw [h]⟩
      rw [List.append_assoc]
      exact baseName_append hname.no_slash
  have hent : ∀ d ∈ Scp.walkBase (pre ++ name) files subs,
      '\n' ∉ baseName d.1 ∧ (∀ f ∈ d.2, EntryName f.1) ∧ NoTrail d.1 := by
    intro d hd
    rcases List.mem_cons.1 hd with rfl | hd
    · exact ⟨by rw [hbase]; exact hname.no_newline, hfiles, hnt⟩
    · exact walk_entries subs hsubs hnt d hd
  obtain ⟨K2, hK2⟩ : ∃ K2, ∀ d ∈ Scp.walkBase (pre ++ name) files subs, ∀ f ∈ d.2, f.2.length ≤ K2 := by
    have hmem : ∀ (l : List ℕ) (x : ℕ), x ∈ l → x ≤ l.sum := by
      intro l
      induction l with
      | nil => simp
      | cons a l ih =>
        intro x hx
        rw [List.sum_cons]
        rcases List.mem_cons.1 hx with rfl | hx
        · omega
        · have := ih x hx; omega
    refine ⟨(((Scp.walkBase (pre ++ name) files subs).flatMap fun d => d.2.map fun f => f.2.length)).sum, ?_⟩
    intro d hd f hf
    exact hmem _ _ (List.mem_flatMap.2 ⟨d, hd, List.mem_map.2 ⟨f, hf, rfl⟩⟩)
  have key : ∀ fuel, max K1 K2 ≤ fuel → ∃ acts itemss, sendRecursive disk walk buff preserve fuel [pre ++ name] = some acts ∧
      List.Forall₂ (Carries disk preserve) es itemss ∧ Plays acts (itemParts itemss.flatten) := by
    intro fuel hfuel
    have h := h1 fuel (le_trans (le_max_left _ _) hfuel)
    unfold Scp.sendRecursive at h
    obtain ⟨es0, e1, e2⟩ := Option.map_eq_some_iff.1 h
    obtain ⟨acts, itemss, a1, a2, a3⟩ := walkActs_spec hb preserve hd (fun d hd => ⟨(hent d hd).1, (hent d hd).2.1⟩)
      (fun d hd => ⟨(hent d hd).2.2, fun f hf => (hK2 d hd f hf).trans ((le_max_right _ _).trans hfuel)⟩) e1
    refine ⟨acts ++ sendPopds (Scp.pushed es0).toNat, itemss ++ List.replicate (Scp.pushed es0).toNat [.up], ?_, ?_, ?_⟩
    · unfold sendRecursive
      rw [inTurn, hw]
      simp only [inTurn, sendTree, a1, Option.map_some, List.append_nil]
    · rw [← e2]
      exact List.rel_append a2 (carries_pops _ _ _)
    · rw [List.flatten_append, replicate_singletons, parts_append]
      exact plays_append a3 (plays_popds _)
  obtain ⟨acts, itemss, k1, k2, k3⟩ := key _ le_rfl
  refine ⟨es, itemss, h2, k2, max K1 K2, ?_⟩
  intro fuel hf replies
  have ha := sendRecursive_mono hf k1
  obtain ⟨e1, e2⟩ := exec_plays k3 replies
  have hput : put disk walk buff true preserve fuel [pre ++ name] replies = some (exec (.confirm :: acts) replies) := by
    unfold put
    rw [if_pos rfl, ha]
    rfl
  refine ⟨fun hk => ?_, fun hk => ?_⟩
  · rw [hput, e1 hk]; rfl
  · obtain ⟨e, rest, he⟩ := e2 hk
    exact ⟨e, rest, by rw [hput, he]; rfl⟩

/-! ### What the properties do not cover -/

/-- **C150** (a local failure). If a file after the first ones cannot be found or opened, the files before it are delivered
as in C150, and then `put` fails with the `OSError` of the local machine: with enough confirmations the other side has the
complete messages of the files before. -/
theorem C150_missing {disk : Text → Option Local} (walk : Text → Option (List (Text × List Text))) {buff : ℕ}
    (hb : 0 < buff) {before after : List Text} {bad : Text} (h : ∀ name ∈ before, Sendable disk name)
    (hbad : ∀ f, disk bad = some f → f.content = none) {fuel : ℕ} {acts : List Act}
    (hafter : sendFiles disk buff false fuel after = some acts) :
    ∃ itemss, List.Forall₂ (Announces disk false) before itemss ∧ ∃ K, ∀ fuel', K ≤ fuel' → fuel ≤ fuel' → ∀ replies,
      (itemss.flatten.flatMap Item.parts).length < confirmations replies →
      ∃ rest, put disk walk buff false false fuel' (before ++ bad :: after) replies =
        some (.osError, (itemss.flatten.flatMap Item.parts).flatten, rest) := by
  obtain ⟨itemss, h1, K, hK⟩ := inTurn_spec (f := sendFile disk buff false) (P := Announces disk false)
    (xs := before) fun name hn => sendFile_spec hb false (h name hn)
  refine ⟨itemss, h1, K, ?_⟩
  intro fuel' hf hf' replies hk
  obtain ⟨a, ha, hp⟩ := hK fuel' hf
  have hb1 : sendFile disk buff false fuel' bad = some [.osError] := by
    unfold sendFile
    cases hd : disk bad with
    | none => rfl
    | some f =>
      have := hbad f hd
      simp [this]
  have hafter' : inTurn (sendFile disk buff false fuel') after = some acts :=
    inTurn_mono (fun x r => sendFile_mono hf') hafter
  have hall : inTurn (sendFile disk buff false fuel') (before ++ bad :: after) = some (a ++ (.osError :: acts)) := by
    clear h1 hp hK hk h
    induction before generalizing a with
    | nil =>
      simp only [inTurn, Option.some.injEq] at ha
      subst ha
      rw [List.nil_append, inTurn, hb1, hafter']
      rfl
    | cons x xs ih =>
      rw [inTurn] at ha
      cases h1 : sendFile disk buff false fuel' x with
      | none => simp [h1] at ha
      | some b =>
        cases h2 : inTurn (sendFile disk buff false fuel') xs with
        | none => simp [h1, h2] at ha
        | some c =>
          simp only [h1, h2, Option.some.injEq] at ha
          rw [List.cons_append, inTurn, h1, ih c h2, ← ha, List.append_assoc]
  obtain ⟨g1, -⟩ := hp (.osError :: acts) (replies.drop 1)
  rcases recvConfirm_cases replies with ⟨c1, c2⟩ | ⟨c1, -⟩
  · rw [confirmations_drop _ _ c1] at g1
    refine ⟨(replies.drop 1).drop (itemParts itemss.flatten).length, ?_⟩
    unfold put sendFiles
    rw [if_neg (by simp), hall]
    simp only [Option.map_some]
    rw [exec, c2]
    simp only
    rw [g1 (by have : (itemParts itemss.flatten).length < confirmations replies := hk
               omega)]
    simp [exec, itemParts]
  · omega

/-- **C150** violated: if a file became shorter after its size was asked for, `put` never ends, whatever the other side
does. -/
theorem C150_shrinking_violated {disk : Text → Option Local} (walk : Text → Option (List (Text × List Text))) (buff : ℕ)
    (preserve : Bool) {name : Text} {stat : Stat} {content : Text} (hd : disk name = some ⟨stat, some content⟩)
    (hs : content.length < stat.size) (fuel : ℕ) (replies : List Reply) :
    put disk walk buff false preserve fuel [name] replies = none := by
  have key : ∀ fuel pos, pos ≤ content.length → sendData buff stat.size content fuel pos = none := by
    intro fuel
    induction fuel with
    | zero => intro pos hp; rw [sendData, if_pos (by omega)]
    | succ n ih =>
      intro pos hp
      rw [sendData, if_pos (by omega)]
      simp only
      rw [ih _ (by simp; omega)]
      rfl
  have : sendFile disk buff preserve fuel name = none := by
    unfold sendFile
    rw [hd]
    simp only
    rw [key fuel 0 (by omega)]
    rfl
  unfold put sendFiles
  rw [if_neg (by simp), inTurn, this]
  rfl

/-- **C150** violated: if a file became longer after its size was asked for, more bytes than announced are sent, and the
other side takes the rest for the next message. -/
theorem C150_growing_violated :
    ∃ (disk : Text → Option Local) (name content : Text), disk name = some ⟨⟨33188, 2, 0, 0⟩, some content⟩ ∧
      put disk (fun _ => none) 16384 false false 9 [name] (List.replicate 4 (.data ['\x00'] none)) =
        some (.done, "C0644 2 f\nabcd".toList ++ ['\x00'], [.data ['\x00'] none]) :=
  ⟨fun n => if n = "f".toList then some ⟨⟨33188, 2, 0, 0⟩, some "abcd".toList⟩ else none, "f".toList, "abcd".toList,
    by decide +kernel, by decide +kernel⟩

/-- **C150** violated: after a transfer that failed, the next one does not start a new session; its command goes to the
session of the one that failed. -/
theorem C150_reuse_violated (s : Session) (ok : Bool) :
    (useSession (useSession s false).2 ok).1 = (useSession s false).1 ∧
      ((useSession s true).2.channel = none ∧
        (useSession (useSession s true).2 ok).1 = (useSession s true).2.opened) := by
  obtain ⟨ch, n⟩ := s
  cases ch <;> simp [useSession, openSession, closeSession]

/-- A disk for the examples. -/
def exDisk (n : Text) : Option Local :=
  if n = "/a/d".toList then some ⟨⟨16877, 4096, 7, 8⟩, none⟩
  else if n = "/a/d/s".toList then some ⟨⟨16832, 4096, 5, 6⟩, none⟩
  else if n = "/a/d/s/u".toList then some ⟨⟨16832, 4096, 5, 6⟩, none⟩
  else if n = "/a/d/t".toList then some ⟨⟨16832, 4096, 5, 6⟩, none⟩
  else if n = "/a/d/s/f".toList then some ⟨⟨33188, 1, 3 / 2, 2⟩, some ['\x01']⟩
  else if n = "/a/d/t/g".toList then some ⟨⟨33188, 1, 3, 4⟩, some ['\x02']⟩
  else none

example : Sendable exDisk "/a/d/s/f".toList :=
  ⟨⟨33188, 1, 3 / 2, 2⟩, ['\x01'], by decide +kernel, rfl, by norm_num, by decide⟩

example : put exDisk (fun _ => none) 16384 false true 9 ["/a/d/s/f".toList] (List.replicate 4 (.data ['\x00'] none)) =
    some (.done, "T1 0 2 0\nC0644 1 f\n".toList ++ ['\x01', '\x00'], []) := by decide +kernel

-- a refusal after the announcement: the content is not sent
example : put exDisk (fun _ => none) 16384 false true 9 ["/a/d/s/f".toList]
      [.data ['\x00'] none, .data ['\x00'] none, .data ("\x01no".toList) none] =
    some (.scpException (.message "no".toList), "T1 0 2 0\nC0644 1 f\n".toList, []) := by decide +kernel

example : OnDisk exDisk (Scp.walkBase "/a/d".toList [] exDirs) := by
  have hw : Scp.walkBase "/a/d".toList [] exDirs =
      [("/a/d".toList, []), ("/a/d/s".toList, [("f".toList, [1])]), ("/a/d/s/u".toList, []),
        ("/a/d/t".toList, [("g".toList, [2])])] := by decide +kernel
  rw [hw]
  intro d hd
  simp only [List.mem_cons, List.not_mem_nil, or_false] at hd
  rcases hd with rfl | rfl | rfl | rfl
  · exact ⟨⟨⟨⟨16877, 4096, 7, 8⟩, none⟩, by decide +kernel, by norm_num⟩, by simp⟩
  · refine ⟨⟨⟨⟨16832, 4096, 5, 6⟩, none⟩, by decide +kernel, by norm_num⟩, ?_⟩
    intro f hf
    rw [List.mem_singleton] at hf
    subst hf
    exact ⟨⟨33188, 1, 3 / 2, 2⟩, by decide +kernel, rfl, by norm_num⟩
  · exact ⟨⟨⟨⟨16832, 4096, 5, 6⟩, none⟩, by decide +kernel, by norm_num⟩, by simp⟩
  · refine ⟨⟨⟨⟨16832, 4096, 5, 6⟩, none⟩, by decide +kernel, by norm_num⟩, ?_⟩
    intro f hf
    rw [List.mem_singleton] at hf
    subst hf
    exact ⟨⟨33188, 1, 3, 4⟩, by decide +kernel, rfl, by norm_num⟩

example : (put exDisk (fun b => some ((Scp.walkBase b [] exDirs).map fun d => (d.1, d.2.map Prod.fst))) 16384 true false 9
      ["/a/d".toList] (List.replicate 20 (.data ['\x00'] none))).map (fun r => (r.1, r.2.1)) =
    some (.done, "D0755 0 d\nD0700 0 s\nC0644 1 f\n\x01\x00D0700 0 u\nE\nE\nD0700 0 t\nC0644 1 g\n\x02\x00E\nE\n".toList) := by
  decide +kernel

end Verif.Props
