import Verif.Model.Utf8
import Verif.Spec.Utf8
import Verif.Lemmas.Fs

/-!
# Names as bytes and as strings: C186
-/

namespace Verif.Props
open Verif.Spec Verif.Utf8
open Verif.Fs (Text)

/-! ### One character -/

/-- A number that is a character. -/
def Scalar (c : ℕ) : Prop := c < 0xD800 ∨ (0xE000 ≤ c ∧ c < 0x110000)

theorem encodeCp_char (c : Char) : encodeCp c.toNat = (String.utf8EncodeChar c).map UInt8.toNat := by
  have h : c.toNat < 0x110000 := by
    rcases c.valid with h | h
    · exact lt_of_lt_of_le h (by norm_num)
    · exact h.2
  have e : c.val.toNat = c.toNat := rfl
  unfold encodeCp String.utf8EncodeChar
  simp only [e]
  generalize c.toNat = n at h ⊢
  split_ifs <;> (try omega) <;> simp <;> omega

theorem scalar_char (c : Char) : Scalar c.toNat := by
  rcases c.valid with h | h
  · exact .inl h
  · exact .inr ⟨by have := h.1; show 0xE000 ≤ c.val.toNat; omega, h.2⟩

theorem exists_char {c : ℕ} (h : Scalar c) : ∃ ch : Char, ch.toNat = c := by
  have hv : c.isValidChar := by
    rcases h with h | h
    · exact .inl h
    · exact .inr ⟨by omega, h.2⟩
  refine ⟨Char.ofNat c, ?_⟩
  simp [Char.ofNat, hv, Char.toNat, Char.ofNatAux]

theorem encode2 {b b1 : ℕ} (h : 0xC2 ≤ b) (h' : b < 0xE0) (h1 : cont b1 = true) :
    encodeCp ((b - 0xC0) * 64 + (b1 - 0x80)) = [b, b1] ∧ Scalar ((b - 0xC0) * 64 + (b1 - 0x80)) := by
  simp only [cont, decide_eq_true_eq] at h1
  obtain ⟨x, rfl⟩ : ∃ x, b = 0xC0 + x := ⟨b - 0xC0, by omega⟩
  obtain ⟨y, rfl⟩ : ∃ y, b1 = 0x80 + y := ⟨b1 - 0x80, by omega⟩
  simp only [Nat.add_sub_cancel_left]
  constructor
  · unfold encodeCp
    rw [if_neg (by omega), if_pos (by omega)]
    congr 1
    · omega
    · congr 1; omega
  · left; omega

theorem encode3 {b b1 b2 : ℕ} (h : 0xE0 ≤ b) (h' : b < 0xF0) (h1 : second3 b b1 = true) (h2 : cont b2 = true) :
    encodeCp ((b - 0xE0) * 4096 + (b1 - 0x80) * 64 + (b2 - 0x80)) = [b, b1, b2] ∧
      Scalar ((b - 0xE0) * 4096 + (b1 - 0x80) * 64 + (b2 - 0x80)) := by
  simp only [second3, cont, Bool.and_eq_true, decide_eq_true_eq] at h1 h2
  obtain ⟨h1, h3⟩ := h1
  have h4 : (b = 0xE0 → 0xA0 ≤ b1) ∧ (b = 0xED → b1 < 0xA0) := by
    constructor
    · rintro rfl; simpa using h3
    · rintro rfl; simpa using h3
  clear h3
  obtain ⟨x, rfl⟩ : ∃ x, b = 0xE0 + x := ⟨b - 0xE0, by omega⟩
  obtain ⟨y, rfl⟩ : ∃ y, b1 = 0x80 + y := ⟨b1 - 0x80, by omega⟩
  obtain ⟨z, rfl⟩ : ∃ y, b2 = 0x80 + y := ⟨b2 - 0x80, by omega⟩
  simp only [Nat.add_sub_cancel_left]
  constructor
  · unfold encodeCp
    rw [if_neg (by omega), if_neg (by omega), if_pos (by omega)]
    congr 1
    · omega
    · congr 1
      · omega
      · congr 1; omega
  · unfold Scalar; omega

theorem encode4 {b b1 b2 b3 : ℕ} (h : 0xF0 ≤ b) (h' : b < 0xF5) (h1 : second4 b b1 = true) (h2 : cont b2 = true)
    (h3 : cont b3 = true) :
    encodeCp ((b - 0xF0) * 262144 + (b1 - 0x80) * 4096 + (b2 - 0x80) * 64 + (b3 - 0x80)) = [b, b1, b2, b3] ∧
      Scalar ((b - 0xF0) * 262144 + (b1 - 0x80) * 4096 + (b2 - 0x80) * 64 + (b3 - 0x80)) := by
  simp only [second4, cont, Bool.and_eq_true, decide_eq_true_eq] at h1 h2 h3
  obtain ⟨h1, h5⟩ := h1
  have h4 : (b = 0xF0 → 0x90 ≤ b1) ∧ (b = 0xF4 → b1 < 0x90) := by
    constructor
    · rintro rfl; simpa using h5
    · rintro rfl; simpa using h5
  clear h5
  obtain ⟨x, rfl⟩ : ∃ x, b = 0xF0 + x := ⟨b - 0xF0, by omega⟩
  obtain ⟨y, rfl⟩ : ∃ y, b1 = 0x80 + y := ⟨b1 - 0x80, by omega⟩
  obtain ⟨z, rfl⟩ : ∃ y, b2 = 0x80 + y := ⟨b2 - 0x80, by omega⟩
  obtain ⟨w, rfl⟩ : ∃ y, b3 = 0x80 + y := ⟨b3 - 0x80, by omega⟩
  simp only [Nat.add_sub_cancel_left]
  constructor
  · unfold encodeCp
    rw [if_neg (by omega), if_neg (by omega), if_neg (by omega)]
    congr 1
    · omega
    · congr 1
      · omega
      · congr 1
        · omega
        · congr 1; omega
  · unfold Scalar; omega

theorem second3_ge {b b1 : ℕ} (h : second3 b b1 = true) : 0x80 ≤ b1 := by
  simp only [second3, cont, Bool.and_eq_true, decide_eq_true_eq] at h
  exact h.1.1

theorem second4_ge {b b1 : ℕ} (h : second4 b b1 = true) : 0x80 ≤ b1 := by
  simp only [second4, cont, Bool.and_eq_true, decide_eq_true_eq] at h
  exact h.1.1

theorem cont_ge {b1 : ℕ} (h : cont b1 = true) : 0x80 ≤ b1 := by
  simp only [cont, decide_eq_true_eq] at h
  exact h.1

/-- What a step of the decoder finds. -/
def Found (b : ℕ) (t : List ℕ) (r : Piece × List ℕ) : Prop :=
  (∃ c, r.1 = .char c ∧ Scalar c ∧ encodeCp c ++ r.2 = b :: t) ∨
    (∃ bs, r.1 = .bad bs ∧ bs ≠ [] ∧ (∀ x ∈ bs, 0x80 ≤ x) ∧ bs ++ r.2 = b :: t)

theorem piece_found (b : ℕ) (t : List ℕ) : Found b t (piece b t) := by
  have char : ∀ {c : ℕ} {r : List ℕ}, Scalar c → encodeCp c ++ r = b :: t → Found b t (.char c, r) :=
    fun h1 h2 => .inl ⟨_, rfl, h1, h2⟩
  have bad : ∀ {bs r : List ℕ}, bs ≠ [] → (∀ x ∈ bs, 0x80 ≤ x) → bs ++ r = b :: t → Found b t (.bad bs, r) :=
    fun h1 h2 h3 => .inr ⟨_, rfl, h1, h2, h3⟩
  unfold piece
  split_ifs with g1 g2 g3 g4 g5
  · exact char (.inl (by omega)) (by simp [encodeCp, g1])
  · exact bad (by simp) (by simp; omega) rfl
  · split
    · split_ifs with h
      · have := encode2 (by omega) g3 h
        exact char this.2 (by rw [this.1]; rfl)
      · exact bad (by simp) (by simp; omega) rfl
    · exact bad (by simp) (by simp; omega) rfl
  · split
    · split_ifs with h h'
      · have := encode3 (by omega) g4 h h'
        exact char this.2 (by rw [this.1]; rfl)
      · have := second3_ge h
        exact bad (by simp) (by simp; omega) rfl
      · exact bad (by simp) (by simp; omega) rfl
    · split_ifs with h
      · have := second3_ge h
        exact bad (by simp) (by simp; omega) rfl
      · exact bad (by simp) (by simp; omega) rfl
    · exact bad (by simp) (by simp; omega) rfl
  · split
    · split_ifs with h h' h''
      · have := encode4 (by omega) g5 h h' h''
        exact char this.2 (by rw [this.1]; rfl)
      · have := second4_ge h
        have := cont_ge h'
        exact bad (by simp) (by simp; omega) rfl
      · have := second4_ge h
        exact bad (by simp) (by simp; omega) rfl
      · exact bad (by simp) (by simp; omega) rfl
    · split_ifs with h h'
      · have := second4_ge h
        have := cont_ge h'
        exact bad (by simp) (by simp; omega) rfl
      · have := second4_ge h
        exact bad (by simp) (by simp; omega) rfl
      · exact bad (by simp) (by simp; omega) rfl
    · split_ifs with h
      · have := second4_ge h
        exact bad (by simp) (by simp; omega) rfl
      · exact bad (by simp) (by simp; omega) rfl
    · exact bad (by simp) (by simp; omega) rfl
  · exact bad (by simp) (by simp; omega) rfl

theorem piece_encode {c : ℕ} (h : Scalar c) (t : List ℕ) :
    ∃ b e, encodeCp c = b :: e ∧ piece b (e ++ t) = (.char c, t) := by
  unfold Scalar at h
  unfold encodeCp
  split_ifs with h1 h2 h3
  · exact ⟨_, _, rfl, by simp [piece, h1]⟩
  · refine ⟨_, _, rfl, ?_⟩
    unfold piece
    have hc : cont (0x80 + c % 64) = true := by simp [cont]; omega
    rw [if_neg (by omega), if_neg (by omega), if_pos (by omega)]
    simp only [List.cons_append, List.nil_append, hc, if_true, Prod.mk.injEq, Piece.char.injEq, and_true]
    omega
  · refine ⟨_, _, rfl, ?_⟩
    unfold piece
    have hc : cont (0x80 + c % 64) = true := by simp [cont]; omega
    have hs : second3 (0xE0 + c / 4096) (0x80 + c / 64 % 64) = true := by
      simp only [second3, cont, Bool.and_eq_true, decide_eq_true_eq]
      refine ⟨by omega, ?_⟩
      split_ifs <;> simp <;> omega
    rw [if_neg (by omega), if_neg (by omega), if_neg (by omega), if_pos (by omega)]
    simp only [List.cons_append, List.nil_append, hc, hs, if_true, Prod.mk.injEq, Piece.char.injEq, and_true]
    omega
  · refine ⟨_, _, rfl, ?_⟩
    unfold piece
    have hc : cont (0x80 + c % 64) = true := by simp [cont]; omega
    have hc' : cont (0x80 + c / 64 % 64) = true := by simp [cont]; omega
    have hs : second4 (0xF0 + c / 262144) (0x80 + c / 4096 % 64) = true := by
      simp only [second4, cont, Bool.and_eq_true, decide_eq_true_eq]
      refine ⟨by omega, ?_⟩
      split_ifs <;> simp <;> omega
    rw [if_neg (by omega), if_neg (by omega), if_neg (by omega), if_neg (by omega), if_pos (by omega)]
    simp only [List.cons_append, List.nil_append, hc, hc', hs, if_true, Prod.mk.injEq, Piece.char.injEq, and_true]
    omega

theorem piece_local {x : ℕ} (hx : x < 0x80) (b : ℕ) (t u : List ℕ) :
    piece b (t ++ x :: u) = ((piece b t).1, (piece b t).2 ++ x :: u) := by
  have hc : cont x = false := by simp [cont]; omega
  have h3 : second3 b x = false := by simp [second3, hc]
  have h4 : second4 b x = false := by simp [second4, hc]
  unfold piece
  split_ifs with g1 g2 g3 g4 g5
  · rfl
  · rfl
  · rcases t with _ | ⟨b1, t⟩
    · simp [hc]
    · simp only [List.cons_append]
      split_ifs <;> rfl
  · rcases t with _ | ⟨b1, _ | ⟨b2, t⟩⟩
    · rcases u with _ | ⟨u1, u⟩ <;> simp [h3]
    · simp only [List.cons_append, List.nil_append, hc]
      split_ifs <;> simp_all
    · simp only [List.cons_append]
      split_ifs <;> rfl
  · rcases t with _ | ⟨b1, _ | ⟨b2, _ | ⟨b3, t⟩⟩⟩
    · rcases u with _ | ⟨u1, _ | ⟨u2, u⟩⟩ <;> simp [h4]
    · rcases u with _ | ⟨u1, u⟩ <;> simp only [List.cons_append, List.nil_append, hc] <;> split_ifs <;> simp_all
    · simp only [List.cons_append, List.nil_append, hc]
      split_ifs <;> simp_all
    · simp only [List.cons_append]
      split_ifs <;> rfl
  · rfl

/-! ### Byte strings -/

theorem encodeCp_ne (c : ℕ) : encodeCp c ≠ [] := by
  unfold encodeCp; split_ifs <;> simp

theorem piece_shorter (b : ℕ) (t : List ℕ) : (piece b t).2.length ≤ t.length := by
  rcases piece_found b t with ⟨c, _, _, h⟩ | ⟨bs, _, h', _, h⟩
  · have h1 := congrArg List.length h
    have h2 := List.length_pos_iff.mpr (encodeCp_ne c)
    simp only [List.length_append, List.length_cons] at h1
    omega
  · have h1 := congrArg List.length h
    have h2 := List.length_pos_iff.mpr h'
    simp only [List.length_append, List.length_cons] at h1
    omega

theorem piecesUpTo_eq {n m : ℕ} {b : List ℕ} (hn : b.length ≤ n) (hm : b.length ≤ m) : piecesUpTo n b = piecesUpTo m b := by
  induction n generalizing m b with
  | zero =>
    obtain rfl : b = [] := by simpa using hn
    cases m <;> rfl
  | succ n ih =>
    rcases b with _ | ⟨b, t⟩
    · cases m <;> rfl
    · rcases m with _ | m
      · simp at hm
      · simp only [List.length_cons] at hn hm
        have := piece_shorter b t
        rw [piecesUpTo, piecesUpTo, ih (m := m) (by omega) (by omega)]

theorem pieces_nil : pieces [] = [] := rfl

theorem pieces_cons (b : ℕ) (t : List ℕ) : pieces (b :: t) = (piece b t).1 :: pieces (piece b t).2 := by
  unfold pieces
  rw [List.length_cons, piecesUpTo, piecesUpTo_eq (piece_shorter b t) le_rfl]

theorem pieces_induct {P : List ℕ → Prop} (nil : P []) (step : ∀ b t, P (piece b t).2 → P (b :: t)) (b : List ℕ) : P b := by
  have key : ∀ n, ∀ b : List ℕ, b.length ≤ n → P b := by
    intro n
    induction n with
    | zero =>
      intro b h
      obtain rfl : b = [] := by simpa using h
      exact nil
    | succ n ih =>
      intro b h
      rcases b with _ | ⟨b, t⟩
      · exact nil
      · simp only [List.length_cons] at h
        have := piece_shorter b t
        exact step b t (ih _ (by omega))
  exact key _ b le_rfl

theorem pieces_split {x : ℕ} (hx : x < 0x80) (a u : List ℕ) : pieces (a ++ x :: u) = pieces a ++ pieces (x :: u) := by
  induction a using pieces_induct with
  | nil => rfl
  | step b t ih => rw [List.cons_append, pieces_cons, piece_local hx, ih, pieces_cons b t]; rfl

theorem pieces_ascii {x : ℕ} (hx : x < 0x80) (u : List ℕ) : pieces (x :: u) = .char x :: pieces u := by
  rw [pieces_cons]; simp [piece, hx]

theorem pieces_encode {c : ℕ} (h : Scalar c) (t : List ℕ) : pieces (encodeCp c ++ t) = .char c :: pieces t := by
  obtain ⟨b, e, h1, h2⟩ := piece_encode h t
  rw [h1, List.cons_append, pieces_cons, h2]

theorem utf8Bytes_cons (c : Char) (t : List Char) : utf8Bytes (c :: t) = encodeCp c.toNat ++ utf8Bytes t := by
  rw [encodeCp_char]; simp [utf8Bytes]

theorem pieces_utf8 (t : List Char) : pieces (utf8Bytes t) = t.map fun c => .char c.toNat := by
  induction t with
  | nil => rfl
  | cons c t ih => rw [utf8Bytes_cons, pieces_encode (scalar_char c), ih]; rfl

/-- A piece that is a character, or bytes that are not ASCII. -/
def GoodPiece : Piece → Prop
  | .char c => Scalar c
  | .bad bs => bs ≠ [] ∧ ∀ x ∈ bs, 0x80 ≤ x

/-- The bytes of a piece. -/
def source : Piece → List ℕ
  | .char c => encodeCp c
  | .bad bs => bs

theorem pieces_good (b : List ℕ) : (∀ p ∈ pieces b, GoodPiece p) ∧ (pieces b).flatMap source = b := by
  induction b using pieces_induct with
  | nil => simp [pieces_nil]
  | step b t ih =>
    rw [pieces_cons]
    rcases piece_found b t with ⟨c, h1, h2, h3⟩ | ⟨bs, h1, h2, h4, h3⟩
    · rw [h1]
      refine ⟨?_, ?_⟩
      · intro p hp
        rcases List.mem_cons.mp hp with rfl | hp
        · exact h2
        · exact ih.1 p hp
      · rw [List.flatMap_cons, ih.2]; exact h3
    · rw [h1]
      refine ⟨?_, ?_⟩
      · intro p hp
        rcases List.mem_cons.mp hp with rfl | hp
        · exact ⟨h2, h4⟩
        · exact ih.1 p hp
      · rw [List.flatMap_cons, ih.2]; exact h3

/-- Pieces that are all characters. -/
theorem pieces_chars {ps : List Piece} (hg : ∀ p ∈ ps, GoodPiece p) (h : ∀ bs, Piece.bad bs ∉ ps) :
    ∃ t : List Char, ps = t.map fun c => .char c.toNat := by
  induction ps with
  | nil => exact ⟨[], rfl⟩
  | cons p ps ih =>
    obtain ⟨t, ht⟩ := ih (fun q hq => hg q (List.mem_cons_of_mem _ hq)) fun bs hb => h bs (List.mem_cons_of_mem _ hb)
    cases p with
    | bad bs => exact absurd (List.mem_cons_self ..) (h bs)
    | char c =>
      obtain ⟨ch, rfl⟩ := exists_char (hg _ (List.mem_cons_self ..))
      exact ⟨ch :: t, by rw [ht]; rfl⟩

theorem source_chars (t : List Char) : (t.map fun c => Piece.char c.toNat).flatMap source = utf8Bytes t := by
  induction t with
  | nil => rfl
  | cons c t ih => rw [List.map_cons, List.flatMap_cons, ih, utf8Bytes_cons]; rfl

theorem valid_iff (b : List ℕ) : ValidUtf8 b ↔ ∀ bs, Piece.bad bs ∉ pieces b := by
  constructor
  · rintro ⟨t, rfl⟩ bs h
    rw [pieces_utf8] at h
    simp at h
  · intro h
    obtain ⟨t, ht⟩ := pieces_chars (pieces_good b).1 h
    exact ⟨t, by rw [← source_chars, ← ht, (pieces_good b).2]⟩

theorem encode_points (t : List Char) : encode (points t) = some (utf8Bytes t) := by
  induction t with
  | nil => rfl
  | cons c t ih =>
    have h := scalar_char c
    rw [points, List.map_cons, encode, if_neg (by unfold Scalar at h; omega)]
    have : encode (t.map Char.toNat) = some (utf8Bytes t) := ih
    rw [this, utf8Bytes_cons]; rfl

theorem encode_some {s : List ℕ} (hs : IsStr s) {b : List ℕ} (h : encode s = some b) : ∃ t, points t = s ∧ utf8Bytes t = b := by
  induction s generalizing b with
  | nil => exact ⟨[], rfl, by simpa [encode, utf8Bytes, eq_comm] using h⟩
  | cons c s ih =>
    rw [encode] at h
    split_ifs at h with hc
    rcases he : encode s with _ | b'
    · simp [he] at h
    · obtain ⟨t, h1, h2⟩ := ih (fun x hx => hs x (List.mem_cons_of_mem _ hx)) he
      obtain ⟨ch, rfl⟩ : ∃ ch : Char, ch.toNat = c := by
        apply exists_char
        have := hs c (List.mem_cons_self ..)
        unfold Scalar; omega
      rw [he] at h
      refine ⟨ch :: t, by simp [points, ← h1], ?_⟩
      rw [utf8Bytes_cons, h2]; simpa using h

/-- **C186** `asbytes` of a string gives its UTF-8 bytes, and fails exactly for the strings that are not a text. -/
theorem C186_asbytes {s : List ℕ} (hs : IsStr s) (b : List ℕ) :
    asbytes (.str s) = some b ↔ ∃ t, points t = s ∧ utf8Bytes t = b := by
  refine ⟨encode_some hs, ?_⟩
  rintro ⟨t, rfl, rfl⟩
  exact encode_points t

/-- **C186** `asunicode` of bytes is always a text; its bytes are those given, if they are UTF-8, and if not it has a replacement
character. -/
theorem C186_asunicode (b : List ℕ) : ∃ t, asunicode (.bytes b) = points t ∧ (ValidUtf8 b → utf8Bytes t = b) ∧
    (¬ ValidUtf8 b → '�' ∈ t) := by
  have key : ∀ ps : List Piece, (∀ p ∈ ps, GoodPiece p) → ∃ t : List Char,
      (ps.map fun
        | .char c => c
        | .bad _ => 0xFFFD) = points t ∧ ((∀ bs, Piece.bad bs ∉ ps) → utf8Bytes t = ps.flatMap source) ∧
      ((¬ ∀ bs, Piece.bad bs ∉ ps) → '�' ∈ t) := by
    intro ps
    induction ps with
    | nil => intro _; exact ⟨[], rfl, fun _ => rfl, fun h => absurd (by simp) h⟩
    | cons p ps ih =>
      intro hg
      obtain ⟨t, h1, h2, h3⟩ := ih fun q hq => hg q (List.mem_cons_of_mem _ hq)
      cases p with
      | bad bs =>
        refine ⟨'�' :: t, ?_, fun h => absurd (List.mem_cons_self ..) (h bs), fun _ => List.mem_cons_self ..⟩
        rw [List.map_cons, h1]; rfl
      | char c =>
        obtain ⟨ch, rfl⟩ := exists_char (hg _ (List.mem_cons_self ..))
        refine ⟨ch :: t, ?_, ?_, ?_⟩
        · rw [List.map_cons, h1]; rfl
        · intro h
          rw [utf8Bytes_cons, h2 fun bs hb => h bs (List.mem_cons_of_mem _ hb)]; rfl
        · intro h
          refine List.mem_cons_of_mem _ (h3 fun h' => h fun bs hb => ?_)
          rcases List.mem_cons.mp hb with hb | hb
          · cases hb
          · exact h' bs hb
  obtain ⟨t, h1, h2, h3⟩ := key (pieces b) (pieces_good b).1
  refine ⟨t, h1, fun hv => ?_, fun hv => h3 fun h => hv ((valid_iff b).mpr h)⟩
  rw [h2 ((valid_iff b).mp hv), (pieces_good b).2]

/-- **C186** Encoding and decoding gives the string back; so different strings have different bytes. -/
theorem C186_round_trip {s : List ℕ} (hs : IsStr s) {b : List ℕ} (h : asbytes (.str s) = some b) :
    asunicode (.bytes b) = s := by
  obtain ⟨t, rfl, rfl⟩ := encode_some hs h
  show decodeReplace _ = _
  rw [decodeReplace, pieces_utf8, List.map_map]; rfl

theorem fsdecode_eq {b : List ℕ} (h : ValidUtf8 b) : ∃ t, fsdecode b = points t ∧ utf8Bytes t = b := by
  obtain ⟨t, rfl⟩ := h
  refine ⟨t, ?_, rfl⟩
  rw [fsdecode, pieces_utf8, points, List.flatMap_map]
  induction t with
  | nil => rfl
  | cons c t ih => rw [List.flatMap_cons, ih]; rfl

theorem encode_none {s : List ℕ} {c : ℕ} (hc : c ∈ s) (h : 0xD800 ≤ c ∧ c < 0xE000) : encode s = none := by
  induction s with
  | nil => simp at hc
  | cons d s ih =>
    rw [encode]
    rcases List.mem_cons.mp hc with rfl | hc
    · rw [if_pos h]
    · rw [ih hc]; split_ifs <;> rfl

theorem fsencode_pieces {ps : List Piece} (hg : ∀ p ∈ ps, GoodPiece p) (hb : IsBytes (ps.flatMap source)) :
    fsencode (ps.flatMap fun
      | .char c => [c]
      | .bad bs => bs.map (0xDC00 + ·)) = some (ps.flatMap source) := by
  induction ps with
  | nil => rfl
  | cons p ps ih =>
    have ih := ih (fun q hq => hg q (List.mem_cons_of_mem _ hq)) fun x hx => hb x (by
      rw [List.flatMap_cons]; exact List.mem_append_right _ hx)
    have hp := hg p (List.mem_cons_self ..)
    rw [List.flatMap_cons, List.flatMap_cons]
    cases p with
    | char c =>
      simp only [GoodPiece, Scalar] at hp
      rw [List.cons_append, List.nil_append, fsencode, if_neg (by omega), if_neg (by omega), ih]; rfl
    | bad bs =>
      have h256 : ∀ x ∈ bs, 0x80 ≤ x ∧ x < 256 := fun x hx => ⟨hp.2 x hx, hb x (by
        rw [List.flatMap_cons]; exact List.mem_append_left _ hx)⟩
      clear hp hb hg
      show fsencode (bs.map (0xDC00 + ·) ++ _) = some (bs ++ _)
      induction bs with
      | nil => exact ih
      | cons x bs ihb =>
        have := h256 x (List.mem_cons_self ..)
        rw [List.map_cons, List.cons_append, fsencode, if_pos (by omega),
          ihb fun y hy => h256 y (List.mem_cons_of_mem _ hy)]
        simp

theorem fsencode_fsdecode {b : List ℕ} (hb : IsBytes b) : fsencode (fsdecode b) = some b := by
  have h := pieces_good b
  have := fsencode_pieces h.1 (by rw [h.2]; exact hb)
  rw [h.2] at this
  exact this

theorem asbytes_invalid {b : List ℕ} (hb : IsBytes b) (h : ¬ ValidUtf8 b) : asbytes (.str (fsdecode b)) = none := by
  rw [valid_iff] at h
  push Not at h
  obtain ⟨bs, hm⟩ := h
  have hg := pieces_good b
  obtain ⟨hne, h80⟩ := hg.1 _ hm
  obtain ⟨x, hx⟩ := List.exists_mem_of_ne_nil _ hne
  have h256 : x < 256 := hb x (by rw [← hg.2]; exact List.mem_flatMap.mpr ⟨_, hm, hx⟩)
  refine encode_none (c := 0xDC00 + x) (List.mem_flatMap.mpr ⟨_, hm, List.mem_map.mpr ⟨x, hx, rfl⟩⟩) ?_
  have := h80 x hx
  omega

/-- **C186** A name of the file system, as the string that `os.walk` gives: the operating system takes it as the same name, and
`asbytes` gives its bytes if they are UTF-8. -/
theorem C186_name {b : List ℕ} (hb : IsBytes b) : fsencode (fsdecode b) = some b ∧
    (ValidUtf8 b → asbytes (.str (fsdecode b)) = some b) := by
  refine ⟨fsencode_fsdecode hb, fun h => ?_⟩
  obtain ⟨t, h1, h2⟩ := fsdecode_eq h
  rw [h1, ← h2]
  exact encode_points t

/-- **C186** violated for the names that are not UTF-8: `asbytes` fails. -/
theorem C186_name_violated {b : List ℕ} (hb : IsBytes b) (h : ¬ ValidUtf8 b) : asbytes (.str (fsdecode b)) = none :=
  asbytes_invalid hb h

theorem decode_iff (b s : List ℕ) : decode b = some s ↔ ∃ t, points t = s ∧ utf8Bytes t = b := by
  have chars : ∀ t : List Char, decode (utf8Bytes t) = some (points t) := by
    intro t
    rw [decode, pieces_utf8]
    induction t with
    | nil => rfl
    | cons c t ih => rw [List.map_cons, List.mapM_cons, ih]; rfl
  constructor
  · intro h
    by_cases hv : ValidUtf8 b
    · obtain ⟨t, rfl⟩ := hv
      rw [chars] at h
      exact ⟨t, Option.some.inj h, rfl⟩
    · rw [valid_iff] at hv
      push Not at hv
      obtain ⟨bs, hm⟩ := hv
      exfalso
      rw [decode] at h
      revert h s
      revert hm
      generalize pieces b = ps
      intro hm
      induction ps with
      | nil => simp at hm
      | cons p ps ih =>
        intro s h
        rcases List.mem_cons.mp hm with rfl | hm
        · simp [List.mapM_cons, Piece.char?] at h
        · rcases hp : ps.mapM Piece.char? with _ | s'
          · rw [List.mapM_cons, hp] at h
            cases p <;> simp [Piece.char?] at h
          · exact ih hm s' hp
  · rintro ⟨t, rfl, rfl⟩
    exact chars t

/-! ### Sending strings -/

/-- A name whose characters are bytes. -/
def ByteText (p : Text) : Prop := ∀ c ∈ p, c.toNat < 256

theorem wire_raw (p : Text) : wire (raw p) = p := by
  simp [wire, raw, Function.comp_def]

theorem raw_bytes {p : Text} (h : ByteText p) : IsBytes (raw p) := by
  intro x hx
  obtain ⟨c, hc, rfl⟩ := List.mem_map.mp hx
  exact h c hc

theorem fsdecode_split {x : ℕ} (hx : x < 0x80) (a u : List ℕ) : fsdecode (a ++ x :: u) = fsdecode a ++ x :: fsdecode u := by
  unfold fsdecode
  rw [pieces_split hx, pieces_ascii hx, List.flatMap_append, List.flatMap_cons]
  rfl

theorem fsdecode_plain {w : List ℕ} (h : 47 ∉ w) : 47 ∉ fsdecode w := by
  intro hm
  obtain ⟨p, hp, hc⟩ := List.mem_flatMap.mp hm
  have hg := pieces_good w
  cases p with
  | char c =>
    simp only [List.mem_singleton] at hc
    subst hc
    apply h
    rw [← hg.2]
    exact List.mem_flatMap.mpr ⟨_, hp, by simp [source, encodeCp]⟩
  | bad bs =>
    obtain ⟨x, _, hx⟩ := List.mem_map.mp hc
    omega

theorem baseNameS_append {a w : List ℕ} (h : 47 ∉ w) : baseNameS (a ++ 47 :: w) = w := by
  unfold baseNameS
  rw [List.reverse_append, List.reverse_cons, List.append_assoc, List.takeWhile_append_of_pos]
  · simp
  · intro x hx
    simp only [List.mem_reverse] at hx
    simpa using fun e : x = 47 => h (e ▸ hx)

theorem baseNameS_word {w : List ℕ} (h : 47 ∉ w) : baseNameS w = w := by
  unfold baseNameS
  rw [List.takeWhile_eq_self_iff.mpr, List.reverse_reverse]
  intro x hx
  simp only [List.mem_reverse] at hx
  simpa using fun e : x = 47 => h (e ▸ hx)

theorem toNat_slash (c : Char) : c.toNat = 47 ↔ c = '/' :=
  ⟨fun h => Char.toNat_inj.mp h, fun h => by rw [h]; rfl⟩

theorem raw_plain {w : Text} (h : '/' ∉ w) : 47 ∉ raw w := by
  intro hm
  obtain ⟨c, hc, e⟩ := List.mem_map.mp hm
  exact h ((toNat_slash c).mp e ▸ hc)

theorem last_slash (p : Text) : '/' ∉ p ∨ ∃ a w, p = a ++ '/' :: w ∧ '/' ∉ w := by
  by_cases h : '/' ∈ p
  · right
    have hm : '/' ∈ p.reverse := by simpa using h
    obtain ⟨l, r, e, hl⟩ := List.eq_append_cons_of_mem hm
    refine ⟨r.reverse, l.reverse, ?_, by simpa using hl⟩
    have := congrArg List.reverse e
    simpa using this
  · exact .inl h

theorem fsdecode_baseName (p : Text) : baseNameS (fsdecode (raw p)) = fsdecode (raw (Fs.baseName p)) := by
  rcases last_slash p with h | ⟨a, w, rfl, h⟩
  · rw [Fs.baseName_word h, baseNameS_word (fsdecode_plain (raw_plain h))]
  · have : raw (a ++ '/' :: w) = raw a ++ 47 :: raw w := by simp [raw]
    rw [Fs.baseName_append h, this, fsdecode_split (by norm_num), baseNameS_append (fsdecode_plain (raw_plain h))]

theorem fsdecode_head (b : List ℕ) : (fsdecode b).head? = some 47 ↔ b.head? = some 47 := by
  rcases b with _ | ⟨b, t⟩
  · simp [fsdecode, pieces_nil]
  · have h47 : ∀ c, encodeCp c ++ (piece b t).2 = b :: t → (c = 47 ↔ b = 47) := by
      intro c h
      constructor
      · rintro rfl; simp [encodeCp] at h; exact h.1.symm
      · rintro rfl
        unfold encodeCp at h
        split_ifs at h <;> simp at h <;> omega
    unfold fsdecode
    rw [pieces_cons]
    rcases piece_found b t with ⟨c, h1, h2, h3⟩ | ⟨bs, h1, h2, h4, h3⟩
    · rw [h1]; simp [h47 c h3]
    · rw [h1]
      rcases bs with _ | ⟨x, bs⟩
      · simp at h2
      · have hx := h4 x (List.mem_cons_self ..)
        simp at h3 ⊢
        omega

theorem fsdecode_nil (b : List ℕ) : fsdecode b = [] ↔ b = [] := by
  constructor
  · intro h
    rcases b with _ | ⟨b, t⟩
    · rfl
    · exfalso
      unfold fsdecode at h
      rw [pieces_cons] at h
      rcases piece_found b t with ⟨c, h1, h2, h3⟩ | ⟨bs, h1, h2, h4, h3⟩
      · rw [h1] at h; simp at h
      · rw [h1] at h; simp [h2] at h
  · rintro rfl; rfl

theorem last_slash_nat (b : List ℕ) : 47 ∉ b ∨ ∃ a w, b = a ++ 47 :: w ∧ 47 ∉ w := by
  by_cases h : 47 ∈ b
  · right
    have hm : 47 ∈ b.reverse := by simpa using h
    obtain ⟨l, r, e, hl⟩ := List.eq_append_cons_of_mem hm
    refine ⟨r.reverse, l.reverse, ?_, by simpa using hl⟩
    have := congrArg List.reverse e
    simpa using this
  · exact .inl h

theorem getLast_tail {a w : List ℕ} (h : 47 ∉ w) : (a ++ 47 :: w).getLast? = some 47 ↔ w = [] := by
  constructor
  · intro e
    by_contra hw
    obtain ⟨w', x, rfl⟩ := List.eq_nil_or_concat w |>.resolve_left hw
    have : x = 47 := by simpa [List.getLast?_append, List.getLast?_cons] using e
    exact h (by simp [this])
  · rintro rfl; simp

theorem fsdecode_last (b : List ℕ) : (fsdecode b).getLast? = some 47 ↔ b.getLast? = some 47 := by
  rcases last_slash_nat b with h | ⟨a, w, rfl, h⟩
  · refine ⟨fun e => absurd (List.mem_of_getLast? e) (fsdecode_plain h), fun e => absurd (List.mem_of_getLast? e) h⟩
  · rw [fsdecode_split (by norm_num), getLast_tail h, getLast_tail (fsdecode_plain h), fsdecode_nil]

theorem raw_head (b : Text) : (raw b).head? = some 47 ↔ b.head? = some '/' := by
  cases b <;> simp [raw, toNat_slash]

theorem raw_last (b : Text) : (raw b).getLast? = some 47 ↔ b.getLast? = some '/' := by
  rw [raw, List.getLast?_map]
  cases b.getLast? <;> simp [toNat_slash]

theorem fsdecode_join (a b : Text) : joinS (fsdecode (raw a)) (fsdecode (raw b)) = fsdecode (raw (Fs.join a b)) := by
  unfold joinS Fs.join
  have hn : fsdecode (raw a) = [] ↔ a = [] := by rw [fsdecode_nil]; simp [raw]
  simp only [fsdecode_head, raw_head, fsdecode_last, raw_last, hn]
  split_ifs with h1 h2
  · rfl
  · rcases h2 with rfl | h2
    · rfl
    · obtain ⟨a', rfl⟩ : ∃ a', a = a' ++ ['/'] := by
        obtain ⟨l, h⟩ := List.getLast?_eq_some_iff.mp h2
        exact ⟨l, h⟩
      have e1 : raw (a' ++ ['/']) = raw a' ++ 47 :: [] := by simp [raw]
      have e2 : raw (a' ++ ['/'] ++ b) = raw a' ++ 47 :: raw b := by simp [raw]
      rw [e1, e2, fsdecode_split (by norm_num), fsdecode_split (by norm_num)]
      simp [fsdecode, pieces_nil]
  · have e2 : raw (a ++ '/' :: b) = raw a ++ 47 :: raw b := by simp [raw]
    rw [e2, fsdecode_split (by norm_num)]

/-- The string of a name of the file system. -/
def str (p : Text) : List ℕ := fsdecode (raw p)

/-- A name of bytes that are UTF-8. -/
def Utf8Name (p : Text) : Prop := ValidUtf8 (raw p)

theorem asbytes_str {p : Text} (hp : ByteText p) (h : Utf8Name p) : asbytes (.str (str p)) = some (raw p) :=
  (C186_name (raw_bytes hp)).2 h

theorem asbytes_str_bad {p : Text} (hp : ByteText p) (h : ¬ Utf8Name p) : asbytes (.str (str p)) = none :=
  asbytes_invalid (raw_bytes hp) h

theorem baseName_mem {p : Text} (hp : ByteText p) : ByteText (Fs.baseName p) := by
  intro c hc
  refine hp c ?_
  unfold Fs.baseName at hc
  have := (List.takeWhile_sublist _).subset (List.mem_reverse.mp hc)
  simpa using this

theorem sendNamed_eq (disk : Text → Option ScpWire.Local) (buff : ℕ) (preserve : Bool) (fuel : ℕ) (f : Text) :
    sendNamed disk buff preserve fuel f (Fs.baseName f) = ScpWire.sendFile disk buff preserve fuel f := rfl

theorem sendFiles_cons (disk : Text → Option ScpWire.Local) (buff : ℕ) (preserve : Bool) (fuel : ℕ) (f : Text)
    (files : List Text) : ScpWire.sendFiles disk buff preserve fuel (f :: files) =
      match ScpWire.sendFile disk buff preserve fuel f, ScpWire.sendFiles disk buff preserve fuel files with
      | some a, some b => some (a ++ b)
      | _, _ => none := rfl

theorem sendFilesS_good (disk : Text → Option ScpWire.Local) (buff : ℕ) (preserve : Bool) (fuel : ℕ) {files : List Text}
    (hb : ∀ f ∈ files, ByteText f) (hv : ∀ f ∈ files, Utf8Name (Fs.baseName f)) :
    sendFilesS disk buff preserve fuel (files.map str) = (ScpWire.sendFiles disk buff preserve fuel files).map (·, false) := by
  induction files with
  | nil => rfl
  | cons f files ih =>
    have ih := ih (fun g hg => hb g (List.mem_cons_of_mem _ hg)) fun g hg => hv g (List.mem_cons_of_mem _ hg)
    have hf := hb f (List.mem_cons_self ..)
    have h1 : asbytes (.str (baseNameS (str f))) = some (raw (Fs.baseName f)) := by
      rw [str, fsdecode_baseName]
      exact asbytes_str (baseName_mem hf) (hv f (List.mem_cons_self ..))
    have h2 : fsencode (str f) = some (raw f) := fsencode_fsdecode (raw_bytes hf)
    rw [List.map_cons, sendFilesS, h1, h2]
    simp only [wire_raw]
    rw [ih, sendNamed_eq, sendFiles_cons]
    cases ScpWire.sendFile disk buff preserve fuel f <;> cases ScpWire.sendFiles disk buff preserve fuel files <;> rfl

theorem sendFilesS_bad (disk : Text → Option ScpWire.Local) (buff : ℕ) (preserve : Bool) (fuel : ℕ) {before : List Text}
    (hb : ∀ f ∈ before, ByteText f) (hv : ∀ f ∈ before, Utf8Name (Fs.baseName f)) {bad : Text} (hbad : ByteText bad)
    (h : ¬ Utf8Name (Fs.baseName bad)) (after : List Text) :
    sendFilesS disk buff preserve fuel ((before ++ bad :: after).map str) =
      (ScpWire.sendFiles disk buff preserve fuel before).map (·, true) := by
  induction before with
  | nil =>
    have h1 : asbytes (.str (baseNameS (str bad))) = none := by
      rw [str, fsdecode_baseName]
      exact asbytes_str_bad (baseName_mem hbad) h
    rw [List.nil_append, List.map_cons, sendFilesS, h1]; rfl
  | cons f files ih =>
    have ih := ih (fun g hg => hb g (List.mem_cons_of_mem _ hg)) fun g hg => hv g (List.mem_cons_of_mem _ hg)
    have hf := hb f (List.mem_cons_self ..)
    have h1 : asbytes (.str (baseNameS (str f))) = some (raw (Fs.baseName f)) := by
      rw [str, fsdecode_baseName]
      exact asbytes_str (baseName_mem hf) (hv f (List.mem_cons_self ..))
    have h2 : fsencode (str f) = some (raw f) := fsencode_fsdecode (raw_bytes hf)
    rw [List.cons_append, List.map_cons, sendFilesS, h1, h2]
    simp only [wire_raw]
    rw [ih, sendNamed_eq, sendFiles_cons]
    cases ScpWire.sendFile disk buff preserve fuel f <;> cases ScpWire.sendFiles disk buff preserve fuel files <;> rfl

/-- **C186** Files given as strings are sent like those given as bytes, if their names (without the directory) are UTF-8; the
directory can be anything. -/
theorem C186_put (disk : Text → Option ScpWire.Local) (walk walkS) (buff : ℕ) (preserve : Bool) (fuel : ℕ) {files : List Text}
    (hb : ∀ f ∈ files, ByteText f) (hv : ∀ f ∈ files, Utf8Name (Fs.baseName f)) (replies : List ScpWire.Reply) :
    putS disk walkS buff false preserve fuel (files.map str) replies =
      (ScpWire.put disk walk buff false preserve fuel files replies).map fun r => (.as r.1, r.2) := by
  simp only [putS, ScpWire.put, Bool.false_eq_true, if_false, sendFilesS_good disk buff preserve fuel hb hv]
  cases ScpWire.sendFiles disk buff preserve fuel files <;> simp

/-- **C186** violated for other names: the files before are sent, then `put` fails, and the session stays open; those after it
are not sent. -/
theorem C186_put_violated (disk : Text → Option ScpWire.Local) (walk walkS) (buff : ℕ) (preserve : Bool) (fuel : ℕ)
    {before : List Text} (hb : ∀ f ∈ before, ByteText f) (hv : ∀ f ∈ before, Utf8Name (Fs.baseName f)) {bad : Text}
    (hbad : ByteText bad) (h : ¬ Utf8Name (Fs.baseName bad)) (after : List Text) (replies : List ScpWire.Reply) :
    putS disk walkS buff false preserve fuel ((before ++ bad :: after).map str) replies =
      (ScpWire.put disk walk buff false preserve fuel before replies).map fun r =>
        (if r.1 = .done then .unicodeError else .as r.1, r.2) := by
  simp only [putS, ScpWire.put, Bool.false_eq_true, if_false, sendFilesS_bad disk buff preserve fuel hb hv hbad h]
  cases ScpWire.sendFiles disk buff preserve fuel before <;> simp

/-- What `os.walk` lists, as strings. -/
def strWalk (w : List (Text × List Text)) : List (List ℕ × List (List ℕ)) := w.map fun d => (str d.1, d.2.map str)

theorem baseName_join_word {n : Text} (root : Text) (h : '/' ∉ n) : Fs.baseName (Fs.join root n) = n := by
  unfold Fs.join
  have hh : n.head? ≠ some '/' := fun e => h (List.mem_of_head? e)
  rw [if_neg hh]
  split_ifs with h2
  · rcases h2 with rfl | h2
    · exact Fs.baseName_word h
    · obtain ⟨l, rfl⟩ := List.getLast?_eq_some_iff.mp h2
      rw [List.append_assoc]
      exact Fs.baseName_append h
  · exact Fs.baseName_append h

theorem join_bytes {root n : Text} (h : ByteText root) (h' : ByteText n) : ByteText (Fs.join root n) := by
  intro c hc
  unfold Fs.join at hc
  split_ifs at hc
  · exact h' c hc
  · rcases List.mem_append.mp hc with hc | hc
    · exact h c hc
    · exact h' c hc
  · rcases List.mem_append.mp hc with hc | hc
    · exact h c hc
    · rcases List.mem_cons.mp hc with rfl | hc
      · decide
      · exact h' c hc

/-- A directory of a walk whose names are bytes. -/
def ByteDir (d : Text × List Text) : Prop := ByteText d.1 ∧ ∀ n ∈ d.2, ByteText n ∧ '/' ∉ n

/-- A directory of a walk whose names are UTF-8. -/
def Utf8Dir (d : Text × List Text) : Prop := Utf8Name d.1 ∧ ∀ n ∈ d.2, Utf8Name n

theorem join_strs (root : Text) (names : List Text) :
    (names.map str).map (joinS (str root)) = (names.map (Fs.join root)).map str := by
  simp only [List.map_map]
  exact List.map_congr_left fun n _ => fsdecode_join root n

theorem walkActsS_good (disk : Text → Option ScpWire.Local) (buff : ℕ) (preserve : Bool) (fuel : ℕ) (last : Text)
    {w : List (Text × List Text)} (hb : ∀ d ∈ w, ByteDir d) (hv : ∀ d ∈ w, Utf8Dir d) :
    walkActsS disk buff preserve fuel (raw last) (strWalk w) =
      (ScpWire.walkActs disk buff preserve fuel last w).map fun r => (r.1, r.2, false) := by
  induction w generalizing last with
  | nil => rfl
  | cons d w ih =>
    obtain ⟨root, names⟩ := d
    obtain ⟨hb1, hb2⟩ := hb _ (List.mem_cons_self ..)
    obtain ⟨hv1, hv2⟩ := hv _ (List.mem_cons_self ..)
    have ih := ih root (fun g hg => hb g (List.mem_cons_of_mem _ hg)) fun g hg => hv g (List.mem_cons_of_mem _ hg)
    have hs : sendFilesS disk buff preserve fuel ((names.map (Fs.join root)).map str) =
        (ScpWire.sendFiles disk buff preserve fuel (names.map (Fs.join root))).map (·, false) := by
      apply sendFilesS_good
      · intro f hf
        obtain ⟨n, hn, rfl⟩ := List.mem_map.mp hf
        exact join_bytes hb1 (hb2 n hn).1
      · intro f hf
        obtain ⟨n, hn, rfl⟩ := List.mem_map.mp hf
        rw [baseName_join_word root (hb2 n hn).2]
        exact hv2 n hn
    rw [strWalk, List.map_cons, walkActsS]
    simp only [asbytes_str hb1 hv1, wire_raw]
    rw [join_strs, hs, show (w.map fun d => (str d.1, d.2.map str)) = strWalk w from rfl, ih, ScpWire.walkActs]
    rcases ScpWire.chdirActs disk preserve fuel last root with _ | ⟨n, a⟩
    · rfl
    · rcases ScpWire.sendFiles disk buff preserve fuel (names.map (Fs.join root)) with _ | b
      · rfl
      · rcases ScpWire.walkActs disk buff preserve fuel root w with _ | ⟨k, c⟩ <;> rfl

theorem sendTreeS_good (disk : Text → Option ScpWire.Local) (buff : ℕ) (preserve : Bool) (fuel : ℕ) {base : Text}
    (hbase : ByteText base) (hbv : Utf8Name base)
    {w : List (Text × List Text)} (hb : ∀ d ∈ w, ByteDir d) (hv : ∀ d ∈ w, Utf8Dir d) :
    sendTreeS disk buff preserve fuel (str base) (strWalk w) =
      (ScpWire.sendTree disk buff preserve fuel base w).map (·, false) := by
  unfold sendTreeS ScpWire.sendTree
  rw [asbytes_str hbase hbv]
  simp only
  rw [walkActsS_good disk buff preserve fuel base hb hv]
  cases ScpWire.walkActs disk buff preserve fuel base w <;> rfl

/-- **C186** Files and directories given as strings are sent like those given as bytes, if all names are UTF-8, those of the
directories with their paths. -/
theorem C186_put_tree (disk : Text → Option ScpWire.Local) {walk : Text → Option (List (Text × List Text))} {walkS}
    (buff : ℕ) (preserve : Bool) (fuel : ℕ) {files : List Text} (hw : ∀ f ∈ files, walkS (str f) = (walk f).map strWalk)
    (hb : ∀ f ∈ files, ByteText f) (hv : ∀ f ∈ files, walk f = none → Utf8Name (Fs.baseName f))
    (ht : ∀ f ∈ files, ∀ w, walk f = some w → Utf8Name f ∧ ∀ d ∈ w, ByteDir d ∧ Utf8Dir d) (replies : List ScpWire.Reply) :
    putS disk walkS buff true preserve fuel (files.map str) replies =
      (ScpWire.put disk walk buff true preserve fuel files replies).map fun r => (.as r.1, r.2) := by
  have key : sendRecursiveS disk walkS buff preserve fuel (files.map str) =
      (ScpWire.sendRecursive disk walk buff preserve fuel files).map (·, false) := by
    induction files with
    | nil => rfl
    | cons f files ih =>
      have ih := ih (fun g hg => hw g (List.mem_cons_of_mem _ hg)) (fun g hg => hb g (List.mem_cons_of_mem _ hg))
        (fun g hg => hv g (List.mem_cons_of_mem _ hg)) fun g hg => ht g (List.mem_cons_of_mem _ hg)
      have hm : f ∈ f :: files := List.mem_cons_self ..
      rw [List.map_cons, sendRecursiveS, hw f hm, ih]
      unfold ScpWire.sendRecursive
      rw [ScpWire.inTurn]
      generalize hrest : ScpWire.inTurn _ files = rest
      rcases he : walk f with _ | w
      · have h1 := sendFilesS_good disk buff preserve fuel (files := [f]) (by simpa using hb f hm) (by simpa using hv f hm he)
        rw [List.map_cons, List.map_nil] at h1
        simp only [Option.map_none, h1]
        cases ScpWire.sendFiles disk buff preserve fuel [f] <;> cases rest <;> rfl
      · obtain ⟨h1, h2⟩ := ht f hm w he
        simp only [Option.map_some,
          sendTreeS_good disk buff preserve fuel (hb f hm) h1 (fun d hd => (h2 d hd).1) fun d hd => (h2 d hd).2]
        cases ScpWire.sendTree disk buff preserve fuel f w <;> cases rest <;> rfl
  simp only [putS, ScpWire.put, if_true, key]
  cases ScpWire.sendRecursive disk walk buff preserve fuel files <;> simp

theorem sendFilesS_flag (disk : Text → Option ScpWire.Local) (buff : ℕ) (preserve : Bool) (fuel : ℕ) {files : List Text}
    (hb : ∀ f ∈ files, ByteText f) {bad : Text} (hm : bad ∈ files) (h : ¬ Utf8Name (Fs.baseName bad)) {r}
    (hr : sendFilesS disk buff preserve fuel (files.map str) = some r) : r.2 = true := by
  induction files generalizing r with
  | nil => simp at hm
  | cons f files ih =>
    have hf := hb f (List.mem_cons_self ..)
    by_cases hv : Utf8Name (Fs.baseName f)
    · have hm' : bad ∈ files := by
        rcases List.mem_cons.mp hm with rfl | hm
        · exact absurd hv h
        · exact hm
      have h1 : asbytes (.str (baseNameS (str f))) = some (raw (Fs.baseName f)) := by
        rw [str, fsdecode_baseName]
        exact asbytes_str (baseName_mem hf) hv
      have h2 : fsencode (str f) = some (raw f) := fsencode_fsdecode (raw_bytes hf)
      rw [List.map_cons, sendFilesS, h1, h2] at hr
      simp only [wire_raw] at hr
      split at hr
      · rename_i a b e _ he
        have := ih (fun g hg => hb g (List.mem_cons_of_mem _ hg)) hm' he
        simp only [Option.some.injEq] at hr
        rw [← hr]; exact this
      · cases hr
    · have h1 : asbytes (.str (baseNameS (str f))) = none := by
        rw [str, fsdecode_baseName]
        exact asbytes_str_bad (baseName_mem hf) hv
      rw [List.map_cons, sendFilesS, h1] at hr
      simp only [Option.some.injEq] at hr
      rw [← hr]

theorem walkActsS_flag (disk : Text → Option ScpWire.Local) (buff : ℕ) (preserve : Bool) (fuel : ℕ) (last : List ℕ)
    {w : List (Text × List Text)} (hb : ∀ d ∈ w, ByteDir d) {d} (hd : d ∈ w) (hbad : ¬ Utf8Dir d) {r}
    (hr : walkActsS disk buff preserve fuel last (strWalk w) = some r) : r.2.2 = true := by
  induction w generalizing last r with
  | nil => simp at hd
  | cons d' w ih =>
    obtain ⟨root, names⟩ := d'
    obtain ⟨hb1, hb2⟩ := hb _ (List.mem_cons_self ..)
    rw [strWalk, List.map_cons, walkActsS] at hr
    simp only at hr
    by_cases hv1 : Utf8Name root
    · rw [asbytes_str hb1 hv1] at hr
      simp only at hr
      split at hr
      · simp only [Option.some.injEq] at hr
        rw [← hr]
      · rename_i n a b _ hs
        rw [join_strs] at hs
        have hnames : ∀ n ∈ names, Utf8Name n := by
          by_contra hc
          push Not at hc
          obtain ⟨n, hn, hc⟩ := hc
          have := sendFilesS_flag disk buff preserve fuel (bad := Fs.join root n) (by
            intro f hf
            obtain ⟨n, hn, rfl⟩ := List.mem_map.mp hf
            exact join_bytes hb1 (hb2 n hn).1) (List.mem_map.mpr ⟨n, hn, rfl⟩) (by
            rw [baseName_join_word root (hb2 n hn).2]; exact hc) hs
          simp at this
        have hd' : d ∈ w := by
          rcases List.mem_cons.mp hd with rfl | hd
          · exact absurd ⟨hv1, hnames⟩ hbad
          · exact hd
        split at hr
        · rename_i k c e he
          have := ih (raw root) (fun g hg => hb g (List.mem_cons_of_mem _ hg)) hd' he
          simp only [Option.some.injEq] at hr
          rw [← hr]; exact this
        · cases hr
      · cases hr
    · rw [asbytes_str_bad hb1 hv1] at hr
      simp only [Option.some.injEq] at hr
      rw [← hr]

/-- **C186** violated for a directory given as a string that has a name in it that is not UTF-8: sending it never succeeds,
whatever the other side answers. -/
theorem C186_put_tree_violated (disk : Text → Option ScpWire.Local) {walkS} (buff : ℕ) (preserve : Bool) (fuel : ℕ)
    {base : Text} {w : List (Text × List Text)} (hw : walkS (str base) = some (strWalk w)) (hbase : ByteText base)
    (hb : ∀ d ∈ w, ByteDir d) {d} (hd : d ∈ w) (hbad : ¬ Utf8Dir d) (replies : List ScpWire.Reply) {r}
    (hr : putS disk walkS buff true preserve fuel [str base] replies = some r) : r.1 ≠ .as .done := by
  have key : ∀ a e, sendRecursiveS disk walkS buff preserve fuel [str base] = some (a, e) → e = true := by
    intro a e h
    rw [sendRecursiveS, hw] at h
    have ht : ∀ x, sendTreeS disk buff preserve fuel (str base) (strWalk w) = some x → x.2 = true := by
      intro x hx
      unfold sendTreeS at hx
      by_cases hv : Utf8Name base
      · rw [asbytes_str hbase hv] at hx
        simp only at hx
        split at hx
        · cases hx
        · simp only [Option.some.injEq] at hx
          rw [← hx]
        · rename_i k a he
          have := walkActsS_flag disk buff preserve fuel (raw base) hb hd hbad he
          simp at this
      · rw [asbytes_str_bad hbase hv] at hx
        simp only [Option.some.injEq] at hx
        rw [← hx]
    simp only at h
    split at h
    · cases h
    · simp only [Option.some.injEq, Prod.mk.injEq] at h
      exact h.2.symm
    · rename_i a' he
      have := ht _ he
      simp at this
  unfold putS at hr
  simp only [if_true] at hr
  rcases hs : sendRecursiveS disk walkS buff preserve fuel [str base] with _ | ⟨a, e⟩
  · simp [hs] at hr
  · have := key a e hs
    subst this
    rw [hs] at hr
    simp only [Option.map_some, Option.some.injEq] at hr
    rw [← hr]
    simp only [true_and]
    split_ifs with hdone
    · simp
    · simpa using hdone

/-- **C186** A directory can be received into whose name is UTF-8, or which is given as bytes. -/
theorem C186_get {d : List ℕ} (hd : IsBytes d) (h : ValidUtf8 d) (n : List ℕ) :
    recvPath (.str (fsdecode d)) n = recvPath (.bytes d) n := by
  unfold recvPath
  rw [(C186_name hd).2 h]; rfl

/-- **C186** violated: `get` into a directory whose name is not UTF-8, which can be the current one, refuses every file, unless
the directory is given as bytes. -/
theorem C186_get_violated {d : List ℕ} (hd : IsBytes d) (h : ¬ ValidUtf8 d) (n : List ℕ) :
    recvPath (.str (fsdecode d)) n = none ∧ recvPath (.bytes d) n ≠ none := by
  unfold recvPath
  rw [asbytes_invalid hd h]; exact ⟨rfl, by simp [asbytes]⟩

/-- **C186** The message of a PDL sender has the text that the client printed. -/
theorem C186_pdl (t : List Char) (nfiles : ℕ) : pdlEnd true (utf8Bytes t) nfiles = .sent nfiles (points t) := by
  unfold pdlEnd
  rw [(decode_iff _ _).mpr ⟨t, rfl, rfl⟩]; rfl

/-- **C186** violated: when the client succeeded, and printed something that is not UTF-8, `send` fails although the product was
sent. -/
theorem C186_pdl_violated {stdout : List ℕ} (h : ¬ ValidUtf8 stdout) (nfiles : ℕ) : pdlEnd true stdout nfiles = .unicodeError := by
  unfold pdlEnd
  rcases hd : decode stdout with _ | s
  · rfl
  · obtain ⟨t, _, h2⟩ := (decode_iff _ _).mp hd
    exact absurd ⟨t, h2⟩ h

/-! ### Cases -/

/-- A disk for the example: the directory `d` with a file whose name is the byte 0xFF. -/
def latinDisk (n : Text) : Option ScpWire.Local :=
  if n = "d".toList then some ⟨⟨16877, 4096, 7, 8⟩, none⟩
  else if n = "d/ÿ".toList then some ⟨⟨33188, 1, 0, 0⟩, some "x".toList⟩
  else none

/-- Given as bytes the directory is sent. -/
example : ScpWire.put latinDisk (fun n => if n = "d".toList then some [("d".toList, ["ÿ".toList])] else none) 16384 true false 9
    ["d".toList] (List.replicate 5 (.data ['\x00'] none)) =
      some (.done, "D0755 0 d\nC0644 1 ÿ\nx".toList ++ ['\x00'] ++ "E\n".toList, []) := by decide +kernel

/-- Given as a string it is announced, and then left open. -/
example : putS latinDisk (fun n => if n = [100] then some [([100], [[0xDCFF]])] else none) 16384 true false 9
    [[100]] (List.replicate 5 (.data ['\x00'] none)) =
      some (.unicodeError, "D0755 0 d\n".toList, List.replicate 3 (.data ['\x00'] none)) := by decide +kernel

example : str "ÿ".toList = [0xDCFF] ∧ ByteText "ÿ".toList ∧ ¬ Utf8Name "ÿ".toList := by
  refine ⟨by decide +kernel, by unfold ByteText; decide +kernel, ?_⟩
  unfold Utf8Name
  rw [valid_iff]
  exact fun h => h [255] (by decide +kernel)

example : str "d/Ã©".toList = points "d/é".toList ∧ Utf8Name "d/Ã©".toList :=
  ⟨by decide +kernel, "d/é".toList, by decide +kernel⟩

/-- Decoding with replacement: a character that breaks off gives one replacement character, and so do other bytes that cannot
begin one. -/
example : asunicode (.bytes [0x61, 0xE2, 0x82, 0x62, 0xF0, 0x9F, 0x92, 0xFF, 0xC0, 0xAF]) =
    [0x61, 0xFFFD, 0x62, 0xFFFD, 0xFFFD, 0xFFFD, 0xFFFD] := by decide +kernel

example : asbytes (.str [0x20AC, 0x1F4A9]) = some [0xE2, 0x82, 0xAC, 0xF0, 0x9F, 0x92, 0xA9] ∧ asbytes (.str [0xD800]) = none := by
  decide +kernel

end Verif.Props
