import Verif.Model.ContainerBytes
import Verif.Props.Json
import Verif.Props.Utf8

/-!
# C187: the bytes of a container
-/

namespace Verif.Props
open Verif.Json Verif.Spec Verif.ContainerBytes

section bytes
variable {F : Type}

/-- A string that a container keeps: a text without the zero character. -/
def Keepable (s : List ℕ) : Prop := ∃ t : List Char, points t = s ∧ '\x00' ∉ t

theorem text_points (t : List Char) : text (points t) = t := by
  simp [text, points, Function.comp_def]

theorem zero_encodeCp (c : ℕ) : 0 ∈ Utf8.encodeCp c ↔ c = 0 := by
  unfold Utf8.encodeCp
  split_ifs <;> simp <;> omega

theorem zero_utf8 (t : List Char) : 0 ∈ utf8Bytes t ↔ '\x00' ∈ t := by
  induction t with
  | nil => simp [utf8Bytes]
  | cons c t ih =>
    rw [utf8Bytes_cons, List.mem_append, ih, zero_encodeCp, List.mem_cons]
    have : c.toNat = 0 ↔ '\x00' = c := ⟨fun h => (Char.toNat_inj.mp h).symm, fun h => by rw [← h]; rfl⟩
    rw [this]

theorem vlen_utf8 {t : List Char} (h : '\x00' ∉ t) : vlen (utf8Bytes t) = some (utf8Bytes t) := by
  rw [vlen, if_neg (by rwa [zero_utf8])]

theorem decode_utf8 (t : List Char) : Utf8.decode (utf8Bytes t) = some (points t) := (decode_iff _ _).mpr ⟨t, rfl, rfl⟩

/-- What comes back of an object. -/
noncomputable def comesBack (fl : Floats F) : Container.Kind → Obj F → Option (Obj F) :=
  open Classical in fun k o => match k, o with
  | .dict, .val v => if Storable v then some (.val (returned fl v)) else none
  | .list, .val v => if Storable v then some (.val (returned fl v)) else none
  | .string, .str s => if Keepable s then some (.str s) else none
  | _, _ => none

theorem json_bytes {fl : Floats F} (hfl : FloatsOk fl) (v : Val F) (k : Container.Kind) (hk : k = .dict ∨ k = .list) :
    (enc fl k (.val v)).map ((byteCodec fl).dec k) = comesBack fl k (.val v) := by
  have key : (((dumps fl v).bind fun t => Utf8.encode (cps t)).bind vlen).map (fun b => ((((Utf8.decode b).bind fun s =>
      loads fl (text s)).map Obj.val).getD (.str []))) =
      (open Classical in if Storable v then some (.val (returned fl v)) else none) := by
    split
    · rename_i h
      obtain ⟨t, ht⟩ := writable_dumps fl v h
      have h0 : '\x00' ∉ t := fun h0 => by have := (C180_ascii hfl ht _ h0).1; simp at this
      have e : Utf8.encode (cps t) = some (utf8Bytes t) := encode_points t
      simp only [ht, Option.bind_some, e, vlen_utf8 h0, Option.map_some, decode_utf8, text_points, loads_dumps hfl ht,
        Option.getD_some]
    · rename_i h
      rw [(C180_returned hfl v).2 h]
      rfl
  rcases hk with rfl | rfl
  · exact key
  · exact key

theorem string_bytes {fl : Floats F} {s : List ℕ} (hs : IsStr s) :
    (enc fl .string (.str s)).map ((byteCodec fl).dec .string) = comesBack fl .string (.str s) := by
  show ((Utf8.encode s).bind vlen).map (fun b => ((Utf8.decode b).map Obj.str).getD (.str [])) =
    (open Classical in if Keepable s then some (.str s) else none)
  split
  · rename_i h
    obtain ⟨t, rfl, h0⟩ := h
    rw [encode_points, Option.bind_some, vlen_utf8 h0, Option.map_some, decode_utf8]
    rfl
  · rename_i h
    rcases he : Utf8.encode s with _ | b
    · rfl
    · obtain ⟨t, rfl, rfl⟩ := encode_some hs he
      have : '\x00' ∈ t := by
        by_contra h0
        exact h ⟨t, rfl, h0⟩
      rw [Option.bind_some, vlen, if_pos ((zero_utf8 t).mpr this)]
      rfl

/-- The strings in a call are Python strings. -/
def StrOp : Container.Op (Obj F) → Prop
  | .set _ _ (.str s) => IsStr s
  | _ => True

theorem agrees_congr {V : Type} {s s' : Container.Kind → V → Option V} {m : Maps V} {ops : List (Container.Op V)} {outs}
    (h : ∀ op ∈ ops, ∀ k n v, op = .set k n v → s k v = s' k v) (ha : Agrees s m ops outs) : Agrees s' m ops outs := by
  induction ops generalizing m outs with
  | nil => exact ha
  | cons op ops ih =>
    obtain ⟨o, os, h1, h2, h3⟩ := ha
    have hop := h op (List.mem_cons_self ..)
    have hn : next s m op = next s' m op := by
      cases op with
      | set k n v => simp only [next, hop k n v rfl]
      | _ => rfl
    refine ⟨o, os, h1, ?_, ?_⟩
    · cases op with
      | set k n v => simpa only [Shows, hop k n v rfl] using h2
      | _ => exact h2
    · rw [← hn]
      exact ih (fun op ho => h op (List.mem_cons_of_mem _ ho)) h3

/-- **C187** Every history of calls with plain names on a new container shows what write-once maps show: dictionaries and lists go through bytes as they do
through JSON, a text without zero characters comes back as it was, and any other string is refused and leaves nothing. -/
theorem C187_histories {fl : Floats F} (hfl : FloatsOk fl) (ops : List (Container.Op (Obj F))) (hops : ∀ op ∈ ops, PlainOp op)
    (hstr : ∀ op ∈ ops, StrOp op) :
    Agrees (comesBack fl) Maps.empty ops (Container.run (byteCodec fl) .nil ops) := by
  refine agrees_congr ?_ (C32_five_maps_partial (byteCodec fl) ops hops)
  rintro op ho k n v rfl
  show (enc fl k v).map ((byteCodec fl).dec k) = _
  cases v with
  | val v =>
    cases k with
    | dict => exact json_bytes hfl v _ (.inl rfl)
    | list => exact json_bytes hfl v _ (.inr rfl)
    | _ => rfl
  | str s =>
    cases k with
    | string => exact string_bytes (hstr _ ho)
    | _ => rfl

/-- **C187** With a library that makes the data set first, texts without zero characters are kept in the same way. -/
theorem C187_linked {fl : Floats F} (t : Hdf.Tree (List ℕ)) (name : String) {s : List ℕ} (h : Keepable s) :
    setStringLinked fl t name s = Container.set (byteCodec fl) t .string name (.str s) := by
  obtain ⟨u, rfl, h0⟩ := h
  simp only [setStringLinked, encode_points, vlen_utf8 h0]

theorem set_some {V B : Type} (c : Container.Codec V B) (t : Hdf.Tree B) (k : Container.Kind) (name : String) {v : V} {b : B}
    (h : c.enc k v = some b) : Container.set c t k name v =
      (let t1 := Container.withGroup t (Container.groupName k)
      if (Hdf.lookup t1 (Hdf.resolve [Container.groupName k] name)).isSome then (t1, .error .exists)
      else match Hdf.putAt t1 (Hdf.resolve [Container.groupName k] name) (.data b) with
        | none => (t1, .error .exists)
        | some t2 => (t2, .ok ())) := by
  simp only [Container.set, h]
  rfl

/-- **C187** violated by a library that makes the data set first: storing a text with a zero character fails, and leaves exactly what storing the empty
string leaves. -/
theorem C187_zero_violated {fl : Floats F} (t : Hdf.Tree (List ℕ)) (name : String) {u : List Char} (h : '\x00' ∈ u) :
    (setStringLinked fl t name (points u)).1 = (Container.set (byteCodec fl) t .string name (.str [])).1 ∧
      ∃ e, (setStringLinked fl t name (points u)).2 = .error e := by
  have hv : vlen (utf8Bytes u) = none := by rw [vlen, if_pos ((zero_utf8 u).mpr h)]
  rw [set_some (byteCodec fl) t .string name (v := .str []) (b := []) (by simp [byteCodec, enc, Utf8.encode, vlen])]
  simp only [setStringLinked, encode_points, hv]
  generalize Container.withGroup t (Container.groupName .string) = t1
  by_cases hl : (Hdf.lookup t1 (Hdf.resolve [Container.groupName .string] name)).isSome = true
  · rw [if_pos hl, if_pos hl]
    exact ⟨rfl, _, rfl⟩
  · rw [if_neg hl, if_neg hl]
    cases Hdf.putAt t1 (Hdf.resolve [Container.groupName .string] name) (.data []) <;> exact ⟨rfl, _, rfl⟩

/-- **C187** violated for strings that are no text and for those with a zero character: a string that a dictionary keeps as a key or value is refused. -/
theorem C187_refused_violated {fl : Floats F} {s : List ℕ} (hs : IsStr s) (h : ¬ Keepable s) (t : Hdf.Tree (List ℕ)) (name : String) :
    (Container.set (byteCodec fl) t .string name (.str s)).2 = .error .typeError := by
  have he : (byteCodec fl).enc .string (.str s) = none := by
    have := string_bytes (fl := fl) hs
    simp only [comesBack, if_neg h, Option.map_eq_none_iff] at this
    exact this
  simp only [Container.set, he]

/-- A text with a zero character in a dictionary comes back. -/
theorem C187_zero_in_dictionary {fl : Floats F} (hfl : FloatsOk fl) (k u : List Char) :
    (enc fl .dict (.val (.dict [(.str k, .str u)]))).bind (dec? fl .dict) = some (.val (.dict [(.str k, .str u)])) := by
  have hs : Storable (.dict [(.str k, .str u)] : Val F) := .dict (by simp) (by simp; exact .str u)
  obtain ⟨t, ht⟩ := writable_dumps fl _ hs
  have h0 : '\x00' ∉ t := fun h0 => by have := (C180_ascii hfl ht _ h0).1; simp at this
  have e : Utf8.encode (cps t) = some (utf8Bytes t) := encode_points t
  have hp := (C180_same_partial hfl (.dict [(.str k, .str u)])).mpr (.dict (ps := [(k, .str u)]) (by simp)
    (by simpa using .str u))
  rw [ht, Option.bind_some] at hp
  simp only [enc, dec?, ht, Option.bind_some, e, vlen_utf8 h0, decode_utf8, text_points, hp, Option.map_some]

end bytes

/-! ### Cases -/

example : Keepable (points "Ñuñoa 東京 😀".toList) := ⟨_, rfl, by decide +kernel⟩

/-- A history with plain names and Python strings. -/
example : (∀ op ∈ ([.set .string "a" (.str (points "é".toList)), .set .dict "a" (.val .none), .get .string "a", .list .string] :
    List (Container.Op (Obj ℤ))), PlainOp op) ∧
    (∀ op ∈ ([.set .string "a" (.str (points "é".toList)), .set .dict "a" (.val .none), .get .string "a", .list .string] :
    List (Container.Op (Obj ℤ))), StrOp op) := by
  constructor
  · simp [PlainOp, PlainName]
  · simp [StrOp, IsStr, points]

example : ¬ Keepable (points "a\x00b".toList) := by
  rintro ⟨t, h, h0⟩
  have : t = "a\x00b".toList := by
    have := congrArg text h
    rwa [text_points, text_points] at this
  exact h0 (by rw [this]; decide +kernel)

example : IsStr [0xDC80] ∧ ¬ Keepable [0xDC80] := by
  refine ⟨by unfold IsStr; decide +kernel, ?_⟩
  rintro ⟨t, h, _⟩
  rcases t with _ | ⟨c, t⟩
  · simp [points] at h
  · simp only [points, List.map_cons, List.cons.injEq] at h
    have := scalar_char c
    rw [h.1] at this
    unfold Scalar at this
    omega

end Verif.Props
