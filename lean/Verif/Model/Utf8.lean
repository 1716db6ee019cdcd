import Verif.Model.ScpWire

/-!
# Names as bytes and as strings (impactutils/extern/scp/scp.py, impactutils/transfer/pdlsender.py)

Bytes are numbers below 256. A Python string is a list of code points, numbers below 0x110000; the surrogates 0xD800 to 0xDFFF
can be in a string, but are not characters. The codecs are those of Python, not of the repository.
-/

namespace Verif.Utf8
open Verif.Fs Verif.Scp Verif.ScpWire

/-! ### The codecs -/

/-- The bytes of a code point. (Python's `utf-8` codec.) -/
def encodeCp (c : ℕ) : List ℕ :=
  if c < 0x80 then [c]
  else if c < 0x800 then [0xC0 + c / 64, 0x80 + c % 64]
  else if c < 0x10000 then [0xE0 + c / 4096, 0x80 + c / 64 % 64, 0x80 + c % 64]
  else [0xF0 + c / 262144, 0x80 + c / 4096 % 64, 0x80 + c / 64 % 64, 0x80 + c % 64]

/-- `s.encode('utf-8')`; `none` is a `UnicodeEncodeError`. -/
def encode : List ℕ → Option (List ℕ)
  | [] => some []
  | c :: s => if 0xD800 ≤ c ∧ c < 0xE000 then none else (encode s).map (encodeCp c ++ ·)

/-- `os.fsencode(s)`, with which the operating system is given a name (the error handler `surrogateescape`); `none` is a
`UnicodeEncodeError`. -/
def fsencode : List ℕ → Option (List ℕ)
  | [] => some []
  | c :: s =>
    if 0xDC80 ≤ c ∧ c < 0xDD00 then (fsencode s).map ((c - 0xDC00) :: ·)
    else if 0xD800 ≤ c ∧ c < 0xE000 then none else (fsencode s).map (encodeCp c ++ ·)

/-- What the decoder finds: a character, or bytes that are not the beginning of one. -/
inductive Piece where
  | char (c : ℕ)
  | bad (bs : List ℕ)
deriving DecidableEq, Repr

/-- A continuation byte. -/
def cont (b : ℕ) : Bool := decide (0x80 ≤ b ∧ b < 0xC0)

/-- The bytes that can be second of three after `b`. -/
def second3 (b b1 : ℕ) : Bool := cont b1 && (if b = 0xE0 then decide (0xA0 ≤ b1) else if b = 0xED then decide (b1 < 0xA0) else true)

/-- The bytes that can be second of four after `b`. -/
def second4 (b b1 : ℕ) : Bool := cont b1 && (if b = 0xF0 then decide (0x90 ≤ b1) else if b = 0xF4 then decide (b1 < 0x90) else true)

/-- One step of the decoder at the byte `b` before `t`: what it finds, and the bytes after that. A character that breaks off is
one piece, as long as its bytes are possible. -/
def piece (b : ℕ) (t : List ℕ) : Piece × List ℕ :=
  if b < 0x80 then (.char b, t)
  else if b < 0xC2 then (.bad [b], t)
  else if b < 0xE0 then
    match t with
    | b1 :: t1 => if cont b1 then (.char ((b - 0xC0) * 64 + (b1 - 0x80)), t1) else (.bad [b], t)
    | [] => (.bad [b], t)
  else if b < 0xF0 then
    match t with
    | b1 :: b2 :: t2 =>
      if second3 b b1 then
        if cont b2 then (.char ((b - 0xE0) * 4096 + (b1 - 0x80) * 64 + (b2 - 0x80)), t2) else (.bad [b, b1], b2 :: t2)
      else (.bad [b], t)
    | [b1] => if second3 b b1 then (.bad [b, b1], []) else (.bad [b], t)
    | [] => (.bad [b], t)
  else if b < 0xF5 then
    match t with
    | b1 :: b2 :: b3 :: t3 =>
      if second4 b b1 then
        if cont b2 then
          if cont b3 then
            (.char ((b - 0xF0) * 262144 + (b1 - 0x80) * 4096 + (b2 - 0x80) * 64 + (b3 - 0x80)), t3)
          else (.bad [b, b1, b2], b3 :: t3)
        else (.bad [b, b1], b2 :: b3 :: t3)
      else (.bad [b], t)
    | [b1, b2] =>
      if second4 b b1 then (if cont b2 then (.bad [b, b1, b2], []) else (.bad [b, b1], [b2])) else (.bad [b], t)
    | [b1] => if second4 b b1 then (.bad [b, b1], []) else (.bad [b], t)
    | [] => (.bad [b], t)
  else (.bad [b], t)

/-- The decoder, at most `n` steps. -/
def piecesUpTo : ℕ → List ℕ → List Piece
  | 0, _ => []
  | _ + 1, [] => []
  | n + 1, b :: t => (piece b t).1 :: piecesUpTo n (piece b t).2

/-- The pieces of a byte string. -/
def pieces (b : List ℕ) : List Piece := piecesUpTo b.length b

/-- The character of a piece. -/
def Piece.char? : Piece → Option ℕ
  | .char c => some c
  | .bad _ => none

/-- `b.decode('utf-8')`; `none` is a `UnicodeDecodeError`. -/
def decode (b : List ℕ) : Option (List ℕ) := (pieces b).mapM Piece.char?

/-- `b.decode('utf-8', 'replace')`. -/
def decodeReplace (b : List ℕ) : List ℕ :=
  (pieces b).map fun
    | .char c => c
    | .bad _ => 0xFFFD

/-- `os.fsdecode(b)`: the string of a name of the file system, as in `os.walk` and `os.getcwd`. -/
def fsdecode (b : List ℕ) : List ℕ :=
  (pieces b).flatMap fun
    | .char c => [c]
    | .bad bs => bs.map (0xDC00 + ·)

/-! ### The functions of the repository -/

/-- A `bytes` or a `str` object. -/
inductive Name where
  | bytes (b : List ℕ)
  | str (s : List ℕ)
deriving DecidableEq, Repr

/-- `asbytes` (impactutils/extern/scp/scp.py:36-45). -/
def asbytes : Name → Option (List ℕ)
  | .bytes b => some b
  | .str s => encode s

/-- `asunicode` (impactutils/extern/scp/scp.py:48-57). -/
def asunicode : Name → List ℕ
  | .bytes b => decodeReplace b
  | .str s => s

/-- `os.path.basename` of a string. -/
def baseNameS (s : List ℕ) : List ℕ := (s.reverse.takeWhile (· ≠ 47)).reverse

/-- `os.path.join` of two strings. -/
def joinS (a b : List ℕ) : List ℕ :=
  if b.head? = some 47 then b
  else if a = [] ∨ a.getLast? = some 47 then a ++ b
  else a ++ 47 :: b

/-- The text of bytes, as `ScpWire` has it: one character for each byte. -/
def wire (b : List ℕ) : Text := b.map Char.ofNat

/-- The numbers of a byte text. -/
def raw (t : Text) : List ℕ := t.map Char.toNat

/-- One round of `_send_files` (impactutils/extern/scp/scp.py:229-260) after the name was encoded: the file at `path` is
announced as `base`. -/
def sendNamed (disk : Text → Option Local) (buff : ℕ) (preserve : Bool) (fuel : ℕ) (path base : Text) : Option (List Act) :=
  match disk path with
  | none => some [.osError]
  | some f =>
    let time := if preserve then sendTime f.stat else []
    match f.content with
    | none => some (time ++ [.osError])
    | some content =>
      (sendData buff f.stat.size content fuel 0).map fun d =>
        time ++ [.send (['C'] ++ modeText f.stat.mode ++ [' '] ++ decimal f.stat.size ++ [' '] ++ wireName base ++
          ['\n']), .confirm] ++ d ++ [.send ['\x00'], .confirm]

/-- `_send_files` (impactutils/extern/scp/scp.py:229-260) for names that are strings: what it does, and whether it ends with a
`UnicodeEncodeError`, which `asbytes` raises, or `os.stat` for a name that it cannot give to the operating system. -/
def sendFilesS (disk : Text → Option Local) (buff : ℕ) (preserve : Bool) (fuel : ℕ) :
    List (List ℕ) → Option (List Act × Bool)
  | [] => some ([], false)
  | name :: names =>
    match asbytes (.str (baseNameS name)), fsencode name with
    | some base, some path =>
      match sendNamed disk buff preserve fuel (wire path) (wire base), sendFilesS disk buff preserve fuel names with
      | some a, some (b, e) => some (a ++ b, e)
      | _, _ => none
    | _, _ => some ([], true)

/-- The loop over the walk in `_send_recursive` (impactutils/extern/scp/scp.py:288-291) when the walk lists strings, with the
change of `_pushed`. -/
def walkActsS (disk : Text → Option Local) (buff : ℕ) (preserve : Bool) (fuel : ℕ) (last : List ℕ) :
    List (List ℕ × List (List ℕ)) → Option (ℤ × List Act × Bool)
  | [] => some (0, [], false)
  | (root, names) :: rest =>
    match asbytes (.str root) with
    | none => some (0, [], true)
    | some r =>
      match chdirActs disk preserve fuel (wire last) (wire r), sendFilesS disk buff preserve fuel (names.map (joinS root)) with
      | some (n, a), some (b, true) => some (1 - n, a ++ b, true)
      | some (n, a), some (b, false) =>
        match walkActsS disk buff preserve fuel r rest with
        | some (k, c, e) => some (1 - n + k, a ++ b ++ c, e)
        | none => none
      | _, _ => none

/-- `_send_recursive` for one directory (impactutils/extern/scp/scp.py:287-294) that is given as a string. -/
def sendTreeS (disk : Text → Option Local) (buff : ℕ) (preserve : Bool) (fuel : ℕ) (base : List ℕ)
    (walk : List (List ℕ × List (List ℕ))) : Option (List Act × Bool) :=
  match asbytes (.str base) with
  | none => some ([], true)
  | some b =>
    match walkActsS disk buff preserve fuel b walk with
    | none => none
    | some (_, a, true) => some (a, true)
    | some (k, a, false) => some (a ++ sendPopds k.toNat, false)

/-- `_send_recursive` (impactutils/extern/scp/scp.py:281-294) for strings. -/
def sendRecursiveS (disk : Text → Option Local) (walk : List ℕ → Option (List (List ℕ × List (List ℕ)))) (buff : ℕ)
    (preserve : Bool) (fuel : ℕ) : List (List ℕ) → Option (List Act × Bool)
  | [] => some ([], false)
  | base :: files =>
    match (match walk base with
      | none => sendFilesS disk buff preserve fuel [base]
      | some w => sendTreeS disk buff preserve fuel base w) with
    | none => none
    | some (a, true) => some (a, true)
    | some (a, false) =>
      match sendRecursiveS disk walk buff preserve fuel files with
      | none => none
      | some (b, e) => some (a ++ b, e)

/-- How `put` of strings ends. -/
inductive OutcomeS where
  | as (o : Outcome)
  | unicodeError
deriving DecidableEq, Repr

/-- `put` (impactutils/extern/scp/scp.py:126-157) for strings, after the command was sent. -/
def putS (disk : Text → Option Local) (walk : List ℕ → Option (List (List ℕ × List (List ℕ)))) (buff : ℕ)
    (recursive preserve : Bool) (fuel : ℕ) (files : List (List ℕ)) (replies : List Reply) :
    Option (OutcomeS × Text × List Reply) :=
  (if recursive then sendRecursiveS disk walk buff preserve fuel files
    else sendFilesS disk buff preserve fuel files).map fun acts =>
      let r := exec (.confirm :: acts.1) replies
      (if acts.2 = true ∧ r.1 = .done then .unicodeError else .as r.1, r.2)

/-- The path of a file or directory that `get` receives into the directory `dir`
(impactutils/extern/scp/scp.py:385-386, 446-447); `none` is an exception there, which becomes an `SCPException`. -/
def recvPath (dir : Name) (name : List ℕ) : Option (List ℕ) := (asbytes dir).map fun d => joinS d name

/-- How `send` of a PDL sender ends, when the client program has ended. -/
inductive PdlEnd where
  | pdlError
  | unicodeError
  | sent (nfiles : ℕ) (output : List ℕ)
deriving DecidableEq, Repr

/-- The end of `PDLSender.send` (impactutils/transfer/pdlsender.py:199-215): `ok` and `stdout` are what the client program said,
`nfiles` is the number of files. -/
def pdlEnd (ok : Bool) (stdout : List ℕ) (nfiles : ℕ) : PdlEnd :=
  if ok then
    match decode stdout with
    | none => .unicodeError
    | some s => .sent nfiles s
  else .pdlError

end Verif.Utf8
