import Verif.Model.Container

/-!
# How containers write and read dictionaries and lists

`json.dumps` and `json.loads` of the Python library, as the containers call them
(impactutils/io/container.py:140, 113-114, 198, 216-217, impactutils/io/smcontainers.py:140, 120-121). They are not files
of the repository; they are modelled here, character by character, because what a container gives back is what they make
of a value. A text of these characters is the same as its UTF-8 bytes, see `C180_ascii`.

Simplifications: texts are lists of Unicode characters without lone surrogates; how a floating point number is written
and read is a parameter; the limits of Python's recursion and of the digits of an integer
are left out.
-/

namespace Verif.Json

/-- A text. -/
abbrev Text := List Char

/-- Keys of Python dictionaries. -/
inductive Key (F : Type) where
  | str (s : Text)
  | int (i : ℤ)
  | float (f : F)
  | bool (b : Bool)
  | none
  /-- tuples, bytes, times and so on -/
  | other

/-- Python values. A dictionary is the list of its items in their order. -/
inductive Val (F : Type) where
  | none
  | bool (b : Bool)
  | int (i : ℤ)
  | float (f : F)
  | str (s : Text)
  | list (xs : List (Val F))
  | tuple (xs : List (Val F))
  | dict (ps : List (Key F × Val F))
  /-- arrays, bytes, times and so on -/
  | other

/-- How floating point numbers are written and read: `float.__repr__`, or `NaN`, `Infinity`, `-Infinity`; and `float`. -/
structure Floats (F : Type) where
  text : F → Text
  read : Text → F

variable {F : Type}

/-! ### Writing -/

/-- A hexadecimal digit. -/
def hexDigit (n : ℕ) : Char := "0123456789abcdef".toList.getD n '0'

/-- Four hexadecimal digits. -/
def hex4 (n : ℕ) : Text := [hexDigit (n / 4096 % 16), hexDigit (n / 256 % 16), hexDigit (n / 16 % 16), hexDigit (n % 16)]

/-- One character of a text as `json.dumps` writes it. -/
def escapeChar (c : Char) : Text :=
  if c = '"' then ['\\', '"']
  else if c = '\\' then ['\\', '\\']
  else if c = '\n' then ['\\', 'n']
  else if c = '\r' then ['\\', 'r']
  else if c = '\t' then ['\\', 't']
  else if c = '\x0c' then ['\\', 'f']
  else if c = '\x08' then ['\\', 'b']
  else if 32 ≤ c.toNat ∧ c.toNat ≤ 126 then [c]
  else if c.toNat < 65536 then '\\' :: 'u' :: hex4 c.toNat
  else '\\' :: 'u' :: hex4 (55296 + (c.toNat - 65536) / 1024) ++
    '\\' :: 'u' :: hex4 (56320 + (c.toNat - 65536) % 1024)

/-- A text with its quotation marks. -/
def quoted (s : Text) : Text := '"' :: s.flatMap escapeChar ++ ['"']

/-- `int.__repr__`. -/
def intText (i : ℤ) : Text := (if i < 0 then ['-'] else []) ++ Nat.toDigits 10 i.natAbs

/-- The text for a key; `none` is a TypeError. -/
def keyText (fl : Floats F) : Key F → Option Text
  | .str s => some s
  | .int i => some (intText i)
  | .float f => some (fl.text f)
  | .bool true => some "true".toList
  | .bool false => some "false".toList
  | .none => some "null".toList
  | .other => none

/-- Texts with commas and blanks between them. -/
def commas : List Text → Text
  | [] => []
  | [t] => t
  | t :: u :: ts => t ++ ',' :: ' ' :: commas (u :: ts)

mutual
/-- `json.dumps`; `none` is a TypeError. -/
def dumps (fl : Floats F) : Val F → Option Text
  | .none => some "null".toList
  | .bool true => some "true".toList
  | .bool false => some "false".toList
  | .int i => some (intText i)
  | .float f => some (fl.text f)
  | .str s => some (quoted s)
  | .list xs => (dumpsItems fl xs).map fun ts => '[' :: commas ts ++ [']']
  | .tuple xs => (dumpsItems fl xs).map fun ts => '[' :: commas ts ++ [']']
  | .dict ps => (dumpsMembers fl ps).map fun ts => '{' :: commas ts ++ ['}']
  | .other => none
/-- The items of a list. -/
def dumpsItems (fl : Floats F) : List (Val F) → Option (List Text)
  | [] => some []
  | x :: xs => do
    let t ← dumps fl x
    let ts ← dumpsItems fl xs
    return t :: ts
/-- The items of a dictionary. -/
def dumpsMembers (fl : Floats F) : List (Key F × Val F) → Option (List Text)
  | [] => some []
  | (k, x) :: ps => do
    let kt ← keyText fl k
    let t ← dumps fl x
    let ts ← dumpsMembers fl ps
    return (quoted kt ++ ':' :: ' ' :: t) :: ts
end

/-! ### Reading -/

/-- White space. -/
def white (c : Char) : Bool := c = ' ' || c = '\t' || c = '\n' || c = '\r'

/-- Pass over white space. -/
def skip (s : Text) : Text := s.dropWhile white

/-- The value of a hexadecimal digit. -/
def hexVal (c : Char) : Option ℕ :=
  if '0' ≤ c ∧ c ≤ '9' then some (c.toNat - 48)
  else if 'a' ≤ c ∧ c ≤ 'f' then some (c.toNat - 87)
  else if 'A' ≤ c ∧ c ≤ 'F' then some (c.toNat - 55)
  else none

/-- Four hexadecimal digits. -/
def readHex4 : Text → Option (ℕ × Text)
  | a :: b :: c :: d :: s => do
    let a ← hexVal a
    let b ← hexVal b
    let c ← hexVal c
    let d ← hexVal d
    return (a * 4096 + b * 256 + c * 16 + d, s)
  | _ => none

/-- The character of a code point; a lone surrogate is none in this model. -/
def chr (n : ℕ) : Option Char := if h : n.isValidChar then some (Char.ofNatAux n h) else none

/-- What follows a backslash and `u`. -/
def readUnicode (s : Text) : Option (Char × Text) := do
  let (a, r) ← readHex4 s
  if 55296 ≤ a ∧ a ≤ 56319 then
    match r with
    | '\\' :: 'u' :: r' =>
      let (b, r'') ← readHex4 r'
      if 56320 ≤ b ∧ b ≤ 57343 then
        let c ← chr (65536 + (a - 55296) * 1024 + (b - 56320))
        return (c, r'')
      else none
    | _ => none
  else
    let c ← chr a
    return (c, r)

/-- What follows a backslash. -/
def readEscape : Text → Option (Char × Text)
  | '"' :: s => some ('"', s)
  | '\\' :: s => some ('\\', s)
  | '/' :: s => some ('/', s)
  | 'b' :: s => some ('\x08', s)
  | 'f' :: s => some ('\x0c', s)
  | 'n' :: s => some ('\n', s)
  | 'r' :: s => some ('\r', s)
  | 't' :: s => some ('\t', s)
  | 'u' :: s => readUnicode s
  | _ => none

/-- A text up to its closing quotation mark. The number bounds the characters. -/
def scanString : ℕ → Text → Option (Text × Text)
  | 0, _ => none
  | _ + 1, [] => none
  | n + 1, c :: s =>
    if c = '"' then some ([], s)
    else if c = '\\' then do
      let (d, r) ← readEscape s
      let (t, r) ← scanString n r
      return (d :: t, r)
    else if c.toNat < 32 then none
    else do
      let (t, r) ← scanString n s
      return (c :: t, r)

/-- The value of digits. -/
def digitsValue (s : Text) : ℕ := s.foldl (fun a c => 10 * a + (c.toNat - 48)) 0

/-- The part of a number before its point. -/
def integerPart : Text → Option (Text × Text)
  | [] => none
  | c :: s =>
    if c = '0' then some (['0'], s)
    else if c.isDigit then some (c :: s.takeWhile Char.isDigit, s.dropWhile Char.isDigit)
    else none

/-- The part after the point, with the point, if there is one with digits. -/
def fraction : Text → Text × Text
  | '.' :: s =>
    if s.takeWhile Char.isDigit = [] then ([], '.' :: s)
    else ('.' :: s.takeWhile Char.isDigit, s.dropWhile Char.isDigit)
  | s => ([], s)

/-- A sign of an exponent. -/
def expSign : Text → Text × Text
  | '-' :: s => (['-'], s)
  | '+' :: s => (['+'], s)
  | s => ([], s)

/-- The exponent, if there is one with digits. -/
def exponent : Text → Text × Text
  | [] => ([], [])
  | c :: s =>
    if c = 'e' ∨ c = 'E' then
      if (expSign s).2.takeWhile Char.isDigit = [] then ([], c :: s)
      else (c :: (expSign s).1 ++ (expSign s).2.takeWhile Char.isDigit, (expSign s).2.dropWhile Char.isDigit)
    else ([], c :: s)

/-- A number after its sign. -/
def scanDigits (fl : Floats F) (neg : Bool) (s : Text) : Option (Val F × Text) := do
  let (i, r) ← integerPart s
  let (f, r1) := fraction r
  let (e, r2) := exponent r1
  if f = [] ∧ e = [] then
    return (.int (if neg then -(digitsValue i : ℤ) else digitsValue i), r2)
  else return (.float (fl.read ((if neg then ['-'] else []) ++ i ++ f ++ e)), r2)

/-- Numbers and the words for constants. -/
def scanPlain (fl : Floats F) (s : Text) : Option (Val F × Text) :=
  if "null".toList <+: s then some (.none, s.drop 4)
  else if "true".toList <+: s then some (.bool true, s.drop 4)
  else if "false".toList <+: s then some (.bool false, s.drop 5)
  else if "NaN".toList <+: s then some (.float (fl.read "NaN".toList), s.drop 3)
  else if "Infinity".toList <+: s then some (.float (fl.read "Infinity".toList), s.drop 8)
  else if "-Infinity".toList <+: s then some (.float (fl.read "-Infinity".toList), s.drop 9)
  else match s with
    | '-' :: r => scanDigits fl true r
    | _ => scanDigits fl false s

/-- A key is put into a dictionary: the last value counts, the first place stays. -/
def insertKey (k : Text) (v : Val F) : List (Text × Val F) → List (Text × Val F)
  | [] => [(k, v)]
  | (k', v') :: d => if k' = k then (k, v) :: d else (k', v') :: insertKey k v d

/-- The dictionary of a list of items. -/
def fromPairs (ps : List (Text × Val F)) : Val F :=
  .dict ((ps.foldl (fun d p => insertKey p.1 p.2 d) []).map fun p => (.str p.1, p.2))

mutual
/-- One value. The first number bounds the steps. -/
def scan (fl : Floats F) : ℕ → Text → Option (Val F × Text)
  | 0, _ => none
  | _ + 1, [] => none
  | n + 1, c :: s =>
    if c = '"' then (scanString n s).map fun x => (.str x.1, x.2)
    else if c = '{' then
      if (skip s).head? = some '}' then some (.dict [], (skip s).tail)
      else (scanMembers fl n (skip s)).map fun x => (fromPairs x.1, x.2)
    else if c = '[' then
      if (skip s).head? = some ']' then some (.list [], (skip s).tail)
      else (scanItems fl n (skip s)).map fun x => (.list x.1, x.2)
    else scanPlain fl (c :: s)
/-- The items of a list up to its bracket. -/
def scanItems (fl : Floats F) : ℕ → Text → Option (List (Val F) × Text)
  | 0, _ => none
  | n + 1, s => do
    let (v, r) ← scan fl n s
    if (skip r).head? = some ']' then return ([v], (skip r).tail)
    else if (skip r).head? = some ',' then
      let (vs, r') ← scanItems fl n (skip (skip r).tail)
      return (v :: vs, r')
    else none
/-- The items of a dictionary up to its brace. -/
def scanMembers (fl : Floats F) : ℕ → Text → Option (List (Text × Val F) × Text)
  | 0, _ => none
  | n + 1, s => do
    if s.head? = some '"' then
      let (k, r) ← scanString n s.tail
      if (skip r).head? = some ':' then
        let (v, r) ← scan fl n (skip (skip r).tail)
        if (skip r).head? = some '}' then return ([(k, v)], (skip r).tail)
        else if (skip r).head? = some ',' then
          let (ps, r') ← scanMembers fl n (skip (skip r).tail)
          return ((k, v) :: ps, r')
        else none
      else none
    else none
end

/-- `json.loads`; `none` is an exception. -/
def loads (fl : Floats F) (s : Text) : Option (Val F) := do
  let (v, r) ← scan fl (s.length + 1) (skip s)
  if skip r = [] then return v else none

/-- The way of a container with dictionaries and lists: what `json.dumps` writes is stored, and `json.loads` reads it
(impactutils/io/container.py:140, 113-114, 198, 216-217). Only the first two kinds are meant. -/
def codec (fl : Floats F) : Container.Codec (Val F) Text where
  enc _ v := dumps fl v
  dec _ t := (loads fl t).getD .none

end Verif.Json
