import Verif.Model.Json
import Verif.Model.EventFile

/-!
# The text of event files

What `etree.ElementTree(root).write` of lxml writes for the one element of an event file (impactutils/rupture/origin.py:252-253), and what the parser of
the Python library makes of it (impactutils/rupture/origin.py:310-322). They are not files of the repository; they are modelled, character by
character, because events contain names of places and networks in any alphabet.

Simplifications: the document is one element without content, which is all that `write_event_file` writes; a document with anything else - a
declaration, comments, other elements - is refused by the model of the parser, and nothing is claimed about it. Names consist of seven-bit characters.
Texts have no lone surrogates.
-/

namespace Verif.EventXml
open Verif.Json Verif.EventFile

/-- The characters that XML allows. -/
def xmlChar (c : Char) : Bool :=
  c = '\t' || c = '\n' || c = '\r' || (32 ≤ c.toNat && c.toNat ≤ 55295) || (57344 ≤ c.toNat && c.toNat ≤ 65533) || 65536 ≤ c.toNat

/-! ### Writing -/

/-- A character of the value of an attribute; `ref` gives the reference, decimal or hexadecimal, for a character that is not one of the first 128. -/
def escapeChar (ref : Char → Text) (c : Char) : Text :=
  if c = '&' then "&amp;".toList
  else if c = '<' then "&lt;".toList
  else if c = '>' then "&gt;".toList
  else if c = '"' then "&quot;".toList
  else if c = '\n' then "&#10;".toList
  else if c = '\r' then "&#13;".toList
  else if c = '\t' then "&#9;".toList
  else if c.toNat < 128 then [c]
  else '&' :: ref c ++ [';']

/-- An attribute. -/
def writeAttr (ref : Char → Text) (a : Text × Text) : Text :=
  ' ' :: a.1 ++ '=' :: '"' :: a.2.flatMap (escapeChar ref) ++ ['"']

/-- The text of the file (impactutils/rupture/origin.py:252-253, with `pretty_print`, which ends it with a line end). -/
def writeElement (ref : Char → Text) (tag : Text) (l : List (Text × Text)) : Text :=
  '<' :: tag ++ l.flatMap (writeAttr ref) ++ ['/', '>', '\n']

/-- The attributes as lists of characters. -/
def chars (a : Attrs) : List (Text × Text) := a.map fun p => (p.1.toList, p.2.toList)

/-- `write_event_file` (impactutils/rupture/origin.py:204-257): whether a message is returned, and the text of the file afterwards. lxml
raises `ValueError` for a text with a character that XML does not allow. Failures of the file system are not modelled. -/
def writeEventText {T : Type} (ref : Char → Text) (f : Formats T) (e : Event T) (old : Option Text) : Bool × Option Text :=
  match eventAttrs f e with
  | none => (true, old)
  | some a => if (chars a).all fun p => p.2.all xmlChar then (false, some (writeElement ref "earthquake".toList (chars a))) else (true, old)

/-! ### Reading -/

/-- All line ends are made line feeds. -/
def lineEnds : Text → Text
  | [] => []
  | c :: s =>
    if c = '\r' then (if s.head? = some '\n' then lineEnds s else '\n' :: lineEnds s) else c :: lineEnds s

/-- The character of a reference, without `&` and `;`. -/
def readRef (r : Text) : Option Char :=
  if r = "lt".toList then some '<'
  else if r = "gt".toList then some '>'
  else if r = "amp".toList then some '&'
  else if r = "quot".toList then some '"'
  else if r = "apos".toList then some '\''
  else match r with
    | '#' :: 'x' :: h =>
      if h = [] then none
      else ((h.mapM hexVal).bind fun ds => chr (ds.foldl (fun a d => 16 * a + d) 0)).bind fun c => if xmlChar c then some c else none
    | '#' :: d =>
      if d ≠ [] ∧ d.all Char.isDigit then (chr (digitsValue d)).bind fun c => if xmlChar c then some c else none else none
    | _ => none

/-- The value of an attribute up to its quotation mark `q`, and what follows. The second argument is the reference that is being read, backwards. -/
def value (q : Char) : Option Text → Text → Option (Text × Text)
  | _, [] => none
  | none, c :: s =>
    if c = q then some ([], s)
    else if c = '<' then none
    else if c = '&' then value q (some []) s
    else if c = '\n' ∨ c = '\t' then (value q none s).map fun x => (' ' :: x.1, x.2)
    else if xmlChar c then (value q none s).map fun x => (c :: x.1, x.2)
    else none
  | some r, c :: s =>
    if c = ';' then (readRef r.reverse).bind fun d => (value q none s).map fun x => (d :: x.1, x.2)
    else value q (some (c :: r)) s

/-- Characters of names. -/
def nameChar (c : Char) : Bool := c.isAlphanum || c = '_' || c = '-' || c = '.'

/-- A name does not begin with a digit, a hyphen or a point. -/
def isName (n : Text) : Bool := match n with
  | [] => false
  | c :: s => (c.isAlpha || c = '_') && s.all nameChar

/-- The attributes of an element up to its end. The number bounds the steps. -/
def attributes : ℕ → Text → Option (List (Text × Text) × Text)
  | 0, _ => none
  | n + 1, s =>
    if ['/', '>'] <+: skip s then some ([], (skip s).drop 2)
    else if (s.head?.map white) ≠ some true then none
    else if isName ((skip s).takeWhile nameChar) = false then none
    else
      let r := skip ((skip s).dropWhile nameChar)
      let t := skip r.tail
      if r.head? = some '=' then
        if t.head? = some '"' ∨ t.head? = some '\'' then do
          let (v, u) ← value (t.headD '"') none t.tail
          let (l, w) ← attributes n u
          if (skip s).takeWhile nameChar ∈ l.map Prod.fst then none else return (((skip s).takeWhile nameChar, v) :: l, w)
        else none
      else none

/-- `dET.parse(eventxml).getroot()` (impactutils/rupture/origin.py:310-315): the tag and the attributes of the element; `none` is a `ParseError`. White
space may come before the element and after it. -/
def parse (text : Text) : Option (Text × List (Text × Text)) :=
  match skip (lineEnds text) with
  | '<' :: s =>
    if isName (s.takeWhile nameChar) then do
      let (l, r) ← attributes (s.length + 1) (s.dropWhile nameChar)
      if skip r = [] then return (s.takeWhile nameChar, l) else none
    else none
  | _ => none

/-- The attributes as strings. -/
def strings (l : List (Text × Text)) : Attrs := l.map fun p => (String.ofList p.1, String.ofList p.2)

/-- `read_event_file` (impactutils/rupture/origin.py:260-406) for the text of a file; `none` is a `ParseError`. An element with another name has no
element `earthquake` in it, and `None` has no attribute `items`. -/
def readEventText {T : Type} (p : Parsers T) (path : Bool) (text : Text) : Option (Except RErr (Read T)) :=
  (parse text).map fun x => if x.1 = "earthquake".toList then readEvent p path (strings x.2) else .error .attribute

end Verif.EventXml
