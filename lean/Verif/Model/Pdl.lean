import Verif.Model.Sender

/-!
# Model of impactutils/transfer/pdlsender.py

The command line is a text. Numbers and times are given by their formatted text.
-/

namespace Verif.Pdl
open Verif.Fs

/-- The command template (impactutils/transfer/pdlsender.py:52-57). -/
def template : Text :=
  ("[JAVA] -jar [JARFILE] --send --status=[STATUS] --source=[SOURCE] --type=[TYPE] --code=[CODE] " ++
   "--eventsource=[EVENTSOURCE] --eventsourcecode=[EVENTSOURCECODE] " ++
   "[PRODUCT_PROPERTIES] [OPTIONAL_PROPERTIES] " ++
   "--privateKey=[PRIVATEKEY]  --configFile=[CONFIGFILE] [FILE] [DIRECTORY]").toList

/-- A product property: a string, or something else given by its formatted text. -/
inductive Value where
  | str (t : Text)
  | other (t : Text)

/-- What a PDL sender knows: the required properties (impactutils/transfer/pdlsender.py:59-61), the
optional ones in their order with their formatted text, the product properties if given, and the local
files and directory. -/
structure Config where
  java : Text
  jarfile : Text
  privatekey : Text
  configfile : Text
  source : Text
  type : Text
  code : Text
  eventsource : Text
  eventsourcecode : Text
  optional : List (Text × Text)
  product : Option (List (Text × Value))
  files : List Text
  directory : Option Text

/-- `' '.join(nuggets)`. -/
def spaceJoin : List Text → Text
  | [] => []
  | [w] => w
  | w :: v :: ws => w ++ ' ' :: spaceJoin (v :: ws)

/-- One product property on the command line (impactutils/transfer/pdlsender.py:107-121). -/
def productNugget : Text × Value → Text
  | (k, .str t) => "--property-".toList ++ k ++ "=\"".toList ++ t ++ "\"".toList
  | (k, .other t) => "--property-".toList ++ k ++ "=".toList ++ t

/-- Text for all product properties (impactutils/transfer/pdlsender.py:104-125). -/
def productText : Option (List (Text × Value)) → Text
  | none => []
  | some ps => spaceJoin (ps.map productNugget)

/-- One optional property (impactutils/transfer/pdlsender.py:149-157). -/
def optionalNugget (p : Text × Text) : Text := "--".toList ++ p.1 ++ "=".toList ++ p.2

/-- Text for the optional properties (impactutils/transfer/pdlsender.py:140-161). -/
def optionalText (ps : List (Text × Text)) : Text := spaceJoin (ps.map optionalNugget)

/-- Text for the file (impactutils/transfer/pdlsender.py:128-131). -/
def fileText : List Text → Text
  | [] => []
  | f :: _ => "--file=".toList ++ f

/-- Text for the directory (impactutils/transfer/pdlsender.py:132-136). -/
def directoryText : Option Text → Text
  | none => []
  | some d => if d = [] then [] else "--directory=".toList ++ d

/-- The replacements, in order: the status, the required properties
(impactutils/transfer/pdlsender.py:98-102), the file and the directory, the product properties, the
optional properties (impactutils/transfer/pdlsender.py:184-196). -/
def steps (status : Text) (c : Config) : List (Text × Text) :=
  [("[STATUS]".toList, status),
   ("[JAVA]".toList, c.java), ("[JARFILE]".toList, c.jarfile),
   ("[PRIVATEKEY]".toList, c.privatekey), ("[CONFIGFILE]".toList, c.configfile),
   ("[SOURCE]".toList, c.source), ("[TYPE]".toList, c.type), ("[CODE]".toList, c.code),
   ("[EVENTSOURCE]".toList, c.eventsource), ("[EVENTSOURCECODE]".toList, c.eventsourcecode),
   ("[FILE]".toList, fileText c.files), ("[DIRECTORY]".toList, directoryText c.directory),
   ("[PRODUCT_PROPERTIES]".toList, productText c.product),
   ("[OPTIONAL_PROPERTIES]".toList, optionalText c.optional)]

/-- Carry out replacements one after the other. -/
def substitute (ss : List (Text × Text)) (cmd : Text) : Text :=
  ss.foldl (fun cmd s => replaceAll s.1 s.2 cmd) cmd

/-- The command of `send` (impactutils/transfer/pdlsender.py:181-196). -/
def sendCommand (c : Config) : Text := substitute (steps "UPDATE".toList c) template

/-- The command of `cancel` (impactutils/transfer/pdlsender.py:228-245). -/
def cancelCommand (c : Config) : Text := substitute (steps "DELETE".toList c) template

/-- Outcome of `send`. -/
inductive Outcome where
  | pdlError
  | sent (count : ℕ)
deriving DecidableEq, Repr

/-- `send` (impactutils/transfer/pdlsender.py:163-215). `success` is whether the command exits with
status 0 (impactutils/io/cmd.py:23-28), `dirFiles` the number of files in the local directory. -/
def send (c : Config) (success : Text → Bool) (dirFiles : ℕ) : Outcome :=
  if c.files.length > 1 then .pdlError
  else if !success (sendCommand c) then .pdlError
  else .sent ((if c.files = [] then 0 else 1) +
    (match c.directory with
     | none => 0
     | some d => if d = [] then 0 else dirFiles))

/-- `cancel` (impactutils/transfer/pdlsender.py:217-254); `true` when it returns normally. -/
def cancel (c : Config) (success : Text → Bool) : Bool := success (cancelCommand c)

end Verif.Pdl
