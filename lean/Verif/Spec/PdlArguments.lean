import Verif.Spec.Shell
import Verif.Model.Pdl

/-!
# The arguments that a product client is to be started with
-/

namespace Verif.Spec
open Verif.Fs Verif.Pdl

/-- The text of a product property. -/
def valueText : Value → Text
  | .str t => t
  | .other t => t

/-- The program and its arguments: every value is part of exactly one argument. -/
def pdlArguments (status : Text) (c : Config) : List Text :=
  [c.java, "-jar".toList, c.jarfile, "--send".toList, "--status=".toList ++ status,
   "--source=".toList ++ c.source, "--type=".toList ++ c.type, "--code=".toList ++ c.code,
   "--eventsource=".toList ++ c.eventsource, "--eventsourcecode=".toList ++ c.eventsourcecode] ++
  (c.product.getD []).map (fun p => "--property-".toList ++ p.1 ++ "=".toList ++ valueText p.2) ++
  c.optional.map (fun p => "--".toList ++ p.1 ++ "=".toList ++ p.2) ++
  ["--privateKey=".toList ++ c.privatekey, "--configFile=".toList ++ c.configfile] ++
  c.files.map (fun f => "--file=".toList ++ f) ++
  (c.directory.toList.filter (· ≠ [])).map (fun d => "--directory=".toList ++ d)

/-- A text without blanks, quotes, backslashes and other characters that are special to a shell. -/
def ShellPlain (t : Text) : Prop :=
  ∀ c ∈ t, c ∉ [' ', '\t', '\'', '"', '\\'] ∧ c ∉ shellSpecial

/-- A plain text that is not empty and does not begin with a tilde or a hash. -/
def ShellWord (t : Text) : Prop := ShellPlain t ∧ ∃ c s, t = c :: s ∧ c ≠ '~' ∧ c ≠ '#'

/-- All values are plain, apart from text values of product properties, which may contain anything but double quotes, dollars, backquotes, backslashes and
NUL bytes. -/
structure PlainConfig (c : Config) : Prop where
  java : ShellWord c.java
  jarfile : ShellWord c.jarfile
  privatekey : ShellPlain c.privatekey
  configfile : ShellPlain c.configfile
  source : ShellPlain c.source
  type : ShellPlain c.type
  code : ShellPlain c.code
  eventsource : ShellPlain c.eventsource
  eventsourcecode : ShellPlain c.eventsourcecode
  optional : ∀ p ∈ c.optional, ShellPlain p.1 ∧ ShellPlain p.2
  product : ∀ p ∈ c.product.getD [], ShellPlain p.1 ∧ (∀ t, p.2 = .other t → ShellPlain t) ∧
    (∀ t, p.2 = .str t → ∀ x ∈ t, x ∉ ['"', '$', '`', '\\', '\x00'])
  files : ∀ f ∈ c.files, ShellPlain f
  directory : ∀ d, c.directory = some d → ShellPlain d

end Verif.Spec
