import Verif.Model.Version
import Verif.Spec.ScpWire

/-!
# What git prints, and what a version number is
-/

namespace Verif.Spec
open Verif.Fs (Text)

/-- The state of a checkout: the nearest tag, if there is one, the number of commits since it (or in all), the abbreviated and
the full name of the commit, whether there are local changes, and the day, time and time zone of the commit. -/
structure Checkout where
  tag : Option Text
  distance : ℕ
  hex : Text
  full : Text
  dirty : Bool
  day : Text
  time : Text
  zone : Text

/-- A lower-case hexadecimal number. -/
def HexName (h : Text) : Prop := h ≠ [] ∧ ∀ c ∈ h, c ∈ "0123456789abcdef".toList

/-- A name that git accepts for a tag has no blanks or control characters. -/
def TagName (t : Text) : Prop := t ≠ [] ∧ ∀ c ∈ t, 32 < c.toNat ∧ c.toNat ≠ 127 ∧ c.toNat ≠ 133 ∧ c.toNat ≠ 160

/-- A state that a git checkout can be in. -/
structure Checkout.Sound (c : Checkout) : Prop where
  tag : ∀ t, c.tag = some t → TagName t
  hex : HexName c.hex
  full : HexName c.full
  day : c.day ≠ [] ∧ ∀ x ∈ c.day, x ∈ "0123456789-".toList
  time : c.time ≠ [] ∧ ∀ x ∈ c.time, x ∈ "0123456789:".toList
  zone : c.zone ≠ [] ∧ ∀ x ∈ c.zone, x ∈ "0123456789+-".toList

/-- `git describe --tags --dirty --always --long`. -/
def Checkout.describeLong (c : Checkout) : Text :=
  (match c.tag with
  | some t => t ++ ['-'] ++ digits c.distance ++ "-g".toList ++ c.hex
  | none => c.hex) ++ (if c.dirty then "-dirty".toList else [])

/-- `git describe --tags --dirty --always`. -/
def Checkout.describe (c : Checkout) : Text :=
  (match c.tag with
  | some t => if c.distance = 0 then t else t ++ ['-'] ++ digits c.distance ++ "-g".toList ++ c.hex
  | none => c.hex) ++ (if c.dirty then "-dirty".toList else [])

/-- A machine where `git` runs in this checkout, and every line it prints ends in a line feed. -/
structure Answers (sh : Version.Shell) (pre : Text) (c : Checkout) : Prop where
  gitDir : ∃ d, sh "git".toList ["rev-parse".toList, "--git-dir".toList] = .ran d 0
  describe : sh "git".toList ["describe".toList, "--tags".toList, "--dirty".toList, "--always".toList, "--long".toList,
    "--match".toList, pre ++ ['*']] = .ran (c.describeLong ++ ['\n']) 0
  head : sh "git".toList ["rev-parse".toList, "HEAD".toList] = .ran (c.full ++ ['\n']) 0
  count : c.tag = none → sh "git".toList ["rev-list".toList, "HEAD".toList, "--count".toList] = .ran (digits c.distance ++ ['\n']) 0
  date : sh "git".toList ["show".toList, "-s".toList, "--format=%ci".toList, "HEAD".toList] = .ran (c.day ++ [' '] ++ c.time ++ [' '] ++ c.zone ++ ['\n']) 0

/-! ### What `git archive` fills in -/

/-- A name that a commit has: a tag, or something else (a branch, or `HEAD -> branch`). -/
inductive Ref where
  | tag (t : Text)
  | other (s : Text)

/-- How git prints the name. -/
def Ref.text : Ref → Text
  | .tag t => "tag: ".toList ++ t
  | .other s => s

/-- Names without blanks at the ends, commas and parentheses. -/
def Ref.Sound : Ref → Prop
  | .tag t => TagName t ∧ ∀ x ∈ t, x ∉ ",()".toList
  | .other s => s ≠ [] ∧ (∀ x, s.head? = some x ∨ s.getLast? = some x → 32 < x.toNat ∧ x.toNat < 127) ∧ (∀ x ∈ s, x ∉ ",()".toList) ∧
      ¬ "tag: ".toList <+: s

/-- `%d`: the names of a commit in parentheses. -/
def decoration (refs : List Ref) : Text := if refs = [] then [] else " (".toList ++ ", ".toList.intercalate (refs.map Ref.text) ++ ")".toList

/-! ### PEP 440 -/

/-- A version in the form of PEP 440: an epoch, the release numbers, a pre-release, a post-release (whose number may be left
out), a development release and the local segments. -/
structure V440 where
  epoch : Option ℕ
  release : List ℕ
  pre : Option (Text × ℕ)
  post : Option (Option ℕ)
  dev : Option ℕ
  loc : List Text

/-- There is a release number, the pre-release is an alpha, beta or candidate, and the local segments are lower-case letters
and digits. -/
structure V440.Good (v : V440) : Prop where
  release : v.release ≠ []
  pre : ∀ x, v.pre = some x → x.1 ∈ ["a".toList, "b".toList, "rc".toList]
  loc : ∀ s ∈ v.loc, s ≠ [] ∧ ∀ c ∈ s, c ∈ "0123456789abcdefghijklmnopqrstuvwxyz".toList

/-- The part before the plus sign: `[N!]N(.N)*[{a|b|rc}N][.post[N]][.devN]`. -/
def V440.public (v : V440) : Text :=
  (match v.epoch with | some n => digits n ++ ['!'] | none => []) ++
  ['.'].intercalate (v.release.map (fun n : ℕ => digits n)) ++
  (match v.pre with | some (k, n) => k ++ digits n | none => []) ++
  (match v.post with | some (some n) => ".post".toList ++ digits n | some none => ".post".toList | none => []) ++
  (match v.dev with | some n => ".dev".toList ++ digits n | none => [])

/-- The version as a text: `PUBLIC[+SEGMENT(.SEGMENT)*]`. -/
def V440.text (v : V440) : Text := v.public ++ (if v.loc = [] then [] else '+' :: ['.'].intercalate v.loc)

/-- A text is a version of PEP 440. -/
def IsPep440 (t : Text) : Prop := ∃ v : V440, v.Good ∧ v.text = t

end Verif.Spec
