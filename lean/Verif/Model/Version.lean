import Mathlib.Order.Lex
import Mathlib.Data.List.Lex
import Mathlib.Data.Char
import Verif.Model.Fs
import Verif.Model.Factory

/-!
# The version number of the package (impactutils/_version.py)

Texts are lists of characters. `verbose` is false, as `get_config` sets it, so nothing is printed. A program started by
`run_command` is an oracle from its name and arguments to what happens; each command line is run at most once, so this is no
restriction. What a program prints can be decoded.
-/

namespace Verif.Version
open Verif.Fs (Text baseName dirName)
open Verif.Factory (strip)

/-- The exceptions that leave the functions of this file. -/
inductive Err where
  | notThisMethod
  | valueError
  | typeError
  | attributeError
  | keyError
deriving DecidableEq, Repr

/-! ### Running programs -/

/-- What `subprocess.Popen` and `communicate` do: the program does not exist (`ENOENT`), it cannot be started, or it runs,
prints a text and returns a code. -/
inductive Started where
  | missing
  | failed
  | ran (stdout : Text) (code : ℤ)
deriving DecidableEq

/-- A machine: what happens when a program is started with some arguments. -/
abbrev Shell := Text → List Text → Started

/-- `run_command` (impactutils/_version.py:69-104). -/
def runCommand (sh : Shell) (args : List Text) : List Text → Option Text × Option ℤ
  | [] => (none, none)
  | c :: cs =>
    match sh c args with
    | .missing => runCommand sh args cs
    | .failed => (none, none)
    | .ran out rc => if rc ≠ 0 then (none, some rc) else (some (strip out), some rc)

/-! ### Results -/

/-- The dictionary that `git_pieces_from_vcs` returns (impactutils/_version.py:249-305). With an error the keys
`closest-tag`, `distance` and `date` are missing from it and nothing reads them; they are filled in here. -/
structure Pieces where
  long : Text
  short : Text
  error : Option Text
  dirty : Bool
  tag : Option Text
  distance : ℕ
  date : Option Text
deriving DecidableEq

/-- The dictionary that `get_versions` returns (impactutils/_version.py:499-520). -/
structure Info where
  version : Text
  full : Option Text
  dirty : Option Bool
  error : Option Text
  date : Option Text
deriving DecidableEq

/-- `s.replace(old, new, 1)` for one character `old`. -/
def replaceFirst (old : Char) (new : Text) : Text → Text
  | [] => []
  | c :: cs => if c = old then new ++ cs else c :: replaceFirst old new cs

/-- `date.strip().replace(" ", "T", 1).replace(" ", "", 1)` (impactutils/_version.py:174, 303). -/
def isoDate (d : Text) : Text := replaceFirst ' ' [] (replaceFirst ' ' ['T'] (strip d))

/-! ### The parent directory -/

/-- The loop of `versions_from_parentdir` (impactutils/_version.py:114-129) with `n` rounds left. -/
def fromParentLoop (pre : Text) : ℕ → Text → Except Err Info
  | 0, _ => .error .notThisMethod
  | n + 1, root =>
    if pre <+: baseName root then .ok ⟨(baseName root).drop pre.length, none, some false, none, none⟩
    else fromParentLoop pre n (dirName root)

/-- `versions_from_parentdir` (impactutils/_version.py:107-129). -/
def fromParentdir (pre root : Text) : Except Err Info := fromParentLoop pre 3 root

/-! ### Keywords -/

/-- The keywords that `git archive` fills in; a key may be missing when they are read from a file. -/
structure Keywords where
  refnames : Option Text
  full : Option Text
  date : Option Text
deriving DecidableEq

/-- `get_keywords` (impactutils/_version.py:19-29) in a checkout, where nothing has been filled in. -/
def unexpanded : Keywords := ⟨some "$Format:%d$".toList, some "$Format:%H$".toList, some "$Format:%ci$".toList⟩

/-- `s.strip("()")`. -/
def stripParens (s : Text) : Text :=
  ((s.dropWhile (fun c => c = '(' || c = ')')).reverse.dropWhile (fun c => c = '(' || c = ')')).reverse

/-- The names in the parentheses (impactutils/_version.py:180). The code makes a set of them; the order and repetitions do
not matter to what follows. -/
def refsOf (refnames : Text) : List Text := ((stripParens refnames).splitOn ',').map strip

/-- The tags among the names (impactutils/_version.py:183-193): the names marked `tag: `, or else all names with a digit.
`\d` is taken to mean the ASCII digits. -/
def tagsOf (refs : List Text) : List Text :=
  let tags := (refs.filter (fun r => "tag: ".toList <+: r)).map (·.drop 5)
  if tags.isEmpty then refs.filter (fun r => r.any Char.isDigit) else tags

/-- `sorted(tags)` (impactutils/_version.py:198). -/
def sortTags (tags : List Text) : List Text := tags.mergeSort (fun a b => decide (a ≤ b))

/-- `git_versions_from_keywords` (impactutils/_version.py:162-213). -/
def fromKeywords (k : Keywords) (pre : Text) : Except Err Info :=
  if k = ⟨none, none, none⟩ then .error .notThisMethod
  else
    let date := k.date.map isoDate
    match k.refnames with
    | none => .error .keyError
    | some names =>
      let refnames := strip names
      if "$Format".toList <+: refnames then .error .notThisMethod
      else
        match (sortTags (tagsOf (refsOf refnames))).find? (fun r => pre <+: r), k.full with
        | _, none => .error .keyError
        | some r, some full => .ok ⟨r.drop pre.length, some (strip full), some false, none, date⟩
        | none, some full =>
          .ok ⟨"0+unknown".toList, some (strip full), some false, some "no suitable tags".toList, none⟩

/-- `re.search(r'=\s*"(.*)"', line)` from one place on: an equals sign, blanks, a quotation mark, and everything up to the
last quotation mark of the line. -/
def quotedAt (line : Text) : Option Text :=
  match line with
  | '=' :: rest =>
    match rest.dropWhile Factory.isSpace with
    | '"' :: body =>
      let r := (body.takeWhile (· ≠ '\n')).reverse.dropWhile (· ≠ '"')
      match r with
      | [] => none
      | _ :: inner => some inner.reverse
    | _ => none
  | _ => none

/-- `re.search(r'=\s*"(.*)"', line)` (impactutils/_version.py:145, 149, 153): the first place where it matches. -/
def quoted : Text → Option Text
  | [] => none
  | c :: cs =>
    match quotedAt (c :: cs) with
    | some x => some x
    | none => quoted cs

/-- One line of `git_get_keywords` (impactutils/_version.py:143-155). -/
def keywordLine (k : Keywords) (line : Text) : Keywords :=
  let k := if "git_refnames =".toList <+: strip line then (match quoted line with | some x => { k with refnames := some x } | none => k) else k
  let k := if "git_full =".toList <+: strip line then (match quoted line with | some x => { k with full := some x } | none => k) else k
  if "git_date =".toList <+: strip line then (match quoted line with | some x => { k with date := some x } | none => k) else k

/-- `git_get_keywords` (impactutils/_version.py:132-158) on the lines of a file, `none` if it cannot be read. A file that
fails while it is being read is not modelled. -/
def getKeywords (file : Option (List Text)) : Keywords :=
  match file with
  | none => ⟨none, none, none⟩
  | some lines => lines.foldl keywordLine ⟨none, none, none⟩

/-! ### The output of `git describe` -/

/-- The text before and after the last `c`. -/
def cutLast (c : Char) (s : Text) : Option (Text × Text) :=
  match s.reverse.dropWhile (· ≠ c) with
  | [] => none
  | _ :: r => some (r.reverse, (s.reverse.takeWhile (· ≠ c)).reverse)

/-- `[0-9a-f]`. -/
def isHex (c : Char) : Bool := c.isDigit || ('a' ≤ c && c ≤ 'f')

/-- `int` of a text of digits. -/
def number (s : Text) : ℕ := s.foldl (fun v c => 10 * v + (c.toNat - 48)) 0

/-- `re.search(r'^(.+)-(\d+)-g([0-9a-f]+)$', s)` (impactutils/_version.py:269): there is no hyphen in the last two groups,
so they are the parts after the last two hyphens. `$` also matches before a line end that is the last character. `\d` is taken
to mean the ASCII digits. -/
def describeMatch (s : Text) : Option (Text × Text × Text) :=
  match cutLast '-' (if s.getLast? = some '\n' then s.dropLast else s) with
  | some (a, 'g' :: hex) =>
    match cutLast '-' a with
    | some (tag, num) =>
      if tag ≠ [] ∧ '\n' ∉ tag ∧ num ≠ [] ∧ num.all Char.isDigit ∧ hex ≠ [] ∧ hex.all isHex then some (tag, num, hex) else none
    | none => none
  | _ => none

/-- `int(count_out)` (impactutils/_version.py:298): `TypeError` for `None`. Signs and underscores, which `git` does not print,
are not modelled. -/
def pyInt (s : Option Text) : Except Err ℕ :=
  match s with
  | none => .error .typeError
  | some s => if s ≠ [] ∧ s.all Char.isDigit then .ok (number s) else .error .valueError

/-- The command lines (impactutils/_version.py:229, 238-240, 245, 296, 301). -/
def argsGitDir : List Text := ["rev-parse".toList, "--git-dir".toList]
def argsDescribe (pre : Text) : List Text :=
  ["describe".toList, "--tags".toList, "--dirty".toList, "--always".toList, "--long".toList, "--match".toList, pre ++ ['*']]
def argsHead : List Text := ["rev-parse".toList, "HEAD".toList]
def argsCount : List Text := ["rev-list".toList, "HEAD".toList, "--count".toList]
def argsShow : List Text := ["show".toList, "-s".toList, "--format=%ci".toList, "HEAD".toList]

/-- The commit date (impactutils/_version.py:300-303): `None.strip()` is an `AttributeError`. -/
def commitDate (sh : Shell) (gits : List Text) : Except Err Text :=
  match (runCommand sh argsShow gits).1 with
  | none => .error .attributeError
  | some d => .ok (isoDate (strip d))

/-- `git_describe` without `-dirty` (impactutils/_version.py:259-263). As the text ends in `-dirty`, `rindex` finds that. -/
def withoutDirty (s : Text) : Text := if "-dirty".toList <:+ s then s.take (s.length - 6) else s

/-- `git_pieces_from_vcs` (impactutils/_version.py:217-305). `gits` are the names the program may have, `["git"]` except on
Windows. -/
def gitPieces (sh : Shell) (gits : List Text) (pre : Text) : Except Err Pieces :=
  if (runCommand sh argsGitDir gits).2 ≠ some 0 then .error .notThisMethod
  else
    match (runCommand sh (argsDescribe pre) gits).1 with
    | none => .error .notThisMethod
    | some d =>
      let describe := strip d
      match (runCommand sh argsHead gits).1 with
      | none => .error .notThisMethod
      | some f =>
        let full := strip f
        let dirty : Bool := "-dirty".toList <:+ describe
        let desc := withoutDirty describe
        if '-' ∈ desc then
          match describeMatch desc with
          | none => .ok ⟨full, full.take 7, some ("unable to parse git-describe output: '".toList ++ describe ++ ['\'']), dirty, none, 0, none⟩
          | some (tag, num, hex) =>
            if pre <+: tag then do
              let date ← commitDate sh gits
              .ok ⟨full, hex, none, dirty, some (tag.drop pre.length), number num, some date⟩
            else
              .ok ⟨full, full.take 7, some ("tag '".toList ++ tag ++ "' doesn't start with prefix '".toList ++ pre ++ ['\'']), dirty, none, 0, none⟩
        else do
          let n ← pyInt (runCommand sh argsCount gits).1
          let date ← commitDate sh gits
          .ok ⟨full, full.take 7, none, dirty, none, n, some date⟩

/-! ### Rendering -/

/-- `"%d" % n`. -/
def dec (n : ℕ) : Text := Nat.toDigits 10 n

/-- `if pieces["closest-tag"]`: the tag, if there is one and it is not empty. -/
def someTag (p : Pieces) : Option Text :=
  match p.tag with
  | some (c :: cs) => some (c :: cs)
  | _ => none

/-- `plus_or_dot` (impactutils/_version.py:308-312) for a tag that is not `None`. -/
def plusOrDot (tag : Text) : Text := if '+' ∈ tag then ['.'] else ['+']

/-- `render_pep440` (impactutils/_version.py:315-337). -/
def renderPep440 (p : Pieces) : Text :=
  match someTag p with
  | some tag =>
    if p.distance ≠ 0 ∨ p.dirty = true then
      tag ++ plusOrDot tag ++ dec p.distance ++ ".g".toList ++ p.short ++ (if p.dirty then ".dirty".toList else [])
    else tag
  | none => "0+untagged.".toList ++ dec p.distance ++ ".g".toList ++ p.short ++ (if p.dirty then ".dirty".toList else [])

/-- `render_pep440_pre` (impactutils/_version.py:340-353). -/
def renderPre (p : Pieces) : Text :=
  match someTag p with
  | some tag => if p.distance ≠ 0 then tag ++ ".post.dev".toList ++ dec p.distance else tag
  | none => "0.post.dev".toList ++ dec p.distance

/-- `render_pep440_post` (impactutils/_version.py:356-380). -/
def renderPost (p : Pieces) : Text :=
  match someTag p with
  | some tag =>
    if p.distance ≠ 0 ∨ p.dirty = true then
      tag ++ ".post".toList ++ dec p.distance ++ (if p.dirty then ".dev0".toList else []) ++ plusOrDot tag ++ ['g'] ++ p.short
    else tag
  | none => "0.post".toList ++ dec p.distance ++ (if p.dirty then ".dev0".toList else []) ++ "+g".toList ++ p.short

/-- `render_pep440_old` (impactutils/_version.py:383-402). -/
def renderOld (p : Pieces) : Text :=
  match someTag p with
  | some tag =>
    if p.distance ≠ 0 ∨ p.dirty = true then tag ++ ".post".toList ++ dec p.distance ++ (if p.dirty then ".dev0".toList else [])
    else tag
  | none => "0.post".toList ++ dec p.distance ++ (if p.dirty then ".dev0".toList else [])

/-- `render_git_describe` (impactutils/_version.py:405-422). -/
def renderDescribe (p : Pieces) : Text :=
  (match someTag p with
  | some tag => if p.distance ≠ 0 then tag ++ ['-'] ++ dec p.distance ++ "-g".toList ++ p.short else tag
  | none => p.short) ++ (if p.dirty then "-dirty".toList else [])

/-- `render_git_describe_long` (impactutils/_version.py:425-442). -/
def renderDescribeLong (p : Pieces) : Text :=
  (match someTag p with
  | some tag => tag ++ ['-'] ++ dec p.distance ++ "-g".toList ++ p.short
  | none => p.short) ++ (if p.dirty then "-dirty".toList else [])

/-- The choice of the style in `render` (impactutils/_version.py:454-470). -/
def renderStyle (p : Pieces) (style : Text) : Except Err Text :=
  let style := if style = [] ∨ style = "default".toList then "pep440".toList else style
  if style = "pep440".toList then .ok (renderPep440 p)
  else if style = "pep440-pre".toList then .ok (renderPre p)
  else if style = "pep440-post".toList then .ok (renderPost p)
  else if style = "pep440-old".toList then .ok (renderOld p)
  else if style = "git-describe".toList then .ok (renderDescribe p)
  else if style = "git-describe-long".toList then .ok (renderDescribeLong p)
  else .error .valueError

/-- `render` (impactutils/_version.py:445-474). An error text is never empty. -/
def render (p : Pieces) (style : Text) : Except Err Info :=
  match p.error with
  | some e => .ok ⟨"unknown".toList, some p.long, none, some e, none⟩
  | none => do
    let v ← renderStyle p style
    .ok ⟨v, some p.long, some p.dirty, none, p.date⟩

/-! ### Everything -/

/-- `cfg.tag_prefix`, `cfg.style` and `cfg.parentdir_prefix` (impactutils/_version.py:42-44). -/
def tagPrefix : Text := []
def configStyle : Text := "pep440".toList
def parentdirPrefix : Text := "impactutils-".toList

/-- `get_versions` (impactutils/_version.py:477-520). `file` is the real path of the module, `none` if there is no
`__file__`. `versionfile_source` has two parts, so the root is two directories up. -/
def getVersions (k : Keywords) (sh : Shell) (gits : List Text) (file : Option Text) : Except Err Info :=
  match fromKeywords k tagPrefix with
  | .ok i => .ok i
  | .error .notThisMethod =>
    match file with
    | none => .ok ⟨"0+unknown".toList, none, none, some "unable to find root of source tree".toList, none⟩
    | some path =>
      let root := dirName (dirName path)
      match (gitPieces sh gits tagPrefix).bind (fun p => render p configStyle) with
      | .ok i => .ok i
      | .error .notThisMethod =>
        match fromParentdir parentdirPrefix root with
        | .ok i => .ok i
        | .error .notThisMethod => .ok ⟨"0+unknown".toList, none, none, some "unable to compute version".toList, none⟩
        | .error e => .error e
      | .error e => .error e
  | .error e => .error e

end Verif.Version
