import Verif.Model.Fs

/-!
# How a POSIX shell splits a simple command into words

A specification of the part of the shell language needed for quoted words: blanks, single and double
quotes, backslashes, and the expansion of a leading tilde. Anything else with a special meaning
(operators, expansions, patterns, comments, line ends, NUL bytes) is not a simple command here and gives
`none`.
-/

namespace Verif.Spec
open Verif.Fs

/-- Quoting state. -/
inductive Quoting where
  | unquoted
  | escaped
  | single
  | double
deriving DecidableEq, Repr

/-- Characters with a special meaning outside quotes, apart from blanks, quotes and backslash. -/
def shellSpecial : List Char :=
  ['|', '&', ';', '<', '>', '(', ')', '$', '`', '*', '?', '[', ']', '{', '}', '!', '\n', '\x00']

/-- Split into words. `home` is the home directory; the second argument is the word so far, `none`
between words. -/
def lex (home : Text) : Quoting → Option Text → Text → Option (List Text)
  | .unquoted, cur, [] => some cur.toList
  | _, _, [] => none
  | .unquoted, cur, c :: s =>
    if c = ' ' ∨ c = '\t' then (lex home .unquoted none s).map (cur.toList ++ ·)
    else if c = '\'' then lex home .single (some (cur.getD [])) s
    else if c = '"' then lex home .double (some (cur.getD [])) s
    else if c = '\\' then lex home .escaped cur s
    else if c = '~' ∧ cur = none then
      if s.head? = none ∨ s.head? = some '/' ∨ s.head? = some ' ' then
        lex home .unquoted (some home) s
      else none
    else if c = '#' ∧ cur = none then none
    else if c ∈ shellSpecial then none
    else lex home .unquoted (some (cur.getD [] ++ [c])) s
  | .escaped, cur, c :: s =>
    if c = '\n' ∨ c = '\x00' then none else lex home .unquoted (some (cur.getD [] ++ [c])) s
  | .single, cur, c :: s =>
    if c = '\'' then lex home .unquoted (some (cur.getD [])) s
    else if c = '\x00' then none
    else lex home .single (some (cur.getD [] ++ [c])) s
  | .double, cur, c :: s =>
    if c = '"' then lex home .unquoted (some (cur.getD [])) s
    else if c = '$' ∨ c = '`' ∨ c = '\\' ∨ c = '\x00' then none
    else lex home .double (some (cur.getD [] ++ [c])) s

/-- The words of a command line. -/
def shellWords (home s : Text) : Option (List Text) := lex home .unquoted none s

end Verif.Spec
