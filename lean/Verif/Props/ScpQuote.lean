import Verif.Model.Scp
import Verif.Spec.Shell

/-!
# Shell quoting in scp: C55
-/

namespace Verif.Props
open Verif.Fs Verif.Scp Verif.Spec

/-- Words before a blank do not depend on what follows. -/
theorem lex_append {home : Text} (rest : Text) (s : Text) : ∀ (q : Quoting) (cur : Option Text)
    (ws : List Text), lex home q cur s = some ws →
    lex home q cur (s ++ ' ' :: rest) = (lex home .unquoted none rest).map (ws ++ ·) := by
  induction s with
  | nil =>
    intro q cur ws h
    cases q with
    | unquoted =>
      simp only [lex, Option.some.injEq] at h
      subst h
      simp [lex]
    | escaped => simp [lex] at h
    | single => simp [lex] at h
    | double => simp [lex] at h
  | cons c s hs =>
    intro q cur ws h
    rw [List.cons_append]
    cases q with
    | unquoted =>
      rw [lex] at h ⊢
      by_cases h1 : c = ' ' ∨ c = '\t'
      · rw [if_pos h1] at h ⊢
        obtain ⟨v, hv, rfl⟩ := Option.map_eq_some_iff.1 h
        rw [hs _ _ _ hv, Option.map_map]
        congr 1
        funext x; simp
      rw [if_neg h1] at h ⊢
      by_cases h2 : c = '\''
      · rw [if_pos h2] at h ⊢; exact hs _ _ _ h
      rw [if_neg h2] at h ⊢
      by_cases h3 : c = '"'
      · rw [if_pos h3] at h ⊢; exact hs _ _ _ h
      rw [if_neg h3] at h ⊢
      by_cases h4 : c = '\\'
      · rw [if_pos h4] at h ⊢; exact hs _ _ _ h
      rw [if_neg h4] at h ⊢
      by_cases h6 : c = '~' ∧ cur = none
      · rw [if_pos h6] at h ⊢
        by_cases h7 : s.head? = none ∨ s.head? = some '/' ∨ s.head? = some ' '
        · rw [if_pos h7] at h
          have h7' : (s ++ ' ' :: rest).head? = none ∨ (s ++ ' ' :: rest).head? = some '/' ∨
              (s ++ ' ' :: rest).head? = some ' ' := by
            cases s with
            | nil => simp
            | cons d s => simpa using h7
          rw [if_pos h7']
          exact hs _ _ _ h
        · rw [if_neg h7] at h; simp at h
      rw [if_neg h6] at h ⊢
      by_cases h8 : c = '#' ∧ cur = none
      · rw [if_pos h8] at h; simp at h
      rw [if_neg h8] at h ⊢
      by_cases h9 : c ∈ shellSpecial
      · rw [if_pos h9] at h; simp at h
      rw [if_neg h9] at h ⊢
      exact hs _ _ _ h
    | escaped =>
      rw [lex] at h ⊢
      by_cases h1 : c = '\n' ∨ c = '\x00'
      · rw [if_pos h1] at h; simp at h
      rw [if_neg h1] at h ⊢
      exact hs _ _ _ h
    | single =>
      rw [lex] at h ⊢
      by_cases h1 : c = '\''
      · rw [if_pos h1] at h ⊢; exact hs _ _ _ h
      rw [if_neg h1] at h ⊢
      by_cases h2 : c = '\x00'
      · rw [if_pos h2] at h; simp at h
      rw [if_neg h2] at h ⊢
      exact hs _ _ _ h
    | double =>
      rw [lex] at h ⊢
      by_cases h1 : c = '"'
      · rw [if_pos h1] at h ⊢; exact hs _ _ _ h
      rw [if_neg h1] at h ⊢
      by_cases h2 : c = '$' ∨ c = '`' ∨ c = '\\' ∨ c = '\x00'
      · rw [if_pos h2] at h; simp at h
      rw [if_neg h2] at h ⊢
      exact hs _ _ _ h

/-- A command line followed by a blank and more. -/
theorem shellWords_append {home pre s : Text} {ws vs : List Text}
    (h1 : shellWords home pre = some ws) (h2 : shellWords home s = some vs) :
    shellWords home (pre ++ ' ' :: s) = some (ws ++ vs) := by
  unfold shellWords at *
  rw [lex_append s pre _ _ _ h1, h2]
  rfl

theorem safe_ordinary {c : Char} (h : safe c = true) :
    ¬ (c = ' ' ∨ c = '\t') ∧ c ≠ '\'' ∧ c ≠ '"' ∧ c ≠ '\\' ∧ c ≠ '#' ∧ c ∉ shellSpecial := by
  have key : ∀ d ∈ [' ', '\t', '\'', '"', '\\', '#'] ++ shellSpecial, safe d = false := by decide +kernel
  have hne : c ∉ [' ', '\t', '\'', '"', '\\', '#'] ++ shellSpecial := by
    intro hc
    rw [key c hc] at h
    simp at h
  simp only [List.cons_append, List.nil_append, List.mem_cons, not_or] at hne
  obtain ⟨h1, h2, h3, h4, h5, h6, h7⟩ := hne
  exact ⟨by simp [h1, h2], h3, h4, h5, h6, h7⟩

theorem lex_safe {home : Text} {s : Text} (h : ∀ c ∈ s, safe c = true) (w : Text) :
    lex home .unquoted (some w) s = some [w ++ s] := by
  induction s generalizing w with
  | nil => simp [lex]
  | cons c s ih =>
    obtain ⟨h1, h2, h3, h4, h5, h6⟩ := safe_ordinary (h c (by simp))
    rw [lex, if_neg h1, if_neg h2, if_neg h3, if_neg h4, if_neg (by simp), if_neg (by simp), if_neg h6,
      ih (fun c hc => h c (by simp [hc]))]
    simp

/-- Quotes inside single quotes. -/
theorem lex_quoted {home : Text} {s : Text} (h : '\x00' ∉ s) (w : Text) :
    lex home .single (some w) (replaceAll ['\''] "'\"'\"'".toList s ++ ['\'']) = some [w ++ s] := by
  induction s generalizing w with
  | nil => simp [replaceAll, lex]
  | cons c s ih =>
    have hs : '\x00' ∉ s := fun hc => h (by simp [hc])
    rw [replaceAll]
    by_cases hc : c = '\''
    · subst hc
      have hp : ['\''] ≠ [] ∧ ['\''] <+: '\'' :: s := ⟨by simp, ⟨s, rfl⟩⟩
      have hq : "'\"'\"'".toList = ['\'', '"', '\'', '"', '\''] := by decide
      rw [dif_pos hp, hq]
      simp only [List.length_singleton, List.drop_succ_cons, List.drop_zero, List.cons_append,
        List.nil_append]
      rw [← hq]
      rw [lex, if_pos rfl, lex, if_neg (by decide), if_neg (by decide), if_pos rfl, lex,
        if_neg (by decide), if_neg (by decide), lex, if_pos rfl, lex, if_neg (by decide), if_pos rfl,
        Option.getD_some, Option.getD_some, Option.getD_some, Option.getD_some, Option.getD_some,
        ih hs]
      simp
    · have hp : ¬ (['\''] ≠ [] ∧ ['\''] <+: c :: s) := by
        rintro ⟨_, t, ht⟩
        simp only [List.cons_append, List.cons.injEq] at ht
        exact hc ht.1.symm
      rw [dif_neg hp, List.cons_append, lex, if_neg hc, if_neg (fun h0 => h (by simp [h0])),
        Option.getD_some, ih hs]
      simp

/-- A path that can be given to a shell and does not begin with a tilde. -/
structure Quotable (s : Text) : Prop where
  nonempty : s ≠ []
  no_nul : '\x00' ∉ s
  no_tilde : s.head? ≠ some '~'

theorem quote_word {home s : Text} (h : Quotable s) : shellWords home (shQuote s) = some [s] := by
  unfold shQuote shellWords
  rw [if_neg h.nonempty]
  by_cases hs : s.all safe = true
  · rw [if_pos hs]
    have hall := List.all_eq_true.1 hs
    cases s with
    | nil => exact absurd rfl h.nonempty
    | cons c s =>
      obtain ⟨h1, h2, h3, h4, h5, h6⟩ := safe_ordinary (hall c (by simp))
      have h7 : c ≠ '~' := fun hc => h.no_tilde (by simp [hc])
      rw [lex, if_neg h1, if_neg h2, if_neg h3, if_neg h4, if_neg (by simp [h7]), if_neg (by simp [h5]),
        if_neg h6, lex_safe (fun c hc => hall c (by simp [hc]))]
      simp
  · rw [if_neg hs]
    rw [List.cons_append, lex, if_neg (by decide), if_pos rfl, Option.getD_none,
      lex_quoted h.no_nul]
    simp

theorem quote_words {home : Text} {ss : List Text} (h : ∀ s ∈ ss, Quotable s) :
    shellWords home (Scp.spaceJoin (ss.map shQuote)) = some ss := by
  induction ss with
  | nil => simp [Scp.spaceJoin, shellWords, lex]
  | cons s ss ih =>
    cases ss with
    | nil => exact quote_word (h s (by simp))
    | cons t ss =>
      have := shellWords_append (quote_word (home := home) (h s (by simp)))
        (ih fun s hs => h s (by simp [hs]))
      simpa [Scp.spaceJoin] using this

/-- **C55** (partial). A quoted path is one word of the shell, and that word is the path; the commands
of `put` and `get` consist of exactly the expected words. This holds for all paths that are not empty,
have no NUL byte and do not begin with a tilde. What is missing are paths that begin with a tilde: see
`C55_tilde_violated`. -/
theorem C55_quoting_partial (home : Text) :
    (∀ s, Quotable s → shellWords home (shQuote s) = some [s]) ∧
    (∀ r s, Quotable s → shellWords home (putCommand r s) =
      some (["scp".toList] ++ (if r then ["-r".toList] else []) ++ ["-t".toList, s])) ∧
    (∀ r p ss, (∀ s ∈ ss, Quotable s) → shellWords home (getCommand r p ss) =
      some (["scp".toList] ++ (if r then ["-r".toList] else []) ++
        (if p then ["-p".toList] else []) ++ ["-f".toList] ++ ss)) := by
  have word : ∀ w : Text, w ≠ [] → w.all safe = true → w.head? ≠ some '~' →
      shellWords home w = some [w] := by
    intro w h1 h2 h3
    have := quote_word (home := home) (s := w) ⟨h1, fun h => by
      have := List.all_eq_true.1 h2 _ h
      revert this; decide, h3⟩
    unfold shQuote at this
    rwa [if_neg h1, if_pos h2] at this
  have wscp := word "scp".toList (by decide) (by decide) (by decide)
  have wr := word "-r".toList (by decide) (by decide) (by decide)
  have wp := word "-p".toList (by decide) (by decide) (by decide)
  have wt := word "-t".toList (by decide) (by decide) (by decide)
  have wf := word "-f".toList (by decide) (by decide) (by decide)
  refine ⟨fun s hs => quote_word hs, ?_, ?_⟩
  · intro r s hs
    cases r with
    | false =>
      have := shellWords_append wscp (shellWords_append wt (quote_word hs))
      simpa [putCommand] using this
    | true =>
      have := shellWords_append wscp (shellWords_append wr (shellWords_append wt (quote_word hs)))
      simpa [putCommand] using this
  · intro r p ss hs
    have key := shellWords_append wf (quote_words (home := home) hs)
    cases r <;> cases p
    · have := shellWords_append wscp key
      simpa [getCommand] using this
    · have := shellWords_append wscp (shellWords_append wp key)
      simpa [getCommand] using this
    · have := shellWords_append wscp (shellWords_append wr key)
      simpa [getCommand] using this
    · have := shellWords_append wscp (shellWords_append wr (shellWords_append wp key))
      simpa [getCommand] using this

/-- The hypotheses are met, also by a path with quotes and blanks. -/
example : Quotable "it's $HOME; x".toList ∧
    shQuote "it's $HOME; x".toList = "'it'\"'\"'s $HOME; x'".toList :=
  ⟨⟨by decide, by decide, by decide⟩, by decide +kernel⟩

/-- **C55** violated: a path that begins with a tilde is expanded by the shell. -/
theorem C55_tilde_violated (home : Text) :
    ∃ s : Text, s ≠ [] ∧ '\x00' ∉ s ∧ s = "~/x".toList ∧
      shellWords home (shQuote s) = some [home ++ "/x".toList] := by
  refine ⟨"~/x".toList, by decide, by decide, rfl, ?_⟩
  have h1 : shQuote "~/x".toList = ['~', '/', 'x'] := by decide +kernel
  have h2 : "/x".toList = ['/', 'x'] := by decide
  rw [h1, h2, shellWords, lex, if_neg (by decide), if_neg (by decide), if_neg (by decide),
    if_neg (by decide), if_pos (by decide), if_pos (by decide)]
  exact lex_safe (by decide) home

/-- The empty path disappears from the command. -/
theorem C55_empty_violated (home : Text) :
    shellWords home (putCommand false []) = some ["scp".toList, "-t".toList] := by
  have h : putCommand false [] = "scp -t ".toList := by decide
  have h2 : "scp -t ".toList = ['s', 'c', 'p', ' ', '-', 't', ' '] := by decide
  have h3 : "scp".toList = ['s', 'c', 'p'] := by decide
  have h4 : "-t".toList = ['-', 't'] := by decide
  rw [h, h2, h3, h4]
  simp [shellWords, lex, shellSpecial]

end Verif.Props
