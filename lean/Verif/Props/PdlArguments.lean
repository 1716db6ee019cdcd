import Verif.Spec.PdlArguments
import Verif.Props.ScpQuote
import Verif.Props.PdlSender

/-!
# What a product client is started with: C179
-/

namespace Verif.Props
open Verif.Fs Verif.Pdl Verif.Spec

theorem lex_plain {home : Text} {s : Text} (h : ShellPlain s) (w rest : Text) :
    lex home .unquoted (some w) (s ++ rest) = lex home .unquoted (some (w ++ s)) rest := by
  induction s generalizing w with
  | nil => simp
  | cons c s ih =>
    have hc := h c (by simp)
    have h0 := hc.1
    simp only [List.mem_cons, List.not_mem_nil, or_false, not_or] at h0
    obtain ⟨h1, h2, h3, h4, h5⟩ := h0
    rw [List.cons_append, lex, if_neg (by simp [h1, h2]), if_neg h3, if_neg h4, if_neg h5, if_neg (by simp),
      if_neg (by simp), if_neg hc.2, ih (fun c hc => h c (by simp [hc]))]
    simp

theorem words_plain {home : Text} {t : Text} (h : ShellWord t) : shellWords home t = some [t] := by
  obtain ⟨hp, c, s, rfl, h6, h7⟩ := h
  have hc := hp c (by simp)
  have h0 := hc.1
  simp only [List.mem_cons, List.not_mem_nil, or_false, not_or] at h0
  obtain ⟨h1, h2, h3, h4, h5⟩ := h0
  unfold shellWords
  have := lex_plain (home := home) (s := s) (fun c hc => hp c (by simp [hc])) [c] []
  rw [List.append_nil] at this
  rw [lex, if_neg (by simp [h1, h2]), if_neg h3, if_neg h4, if_neg h5, if_neg (by simp [h6]),
    if_neg (by simp [h7]), if_neg hc.2]
  simpa [lex] using this

theorem shellPlain_append {a b : Text} (ha : ShellPlain a) (hb : ShellPlain b) : ShellPlain (a ++ b) := by
  intro c hc
  rcases List.mem_append.1 hc with hc | hc
  · exact ha c hc
  · exact hb c hc

/-- An option with a plain value. -/
theorem shellWord_option {o v : Text} (ho : ShellWord o) (hv : ShellPlain v) : ShellWord (o ++ v) := by
  obtain ⟨hp, c, s, rfl, h1, h2⟩ := ho
  exact ⟨shellPlain_append hp hv, c, s ++ v, rfl, h1, h2⟩

theorem shellWord_literal {t : Text}
    (h : t.all (fun c => !([' ', '\t', '\'', '"', '\\'] ++ shellSpecial).contains c) = true)
    (h' : t.head?.any (fun c => c ≠ '~' ∧ c ≠ '#') = true) : ShellWord t := by
  constructor
  · intro c hc
    have := List.all_eq_true.1 h c hc
    simp only [Bool.not_eq_true', List.contains_eq_mem, decide_eq_false_iff_not, List.mem_append,
      not_or] at this
    exact this
  · cases t with
    | nil => simp at h'
    | cons c s =>
      simp only [List.head?_cons, Option.any_some, decide_eq_true_eq] at h'
      exact ⟨c, s, rfl, h'.1, h'.2⟩

/-- The words inside double quotes. -/
theorem lex_doubleQuoted {home : Text} {t : Text}
    (h : ∀ x ∈ t, x ∉ ['"', '$', '`', '\\', '\x00']) (w rest : Text) :
    lex home .double (some w) (t ++ '"' :: rest) = lex home .unquoted (some (w ++ t)) rest := by
  induction t generalizing w with
  | nil => simp [lex]
  | cons c t ih =>
    have h0 := h c (by simp)
    simp only [List.mem_cons, List.not_mem_nil, or_false, not_or] at h0
    obtain ⟨h1, h2, h3, h4, h5⟩ := h0
    rw [List.cons_append, lex, if_neg h1, if_neg (by simp [h2, h3, h4, h5]),
      ih (fun c hc => h c (by simp [hc]))]
    simp

theorem words_joined {α : Type} {home : Text} {as : List α} {g w : α → Text}
    (h : ∀ a ∈ as, shellWords home (g a) = some [w a]) :
    shellWords home (Pdl.spaceJoin (as.map g)) = some (as.map w) := by
  induction as with
  | nil => simp [Pdl.spaceJoin, shellWords, lex]
  | cons a as ih =>
    cases as with
    | nil => simpa [Pdl.spaceJoin] using h a (by simp)
    | cons b as =>
      rw [List.map_cons, List.map_cons, Pdl.spaceJoin, shellWords_append (h a (by simp))
        (by simpa using ih fun x hx => h x (by simp [hx]))]
      rfl

/-- The words of one product property. -/
theorem words_product {home : Text} {p : Text × Value} (h1 : ShellPlain p.1)
    (h2 : ∀ t, p.2 = .other t → ShellPlain t)
    (h3 : ∀ t, p.2 = .str t → ∀ x ∈ t, x ∉ ['"', '$', '`', '\\', '\x00']) :
    shellWords home (productNugget p) =
      some ["--property-".toList ++ p.1 ++ "=".toList ++ valueText p.2] := by
  obtain ⟨k, v⟩ := p
  have hl : ShellWord "--property-".toList := shellWord_literal (by decide) (by decide)
  have he : ShellPlain "=".toList := (shellWord_literal (by decide) (by decide)).1
  cases v with
  | other t =>
    exact words_plain (shellWord_option (shellWord_option (shellWord_option hl h1) he) (h2 t rfl))
  | str t =>
    have hw := (shellWord_option (shellWord_option hl h1) he).1
    have e : productNugget (k, .str t) =
        '-' :: (("-property-".toList ++ k ++ "=".toList) ++ '"' :: (t ++ ['"'])) := by
      show "--property-".toList ++ k ++ "=\"".toList ++ t ++ "\"".toList = _
      have e1 : "--property-".toList = '-' :: "-property-".toList := by decide
      rw [e1, lit_eqquote, lit_quote, lit_eq]
      simp only [List.append_assoc, List.cons_append, List.nil_append]
    have hp : ShellPlain ("-property-".toList ++ k ++ "=".toList) := by
      intro c hc
      apply hw c
      have e1 : "--property-".toList = '-' :: "-property-".toList := by decide
      rw [e1]
      simp only [List.cons_append, List.mem_cons]
      exact Or.inr hc
    rw [e]
    unfold shellWords
    rw [lex, if_neg (by decide), if_neg (by decide), if_neg (by decide), if_neg (by decide),
      if_neg (by decide), if_neg (by decide), if_neg (by decide), lex_plain hp, lex, if_neg (by decide),
      if_neg (by decide), if_pos rfl, Option.getD_some, lex_doubleQuoted (h3 t rfl)]
    have e1 : "--property-".toList = '-' :: "-property-".toList := by decide
    rw [e1]
    simp [lex, valueText]

/-- The words of a command, given those of its variable parts. -/
theorem words_command {home status : Text} {c : Config} (hs : ShellPlain status) (h : PlainConfig c)
    {pt ot ft dt : Text} {P O F D : List Text} (hP : shellWords home pt = some P)
    (hO : shellWords home ot = some O) (hF : shellWords home ft = some F) (hD : shellWords home dt = some D) :
    shellWords home (expectedCommand status c pt ot ft dt) =
      some ([c.java, "-jar".toList, c.jarfile, "--send".toList, "--status=".toList ++ status,
        "--source=".toList ++ c.source, "--type=".toList ++ c.type, "--code=".toList ++ c.code,
        "--eventsource=".toList ++ c.eventsource, "--eventsourcecode=".toList ++ c.eventsourcecode] ++
        P ++ O ++ ["--privateKey=".toList ++ c.privatekey, "--configFile=".toList ++ c.configfile] ++ F ++ D) := by
  have lit : ∀ {o v : Text}, ShellWord o → ShellPlain v → shellWords home (o ++ v) = some [o ++ v] :=
    fun ho hv => words_plain (shellWord_option ho hv)
  have e : expectedCommand status c pt ot ft dt =
      c.java ++ ' ' :: ("-jar".toList ++ ' ' :: (c.jarfile ++ ' ' :: ("--send".toList ++ ' ' ::
      (("--status=".toList ++ status) ++ ' ' :: (("--source=".toList ++ c.source) ++ ' ' ::
      (("--type=".toList ++ c.type) ++ ' ' :: (("--code=".toList ++ c.code) ++ ' ' ::
      (("--eventsource=".toList ++ c.eventsource) ++ ' ' ::
      (("--eventsourcecode=".toList ++ c.eventsourcecode) ++ ' ' :: (pt ++ ' ' :: (ot ++ ' ' ::
      (("--privateKey=".toList ++ c.privatekey) ++ ' ' :: ([] ++ ' ' ::
      (("--configFile=".toList ++ c.configfile) ++ ' ' :: (ft ++ ' ' :: dt))))))))))))))) := by
    have e1 : " -jar ".toList = ' ' :: ("-jar".toList ++ [' ']) := by decide
    have e2 : " --send --status=".toList = ' ' :: ("--send".toList ++ ' ' :: "--status=".toList) := by decide
    have e3 : " --source=".toList = ' ' :: "--source=".toList := by decide
    have e4 : " --type=".toList = ' ' :: "--type=".toList := by decide
    have e5 : " --code=".toList = ' ' :: "--code=".toList := by decide
    have e6 : " --eventsource=".toList = ' ' :: "--eventsource=".toList := by decide
    have e7 : " --eventsourcecode=".toList = ' ' :: "--eventsourcecode=".toList := by decide
    have e8 : " ".toList = [' '] := by decide
    have e9 : " --privateKey=".toList = ' ' :: "--privateKey=".toList := by decide
    have e10 : "  --configFile=".toList = ' ' :: ' ' :: "--configFile=".toList := by decide
    unfold expectedCommand
    rw [e1, e2, e3, e4, e5, e6, e7, e8, e9, e10]
    simp only [List.append_assoc, List.cons_append, List.nil_append]
  rw [e, shellWords_append (words_plain h.java) (shellWords_append
    (words_plain (shellWord_literal (by decide) (by decide))) (shellWords_append (words_plain h.jarfile)
    (shellWords_append (words_plain (shellWord_literal (by decide) (by decide))) (shellWords_append
    (lit (shellWord_literal (by decide) (by decide)) hs) (shellWords_append
    (lit (shellWord_literal (by decide) (by decide)) h.source) (shellWords_append
    (lit (shellWord_literal (by decide) (by decide)) h.type) (shellWords_append
    (lit (shellWord_literal (by decide) (by decide)) h.code) (shellWords_append
    (lit (shellWord_literal (by decide) (by decide)) h.eventsource) (shellWords_append
    (lit (shellWord_literal (by decide) (by decide)) h.eventsourcecode) (shellWords_append hP
    (shellWords_append hO (shellWords_append
    (lit (shellWord_literal (by decide) (by decide)) h.privatekey) (shellWords_append
    (by rfl : shellWords home [] = some []) (shellWords_append
    (lit (shellWord_literal (by decide) (by decide)) h.configfile)
    (shellWords_append hF hD)))))))))))))))]
  simp only [List.append_assoc, List.cons_append, List.nil_append]

theorem words_products {home : Text} {c : Config} (h : PlainConfig c) :
    shellWords home (productText c.product) = some ((c.product.getD []).map
      (fun p => "--property-".toList ++ p.1 ++ "=".toList ++ valueText p.2)) := by
  have hp := h.product
  cases hc : c.product with
  | none => rfl
  | some ps =>
    rw [hc] at hp
    exact words_joined fun p hm => words_product (hp p hm).1 (hp p hm).2.1 (hp p hm).2.2

theorem words_optional {home : Text} {c : Config} (h : PlainConfig c) :
    shellWords home (optionalText c.optional) = some (c.optional.map
      (fun p => "--".toList ++ p.1 ++ "=".toList ++ p.2)) :=
  words_joined fun p hm => words_plain (shellWord_option (shellWord_option (shellWord_option
    (shellWord_literal (by decide) (by decide)) (h.optional p hm).1)
    (shellWord_literal (by decide) (by decide)).1) (h.optional p hm).2)

theorem words_directory {home : Text} {c : Config} (h : PlainConfig c) :
    shellWords home (directoryText c.directory) = some ((c.directory.toList.filter (· ≠ [])).map
      (fun d => "--directory=".toList ++ d)) := by
  cases hc : c.directory with
  | none => rfl
  | some d =>
    by_cases hd : d = []
    · subst hd; rfl
    · rw [directoryText, if_neg hd, words_plain (shellWord_option
        (shellWord_literal (by decide) (by decide)) (h.directory d hc))]
      simp [hd]

theorem words_file {home : Text} {c : Config} (h : PlainConfig c) (hl : c.files.length ≤ 1) :
    shellWords home (fileText c.files) = some (c.files.map (fun f => "--file=".toList ++ f)) := by
  have hf := h.files
  match hc : c.files, hl with
  | [], _ => rfl
  | [f], _ =>
    rw [hc] at hf
    exact words_plain (shellWord_option (shellWord_literal (by decide) (by decide)) (hf f (by simp)))

/-- **C179** (partial: only for values without characters that are special to a shell; text values of product
properties may have blanks and most other characters). A shell that is given the command of `send` or
`cancel` starts the configured program with one argument for each value, and nothing else. -/
theorem C179_arguments_partial {c : Config} (h : CleanConfig c) (hp : PlainConfig c)
    (hl : c.files.length ≤ 1) (home : Text) :
    shellWords home (sendCommand c) = some (pdlArguments "UPDATE".toList c) ∧
    shellWords home (cancelCommand c) = some (pdlArguments "DELETE".toList c) := by
  obtain ⟨h1, h2, -, -⟩ := C47_command h
  rw [h1, h2]
  exact ⟨words_command (shellWord_literal (by decide) (by decide)).1 hp (words_products hp)
      (words_optional hp) (words_file hp hl) (words_directory hp),
    words_command (shellWord_literal (by decide) (by decide)).1 hp (words_products hp)
      (words_optional hp) (words_file hp hl) (words_directory hp)⟩

/-- A configuration with an ordinary type of product. -/
def plainPdl : Config := { exPdl with type := "shakemap".toList }

theorem plainPdl_clean : CleanConfig plainPdl := by
  have h := exPdl_clean
  exact ⟨h.java, h.jarfile, h.privatekey, h.configfile, h.source, noPlaceholder_literal (by decide), h.code,
    h.eventsource, h.eventsourcecode, h.optional, h.product, h.files, h.directory⟩

theorem plainPdl_plain : PlainConfig plainPdl := by
  have hw : ∀ t ∈ ["java", "client.jar", "key", "conf.ini", "us", "shakemap", "us2008abcd", "2008abcd",
      "latitude", "1.5000", "title", "n", "3", "grid.xml", "out"].map String.toList, ShellWord t :=
    fun t ht => shellWord_literal (by revert t; decide) (by revert t; decide)
  refine ⟨hw _ (by decide), hw _ (by decide), (hw _ (by decide)).1, (hw _ (by decide)).1,
    (hw _ (by decide)).1, (hw _ (by decide)).1, (hw _ (by decide)).1, (hw _ (by decide)).1,
    (hw _ (by decide)).1, ?_, ?_, ?_, ?_⟩
  · intro p hp
    simp only [plainPdl, exPdl, List.mem_singleton] at hp
    subst hp
    exact ⟨(hw _ (by decide)).1, (hw _ (by decide)).1⟩
  · intro p hp
    simp only [plainPdl, exPdl, Option.getD_some, List.mem_cons, List.not_mem_nil, or_false] at hp
    rcases hp with rfl | rfl
    · refine ⟨(hw _ (by decide)).1, by simp, fun t ht => ?_⟩
      simp only [Value.str.injEq] at ht
      subst ht; decide
    · refine ⟨(hw _ (by decide)).1, fun t ht => ?_, by simp⟩
      simp only [Value.other.injEq] at ht
      subst ht; exact (hw _ (by decide)).1
  · intro f hf
    simp only [plainPdl, exPdl, List.mem_singleton] at hf
    subst hf; exact (hw _ (by decide)).1
  · intro d hd
    simp only [plainPdl, exPdl, Option.some.injEq] at hd
    subst hd; exact (hw _ (by decide)).1

/-- The hypotheses are met, and these are the arguments. -/
example : CleanConfig plainPdl ∧ PlainConfig plainPdl ∧ plainPdl.files.length ≤ 1 ∧
    (pdlArguments "UPDATE".toList plainPdl).map String.ofList =
      ["java", "-jar", "client.jar", "--send", "--status=UPDATE", "--source=us", "--type=shakemap",
       "--code=us2008abcd", "--eventsource=us", "--eventsourcecode=2008abcd", "--property-title=a b",
       "--property-n=3", "--latitude=1.5000", "--privateKey=key", "--configFile=conf.ini",
       "--file=grid.xml", "--directory=out"] :=
  ⟨plainPdl_clean, plainPdl_plain, by decide, by decide +kernel⟩

/-- Outside the hypotheses of C179: a file with a blank in its name is handed over as two arguments,
whatever the other values are. -/
theorem C179_blank_violated {c : Config} (h : CleanConfig c) (hp : PlainConfig c) {a b : Text}
    (ha : ShellPlain a) (hb : ShellWord b) (hn : NoPlaceholder a ∧ NoPlaceholder b) (home : Text) :
    ∃ pre post, shellWords home (sendCommand { c with files := [a ++ ' ' :: b] }) =
        some (pre ++ ["--file=".toList ++ a, b] ++ post) ∧
      pre ++ ["--file=".toList ++ a, b] ++ post ≠
        pdlArguments "UPDATE".toList { c with files := [a ++ ' ' :: b] } := by
  have hc : CleanConfig { c with files := [a ++ ' ' :: b] } :=
    ⟨h.java, h.jarfile, h.privatekey, h.configfile, h.source, h.type, h.code, h.eventsource,
      h.eventsourcecode, h.optional, h.product, fun f hf => by
        rw [List.mem_singleton.1 hf]; exact noPlaceholder_sep no_space hn.1 hn.2, h.directory⟩
  have hF : shellWords home (fileText [a ++ ' ' :: b]) = some ["--file=".toList ++ a, b] := by
    have e : fileText [a ++ ' ' :: b] = ("--file=".toList ++ a) ++ ' ' :: b := by
      show "--file=".toList ++ (a ++ ' ' :: b) = _
      generalize "--file=".toList = o
      simp
    rw [e, shellWords_append (words_plain (shellWord_option
      (shellWord_literal (by decide) (by decide)) ha)) (words_plain hb)]
    rfl
  have hw := words_command (home := home) (status := "UPDATE".toList)
    (shellWord_literal (by decide) (by decide)).1 hp (words_products hp) (words_optional hp) hF
    (words_directory hp)
  refine ⟨[c.java, "-jar".toList, c.jarfile, "--send".toList, "--status=".toList ++ "UPDATE".toList,
        "--source=".toList ++ c.source, "--type=".toList ++ c.type, "--code=".toList ++ c.code,
        "--eventsource=".toList ++ c.eventsource, "--eventsourcecode=".toList ++ c.eventsourcecode] ++
        (c.product.getD []).map (fun p => "--property-".toList ++ p.1 ++ "=".toList ++ valueText p.2) ++
        c.optional.map (fun p => "--".toList ++ p.1 ++ "=".toList ++ p.2) ++
        ["--privateKey=".toList ++ c.privatekey, "--configFile=".toList ++ c.configfile],
    (c.directory.toList.filter (· ≠ [])).map (fun d => "--directory=".toList ++ d), ?_, ?_⟩
  · rw [(C47_command hc).1]
    exact hw
  · intro he
    have := congrArg List.length he
    simp [pdlArguments] at this

example : ShellPlain "my".toList ∧ ShellWord "map.xml".toList ∧ NoPlaceholder "my".toList ∧
    NoPlaceholder "map.xml".toList :=
  ⟨(shellWord_literal (by decide) (by decide)).1, shellWord_literal (by decide) (by decide),
    noPlaceholder_literal (by decide), noPlaceholder_literal (by decide)⟩

set_option maxRecDepth 8000 in
/-- Outside the hypotheses of C179: double quotes in the text of a product property are lost, and blanks
between them cut the value into several arguments. -/
theorem C179_quotes_violated :
    ∃ c : Config, c.product = some [("title".toList, .str "near \"Old Town\"".toList)] ∧
      ∀ home, ∃ ws, shellWords home (sendCommand c) = some ws ∧
        "--property-title=near Old".toList ∈ ws ∧ "Town".toList ∈ ws ∧
        "--property-title=near \"Old Town\"".toList ∉ ws := by
  refine ⟨{ plainPdl with product := some [("title".toList, .str "near \"Old Town\"".toList)] }, rfl, ?_⟩
  intro home
  have hp : PlainConfig { plainPdl with product := none } := by
    have h := plainPdl_plain
    exact ⟨h.java, h.jarfile, h.privatekey, h.configfile, h.source, h.type, h.code, h.eventsource,
      h.eventsourcecode, h.optional, fun p hp => by simp at hp, h.files, h.directory⟩
  have hs : sendCommand { plainPdl with product := some [("title".toList, .str "near \"Old Town\"".toList)] } =
      expectedCommand "UPDATE".toList { plainPdl with product := none }
        "--property-title=\"near \"Old Town\"\"".toList "--latitude=1.5000".toList
        "--file=grid.xml".toList "--directory=out".toList := by decide +kernel
  rw [hs]
  refine ⟨_, words_command (P := ["--property-title=near Old".toList, "Town".toList])
    (O := ["--latitude=1.5000".toList]) (F := ["--file=grid.xml".toList])
    (D := ["--directory=out".toList]) (shellWord_literal (by decide) (by decide)).1 hp ?_
    (words_plain (shellWord_literal (by decide) (by decide)))
    (words_plain (shellWord_literal (by decide) (by decide)))
    (words_plain (shellWord_literal (by decide) (by decide))), ?_, ?_, ?_⟩
  · have e : "--property-title=\"near \"Old Town\"\"".toList =
        productNugget ("title".toList, .str "near ".toList) ++ "Old".toList ++ ' ' :: "Town\"\"".toList := by
      decide +kernel
    rw [e]
    exact shellWords_append (ws := ["--property-title=near Old".toList]) (vs := ["Town".toList]) rfl rfl
  all_goals decide +kernel

/-- Outside the hypotheses of C179: a value with a semicolon ends the command, and what follows is run as
a command of its own. -/
theorem C179_operator_violated :
    ∃ c : Config, c.directory = some "out;rm -r b".toList ∧ ∃ first second : Text,
      sendCommand c = first ++ ';' :: second ∧ ∀ home,
        (shellWords home first).isSome = true ∧
        shellWords home second = some (["rm", "-r", "b"].map String.toList) := by
  refine ⟨{ plainPdl with directory := some "out;rm -r b".toList }, rfl,
    expectedCommand "UPDATE".toList plainPdl (productText plainPdl.product)
      (optionalText plainPdl.optional) (fileText plainPdl.files) (directoryText plainPdl.directory),
    "rm -r b".toList, by decide +kernel, fun home => ⟨?_, rfl⟩⟩
  rw [words_command (shellWord_literal (by decide) (by decide)).1 plainPdl_plain
    (words_products plainPdl_plain) (words_optional plainPdl_plain)
    (words_file plainPdl_plain (by decide)) (words_directory plainPdl_plain)]
  rfl

/-- A message that a product is withdrawn still names the file and the directory, although `cancel` is
written to leave them out. -/
theorem C179_cancel_files_violated {c : Config} (h : CleanConfig c) (hp : PlainConfig c) {f d : Text}
    (hf : c.files = [f]) (hd : c.directory = some d) (hne : d ≠ []) (home : Text) :
    ∃ ws, shellWords home (cancelCommand c) = some ws ∧ "--status=DELETE".toList ∈ ws ∧
      "--file=".toList ++ f ∈ ws ∧ "--directory=".toList ++ d ∈ ws := by
  refine ⟨_, (C179_arguments_partial h hp (by simp [hf]) home).2, ?_, ?_, ?_⟩
  · have e : "--status=DELETE".toList = "--status=".toList ++ "DELETE".toList := by decide
    rw [e]
    unfold pdlArguments
    simp only [List.mem_append, List.mem_cons]
    simp
  · simp [pdlArguments, hf]
  · simp [pdlArguments, hd, hne]

example : plainPdl.files = ["grid.xml".toList] ∧ plainPdl.directory = some "out".toList := ⟨rfl, rfl⟩

end Verif.Props
