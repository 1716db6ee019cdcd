import Verif.Model.Sender
import Verif.Lemmas.Fs

/-!
# Choosing and constructing a sender: C39, C40
-/

namespace Verif.Props
open Verif.Fs Verif.Sender Verif.Spec

/-! ### C39 -/

/-- **C39.** `get_sender_class` answers for exactly the five documented names, each with its own
class, and raises KeyError (`none`) for every other string. -/
theorem C39_factory (name : String) :
    (name = "copy" ∧ getSenderClass name = some .copySender) ∨
    (name = "ftp" ∧ getSenderClass name = some .ftpSender) ∨
    (name = "pdl" ∧ getSenderClass name = some .pdlSender) ∨
    (name = "email" ∧ getSenderClass name = some .emailSender) ∨
    (name = "ssh" ∧ getSenderClass name = some .secureSender) ∨
    (name ∉ ["copy", "ftp", "pdl", "email", "ssh"] ∧ getSenderClass name = none) := by
  by_cases h1 : name = "copy"
  · subst h1; simp [getSenderClass, types]
  by_cases h2 : name = "ftp"
  · subst h2; simp [getSenderClass, types, List.lookup]
  by_cases h3 : name = "pdl"
  · subst h3; simp [getSenderClass, types, List.lookup]
  by_cases h4 : name = "email"
  · subst h4; simp [getSenderClass, types, List.lookup]
  by_cases h5 : name = "ssh"
  · subst h5; simp [getSenderClass, types, List.lookup]
  right; right; right; right; right
  simp [getSenderClass, types, List.lookup_cons, h1, h2, h3, h4, h5, beq_false_of_ne h1,
    beq_false_of_ne h2, beq_false_of_ne h3, beq_false_of_ne h4, beq_false_of_ne h5]

example : getSenderClass "pdl" = some .pdlSender ∧ getSenderClass "PDL" = none := by decide

/-! ### C40 -/

/-- The properties documented as required for each class (the lists "Required properties" in the
descriptions of the classes). -/
def DocumentedProperty : Class → String → Prop
  | .copySender, p => p = "remote_directory"
  | .ftpSender, p => p = "remote_host" ∨ p = "remote_directory"
  | .pdlSender, p => p = "java" ∨ p = "jarfile" ∨ p = "privatekey" ∨ p = "configfile" ∨ p = "source" ∨
      p = "type" ∨ p = "eventsource" ∨ p = "eventsourcecode" ∨ p = "code"
  | .emailSender, p => p = "smtp_servers" ∨ p = "sender" ∨ p = "subject" ∨ p = "recipients" ∨
      p = "message"
  | .secureSender, p => p = "remote_host" ∨ p = "remote_directory" ∨ p = "private_key"

theorem mem_required (c : Class) (p : String) : p ∈ required c ↔ DocumentedProperty c p := by
  cases c <;> simp only [required, DocumentedProperty, List.mem_cons, List.not_mem_nil, or_false] <;>
    tauto

/-- The documented requirements on the arguments of a sender: required properties given, listed files
exist, the directory exists. -/
def Acceptable (c : Class) (cwd : Path) (fs : FS) (props : Option (List String)) (files : FilesArg)
    (dir : Option Text) : Prop :=
  (∃ ps, props = some ps ∧ ∀ p, DocumentedProperty c p → p ∈ ps) ∧
  (files = .absent ∨ ∃ ns, files = .files ns ∧
    ∀ n ∈ ns, (contents fs (resolve cwd n)).isSome) ∧
  (∀ d, dir = some d → resolve cwd d = [] ∨ Fs.get fs (resolve cwd d) = some .dir)

theorem checkProps_ok {c : Class} {props : Option (List String)} :
    checkProps c props = .ok () ↔ ∃ ps, props = some ps ∧ ∀ p, DocumentedProperty c p → p ∈ ps := by
  simp only [← mem_required]
  cases props with
  | none => simp [checkProps]
  | some ps =>
    unfold checkProps
    by_cases h : (required c).all (fun p => decide (p ∈ ps)) = true
    · simp only [h, if_true, true_iff]
      refine ⟨ps, rfl, ?_⟩
      intro p hp
      simpa using List.all_eq_true.1 h p hp
    · simp only [h]
      simp only [Bool.false_eq_true, if_false, reduceCtorEq, Option.some.injEq, false_iff]
      rintro ⟨ps', rfl, hall⟩
      exact h (List.all_eq_true.2 fun p hp => by simpa using hall p hp)

theorem checkFiles_ok {cwd : Path} {fs : FS} {files : FilesArg} :
    checkFiles cwd fs files = .ok () ↔ files = .absent ∨ ∃ ns, files = .files ns ∧
      ∀ n ∈ ns, (contents fs (resolve cwd n)).isSome := by
  have hf : ∀ p, isFile fs p = true ↔ (contents fs p).isSome := by
    intro p; rw [isFile_iff, Option.isSome_iff_exists]
  cases files with
  | absent => simp [checkFiles]
  | notList => simp [checkFiles]
  | files ns =>
    unfold checkFiles
    by_cases h : ns.all (fun n => isFile fs (resolve cwd n)) = true
    · simp only [h, if_true, true_iff]
      exact Or.inr ⟨ns, rfl, fun n hn => (hf _).1 (List.all_eq_true.1 h n hn)⟩
    · simp only [h]
      simp only [Bool.false_eq_true, if_false, reduceCtorEq, false_or, FilesArg.files.injEq,
        false_iff]
      rintro ⟨ns', rfl, hall⟩
      exact h (List.all_eq_true.2 fun n hn => (hf _).2 (hall n hn))

theorem checkDir_ok {cwd : Path} {fs : FS} {dir : Option Text} :
    checkDir cwd fs dir = .ok () ↔
      ∀ d, dir = some d → resolve cwd d = [] ∨ Fs.get fs (resolve cwd d) = some .dir := by
  cases dir with
  | none => simp [checkDir]
  | some d =>
    unfold checkDir isDir
    by_cases h : (resolve cwd d == [] || Fs.get fs (resolve cwd d) == some .dir) = true
    · simp only [h, if_true, true_iff, Option.some.injEq]
      rintro d' rfl
      simpa using h
    · simp only [h]
      simp only [Bool.false_eq_true, if_false, reduceCtorEq, Option.some.injEq, false_iff]
      intro hall
      apply h
      simpa using hall d rfl

/-- **C40** (partial). A sender is constructed if and only if the arguments are acceptable, and the
exceptions for properties and files are the documented ones, in this order: TypeError without
properties, RequiredArgument for a missing property, TypeError for files that are not a list,
FileNotFoundError for a missing file. What is missing: the documented exception for a missing
directory, see the violation below. -/
theorem C40_validation_partial (c : Class) (cwd : Path) (fs : FS) (props : Option (List String))
    (files : FilesArg) (dir : Option Text) :
    (construct c cwd fs props files dir = .ok () ↔ Acceptable c cwd fs props files dir) ∧
    (props = none → construct c cwd fs props files dir = .error .typeError) ∧
    (∀ ps, props = some ps → (∃ p, DocumentedProperty c p ∧ p ∉ ps) →
      construct c cwd fs props files dir = .error .requiredArgument) ∧
    (∀ ps, props = some ps → (∀ p, DocumentedProperty c p → p ∈ ps) →
      (files = .notList → construct c cwd fs props files dir = .error .typeError) ∧
      (∀ ns, files = .files ns → (∃ n ∈ ns, contents fs (resolve cwd n) = none) →
        construct c cwd fs props files dir = .error .fileNotFound)) := by
  refine ⟨?_, ?_, ?_, ?_⟩
  · unfold construct Acceptable
    rw [← checkProps_ok, ← checkFiles_ok, ← checkDir_ok]
    cases h1 : checkProps c props with
    | error e => simp
    | ok u =>
      cases h2 : checkFiles cwd fs files with
      | error e => simp
      | ok v => simp
  · rintro rfl; rfl
  · rintro ps rfl ⟨p, hp, hn⟩
    have : ¬ (required c).all (fun p => decide (p ∈ ps)) = true := by
      intro h; exact hn (by simpa using List.all_eq_true.1 h p ((mem_required c p).2 hp))
    simp only [construct, checkProps, if_neg this]
  · intro ps hps hall
    have h1 : checkProps c props = .ok () := checkProps_ok.2 ⟨ps, hps, hall⟩
    refine ⟨?_, ?_⟩
    · rintro rfl
      simp only [construct, h1, checkFiles]
    · rintro ns rfl ⟨n, hn, hc⟩
      have : ¬ ns.all (fun n => isFile fs (resolve cwd n)) = true := by
        intro h
        obtain ⟨b, hb⟩ := (isFile_iff _ _).1 (List.all_eq_true.1 h n hn)
        rw [hc] at hb; cases hb
      simp only [construct, h1, checkFiles, if_neg this]

/-- Acceptable arguments exist, and so do arguments that fail each check. -/
example :
    construct .ftpSender [] [(["a".toList], .file [1]), (["d".toList], .dir)]
      (some ["remote_directory", "remote_host"]) (.files ["/a".toList]) (some "/d".toList) = .ok () ∧
    construct .ftpSender [] [] (some ["remote_directory"]) .absent none =
      .error .requiredArgument ∧
    construct .copySender [] [] (some ["remote_directory"]) (.files ["/a".toList]) none =
      .error .fileNotFound := by decide +kernel

/-- **C40** violated: whenever everything else is in order, a missing directory raises NameError, not
the documented exception, because the message uses an undefined name. -/
theorem C40_missing_directory_violated {c : Class} {cwd : Path} {fs : FS}
    {props : Option (List String)} {files : FilesArg} {d : Text}
    (hok : Acceptable c cwd fs props files none)
    (hd : resolve cwd d ≠ []) (hmiss : Fs.get fs (resolve cwd d) ≠ some .dir) :
    construct c cwd fs props files (some d) = .error .nameError := by
  have h1 := checkProps_ok.2 hok.1
  have h2 := checkFiles_ok.2 hok.2.1
  have h3 : isDir fs (resolve cwd d) = false := by
    unfold isDir; simp [hd, hmiss]
  simp only [construct, h1, h2, checkDir, h3, Bool.false_eq_true, if_false]

example : Acceptable .copySender [] [] (some ["remote_directory"]) .absent none ∧
    resolve [] "/none".toList ≠ [] ∧ Fs.get [] (resolve [] "/none".toList) ≠ some .dir :=
  ⟨⟨⟨_, rfl, by simp [DocumentedProperty]⟩, Or.inl rfl, by simp⟩, by decide +kernel, by decide +kernel⟩

end Verif.Props
