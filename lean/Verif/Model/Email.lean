import Verif.Model.Sender

/-!
# Model of impactutils/transfer/emailsender.py

Addresses and texts are lists of characters. A message is its header fields, its body and the names of
its attachments; the MIME encoding is not modelled. What the mail servers do is given by an arbitrary
pattern of sessions.
-/

namespace Verif.Email
open Verif.Fs

/-- An e-mail address. -/
abbrev Address := Text

/-! ### Batches -/

/-- Position meant by a slice index in a list of length `n`. -/
def slicePos (n : ℕ) (i : ℤ) : ℕ := if i < 0 then (i + n).toNat else min i.toNat n

/-- `xs[i:j]`. -/
def slice {α : Type} (xs : List α) (i j : ℤ) : List α :=
  (xs.take (slicePos xs.length j)).drop (slicePos xs.length i)

/-- One round of the loop of `_split_addresses` (impactutils/transfer/emailsender.py:288-293), from the
position `istart`: the batch and the next position, or `none` at the end of the loop. -/
def round (recipients : List Address) (maxBcc istart : ℤ) : Option (List Address × ℤ) :=
  if istart < recipients.length then
    some (slice recipients istart (min recipients.length (istart + (maxBcc - 1))),
      min recipients.length (istart + (maxBcc - 1)))
  else none

/-- At most `fuel` rounds of the loop (impactutils/transfer/emailsender.py:288-293); `none` when it has
not ended by then. -/
def loop (recipients : List Address) (maxBcc : ℤ) (primary : Address) :
    ℕ → ℤ → Option (List (Address × List Address))
  | 0, _ => none
  | fuel + 1, istart => match round recipients maxBcc istart with
    | none => some []
    | some (batch, next) =>
      (loop recipients maxBcc primary fuel next).map fun rest => (primary, batch) :: rest

/-- `_split_addresses` with a bound on the rounds (impactutils/transfer/emailsender.py:268-295). -/
def split (fuel : ℕ) (recipients : List Address) (maxBcc : ℤ) (primary : Address) :
    Option (List (Address × List Address)) :=
  if maxBcc = 0 then some (recipients.map fun r => (r, []))
  else loop recipients maxBcc primary fuel 0

/-- `_split_addresses` ends and returns `batches` (impactutils/transfer/emailsender.py:268-295). -/
def Splits (recipients : List Address) (maxBcc : ℤ) (primary : Address)
    (batches : List (Address × List Address)) : Prop :=
  ∃ fuel, split fuel recipients maxBcc primary = some batches

/-! ### Servers -/

/-- What happens with one server for one message: the addresses the message is delivered to, whether
`sendmail` returns normally, and whether `quit` does. (The calls before `sendmail` are part of it: when
they fail nothing is delivered and `sendmail` does not return.) -/
structure Session where
  delivered : List Address
  returned : Bool
  quit : Bool
deriving DecidableEq, Repr

/-- The loop over the servers in `_send_email` (impactutils/transfer/emailsender.py:315-339): the flag
`messageSent`, and whom each server that was tried delivered the message to. -/
def tryServers (sent : Bool) : List Session → Bool × List (List Address)
  | [] => (sent, [])
  | s :: ss =>
    if s.returned then
      if s.quit then (true, [s.delivered])
      else ((tryServers true ss).1, s.delivered :: (tryServers true ss).2)
    else ((tryServers sent ss).1, s.delivered :: (tryServers sent ss).2)

/-- `_send_email` (impactutils/transfer/emailsender.py:298-348): whether it returns normally, and the
deliveries. -/
def sendEmail (sessions : List Session) : Bool × List (List Address) := tryServers false sessions

/-! ### Messages -/

/-- What the sender knows (impactutils/transfer/emailsender.py:111-149, 227-237). `dirFiles` are the
files of the local directory, if there is one. -/
structure Config where
  sender : Address
  subject : Text
  message : Text
  recipients : List Address
  zipFile : Option Text
  maxBcc : Option ℤ
  primary : Option Address
  cancelSubject : Option Text
  cancelContent : Option Text
  files : List Text
  localDir : Option Text
  dirFiles : List Text

/-- The property `max_bcc` or its default (impactutils/transfer/emailsender.py:24, 132-134). -/
def maxBcc (c : Config) : ℤ := c.maxBcc.getD 25

/-- The primary recipient when there are batches (impactutils/transfer/emailsender.py:139-144). -/
def primary (c : Config) : Address := c.primary.getD []

/-- A message. -/
structure Message where
  sender : Address
  toAddr : Address
  subject : Text
  bcc : Text
  body : Text
  attachments : List Text
deriving DecidableEq, Repr

/-- `', '.join(addresses)`. -/
def commaJoin : List Text → Text
  | [] => []
  | [w] => w
  | w :: v :: ws => w ++ ", ".toList ++ commaJoin (v :: ws)

/-- `getAllLocalFiles()` (impactutils/transfer/sender.py:93-108). -/
def allLocalFiles (c : Config) : List Text :=
  match c.localDir with
  | none => []
  | some d => if d = [] then [] else c.dirFiles

/-- Whether there is something to attach, `len(self._local_files) or self._local_directory`
(impactutils/transfer/emailsender.py:159). -/
def hasFiles (c : Config) : Bool := decide (c.files ≠ []) || c.localDir.any (· ≠ [])

/-- The attachments (impactutils/transfer/emailsender.py:158-182). `none` is the exception raised when
no file is listed: the name `all_files` is assigned inside the loop over the listed files. -/
def attachments (c : Config) : Option (List Text) :=
  if hasFiles c then
    match c.zipFile with
    | some z => some [z]
    | none => if c.files = [] then none else some (c.files ++ allLocalFiles c)
  else some []

/-- Names in the zip file with the files they hold (impactutils/transfer/emailsender.py:165-173);
`zipfile` drops leading slashes of a name. -/
def zipEntries (c : Config) : List (Text × Text) :=
  c.files.map (fun f => (baseName f, f)) ++
    (allLocalFiles c).map (fun f =>
      ((replaceAll (c.localDir.getD []) [] f).dropWhile (· = '/'), f))

/-- The message for a batch (impactutils/transfer/emailsender.py:184-196, 353-419). -/
def compose (c : Config) (addr : Address) (bcc : List Address) : Option Message :=
  (attachments c).map fun as => ⟨c.sender, addr, c.subject, commaJoin bcc, c.message, as⟩

/-- The message of `cancel` for a batch (impactutils/transfer/emailsender.py:227-234, 253-262);
`arg` is the argument of `cancel`. -/
def composeCancel (c : Config) (arg : Option Text) (addr : Address) (bcc : List Address) : Message :=
  ⟨c.sender, addr, c.cancelSubject.getD c.subject, commaJoin bcc,
   match c.cancelContent with
   | some t => t
   | none => arg.getD "This is a cancel message.".toList, []⟩

/-- A delivery: who received what. -/
abbrev Delivery := List Address × Message

/-- The loop over the batches (impactutils/transfer/emailsender.py:157-201): whether it ends normally,
and the deliveries. `net k addresses` are the sessions of the `k`-th message. -/
def sendBatches (compose : Address → List Address → Option Message)
    (net : ℕ → List Address → List Session) :
    ℕ → List (Address × List Address) → Bool × List Delivery
  | _, [] => (true, [])
  | k, (addr, bcc) :: rest =>
    match compose addr bcc with
    | none => (false, [])
    | some m =>
      if (sendEmail (net k (addr :: bcc))).1 then
        ((sendBatches compose net (k + 1) rest).1,
         (sendEmail (net k (addr :: bcc))).2.map (fun d => (d, m)) ++
           (sendBatches compose net (k + 1) rest).2)
      else (false, (sendEmail (net k (addr :: bcc))).2.map (fun d => (d, m)))

/-- `EmailSender.send` ends (impactutils/transfer/emailsender.py:116-214): `out` is the returned count,
`none` for an exception, and `ds` are the deliveries. -/
def Send (c : Config) (net : ℕ → List Address → List Session) (out : Option ℕ) (ds : List Delivery) :
    Prop :=
  ∃ batches, Splits c.recipients (maxBcc c) (primary c) batches ∧
    (out = if (sendBatches (compose c) net 0 batches).1
      then some (c.files.length + if c.localDir = none then 0 else c.dirFiles.length) else none) ∧
    ds = (sendBatches (compose c) net 0 batches).2

/-- `EmailSender.cancel` ends (impactutils/transfer/emailsender.py:216-265). -/
def Cancel (c : Config) (arg : Option Text) (net : ℕ → List Address → List Session) (ok : Bool)
    (ds : List Delivery) : Prop :=
  ∃ batches, Splits c.recipients (maxBcc c) (primary c) batches ∧
    ok = (sendBatches (fun addr bcc => some (composeCancel c arg addr bcc)) net 0 batches).1 ∧
    ds = (sendBatches (fun addr bcc => some (composeCancel c arg addr bcc)) net 0 batches).2

end Verif.Email
