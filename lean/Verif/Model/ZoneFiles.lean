import Mathlib.Data.List.Infix
import Mathlib.Logic.Function.Basic

/-!
# Model of `get_recent_timezone_data` (impactutils/time/timeutils.py:30-76)

The web page is the list of the `href` attributes of its anchors, the archive the list of its members. A path of the disk is its list of names;
names are taken to be plain: not empty, not `.` or `..`, without a slash. The network, the parser of the page and the format of archives are
parameters.
-/

namespace Verif.Zone

/-- Text. -/
abbrev Text := List Char
/-- A path: names from the root down. -/
abbrev Path := List Text
/-- Contents of a file. -/
abbrev Bytes := List UInt8

/-- The disk: contents of the files and the set of directories, by path. -/
@[ext] structure Disk where
  files : Path → Option Bytes
  dirs : Path → Bool

/-- A member of an archive: the names of its path and its contents; `none` is the entry of a directory. -/
structure Member where
  path : Path
  data : Option Bytes
  deriving DecidableEq

/-- Exceptions. -/
inductive Err where
  /-- `Exception('Could not find most recent time zone data set!')`. -/
  | noLink
  /-- `OSError`, among them `FileNotFoundError`. -/
  | os
  /-- `shutil.Error`. -/
  | shutil
  /-- `UnboundLocalError`. -/
  | unbound
  /-- `zipfile.BadZipFile`. -/
  | badZip
  deriving DecidableEq

/-- The name of the archive on the page and on the disk (impactutils/time/timeutils.py:46, 57). -/
def archiveName : Text := "timezones.shapefile.zip".toList

/-- The loop over the anchors (impactutils/time/timeutils.py:43-49): `none` stands for an anchor without `href`; `join` is `urljoin` with the address
of the site. -/
def linkLoop (join : Text → Text) (link : Option Text) : List (Option Text) → Option Text
  | [] => link
  | none :: as => linkLoop join link as
  | some href :: as => if decide (archiveName <:+: href) then some (join href) else linkLoop join (some href) as

/-- The link that is downloaded (impactutils/time/timeutils.py:42-52). -/
def chooseLink (join : Text → Text) (anchors : List (Option Text)) : Except Err Text :=
  match linkLoop join none anchors with
  | some l => .ok l
  | none => .error .noLink

/-- `open(outfile, 'wb')` and `write` (impactutils/time/timeutils.py:58-60). -/
def Disk.write (d : Disk) (p : Path) (b : Bytes) : Except Err Disk :=
  if d.dirs p || !d.dirs p.dropLast then .error .os else .ok { d with files := Function.update d.files p (some b) }

/-- `ZipFile.extract` into a directory (impactutils/time/timeutils.py:66): makes the directories above the member, or the directory itself. A file in the
place of one of the directories, or a directory in the place of the file, is an `OSError`. -/
def Disk.extract (d : Disk) (outdir : Path) (m : Member) : Except Err Disk :=
  let target := outdir ++ m.path
  let folder := if m.data.isNone then target else target.dropLast
  if folder.inits.any fun p => (d.files p).isSome then .error .os
  else
    let dirs := fun p => d.dirs p || decide (p <+: folder)
    match m.data with
    | none => .ok { d with dirs := dirs }
    | some b => if dirs target then .error .os else .ok ⟨Function.update d.files target (some b), dirs⟩

/-- `shutil.move` of a file or a directory (impactutils/time/timeutils.py:68); a destination that is a directory receives the file unless it has one
of that name. A directory is only ever moved to the directory it is in, which is refused. -/
def Disk.move (d : Disk) (src dst : Path) : Except Err Disk :=
  if d.dirs src then .error .shutil
  else if d.dirs dst then
    let real := dst ++ src.getLast?.toList
    if (d.files real).isSome || d.dirs real then .error .shutil
    else .ok { d with files := Function.update (Function.update d.files src none) real (d.files src) }
  else .ok { d with files := Function.update (Function.update d.files src none) dst (d.files src) }

/-- `shutil.rmtree` (impactutils/time/timeutils.py:74): everything at and below the path. -/
def Disk.rmtree (d : Disk) (p : Path) : Disk :=
  ⟨fun q => if p <+: q then none else d.files q, fun q => if p <+: q then false else d.dirs q⟩

/-- `os.path.split` of the name of a member (impactutils/time/timeutils.py:64): the name of a directory ends with a slash. -/
def Member.split (m : Member) : Path × Text :=
  match m.data with
  | none => (m.path, [])
  | some _ => (m.path.dropLast, m.path.getLast?.getD [])

/-- The loop over the members (impactutils/time/timeutils.py:63-71): the disk, the path of the shape file and the last value of `fbase`. -/
def unpackLoop (outdir : Path) (d : Disk) (shp : Option Path) (fbase : Option Path) : List Member → Disk × Except Err (Option Path × Option Path)
  | [] => (d, .ok (shp, fbase))
  | m :: ms =>
    let (base, fname) := m.split
    let outfile := if fname = [] then outdir else outdir ++ [fname]
    let actual := outdir ++ m.path
    match d.extract outdir m with
    | .error e => (d, .error e)
    | .ok d1 =>
      match if actual = outfile then .ok d1 else d1.move actual outfile with
      | .error e => (d1, .error e)
      | .ok d2 => unpackLoop outdir d2 (if decide (".shp".toList <:+ fname) then some outfile else shp) (some base) ms

/-- `get_recent_timezone_data` after the download (impactutils/time/timeutils.py:57-76): `members` reads the archive. -/
def unpack (members : Bytes → Option (List Member)) (outdir : Path) (data : Bytes) (d : Disk) : Disk × Except Err (Option Path) :=
  match d.write (outdir ++ [archiveName]) data with
  | .error e => (d, .error e)
  | .ok d1 =>
    match members data with
    | none => (d1, .error .badZip)
    | some ms =>
      match unpackLoop outdir d1 none none ms with
      | (d2, .error e) => (d2, .error e)
      | (d2, .ok (_, none)) => (d2, .error .unbound)
      | (d2, .ok (shp, some fbase)) => (if d2.dirs (outdir ++ fbase) then d2.rmtree (outdir ++ fbase) else d2, .ok shp)

end Verif.Zone
