import Verif.SdsPath.Spec
/-!
# Paths of saved files (C301 - C303)

`riptable/rt_sds.py`: 327-364 (`sds_endswith`), 508-550 (`_sds_path_multi`), 554-633 (`_sds_path_single`), 637-670
(`_sds_save_single`), 891-938 (`save_sds`), 2432-2437 (the extension in `compress_dataset_internal`), 3461-3469
(`_parse_nested_name`), 3484-3545 (`save_struct`), 3557-3585 (`_escape_filename`), 3779-3788 (the path in `_write_to_sds`).

Simplifications: "/" is the only separator and paths have no segments "." or "..", so `os.path.basename(os.path.normpath(path))`
is the last segment; a path is not a file and a folder at once; what the user types at the prompt is a list of answers; the folders made
on the way, the contents of files, and the update of `_root.sds` (`_rebuild_rootfile`) are not modelled.
-/
namespace Verif.SdsPath
open Spec

/-- `SDS_EXTENSION` -/
def ext : List Char := ['.', 's', 'd', 's']

/-- `sds_endswith(path)` (348-364): in any case -/
def endsLower (p : List Char) : Bool := ext.isSuffixOf (p.map Char.toLower)

/-- `compress_dataset_internal` (2436-2437): the extension is added unless it is there in lower case -/
def addExt (p : List Char) : List Char := if ext.isSuffixOf p then p else p ++ ext

/-- `os.path.basename(os.path.normpath(path))` -/
def baseName (p : List Char) : List Char := ((p.reverse.dropWhile (· == '/')).takeWhile (· != '/')).reverse

/-- `_parse_nested_name` (3461-3469) -/
def nestedName (n : List Char) : List Char := n.map fun c => if c = '/' then '!' else c

/-- the path of `_sds_path_single` (569-578), whose existence is looked at -/
def checkedPath (path : List Char) : Option (List Char) → List Char
  | none => if endsLower (baseName path) then path else path ++ ext
  | some n =>
    let p := path ++ '/' :: nestedName n
    if endsLower (nestedName n) then p else p ++ ext

/-- `a in s` of texts -/
def isIn : List Char → List Char → Bool
  | a, [] => a.isEmpty
  | a, c :: s => a.isPrefixOf (c :: s) || isIn a s

inductive Ask where
  | go
  | stop
  | waiting
deriving DecidableEq, Repr

/-- the prompt for a file (600-606): `choice in "Yy"` -/
def promptSingle : List String → Ask
  | [] => .waiting
  | a :: as => if isIn a.toList ['Y', 'y'] then .go else if isIn a.toList ['N', 'n'] then .stop else promptSingle as

/-- the prompt for a folder (522-528): `choice in ["Y", "y"]` -/
def promptMulti : List String → Ask
  | [] => .waiting
  | a :: as => if ["Y", "y"].contains a then .go else if ["N", "n"].contains a then .stop else promptMulti as

/-- what becomes of a save -/
inductive Outcome where
  | wrote (path : List Char)
  | nothing
  | waiting
  | raised
deriving DecidableEq, Repr

/-- `_sds_path_single` (580-633): `none` is the TypeError for a folder of that name -/
def pathSingle (fs : FS) (p : List Char) (share overwrite append : Bool) (answers : List String) : Option Ask :=
  if share then some .go else
  if fs.file p then
    if overwrite || append then some .go else some (promptSingle answers)
  else if fs.dir p then none else some .go

/-- `_sds_path_multi` (508-550) -/
def pathMulti (fs : FS) (p : List Char) (share overwrite : Bool) (answers : List String) : Ask :=
  if share then .go else
  if fs.file p || fs.dir p then
    if overwrite then .go else promptMulti answers
  else .go

/-- the characters a name must not have (`rt_enum.py:942`) -/
def invalidChars : List Char := ['\\', ':', '<', '>', '!', '|', '*', '?']

/-- `name[name.rfind("!") + 1:]` (3785-3786) -/
def leaf (n : List Char) : List Char := (n.reverse.takeWhile (· != '!')).reverse

/-- the file `_write_to_sds` writes (3779-3788, 2436-2437); `none`: ValueError for a character -/
def writtenDs (path : List Char) : Option (List Char) → Option (List Char)
  | none => some (addExt path)
  | some n => if (leaf n).any invalidChars.contains then none else some (addExt (path ++ '/' :: n))

/-- the answer of the check and the file to write -/
def finish (a : Option Ask) (w : Option (List Char)) : Outcome :=
  match a with
  | none => .raised
  | some .stop => .nothing
  | some .waiting => .waiting
  | some .go =>
    match w with
    | none => .raised
    | some p => .wrote p

/-- `save_sds` of a Dataset (897-915) -/
def saveDataset (fs : FS) (path : List Char) (name : Option (List Char)) (share overwrite append : Bool)
    (answers : List String) : Outcome :=
  finish (pathSingle fs (checkedPath path name) share overwrite append answers) (writtenDs path name)

/-- `save_sds` of an array (930-934): `_sds_save_single` (653-670) writes to the path it looked at -/
def saveArray (fs : FS) (path : List Char) (name : Option (List Char)) (share overwrite : Bool)
    (answers : List String) : Outcome :=
  finish (pathSingle fs (checkedPath path name) share overwrite false answers) (some (addExt (checkedPath path name)))

/-- `save_sds` of a Struct without nested containers: `save_struct` (3515-3545) does not use `name` for the path -/
def saveStruct (fs : FS) (path : List Char) (_name : Option (List Char)) (share overwrite : Bool)
    (answers : List String) : Outcome :=
  finish (pathSingle fs (checkedPath path none) share overwrite false answers) (some (addExt (checkedPath path none)))

/-- `save_sds` of a Struct with nested containers into a folder (3496-3509): the folder that is written to -/
def saveFolder (fs : FS) (path : List Char) (share overwrite : Bool) (answers : List String) : Outcome :=
  finish (some (pathMulti fs path share overwrite answers)) (some path)

end Verif.SdsPath
