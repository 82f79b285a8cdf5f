import Verif.SdsLoad.Spec
import Verif.Items.Model
/-!
# Loading by path, by list and by stack (C326 - C330)

`riptable/rt_sds.py`: 327-364 (`sds_endswith`), 1127-1166 (`_sds_dir_from_file_list`), 1170-1249 (`_sds_load_from_list`), 1537-1594
(`_stack_sds_files`), 1597-1660 (`_stack_sds_dirs`), 1664-1851 (`_load_sds_internal`), 2923-2952 (the path in `_load_sds`).

Simplifications: no shared memory; an exception is `none`, or one of `Refused`, and its text is left out; paths are texts, not bytes;
reading one file, one folder or a list of files is a parameter; `threads`, `reserve` and `info` are left out, since they do not change what
is read; the filter is a number that stands for it.
-/
namespace Verif.SdsLoad
open Verif.Items

/-- `SDS_EXTENSION` -/
def ext : Path := ['.', 's', 'd', 's']

/-- `sds_endswith(path)` (348-364): in any case -/
def hasExt (p : Path) : Bool := ext.isSuffixOf (p.map Char.toLower)

/-- `sds_endswith(path, add=True)` (348-364) -/
def withExt (p : Path) : Path := if hasExt p then p else p ++ ext

/-- `path[:-4]` -/
def strip (p : Path) : Path := p.take (p.length - 4)

/-- the path of `_load_sds` (2923-2952): what is read -/
def target (d : Disk) (p : Path) : Option Thing :=
  if d.file p then some (.file p)
  else if d.folder p then some (.folder p)
  else if hasExt p then (if d.folder (strip p) then some (.folder (strip p)) else none)
  else if d.file (p ++ ext) then some (.file (p ++ ext)) else none

/-- `_load_sds` (2923-2980) with a reader of files and folders -/
def loadOnce {R : Type} (d : Disk) (read : Thing → Option R) (p : Path) : Option R := (target d p).bind read

/-- `_load_sds_internal` for one path (1784-1844): without extension, any exception leads to a second try with the extension -/
def load {R : Type} (d : Disk) (read : Thing → Option R) (p : Path) : Option R :=
  if hasExt p then loadOnce d read p
  else match loadOnce d read p with
    | some r => some r
    | none => loadOnce d read (p ++ ext)

/-- what `_sds_dir_from_file_list` returns: the places (`none` for a file), the files; the flags are read off them -/
structure Listed where
  places : List (Option Path)
  files : List Path
deriving DecidableEq, Repr

/-- the loop of `_sds_dir_from_file_list` (1139-1159); `none`: a path is missing and `mustexist` is set -/
def dirsFiles (d : Disk) (mustexist : Bool) : List Path → Option Listed
  | [] => some ⟨[], []⟩
  | f :: fs =>
    if d.folder f then
      (dirsFiles d mustexist fs).map fun l => ⟨some f :: l.places, l.files⟩
    else if d.file (withExt f) then
      (dirsFiles d mustexist fs).map fun l => ⟨none :: l.places, withExt f :: l.files⟩
    else if mustexist then none
    else dirsFiles d mustexist fs

/-- what `decompress_dataset_internal` makes of the loose files (1205-1215): one result for each, or, when a file was appended to, one
stacked result -/
inductive Multi (R : Type) where
  | each (l : List R)
  | stacked (r : R)
deriving DecidableEq, Repr

/-- the loop of `_sds_load_from_list` (1219-1246) -/
def fillPlaces {R : Type} (readDir : Option (List Path) → Path → Option R) : List (Option Path) → List R → Option (List R)
  | [], _ => some []
  | none :: _, [] => none
  | none :: ps, r :: rs => (fillPlaces readDir ps rs).map (r :: ·)
  | some f :: ps, rs => (readDir none f).bind fun r => (fillPlaces readDir ps rs).map (r :: ·)

/-- `_load_sds_internal` for a list of paths (1769-1782): the folders asked for are given to the files, not to the directories (1234-1243) -/
def loadList {R : Type} (d : Disk) (multi : Option (List Path) → List Path → Option (Multi R))
    (readDir : Option (List Path) → Path → Option R) (mustexist : Bool) (folders : Option (List Path)) (ps : List Path) :
    Option (Multi R) :=
  match dirsFiles d mustexist ps with
  | none => none
  | some l => match multi folders l.files with
    | none => none
    | some (.stacked r) => some (.stacked r)
    | some (.each rs) => (fillPlaces readDir l.places rs).map .each

/-- what the caller asks for -/
structure Ask where
  include_ : Option (List Path)
  folders : Option (List Path)
  filter : Option Nat
  sections : Option (List Path)
  mustexist : Bool
deriving DecidableEq, Repr

/-- one call of `_stack_sds_files` (1537) -/
structure Call where
  files : List Path
  include_ : Option (List Path)
  folders : Option (List Path)
  filter : Option Nat
  sections : Option (List Path)
  mustexist : Bool
deriving DecidableEq, Repr

/-- what is stacked: one result, or a Struct of named results -/
inductive Plan where
  | one (c : Call)
  | named (l : Dict Path Call)
deriving DecidableEq, Repr

inductive Refused where
  | missing
  | mixed
  | noNames
  | nothing
deriving DecidableEq, Repr

/-- `include_dict.setdefault(name, []).append(file)` (1648-1649) -/
def addFile (dct : Dict Path (List Path)) (n f : Path) : Dict Path (List Path) := dct.set n ((dct.get n).getD [] ++ [f])

/-- one pass of the inner loop of `_stack_sds_dirs` (1640-1649) -/
def addInc (path : Path) (dct : Dict Path (List Path)) (inc : Path) : Dict Path (List Path) :=
  addFile dct (strip (withExt inc)) (path ++ '/' :: withExt inc)

/-- the loops of `_stack_sds_dirs` (1636-1649) -/
def dirFiles (dirs incs : List Path) : Dict Path (List Path) :=
  dirs.foldl (fun dct path => incs.foldl (addInc path) dct) []

/-- `_stack_sds_dirs` (1631-1660): one call for each name; `filter`, `include` and `mustexist` are not given on (1653) -/
def stackDirs (dirs : List Path) (a : Ask) : Dict Path Call :=
  (dirFiles dirs ((a.folders.or a.include_).getD [])).map fun e => (e.1, ⟨e.2, none, none, none, a.sections, false⟩)

/-- a folder name with a slash at its end (1724-1728) -/
def withSlash (f : Path) : Path := if ['/'].isSuffixOf f then f else f ++ ['/']

/-- one call for each folder of the files (1732-1745) -/
def stackFolders (files folders : List Path) (a : Ask) : Dict Path Call :=
  (folders.map withSlash).foldl
    (fun dct f => dct.set (f.take (f.length - 1)) ⟨files, a.include_, some [f], a.filter, a.sections, false⟩) []

/-- `load_sds(paths, stack=True)` (1695-1759); a call without files is refused (1557-1558) -/
def stackPlan (d : Disk) (a : Ask) (ps : List Path) : Except Refused Plan :=
  match dirsFiles d a.mustexist ps with
  | none => .error .missing
  | some l =>
    if l.places.any Option.isSome then
      if l.places.any Option.isNone then .error .mixed
      else if a.include_.isNone && a.folders.isNone then .error .noNames
      else .ok (.named (stackDirs (l.places.filterMap id) a))
    else match a.folders with
      | some fs => if l.files.isEmpty && !fs.isEmpty then .error .nothing else .ok (.named (stackFolders l.files fs a))
      | none => if l.files.isEmpty then .error .nothing else .ok (.one ⟨l.files, a.include_, none, a.filter, a.sections, a.mustexist⟩)
end Verif.SdsLoad
