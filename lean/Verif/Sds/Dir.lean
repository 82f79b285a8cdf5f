import Verif.Sds.Model

/-!
# Model of saving a nested Struct as a directory of files, and of loading it

`save_struct` (`rt_sds.py:3473-3555`), `_sds_from_tree` (`:3833-3875`), `_write_to_sds`
(`:3750-3829`), `_escape_filename` (`:3559-3585`), `_load_sds` (`:2889-3264`),
`_build_schema` (`:3411-3458`), `_order_from_meta` (`:3377-3407`),
`_include_extra_sds_files` (`:2731-2799`) and `_sds_load_from_schema` (`:3268-3373`), for a
directory on disk, without the arguments `name`, `include`, `info`, `sections`, `filter`
and `include_all_sds`.  A directory is a dictionary from file names to contents; its order
is the order in which the operating system lists the files.  Subdirectories are not
modelled.
-/
namespace Verif.Sds
open Verif.Items (Dict Name)

variable {A S X M : Type}

/-- the files of a directory -/
abbrev Fs (A M : Type) := Dict Name (File A M)

/-- `SDS_EXTENSION` -/
def sdsExt : Name := ".sds".toList

/-- `sds_endswith(path)`, `rt_sds.py:327-360`: in any case of letters -/
def endsSds (n : Name) : Bool := sdsExt.isSuffixOf (n.map Char.toLower)

/-- `sds_endswith(path, add=True)`, `rt_sds.py:355-362`: the extension is added unless it is there -/
def fileName (n : Name) : Name := if endsSds n then n else n ++ sdsExt

/-- `INVALID_FILE_CHARS`, `rt_enum.py` -/
def invalidChars : List Char := ['\\', ':', '<', '>', '!', '|', '*', '?']

/-- the name of the file of a container inside the container with this file name,
`rt_sds.py:3862-3865`, `:3318-3322` -/
def childName : Option Name → Name → Name
  | none, k => k
  | some p, k => p ++ '!' :: k

/-- `rt_sds.py:3785-3786`: what follows the last `!` -/
def afterBang (n : Name) : Name := (n.reverse.takeWhile fun c => c != '!').reverse

/-- `_write_to_sds`, `rt_sds.py:3750-3829`, without `onefile`.  `none`: it raises, because
`_escape_filename` finds a character that is not allowed, or because the name has a `/`, so
that the file would go to a directory that does not exist. -/
def writeFile (L : Lib A S X M) (n : Name) (i : Info) (b : Box A S X) (fs : Fs A M) :
    Option (Fs A M) :=
  if (afterBang n).any (fun c => invalidChars.contains c) then none
  else if n.contains '/' then none
  else some (fs.set (fileName n) (buildFile L i b))

/-- `rt_sds.py:3847-3850`, `:3870-3871`: a container gets a file of its own if it is empty
or has an item that is not a container -/
def needsFile : Box A S X → Bool
  | .nil => true
  | .leaf _ _ _ => true
  | .nest _ _ _ .nil => false
  | .nest _ _ _ rest => needsFile rest

/-- `_sds_from_tree`, `rt_sds.py:3833-3875`: the loop over the items of the container with
this file name (`none` for the outermost), including the write that ends the call for each
nested container.  `none`: it raises; what has been written by then is not modelled. -/
def saveKids (L : Lib A S X M) : Option Name → Box A S X → Fs A M → Option (Fs A M)
  | _, .nil, fs => some fs
  | p, .leaf _ _ rest, fs => saveKids L p rest fs
  | p, .nest n i b rest, fs =>
    match saveKids L (some (childName p n)) b fs with
    | none => none
    | some fs1 =>
      match if needsFile b then writeFile L (childName p n) i b fs1 else some fs1 with
      | none => none
      | some fs2 => saveKids L p rest fs2

/-- `save_struct` for a container with nested containers, `rt_sds.py:3490-3509`: the
directory is used as it is, nothing in it is deleted (`:508-550`) -/
def saveDir (L : Lib A S X M) (i : Info) (b : Box A S X) (fs : Fs A M) : Option (Fs A M) :=
  match writeFile L "_root".toList i b fs with
  | none => none
  | some fs0 => saveKids L none b fs0

/-! ## Loading -/

/-- the nested dictionary of `_build_schema`, in order: a name, what is below it, and the
names that follow -/
inductive Sch where
  | nil
  | node (n : Name) (kids : Sch) (rest : Sch)
  deriving DecidableEq, Repr

namespace Sch

/-- a dictionary with one path -/
def chain : List Name → Sch
  | [] => nil
  | n :: p => node n (chain p) nil

/-- `rt_sds.py:3444-3456`: `setdefault` along a path -/
def add : Sch → List Name → Sch
  | nil, p => chain p
  | node m k r, [] => node m k r
  | node m k r, n :: p => if m = n then node m (k.add p) r else node m k (r.add (n :: p))

/-- keep the entries of the outermost dictionary whose name passes a test -/
def keep (q : Name → Bool) : Sch → Sch
  | nil => nil
  | node n k r => if q n then node n k (r.keep q) else r.keep q

end Sch

/-- `rt_sds.py:3447-3456`: the parts of a file name between the `!` -/
def splitBang : Name → List Name
  | [] => [[]]
  | c :: cs =>
    if c = '!' then [] :: splitBang cs
    else match splitBang cs with
      | [] => [[c]]
      | h :: t => (c :: h) :: t

/-- `_build_schema`, `rt_sds.py:3411-3458`: `f[:-4]` of the listed `.sds` files -/
def buildSchema (fs : Fs A M) : Sch :=
  ((fs.keys.filter endsSds).map fun f => f.take (f.length - 4)).foldl
    (fun (s : Sch) (f : Name) => s.add (splitBang f)) .nil

/-- `_sds_load_from_schema`, `rt_sds.py:3268-3373`, in the first round (`:3134-3167`): the
files to read, for all entries of one dictionary -/
def collect (fs : Fs A M) : Option Name → Sch → List Name
  | _, .nil => []
  | p, .node n k r =>
    (if fs.has (childName p n ++ sdsExt) then [childName p n ++ sdsExt] else []) ++
      collect fs (some (childName p n)) k ++ collect fs p r

/-- items of a container while it is being put together; `none` is Python's `None` -/
abbrev Slots (A S X : Type) := Dict Name (Option (Node A S X))

/-- `rt_sds.py:3352-3366`: `data[k] = …` for the nested containers -/
def putKids (d : Slots A S X) (kids : List (Name × Info × Box A S X)) : Slots A S X :=
  kids.foldl (fun (d : Slots A S X) (k : Name × Info × Box A S X) => d.set k.1 (some (.box k.2.1 k.2.2))) d

/-- the container with these items.  Items that are still `None` are left out; the code
leaves them out of the outermost container (`rt_sds.py:3225-3251`) and keeps `None` in
nested ones. -/
def ofSlots (d : Slots A S X) : Box A S X :=
  Box.ofItems (d.filterMap fun e => e.2.map fun v => (e.1, v))

/-- the items of a loaded file -/
def slotsOf (d : Dict Name (Slot A S X)) : Slots A S X := d.map fun e => (e.1, e.2.map .leaf)

/-- `rt_sds.py:3325-3326`, `:3369-3371`: a container without a file is a new Struct -/
def newStruct : Info := ⟨false, [], none⟩

/-- `rt_sds.py:3330-3346` in the second round: the next of the loaded files, if there is a
file for this container -/
def takeFile (L : Lib A S X M) (fs : Fs A M) (f : Name) (ms : List (File A M)) :
    Option ((Info × Slots A S X) × List (File A M)) :=
  if fs.has (f ++ sdsExt) then
    match ms with
    | [] => none
    | m :: ms => (loadFile L m).map fun c => ((c.1, slotsOf c.2), ms)
  else some ((newStruct, []), ms)

/-- `_sds_load_from_schema`, `rt_sds.py:3268-3373`, in the second round (`:3185-3221`), for
all entries of one dictionary; `ms` are the loaded files from `multiload_idx` on.  What
putting a container into a Dataset does (`rt_dataset.py:550-600`) is not modelled; the
result is then `none`. -/
def assemble (L : Lib A S X M) (fs : Fs A M) : Option Name → Sch → List (File A M) →
    Option (List (Name × Info × Box A S X) × List (File A M))
  | _, .nil, ms => some ([], ms)
  | p, .node n k r, ms =>
    match takeFile L fs (childName p n) ms with
    | none => none
    | some (c, ms1) =>
      match assemble L fs (some (childName p n)) k ms1 with
      | none => none
      | some (kids, ms2) =>
        if c.1.isDataset && !kids.isEmpty then none
        else match assemble L fs p r ms2 with
          | none => none
          | some (more, ms3) => some ((n, c.1, ofSlots (putKids c.2 kids)) :: more, ms3)

/-- `rt_sds.py:3139-3140`: `root_struct[k] is None` -/
def isNone (d : Dict Name (Slot A S X)) (n : Name) : Bool :=
  match d.get n with
  | some none => true
  | _ => false

/-- `_load_sds`, `rt_sds.py:2889-3264`, for a directory.  Without a file `_root.sds`
everything found is loaded into a new Struct (`:3023-3027`).  With it, only the items it
names are loaded (`:3063-3067`, `:2795-2797`), and only where it has no array for them
(`:3139-3154`). -/
def loadDir (L : Lib A S X M) (fs : Fs A M) : Option (Info × Box A S X) :=
  match fs.get ("_root".toList ++ sdsExt) with
  | none =>
    let s := buildSchema fs
    (assemble L fs none s ((collect fs none s).filterMap fs.get)).map fun r =>
      (newStruct, ofSlots (putKids [] r.1))
  | some f =>
    match loadFile L f with
    | none => none
    | some (i, d) =>
      let s := ((buildSchema fs).keep fun n => n ≠ "_root".toList).keep (isNone d)
      (assemble L fs none s ((collect fs none s).filterMap fs.get)).map fun r =>
        (i, ofSlots (putKids (slotsOf d) r.1))

/-! ## A path -/

/-- what is on disk for one path given without extension: a directory `path`, a file
`path.sds` -/
structure Disk (A M : Type) where
  dir : Option (Fs A M)
  file : Option (File A M)
  deriving DecidableEq, Repr

/-- `has_nested_containers`, `rt_struct.py:2433-2440` -/
def hasNested : Box A S X → Bool
  | .nil => false
  | .leaf _ _ rest => hasNested rest
  | .nest _ _ _ _ => true

/-- `save_struct`, `rt_sds.py:3487-3546`, without `onefile`: with nested containers to the
directory (`:3490-3509`), otherwise to the file `path.sds` (`:3515`, `:3531-3546`) -/
def savePath (L : Lib A S X M) (i : Info) (b : Box A S X) (d : Disk A M) : Option (Disk A M) :=
  if hasNested b then (saveDir L i b (d.dir.getD [])).map fun fs => { d with dir := some fs }
  else some { d with file := some (buildFile L i b) }

/-- `_load_sds`, `rt_sds.py:2930-2973`: a directory with this name comes before the file -/
def loadPath (L : Lib A S X M) (d : Disk A M) : Option (Info × Box A S X) :=
  match d.dir with
  | some fs => loadDir L fs
  | none =>
    match d.file with
    | none => none
    | some f => (loadFile L f).map fun c => (c.1, ofSlots (slotsOf c.2))

end Verif.Sds
