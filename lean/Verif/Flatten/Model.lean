import Verif.Sds.Dir
/-!
# Flattening a folder of .sds files: the code

`sds_flatten` (rt_sds.py:368-504).  A folder has files and folders; a folder inside has entries, which are files (`some` content) or folders (`none`;
what is in those does not matter, because they keep their folder from being flattened).  The order of the entries is the order in which
`os.listdir` gives them.  The plan for one folder (which files go where) is made before any file is moved (rt_sds.py:426-488); then the moves are made one
after the other, and after each of them the program may be interrupted.
-/
namespace Verif.Flatten
open Verif.Items (Name)
open Verif.Sds (endsSds sdsExt)

/-- The root folder. -/
structure Disk (C : Type) where
  files : List (Name × C)
  dirs : List (Name × List (Name × Option C))

variable {C : Type}

/-- `"_root.sds"` -/
def rootName : Name := "_root.sds".toList
/-- `"_root.sds_temp"`, rt_sds.py:453 -/
def tempName : Name := "_root.sds_temp".toList

/-- `sds_exists` of a name in the root folder. -/
def Disk.has (d : Disk C) (n : Name) : Bool := decide (n ∈ d.files.map (·.1)) || decide (n ∈ d.dirs.map (·.1))

/-- rt_sds.py:470-473 and 498: `prefix` without the `!`. -/
def stem (n : Name) : Name := if endsSds n then n.take (n.length - 4) else n

/-- The operations on the disk. -/
inductive Op where
  | move (dir old new : Name)    -- `os.rename(dirpath/old, rootpath/new)`
  | rmtree (dir : Name)
  | rename (old new : Name)      -- in the root folder
deriving DecidableEq

/-- A file of this name with this content: `os.rename` puts it in the place of one that is there (POSIX). -/
def putFile (fs : List (Name × C)) (n : Name) (c : C) : List (Name × C) := fs.filter (fun e => e.1 ≠ n) ++ [(n, c)]

/-- One operation; `none` if it raises (then nothing has changed). -/
def runOp (d : Disk C) : Op → Option (Disk C)
  | .move dir old new =>
    match d.dirs.find? (fun e => e.1 = dir) with
    | none => none
    | some e => match e.2.find? (fun f => f.1 = old) with
      | some (_, some c) =>
        if new ∈ d.dirs.map (·.1) then none
        else some ⟨putFile d.files new c, d.dirs.map fun e => if e.1 = dir then (e.1, e.2.filter fun f => f.1 ≠ old) else e⟩
      | _ => none
  | .rmtree dir => some ⟨d.files, d.dirs.filter fun e => e.1 ≠ dir⟩
  | .rename old new =>
    match d.files.find? (fun e => e.1 = old) with
    | none => none
    | some e => if new ∈ d.dirs.map (·.1) then none else some ⟨putFile (d.files.filter fun f => f.1 ≠ old) new e.2, d.dirs⟩

/-- rt_sds.py:427-488 for one folder: `none` if it is not flattened. -/
def plan (d : Disk C) (n : Name) (entries : List (Name × Option C)) : Option (List Op) :=
  if entries.any (fun f => !endsSds f.1 || f.2.isNone) then none               -- 433-446
  else
    let hasRoot := decide (rootName ∈ entries.map (·.1))
    if hasRoot && d.has tempName then none                                      -- 456-460
    else
      let others := (entries.map (·.1)).filter (· ≠ rootName)
      if others.any (fun f => d.has (stem n ++ '!' :: f)) then none             -- 476-488
      else some ((if hasRoot then [Op.move n rootName tempName] else []) ++ others.map (fun f => Op.move n f (stem n ++ '!' :: f)) ++
        [Op.rmtree n] ++ (if hasRoot then [Op.rename tempName (stem n ++ sdsExt)] else []))

/-- The disks after each operation, and the last one if none raised. -/
def runOps (d : Disk C) : List Op → List (Disk C) × Option (Disk C)
  | [] => ([], some d)
  | op :: ops => match runOp d op with
    | none => ([], none)
    | some d' => (d' :: (runOps d' ops).1, (runOps d' ops).2)

/-- rt_sds.py:426-499: the disks after each operation of the whole run, for the folders found at the start. -/
def trace : List Name → Disk C → List (Disk C)
  | [], _ => []
  | n :: ns, d => match d.dirs.find? (fun e => e.1 = n) with
    | none => []           -- `os.listdir` raises; the folders are there
    | some e => match plan d n e.2 with
      | none => trace ns d
      | some ops => match runOps d ops with
        | (ds, none) => ds
        | (ds, some d') => ds ++ trace ns d'

/-- `sds_flatten`: the disks it goes through, the first one included; interrupted it leaves one of them. -/
def flatten (d : Disk C) : List (Disk C) := d :: trace (d.dirs.map (·.1)) d

/-- What a run that is not interrupted leaves. -/
def final (d : Disk C) : Disk C := (trace (d.dirs.map (·.1)) d).getLast?.getD d

end Verif.Flatten
