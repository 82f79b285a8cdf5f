import Verif.Flatten.Model
/-!
# Flattening a folder of .sds files: what is meant

Only the disk itself (`Disk`, its files and folders) is taken from the model.
-/
namespace Verif.Flatten
open Verif.Items (Name)

variable {C : Type}

/-- The contents of all files, in the root folder and below. -/
def Disk.contents (d : Disk C) : List C := d.files.map (·.2) ++ d.dirs.flatMap fun e => e.2.filterMap (·.2)

/-- The names in a folder are different from each other, as on a disk. -/
structure Disk.Proper (d : Disk C) : Prop where
  names : (d.files.map (·.1) ++ d.dirs.map (·.1)).Nodup
  entries : ∀ e ∈ d.dirs, (e.2.map (·.1)).Nodup

/-- `n` without a final ".sds" (in any case of letters). -/
def Bare (n b : Name) : Prop := (∃ x : Name, n = b ++ x ∧ x.map Char.toLower = ".sds".toList) ∨ (b = n ∧ ∀ y x : Name, n = y ++ x → x.map Char.toLower ≠ ".sds".toList)

/-- Where the documentation says a file `f` of the folder `n` goes: `n!f`, and `n.sds` for `_root.sds`, where n is written without ".sds". -/
def Place (n f t : Name) : Prop := ∃ b, Bare n b ∧ ((f = "_root.sds".toList ∧ t = b ++ ".sds".toList) ∨ (f ≠ "_root.sds".toList ∧ t = b ++ '!' :: f))

/-- The place of no file is taken by another file of the root folder, another folder or another file that is to be moved, and no temporary file is left over. -/
structure Disk.Free (d : Disk C) : Prop where
  temp : "_root.sds_temp".toList ∉ d.files.map (·.1) ∧ "_root.sds_temp".toList ∉ d.dirs.map (·.1)
  free : ∀ e ∈ d.dirs, ∀ f ∈ e.2, ∀ t, Place e.1 f.1 t → t ∉ d.files.map (·.1) ∧ ∀ g ∈ d.dirs, t = g.1 → g.1 = e.1 ∧ f.1 = "_root.sds".toList
  apart : ∀ e ∈ d.dirs, ∀ f ∈ e.2, ∀ e' ∈ d.dirs, ∀ f' ∈ e'.2, ∀ t, Place e.1 f.1 t → Place e'.1 f'.1 t → e.1 = e'.1

/-- Only .sds files in the folders. -/
def Disk.OnlySds (d : Disk C) : Prop := ∀ e ∈ d.dirs, ∀ f ∈ e.2, f.2.isSome ∧ ∃ y x : Name, f.1 = y ++ x ∧ x.map Char.toLower = ".sds".toList

/-- The place of no `_root.sds` is taken by a file of the root folder or is the place of a file of another folder. -/
def Disk.RootFree (d : Disk C) : Prop := ∀ e ∈ d.dirs, "_root.sds".toList ∈ e.2.map (·.1) → ∀ t, Place e.1 "_root.sds".toList t →
  t ∉ d.files.map (·.1) ∧ ∀ g ∈ d.dirs, ∀ f ∈ g.2, Place g.1 f.1 t → g.1 = e.1

/-- The place of no `_root.sds` is another folder. -/
def Disk.RootNoFolder (d : Disk C) : Prop := ∀ e ∈ d.dirs, "_root.sds".toList ∈ e.2.map (·.1) → ∀ t, Place e.1 "_root.sds".toList t →
  ∀ g ∈ d.dirs, t = g.1 → g.1 = e.1

/-- A folder the documentation says is skipped: it has something that is not an .sds file, or the name of one of its files is taken in the root folder. -/
def Disk.Blocked (d : Disk C) (n : Name) (es : List (Name × Option C)) : Prop :=
  (∃ f ∈ es, f.2 = none ∨ ∀ y x : Name, f.1 = y ++ x → x.map Char.toLower ≠ ".sds".toList) ∨
  ∃ f ∈ es, f.1 ≠ "_root.sds".toList ∧ ∃ t, Place n f.1 t ∧ t ∈ d.files.map (·.1)

/-- No folder has a `_root.sds`. -/
def Disk.NoRoot (d : Disk C) : Prop := ∀ e ∈ d.dirs, "_root.sds".toList ∉ e.2.map (·.1)

/-- A file that is in the root folder, or will be when everything has been flattened. -/
def Disk.Flat (d : Disk C) (t : Name) (c : C) : Prop := (t, c) ∈ d.files ∨ ∃ e ∈ d.dirs, ∃ f ∈ e.2, f.2 = some c ∧ Place e.1 f.1 t

end Verif.Flatten
