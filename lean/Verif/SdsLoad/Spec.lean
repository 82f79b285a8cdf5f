/-!
# What loading by path, by list and by stack should mean (C326 - C330)

Paths are lists of characters.  The disk says which paths are files and which are folders.
-/
namespace Verif.SdsLoad
abbrev Path := List Char

/-- what the disk says about paths -/
structure Disk where
  file : Path → Bool
  folder : Path → Bool

/-- a thing on the disk that can be loaded -/
inductive Thing where
  | file (p : Path)
  | folder (p : Path)
deriving DecidableEq, Repr

namespace Spec

/-- the thing is on the disk -/
def There (d : Disk) : Thing → Prop
  | .file p => d.file p = true
  | .folder p => d.folder p = true

/-- the path ends in ".sds", in capitals or not -/
def HasExt (p : Path) : Prop := ∃ stem e : Path, p = stem ++ e ∧ e.map Char.toLower = ".sds".toList

/-- what a path may stand for, the first that is there counts -/
def Candidates (p : Path) (l : List Thing) : Prop :=
  (∃ stem e : Path, p = stem ++ e ∧ e.map Char.toLower = ".sds".toList ∧ l = [.file p, .folder p, .folder stem]) ∨
  (¬ HasExt p ∧ l = [.file p, .folder p, .file (p ++ ".sds".toList)])

/-- the path stands for this thing -/
def StandsFor (d : Disk) (p : Path) (t : Thing) : Prop :=
  ∃ before after, Candidates p (before ++ t :: after) ∧ There d t ∧ ∀ u ∈ before, ¬ There d u

/-- the file of a path to which the extension is added if it is not there -/
def FileOf (p f : Path) : Prop := (HasExt p ∧ f = p) ∨ (¬ HasExt p ∧ f = p ++ ".sds".toList)

/-- one path of a list is found: a folder of this name, else the file -/
def Found (d : Disk) (p : Path) (t : Thing) : Prop :=
  (d.folder p = true ∧ t = .folder p) ∨ (d.folder p = false ∧ ∃ f, FileOf p f ∧ d.file f = true ∧ t = .file f)

/-- nothing is found for this path -/
def Missing (d : Disk) (p : Path) : Prop := ∀ t, ¬ Found d p t

/-- the name of a dataset in a folder, without its extension -/
def NameOf (inc n : Path) : Prop :=
  (∃ e : Path, inc = n ++ e ∧ e.map Char.toLower = ".sds".toList) ∨ (¬ HasExt inc ∧ inc = n)
end Spec
end Verif.SdsLoad
