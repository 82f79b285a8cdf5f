import Verif.Sds.Dir
import Verif.Sds.Spec

/-!
# Specification: a nested container saved as a directory

Containers are found by following names from the outermost one.
-/
namespace Verif.Sds
open Verif.Items (Name)

variable {A S X M : Type}

/-- the item with this name -/
def Box.find : Box A S X → Name → Option (Node A S X)
  | .nil, _ => none
  | .leaf m l rest, n => if m = n then some (.leaf l) else rest.find n
  | .nest m i b rest, n => if m = n then some (.box i b) else rest.find n

/-- the container found by following these names -/
def follow : List Name → Info × Box A S X → Option (Info × Box A S X)
  | [], c => some c
  | n :: p, c =>
    match c.2.find n with
    | some (.box i b) => follow p (i, b)
    | _ => none

/-- the names of the containers directly inside -/
def Box.boxNames : Box A S X → List Name
  | .nil => []
  | .leaf _ _ rest => rest.boxNames
  | .nest n _ _ rest => n :: rest.boxNames

/-- every item is itself a container, and there is at least one -/
def Box.OnlyBoxes (b : Box A S X) : Prop := b ≠ .nil ∧ b.boxNames = b.names

/-- `s'` is `s` up to the order, labels and sorting of containers that hold nothing but
containers: along any names a container is found in one exactly if one is found in the
other; both then have the same names and the same arrays under them; and if the container is
the outermost one, or is empty, or has an item that is not a container, then the order of
the items, the class, the labels and the sort columns are the same. -/
structure SameTree (s s' : Info × Box A S X) : Prop where
  found : ∀ p, (follow p s).isSome ↔ (follow p s').isSome
  names : ∀ p c c', follow p s = some c → follow p s' = some c' → c'.2.names.Perm c.2.names
  leaf : ∀ p c c', follow p s = some c → follow p s' = some c' →
    ∀ n l, c.2.find n = some (.leaf l) ↔ c'.2.find n = some (.leaf l)
  own : ∀ p c c', follow p s = some c → follow p s' = some c' → (p = [] ∨ ¬ c.2.OnlyBoxes) →
    c'.1 = c.1 ∧ c'.2.names = c.2.names

/-- characters that must not be in the name of a container, and its ending -/
def DirName (n : Name) : Prop :=
  (∀ c ∈ n, c ∉ ['/', '\\', ':', '<', '>', '!', '|', '*', '?']) ∧
    ¬ ".sds".toList <:+ n.map Char.toLower

/-- Different items of a container have different names, the names of containers can be
used for files, names of special arrays have no `!`, and there is no container in a Dataset;
in the containers inside likewise. -/
def DirNames : Box A S X → Prop
  | .nil => True
  | .leaf n l rest => ((∃ x, l = .spec x) → '!' ∉ n) ∧ n ∉ rest.names ∧ DirNames rest
  | .nest n i b rest => DirName n ∧ (i.isDataset = true → b.boxNames = []) ∧ n ∉ rest.names ∧
      DirNames b ∧ DirNames rest

/-- the names along a path, joined by `!` -/
def joinBang : List Name → Name
  | [] => []
  | [n] => n
  | n :: p => n ++ '!' :: joinBang p

/-- the file of the container at this path -/
def pathFile (p : List Name) : Name := joinBang p ++ ".sds".toList

/-- An old file of the directory does not get in the way of the saved container: it does not
end in `.sds`, or it is the file of a container that is written again, or, up to its first
`!`, it is not named after a container directly inside the saved one. -/
def HarmlessFile (s : Info × Box A S X) (f : Name) : Prop :=
  ¬ ".sds".toList <:+ f.map Char.toLower ∨
  (∃ p c, p ≠ [] ∧ follow p s = some c ∧ ¬ c.2.OnlyBoxes ∧ f = pathFile p) ∨
    ∀ n ∈ s.2.boxNames, ¬ ∃ r, f = n ++ r ∧ (r.map Char.toLower = ".sds".toList ∨ r.head? = some '!')

end Verif.Sds
