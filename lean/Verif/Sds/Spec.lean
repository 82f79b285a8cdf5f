import Verif.Sds.Model

/-!
# Specification: what saving and loading a container is to give back

Nothing here mentions files, flags, meta data or the order in which things are written.
-/
namespace Verif.Sds
open Verif.Items (Name)

variable {A S X M : Type}

/-- What is assumed of arrays: a scalar comes back out of the array of length one it is put
into; a special array can be rebuilt from the arrays and the meta data it hands out, which
have different names; text comes back out of the byte string made from it. -/
structure LibOK (L : Lib A S X M) : Prop where
  first_one : ∀ s, L.first (L.one s) = s
  load : ∀ x, L.load (L.base x) ((L.cols x).map Prod.snd) (L.info x) = some x
  cols : ∀ x, ((L.cols x).map Prod.fst).Nodup
  dec : ∀ m, L.dec (L.enc m) = some m

/-- The items of one container without the contents of nested containers. -/
def Box.level : Box A S X → List (Name × Option (Leaf A S X))
  | .nil => []
  | .leaf n l rest => (n, some l) :: rest.level
  | .nest n _ _ rest => (n, none) :: rest.level

/-- The same container, with nothing recorded about how it and the containers in it are
sorted. -/
def Box.unsorted : Box A S X → Box A S X
  | .nil => .nil
  | .leaf n l rest => .leaf n l rest.unsorted
  | .nest n i b rest => .nest n { i with sort := none } b.unsorted rest.unsorted

/-- `n` can be used as a name inside a flattened container -/
def FlatName (n : Name) : Prop := n ≠ [] ∧ '/' ∉ n ∧ '!' ∉ n

/-- Different items of a container have different names, the names can be used for
flattening, and no special array is called `_root`; in the containers inside likewise. -/
def FlatNames : Box A S X → Prop
  | .nil => True
  | .leaf n l rest => FlatName n ∧ ((∃ x, l = .spec x) → n ≠ "_root".toList) ∧
      n ∉ rest.names ∧ FlatNames rest
  | .nest n _ b rest => FlatName n ∧ n ∉ rest.names ∧ FlatNames b ∧ FlatNames rest

/-- the name is used by an item of the container that is not itself a container -/
def Box.LeafNamed (b : Box A S X) (n : Name) : Prop := ∃ l, (n, some l) ∈ b.level

end Verif.Sds
