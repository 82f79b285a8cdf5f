/-!
# Stacking Structs: specification

The items are shared with the model; nothing else here refers to it.
-/
namespace Verif.StructStack

/-- What a Struct holds: an array of one or two dimensions (with its number of columns), a single value, an object of a riptable class (name of the
class and contents), something else such as a list. -/
inductive Item (V T : Type) where
  | arr1 (v : List V)
  | arr2 (ncols : Nat) (rows : List (List V))
  | scalar (x : V)
  | typed (cls : String) (x : T)
  | other
deriving DecidableEq, Repr

/-- A Struct: keys and items in order. -/
abbrev Fields (V T : Type) := List (String × Item V T)

variable {V T : Type}

/-- The items under a key, Struct by Struct. -/
def under (k : String) (structs : List (Fields V T)) : List (Item V T) :=
  structs.filterMap fun s => (s.find? fun e => e.1 = k).map Prod.snd

/-- The values of an array of one dimension; a single value is an array of one. -/
def values : Item V T → Option (List V)
  | .arr1 v => some v
  | .scalar x => some [x]
  | _ => none

/-- `r` is one item after the other: arrays joined, or objects of one class stacked as that class does. -/
inductive Joined (stackT : String → List T → Option T) (l : List (Item V T)) : Item V T → Prop where
  | arrays (vs : List (List V)) (h : l.map values = vs.map some) : Joined stackT l (.arr1 vs.flatten)
  | objects (cls : String) (xs : List T) (y : T) (h : l = xs.map (Item.typed cls)) (hs : stackT cls xs = some y) : Joined stackT l (.typed cls y)

end Verif.StructStack
