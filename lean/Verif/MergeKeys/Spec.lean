/-!
# Which columns a merge matches (C299, C300)

Nothing here depends on the model.
-/
namespace Verif.MergeKeys

/-- what a tuple in `on` contains: a name, None, a list of names, or something else -/
inductive Atom where
  | name (s : String)
  | none
  | names (l : List String)
  | other
deriving DecidableEq, Repr

/-- an entry of a list given as `on` -/
inductive Item where
  | name (s : String)
  | tup (l : List Atom)
  | other
deriving DecidableEq, Repr

/-- the argument `on` -/
inductive On where
  | none
  | name (s : String)
  | tup (l : List Atom)
  | list (l : List Item)
  | other
deriving DecidableEq, Repr

/-- a data type: numpy's rule for safe casts, and whether it is an integer, floating or text type -/
structure DT where
  id : Nat
  int : Bool
  float : Bool
  text : Bool
deriving DecidableEq, Repr

/-- a column as a key: an array of a class and type, or a Categorical with the class and type of each key column -/
inductive Key where
  | arr (cls : Nat) (dt : DT)
  | cat (cols : List (Nat × DT))
deriving DecidableEq, Repr

namespace Spec

/-- the documented meaning of one entry: a name is the column of both sides, a pair is the left and the right name -/
inductive Means : Item → String → String → Prop where
  | name (s : String) : Means (.name s) s s
  | one (s : String) : Means (.tup [.name s]) s s
  | two (l r : String) : Means (.tup [.name l, .name r]) l r

/-- a column written as a list of arrays -/
def columns : Key → List (Nat × DT)
  | .arr c t => [(c, t)]
  | .cat cols => cols

/-- two arrays can be compared without conversion worth a warning -/
def SameKind (canCast : DT → DT → Bool) (a b : DT) : Prop :=
  canCast a b = true ∨ canCast b a = true ∨ (a.int = true ∧ b.int = true) ∨ (a.float = true ∧ b.float = true) ∨
    (a.text = true ∧ b.text = true)

end Spec
end Verif.MergeKeys
