import Mathlib.Data.List.Forall2
/-! # What making a Dataset of a dictionary should mean (C344 - C346) -/
namespace Verif.DsNew

/-- what a dictionary has under a name: an array, a list, a tuple, a single value, or a set -/
inductive Given (V : Type) where
  | array (xs : List V)
  | list (xs : List V)
  | tuple (xs : List V)
  | scalar (x : V)
  | set
deriving Repr, DecidableEq

namespace Spec
variable {V : Type}

/-- the rows that are given -/
def Rows : Given V → List V → Prop
  | .array xs, r => r = xs
  | .list xs, r => r = xs
  | .tuple xs, r => r = xs
  | .scalar x, r => r = [x]
  | .set, _ => False

/-- the column is what was given under its name -/
def AsGiven (e : String × Given V) (c : String × List V) : Prop := c.1 = e.1 ∧ Rows e.2 c.2

/-- a Dataset of these columns: all have its number of rows; without columns it has none -/
def Rect (nrows : Option Nat) (cols : List (String × List V)) : Prop :=
  (cols = [] → nrows = none) ∧ ∀ c ∈ cols, nrows = some c.2.length

end Spec
end Verif.DsNew
