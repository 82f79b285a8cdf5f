import Verif.NpOps.Spec
import Mathlib.Algebra.BigOperators.Group.List.Basic
/-!
# Calculating with arrays: specification

Sums, comparisons, means and variances as in a textbook. Types of numbers (`Ty`), what they can hold (`Holds`) and their missing values are
those of `Verif.NpOps.Spec`. Nothing here refers to the model.
-/
namespace Verif.Ufunc
open Verif.NpOps

/-! ## row by row -/

inductive Op where
  | add | sub | mul | min | max
deriving DecidableEq, Repr

/-- the result of an operation on two numbers -/
def Op.exact : Op → Rat → Rat → Rat
  | .add, x, y => x + y
  | .sub, x, y => x - y
  | .mul, x, y => x * y
  | .min, x, y => if x ≤ y then x else y
  | .max, x, y => if x ≤ y then y else x

inductive Cmp where
  | lt | le | eq | ne | gt | ge
deriving DecidableEq, Repr

/-- whether a comparison is true of two numbers -/
def Cmp.truth : Cmp → Rat → Rat → Bool
  | .lt, x, y => decide (x < y)
  | .le, x, y => decide (x ≤ y)
  | .eq, x, y => decide (x = y)
  | .ne, x, y => decide (x ≠ y)
  | .gt, x, y => decide (y < x)
  | .ge, x, y => decide (y ≤ x)

/-- row `i` of the result is `f` of the rows `i` of `xs` and `ys` -/
def EachRow {A B R : Type} (f : A → B → R) (xs : List A) (ys : List B) (r : List R) : Prop :=
  r.length = xs.length ∧ ∀ (i : Nat) (x : A) (y : B), xs[i]? = some x → ys[i]? = some y → r[i]? = some (f x y)

/-- the number is the missing value of an integer type -/
def IsMissing : Ty → Rat → Prop
  | .int s w, q => q = (missing s w : Int)
  | _, _ => False

/-- a number that an array of the type can have, and not the missing value -/
def Valid (t : Ty) (q : Rat) : Prop := Holds t q ∧ ¬ IsMissing t q

/-! ## reductions -/

/-- the values of the rows whose filter entry is True -/
def passing {A : Type} (xs : List A) (filter : List Bool) : List A := ((xs.zip filter).filter (·.2)).map (·.1)

/-- the values that are not missing -/
def present (miss : Int) (xs : List Int) : List Int := xs.filter (· ≠ miss)

def average (l : List Rat) : Rat := l.sum / l.length

/-- `v` is the variance of `l` with `ddof`: (n - ddof) v is the sum of the squared distances from the average -/
def IsVariance (ddof : Int) (l : List Rat) (v : Rat) : Prop :=
  v * ((l.length : Rat) - ddof) = (l.map fun x => (x - average l) * (x - average l)).sum

end Verif.Ufunc
