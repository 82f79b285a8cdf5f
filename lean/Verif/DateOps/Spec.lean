/-!
# Specification: arithmetic of dates, times and spans (C82)

Every value stands for a number of nanoseconds, or is invalid.  The sum and the difference of
two columns is the sum and the difference of what the entries stand for, and invalid as soon as
one of the two entries is.
-/
namespace Verif.DateOps.Spec

/-- the four kinds of columns: `Date`, `DateSpan`, `DateTimeNano`, `TimeSpan` -/
inductive Kind
  | date
  | dspan
  | nano
  | tspan
deriving DecidableEq

/-- sum and difference -/
inductive Op
  | add
  | sub
deriving DecidableEq

/-- the operation on numbers -/
def Op.on : Op → Int → Int → Int
  | .add, a, b => a + b
  | .sub, a, b => a - b

/-- the operation on entries which may be invalid: invalid if one of them is -/
def combine (op : Op) : Option Int → Option Int → Option Int
  | some a, some b => some (op.on a b)
  | _, _ => none

/-- the kind of the result, `none` when the operation makes no sense -/
def resultKind : Op → Kind → Kind → Option Kind
  | .add, .date, .dspan => some .date
  | .add, .date, .tspan => some .nano
  | .add, .dspan, .date => some .date
  | .add, .dspan, .dspan => some .dspan
  | .add, .dspan, .nano => some .nano
  | .add, .dspan, .tspan => some .tspan
  | .add, .nano, .dspan => some .nano
  | .add, .nano, .tspan => some .nano
  | .add, .tspan, .date => some .nano
  | .add, .tspan, .dspan => some .tspan
  | .add, .tspan, .nano => some .nano
  | .add, .tspan, .tspan => some .tspan
  | .sub, .date, .date => some .dspan
  | .sub, .date, .dspan => some .date
  | .sub, .date, .nano => some .tspan
  | .sub, .date, .tspan => some .nano
  | .sub, .dspan, .dspan => some .dspan
  | .sub, .dspan, .tspan => some .tspan
  | .sub, .nano, .date => some .tspan
  | .sub, .nano, .dspan => some .nano
  | .sub, .nano, .nano => some .tspan
  | .sub, .nano, .tspan => some .nano
  | .sub, .tspan, .dspan => some .tspan
  | .sub, .tspan, .tspan => some .tspan
  | _, _, _ => none

/-- nanoseconds in a day -/
def day : Int := 86400000000000

/-- what a column of a kind can hold: whole days for the two day kinds, 32 and 64 bits, and
neither a `Date` nor a `DateTimeNano` can be 1970-01-01 00:00, which marks an invalid entry -/
def Holds : Kind → Int → Prop
  | .date, m => ∃ d, m = d * day ∧ d ≠ 0 ∧ -(2 ^ 31) < d ∧ d < 2 ^ 31
  | .dspan, m => ∃ d, m = d * day ∧ -(2 ^ 31) < d ∧ d < 2 ^ 31
  | .nano, m => m ≠ 0 ∧ -(2 ^ 63) < m ∧ m < 2 ^ 63
  | .tspan, _ => True

/-- entry `i` of a column; a column of one entry is repeated -/
def entry {α : Type} (xs : List α) (i : Nat) : Option α := if xs.length = 1 then xs[0]? else xs[i]?

/-- `R` is the column of the `f` of the entries of `A` and `B` -/
def Pointwise (f : Option Int → Option Int → Option Int) (A B R : List (Option Int)) : Prop :=
  R.length = (if A.length = 1 then B.length else A.length) ∧
  ∀ (i : Nat) (a b : Option Int), i < R.length → entry A i = some a → entry B i = some b → R[i]? = some (f a b)

/-- two columns can be combined: same length, or one of them has one entry -/
def Fit {α β : Type} (xs : List α) (ys : List β) : Prop := xs.length = ys.length ∨ xs.length = 1 ∨ ys.length = 1

end Verif.DateOps.Spec
