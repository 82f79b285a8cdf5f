/-! # What record arrays and numbers of bits should be (C360 - C363) -/
namespace Verif.RecArr

/-- the smallest numbers of 64 and 32 bits: invalid in riptable, the first is NaT in numpy -/
def min64 : Int := -9223372036854775808
def min32 : Int := -2147483648

/-- a column of a Dataset; TimeSpans are numbers of nanoseconds, `none`: NaN -/
inductive Col (V : Type) where
  | nano (l : List Int)
  | date (l : List Int)
  | dateSpan (l : List Int)
  | timeSpan (l : List (Option Rat))
  | other (l : List V)
deriving Repr

/-- a value of a record; `none` is NaT -/
inductive Cell (V : Type) where
  | datetime64ns (x : Option Int)
  | datetime64D (x : Option Int)
  | timedelta64D (x : Option Int)
  | timedelta64ns (x : Option Int)
  | int32 (x : Int)
  | float64 (x : Option Rat)
  | plain (v : V)
deriving DecidableEq, Repr

namespace Spec
variable {V : Type}

/-- the moment riptable shows for the number of a DateTimeNano or Date: none for 0 and the smallest number -/
def shown (smallest x : Int) : Option Int := if x = 0 ∨ x = smallest then none else some x

/-- the span of days riptable shows -/
def shownSpan (x : Int) : Option Int := if x = min32 then none else some x

/-- a span without the part of a nanosecond: not longer, of the same sign, less than a nanosecond away -/
def Truncated (q : Rat) (n : Int) : Prop := (0 ≤ q → (n : Rat) ≤ q ∧ q < n + 1) ∧ (q < 0 → q ≤ (n : Rat) ∧ (n : Rat) - 1 < q)

/-- the value of a record for row `i` of a column: of the type in the documentation, and the same value, apart from invalid ones; TimeSpans are
truncated when converted -/
def Keeps (allow : Bool) (col : Col V) (i : Nat) (c : Cell V) : Prop :=
  match col with
  | .nano l => ∃ x m, l[i]? = some x ∧ c = .datetime64ns m ∧ ∀ y, shown min64 x = some y → m = some y
  | .date l => ∃ x, l[i]? = some x ∧
      ((allow = false ∧ c = .int32 x) ∨ (allow = true ∧ ∃ m, c = .datetime64D m ∧ ∀ y, shown min32 x = some y → m = some y))
  | .dateSpan l => ∃ x, l[i]? = some x ∧
      ((allow = false ∧ c = .int32 x) ∨ (allow = true ∧ ∃ m, c = .timedelta64D m ∧ ∀ y, shownSpan x = some y → m = some y))
  | .timeSpan l => ∃ x, l[i]? = some x ∧
      ((allow = false ∧ c = .float64 x) ∨ (allow = true ∧ ∃ m, c = .timedelta64ns m ∧ (x = none ↔ m = none) ∧
        ∀ q n, x = some q → m = some n → Truncated q n))
  | .other l => ∃ v, l[i]? = some v ∧ c = .plain v

/-- the numbers of Dates and DateSpans have 32 bits -/
def Fits : Col V → Prop
  | .date l => ∀ x ∈ l, min32 ≤ x
  | .dateSpan l => ∀ x ∈ l, min32 ≤ x
  | _ => True

/-- bit `i` of a number in two's complement -/
def bit (x : Int) (i : Nat) : Bool := x / 2 ^ i % 2 == 1

/-- the set bits of a number of `w` bits -/
def bits (w : Nat) (x : Int) : Nat := (List.range w).countP (bit x)

end Spec
end Verif.RecArr
