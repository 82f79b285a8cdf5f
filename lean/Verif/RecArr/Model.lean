import Verif.RecArr.Spec
import Mathlib.Data.Rat.Floor
/-!
# Record arrays and numbers of bits (C360 - C363)

`riptable/rt_dataset.py`: 7210-7266 (`as_recordarray`); `riptable/rt_numpy.py`: 5409-5444 (`bitcount`).

`np.core.records.fromarrays` is modelled by its documented result: an error without columns, otherwise a record for every row of the first
column with the values of all columns, cast to the types of the fields. That it removes blanks around names is left out. Casts of numbers to
datetime64 and timedelta64 take over the number, of which the smallest is NaT; a float is cut towards zero and NaN becomes NaT. Numbers beyond
64 bits, other types of columns and warnings are left out. `rc.BitCount` (C++) is not modelled: its result is the specification.
-/
namespace Verif.RecArr
variable {V : Type}

/-- a number taken over as datetime64 or timedelta64 -/
def ofInt (x : Int) : Option Int := if x = min64 then none else some x

/-- a float cast to timedelta64: C cuts towards zero -/
def ofFloat : Option Rat → Option Int
  | none => none
  | some q => some (if 0 ≤ q then ⌊q⌋ else ⌈q⌉)

/-- `to_dtype` and the cast of a column -/
def cells (allow : Bool) : Col V → List (Cell V)
  | .nano l => l.map fun x => .datetime64ns (ofInt x)
  | .date l => if allow then l.map fun x => .datetime64D (ofInt x) else l.map .int32
  | .dateSpan l => if allow then l.map fun x => .timedelta64D (ofInt x) else l.map .int32
  | .timeSpan l => if allow then l.map fun x => .timedelta64ns (ofFloat x) else l.map .float64
  | .other l => l.map .plain

/-- `np.core.records.fromarrays` -/
def fromArrays (cols : List (List (Cell V))) : Option (List (List (Cell V))) :=
  match cols with
  | [] => none
  | c :: cs => some ((List.range c.length).map fun i => (c :: cs).filterMap fun col => col[i]?)

/-- `as_recordarray`: names of the fields and records -/
def asRecordArray (allow : Bool) (ds : List (List Char × Col V)) : Option (List (List Char) × List (List (Cell V))) :=
  (fromArrays (ds.map fun c => cells allow c.2)).map fun rows => (ds.map Prod.fst, rows)

/-! ## bitcount -/

/-- the digits of `bin`, of a number that is not 0 -/
def digits (n : Nat) : List Char :=
  if h : n = 0 then [] else digits (n / 2) ++ [if n % 2 = 1 then '1' else '0']
termination_by n
decreasing_by omega

/-- Python's `bin` -/
def bin (a : Int) : List Char :=
  (if a < 0 then ['-'] else []) ++ ['0', 'b'] ++ (if a = 0 then ['0'] else digits a.natAbs)

/-- the types of scalars -/
inductive Scalar where
  | pyInt (a : Int)
  | pyBool (b : Bool)
  | npInt (a : Int)
  | npBool (b : Bool)
  | float
deriving DecidableEq, Repr

/-- `bitcount` of a scalar; `none`: ValueError -/
def bitcount : Scalar → Option Nat
  | .pyInt a => some ((bin a).count '1')
  | .pyBool b => some ((bin (if b then 1 else 0)).count '1')
  | .npInt a => some ((bin a).count '1')
  | .npBool _ => none
  | .float => none
end Verif.RecArr
