/-! # What invalid elements are (C369 - C371) -/
namespace Verif.FillInv

/-- types of elements: bools, signed and unsigned integers of so many bits, floats, strings, and types that riptable has no invalid for -/
inductive DType where
  | bool | int (bits : Nat) | uint (bits : Nat) | float (bits : Nat) | str | other
deriving DecidableEq, Repr

/-- values: `nan` is NaN -/
inductive Val where
  | b (x : Bool) | i (x : Int) | nan | s (x : String)
deriving DecidableEq, Repr

/-- classes of arrays: plain ones, days (int32), spans of days (int32), times (int64), spans (float64), and Categoricals with their base index (`none` for
enums) and categories -/
inductive Class where
  | plain | date | dateSpan | nano | span | cat (base : Option Nat) (cats : List String)
deriving DecidableEq, Repr

/-- an array -/
structure Arr where
  cls : Class
  dtype : DType
  vals : List Val
deriving DecidableEq, Repr

/-- the invalid numbers of a type: the smallest signed one, the largest unsigned one, NaN; no bool is invalid -/
def InvalidNumber : DType → Val → Prop
  | .int n, v => v = .i (-2 ^ (n - 1))
  | .uint n, v => v = .i (2 ^ n - 1)
  | .float _, v => v = .nan
  | .str, v => v = .s ""
  | _, _ => False

/-- what `isnan` answers True to: also 0 for days and times, and 0 for codes from 1 on -/
def Invalid : Class → DType → Val → Prop
  | .plain, t, v => InvalidNumber t v
  | .date, _, v => v = .i 0 ∨ v = .i (-2 ^ 31)
  | .dateSpan, _, v => v = .i (-2 ^ 31)
  | .nano, _, v => ∃ x, v = .i x ∧ x ≤ 0
  | .span, _, v => v = .nan
  | .cat base _, _, v => base = some 1 ∧ v = .i 0

/-- the types that arrays of a class have -/
def Typed (x : Arr) : Prop :=
  match x.cls with
  | .date => x.dtype = .int 32
  | .dateSpan => x.dtype = .int 32
  | .nano => x.dtype = .int 64
  | .span => x.dtype = .float 64
  | _ => True
end Verif.FillInv
