import Verif.FillInv.Spec
/-!
# Filling with invalids (C369 - C371)

`riptable/rt_fastarray.py`: 1591-1687 (`fill_invalid`, `_fill_invalid_internal`); `riptable/rt_enum.py`: 116-142 (`INVALID_DICT`);
`riptable/rt_datetime.py`: 1468-1472, 2897-2901, 5290-5294, 7246-7250 (`Date`, `DateSpan`, `DateTimeNano`, `TimeSpan`); `riptable/rt_categorical.py`:
2968-2999. Arrays of one dimension; types are given as strings; arrays of objects are left out.
-/
namespace Verif.FillInv

/-- exceptions -/
inductive Err where
  | value | key | type
deriving DecidableEq, Repr

/-- `INVALID_DICT[dtype.num]` (rt_enum.py:116-142) -/
def invalidDict : DType → Option Val
  | .bool => some (.b false)
  | .int 8 => some (.i (-128))
  | .int 16 => some (.i (-32768))
  | .int 32 => some (.i (-2147483648))
  | .int 64 => some (.i (-9223372036854775808))
  | .uint 8 => some (.i 255)
  | .uint 16 => some (.i 65535)
  | .uint 32 => some (.i 4294967295)
  | .uint 64 => some (.i 18446744073709551615)
  | .float _ => some .nan
  | .str => some (.s "")
  | _ => none

/-- the array afterwards and what is returned -/
abbrev Res := Arr × Except Err (Option Arr)

/-- rt_fastarray.py:1675-1687 once the fill value is known -/
def fillWith (x : Arr) (n : Nat) (t : DType) (inplace : Bool) (wrap : Class) (v : Val) : Res :=
  if inplace then
    if n ≠ x.vals.length then (x, .error .value)
    else if t ≠ x.dtype then (x, .error .value)
    else ({ x with vals := x.vals.map fun _ => v }, .ok none)
  else (x, .ok (some ⟨wrap, t, List.replicate n v⟩))

/-- `_fill_invalid_internal` (rt_fastarray.py:1660-1687), its result in the class `wrap` -/
def internal (x : Arr) (shape : Option Nat) (dtype : Option DType) (inplace : Bool) (fill : Option Val) (wrap : Class) : Res :=
  match fill with
  | some v => fillWith x (shape.getD x.vals.length) (dtype.getD x.dtype) inplace wrap v
  | none =>
    match invalidDict (dtype.getD x.dtype) with
    | none => (x, .error .key)
    | some v => fillWith x (shape.getD x.vals.length) (dtype.getD x.dtype) inplace wrap v

/-- `x.fill_invalid(shape, dtype, inplace)` by the class of `x`; days, times and spans pass their own type, whatever was asked for -/
def fillInvalid (x : Arr) (shape : Option Nat) (dtype : Option DType) (inplace : Bool) : Res :=
  match x.cls with
  | .plain => internal x shape dtype inplace none .plain
  | .date => internal x shape (some x.dtype) inplace (some (.i 0)) .date
  | .dateSpan => internal x shape (some x.dtype) inplace none .dateSpan
  | .nano => internal x shape (some x.dtype) inplace (some (.i 0)) .nano
  | .span => internal x shape (some x.dtype) inplace none .span
  | .cat base cats =>
    if base = some 1 then fillWith x (shape.getD x.vals.length) (dtype.getD x.dtype) inplace (.cat base cats) (.i 0)
    else (x, .error .type)
end Verif.FillInv
