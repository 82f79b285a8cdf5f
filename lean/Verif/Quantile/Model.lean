import Mathlib.Data.List.Sort
import Mathlib.Data.Rat.Floor
import Verif.Basic
/-!
# Model of `quantile` and `describe_helper` (`riptable/rt_utils.py:779-936`)

Columns of integers with one sentinel for invalid entries.  Simplified: floating point arithmetic is exact (rationals), so
`modf` splits exactly; `none` is NaN.
-/
namespace Verif.Quantile

/-- where the sentinel sorts: signed integers (`arr.dtype.char in NumpyCharTypes.Integer`) use the smallest value, unsigned
ones the largest; NaN sorts last as well -/
inductive Kind
  | signed
  | unsigned
deriving DecidableEq

/-- `interpolate` (`:779-793`): value (NaN past the end) and the whole part of the index -/
def interpolate (data : List Int) (fi : Rat) : Except String (Option Rat × Int) :=
  let whole := fi.floor
  let frac := fi - whole
  if fi < 0 then .error "ValueError"
  else if fi > (data.length : Rat) - 1 then .ok (none, whole)
  else if frac = 0 then .ok ((data[whole.toNat]?).map fun x : Int => (x : Rat), whole)
  else
    match data[whole.toNat]?, data[whole.toNat + 1]? with
    | some x, some y => .ok (some ((1 - frac) * (x : Rat) + frac * (y : Rat)), whole)
    | _, _ => .error "IndexError"

/-- `interp, _ = interpolate(data, fi)` -/
def valueAt (data : List Int) (fi : Rat) : Except String (Option Rat) :=
  match interpolate data fi with
  | .ok r => .ok r.1
  | .error e => .error e

/-- number of valid entries (`arr.isnotnan().sum()`) -/
def cvalid (inv : Int) (arr : List Int) : Nat := (arr.filter (· ≠ inv)).length

/-- `arr.copy().sort()` -/
def sorted (arr : List Int) : List Int := arr.insertionSort (· ≤ ·)

/-- `quantile`, the slice of valid entries (`:824-834`); `arr_sort[notvalid:-1]` for signed integers -/
def validSlice (k : Kind) (inv : Int) (arr : List Int) : List Int :=
  if cvalid inv arr = arr.length then sorted arr
  else
    match k with
    | .signed => ((sorted arr).take (arr.length - 1)).drop (arr.length - cvalid inv arr)
    | .unsigned => (sorted arr).take (cvalid inv arr)

/-- `quantile` (`:797-853`) -/
def quantile (k : Kind) (inv : Int) (arr : List Int) (q : List Rat) : Except String (List (Option Rat)) :=
  if cvalid inv arr = 0 then .ok (q.map fun _ => none)
  else q.mapM fun p => valueAt (validSlice k inv arr) (p * ((cvalid inv arr : Rat) - 1))

/-- `describe_helper`, the slice of valid entries (`:890-900`); `arr_sort[notvalid:]` for signed integers -/
def describeSlice (k : Kind) (inv : Int) (arr : List Int) : List Int :=
  if cvalid inv arr = arr.length then sorted arr
  else
    match k with
    | .signed => (sorted arr).drop (arr.length - cvalid inv arr)
    | .unsigned => (sorted arr).take (cvalid inv arr)

/-- what `describe_helper` returns, except the standard deviation -/
structure Description where
  count : Nat
  valid : Nat
  nans : Nat
  mean : Option Rat
  min : Option Rat
  quantiles : List (Option Rat)
  max : Option Rat
  meanm : Option Rat

/-- `x.mean()` -/
def mean (l : List Int) : Option Rat := if l.length = 0 then none else some ((l.sum : Rat) / l.length)

/-- `describe_helper` (`:857-936`).  Simplified: without valid entries `nans` is NaN in the code, not a number (`:879`);
here it is the number of entries. -/
def describe (k : Kind) (inv : Int) (arr : List Int) (q : List Rat) : Except String Description :=
  let cv := cvalid inv arr
  if cv = 0 then .ok ⟨arr.length, cv, arr.length, none, none, q.map fun _ => none, none, none⟩
  else
    let valid := describeSlice k inv arr
    let m1 : Rat := (cv : Rat) - 1
    match interpolate valid (1 / 10 * m1), interpolate valid (9 / 10 * m1),
        q.mapM (fun p => valueAt valid (p * m1)) with
    | .ok d1, .ok d9, .ok qs =>
      let d9break := if 9 / 10 * m1 - ((9 / 10 * m1 : Rat).floor : Rat) ≠ 0 then d9.2 + 1 else d9.2
      let d9break := d9break + 1
      let d9break := if d9break > cv then (cv : Int) else d9break
      let validm := (valid.take d9break.toNat).drop d1.2.toNat
      .ok ⟨arr.length, cv, arr.length - cv, mean valid, (valid.head?).map fun x : Int => (x : Rat), qs,
        (valid.getLast?).map fun x : Int => (x : Rat), if validm.length > 0 then mean validm else none⟩
    | .error e, _, _ => .error e
    | _, .error e, _ => .error e
    | _, _, .error e => .error e

end Verif.Quantile
