import Mathlib.Data.List.Basic
/-!
# Model of `grpFillForward`, `grpFillBackward`, `grpFillForwardBackward` (`rt_groupbynumba.py:494-593`)

`none` is NaN. A group is its list of rows, `iGroup[startIdx:endIdx]`; group 0 (rows in no group) is left out by the loops, as in the code.
Simplified: groups are worked on one after the other (their rows are different, so threads do not meet); the result is a column of memory
`mem` that is not initialised (`empty`). That numba functions can be called through the instance, as these methods do, is assumed.
-/
namespace Verif.GrpFill

variable {α : Type}

/-- loop of `_numbaFillForward` (`:506-511`) -/
def forward : Option α → List (Option α) → List (Option α)
  | _, [] => []
  | fill, none :: l => fill :: forward fill l
  | _, some v :: l => some v :: forward (some v) l

/-- loop of `_numbaFillBackward` (`:527-532`) from the last row: the value to fill with, and the rows -/
def backward : List (Option α) → Option α × List (Option α)
  | [] => (none, [])
  | none :: l => ((backward l).1, (backward l).1 :: (backward l).2)
  | some v :: l => (some v, some v :: (backward l).2)

/-- `ret[rowIdx] = rows` -/
def scatter : List (Option α) → List Nat → List (Option α) → List (Option α)
  | ret, i :: is, v :: vs => scatter (ret.set i v) is vs
  | ret, _, _ => ret

/-- the loop over the groups (`:500-513`, `:521-534`) -/
def kernel (f : List (Option α) → List (Option α)) (groups : List (List Nat)) (data mem : List (Option α)) : List (Option α) :=
  groups.foldl (fun ret g => scatter ret g (f (g.map fun i => data.getD i none))) mem

/-- a column of `grpFillForward` (`:536-553`) -/
def fillForward (groups : List (List Nat)) (data mem : List (Option α)) : List (Option α) := kernel (forward none) groups data mem

/-- a column of `grpFillBackward` (`:555-572`) -/
def fillBackward (groups : List (List Nat)) (data mem : List (Option α)) : List (Option α) := kernel (fun l => (backward l).2) groups data mem

/-- a column of `grpFillForwardBackward` (`:574-593`) -/
def fillBoth (groups : List (List Nat)) (data mem mem' : List (Option α)) : List (Option α) :=
  fillBackward groups (fillForward groups data mem) mem'

end Verif.GrpFill
