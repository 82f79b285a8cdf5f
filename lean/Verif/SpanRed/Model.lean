import Mathlib.Algebra.Order.Ring.Rat
import Mathlib.Algebra.Order.Field.Basic
import Mathlib.Algebra.BigOperators.Group.List.Basic
/-!
# Reductions of TimeSpans (C367, C368)

`riptable/rt_datetime.py`: 7027-7057 (`_reduce_func_builder`: `sum`, `mean`, `var`, `min`, `max`, `median` and the same with `nan`), on top of the
reductions of FastArrays by their documented results: with `filter` only the kept rows count, NaN is the result if one of the rows is NaN, and the
functions with `nan` leave them out. Spans are rational numbers of nanoseconds, `none` is NaN. `std` is the root of `var` and is left out, as are
rounding, `axis`, `dtype` and spans of more than one dimension.
-/
namespace Verif.SpanRed

/-- the reductions of 7034-7048 -/
inductive Red where
  | sum | mean | var | min | max | median
deriving DecidableEq, Repr

/-- the mean of at least one number -/
def meanOf (l : List ℚ) : ℚ := l.sum / l.length

/-- the middle of sorted numbers -/
def middle (s : List ℚ) : Option ℚ :=
  if s.length % 2 = 1 then s[s.length / 2]?
  else do
    let a ← s[s.length / 2 - 1]?
    let b ← s[s.length / 2]?
    some ((a + b) / 2)

/-- the smaller one is kept -/
def least : List ℚ → Option ℚ
  | [] => none
  | x :: l => some (l.foldl (fun a b => if b < a then b else a) x)

/-- the larger one is kept -/
def greatest : List ℚ → Option ℚ
  | [] => none
  | x :: l => some (l.foldl (fun a b => if a < b then b else a) x)

/-- FastArray's reductions of numbers as documented (`rt_fastarray.py:3190-3960`), `var` with one degree of freedom less -/
def reduceNumbers : Red → List ℚ → Option ℚ
  | .sum, l => some l.sum
  | .mean, l => if l.length = 0 then none else some (meanOf l)
  | .var, l => if l.length < 2 then none else some ((l.map fun x => (x - meanOf l) ^ 2).sum / (l.length - 1))
  | .min, l => least l
  | .max, l => greatest l
  | .median, l => if l.length = 0 then none else middle (l.mergeSort fun a b => decide (a ≤ b))

/-- the numbers among the rows, `none` if one is NaN and they are not skipped -/
def numbers (nan : Bool) (l : List (Option ℚ)) : Option (List ℚ) :=
  if nan then some (l.filterMap id) else l.mapM id

/-- the rows where the filter is True -/
def select {α : Type} : List α → List Bool → List α
  | x :: l, b :: m => if b then x :: select l m else select l m
  | _, _ => []

/-- `FastArray.sum(filter=…)` and so on (`rt_fastarray.py:3145-3160`) -/
def arrayReduce (f : Red) (nan : Bool) (l : List (Option ℚ)) (filter : Option (List Bool)) : Option ℚ :=
  (numbers nan (match filter with
    | none => l
    | some m => select l m)).bind (reduceNumbers f)

/-- `TimeSpan.sum(**kwargs)` and so on (rt_datetime.py:7051-7055): `self._fa.sum()` without the arguments, then a TimeSpan of it -/
def spanReduce (f : Red) (nan : Bool) (l : List (Option ℚ)) (_filter : Option (List Bool)) : Option ℚ :=
  arrayReduce f nan l none
end Verif.SpanRed
