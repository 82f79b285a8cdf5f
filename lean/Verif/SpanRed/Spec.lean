import Mathlib.Algebra.Order.Ring.Rat
/-! # What reductions of TimeSpans mean (C367, C368) -/
namespace Verif.SpanRed

/-- the rows that a filter keeps -/
def keptRows {α : Type} (l : List α) (m : List Bool) : List α := ((l.zip m).filter Prod.snd).map Prod.fst

/-- the same spans in another unit, with `k` new units in an old one; `none` is NaN -/
def inUnit (k : ℚ) (l : List (Option ℚ)) : List (Option ℚ) := l.map fun x => x.map fun q => k * q
end Verif.SpanRed
