import Mathlib.Algebra.Order.Field.Rat
/-!
# Model of `Dataset.outliers` (`rt_dataset.py:4414-4474`)

Columns hold numbers (`none` is NaN) or texts. `nanargmax` and `nanargmin` are computed in riptide_cpp and parameters; they are not computed
for texts. Simplified: numbers are exact and all numbers of the result have one type; labels and the order of the two results are left out.
-/
namespace Verif.Outlier

inductive Cell where
  | num (v : Option ℚ)
  | text (s : String)
deriving DecidableEq

inductive Col where
  | num (l : List (Option ℚ))
  | text (l : List String)

def Col.cells : Col → List Cell
  | .num l => l.map .num
  | .text l => l.map .text

abbrev Arg := List (Option ℚ) → Option Nat

/-- `pos[c][0]` (`:4427`): raises for texts -/
def pos (arg : Arg) : Col → Option Nat
  | .num l => arg l
  | .text _ => none

/-- what is appended to `row_func`, `row_namefunc` and `row_pos` for a column (`:4425-4437`) -/
def row (arg : Arg) (keep : List Cell) (dflt : Cell) (c : Col) : Cell × Cell × Cell :=
  match pos arg c with
  | some p => (c.cells.getD p (.num none), keep.getD p dflt, .num (some p))
  | none => (.num none, dflt, .num (some (-1)))

abbrev Out := List (String × List Cell)

/-- `ds[name] = values`: replaces a column or appends one -/
def assign (ds : Out) (name : String) (values : List Cell) : Out :=
  if name ∈ ds.map Prod.fst then ds.map fun c => if c.1 = name then (name, values) else c
  else ds ++ [(name, values)]

/-- the columns other than `col_keep` (`:4422-4424`) -/
def others (ds : List (String × Col)) (keep : String) : List (String × Col) := ds.filter fun c => c.1 ≠ keep

/-- `_apply_outlier` (`:4414-4444`), with the Names of `outliers` (`:4458-4462`) -/
def applyOutlier (arg : Arg) (dflt : Cell) (ds : List (String × Col)) (keep : String) : Option Out :=
  match ds.lookup keep with
  | none => none
  | some k =>
    let rows := (others ds keep).map fun c => row arg k.cells dflt c.2
    let out := assign [] "Values" (rows.map fun r => r.1)
    let out := assign out keep (rows.map fun r => r.2.1)
    let out := assign out "Pos" (rows.map fun r => r.2.2)
    some (assign out "Names" ((others ds keep).map fun c => .text c.1))

/-- `outliers` (`:4446-4474`): Min and Max -/
def outliers (argmin argmax : Arg) (dflt : Cell) (ds : List (String × Col)) (keep : String) : Option (Out × Out) :=
  (applyOutlier argmin dflt ds keep).bind fun a => (applyOutlier argmax dflt ds keep).map fun b => (a, b)

end Verif.Outlier
