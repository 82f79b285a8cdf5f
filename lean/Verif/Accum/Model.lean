import Verif.Basic
import Verif.Items.Model

/-!
# Model of `Accum2`, `riptable/rt_accum2.py`

Two Categoricals (rows and columns axis) and a data column.  The data is given row by row: code of
the rows axis, code of the columns axis, value, and whether the row passes the filters (the one
given to `Accum2` and the one given to the calculation, `:1011-1015`, taken together).  Codes are
those of `Grouping.ikey`: 1-based also for Categoricals with base index 0, 0 is filtered.

The C++ group-by computes `agg` of the values of each bin in row order (also of empty bins).
Not modelled: multikey axes, `badrows`/`badcols`, user functions, several data columns, dtypes.
-/
namespace Verif.Accum
open Verif.Items

/-- one axis: the labels in the order of the codes; whether results have to be sorted for display
(`sort_gb_data`, `rt_groupbykeys.py:87-93`) and the order for that (`isortrows`); whether the
Categorical has base index 0 -/
structure Axis where
  labels : List Name
  sortGb : Bool
  isort : List Nat
  base0 : Bool
  deriving DecidableEq

/-- `unique_count` -/
def Axis.n (a : Axis) : Nat := a.labels.length

/-- fancy indexing `l[idx]`; indices are in range in all uses (else an exception, here dropped) -/
def gather {α : Type} (l : List α) (idx : List Nat) : List α := idx.filterMap fun i => l[i]?

/-- labels as displayed, `rt_groupbykeys.py:137-180` `keys` -/
def Axis.shown (a : Axis) : List Name := if a.sortGb then gather a.labels a.isort else a.labels

/-- one row of data -/
structure Row (V : Type) where
  r : Nat
  c : Nat
  v : V
  pass : Bool
  deriving DecidableEq

/-- a column of the result: the labels of the rows, or values -/
inductive Col (V : Type) where
  | keys (l : List Name)
  | vals (l : List V)
  deriving DecidableEq

/-- what a calculation returns: the columns and the footer -/
structure Table (V : Type) where
  cols : Dict Name (Col V)
  footer : Dict Name V
  deriving DecidableEq

section
variable {V : Type}

/-- `rt_grouping.py:84-133` `combine2groups`, `rc.CombineAccum2Filter` (C++; the layout is the one
`_internal_getitem` and `make_dataset` read, `:259-261`, `:430-431`): bin of a row -/
def binOf (rows : Axis) (x : Row V) : Nat := if x.pass then x.c * (rows.n + 1) + x.r else 0

/-- `(R + 1) * (C + 1)`, `rt_grouping.py:130` -/
def nbins (rows cols : Axis) : Nat := (rows.n + 1) * (cols.n + 1)

/-- `rt_grouping.py:3285-3475` `_calculate_all(accum2=True)`: one value per bin `0 .. unique_count` -/
def calculate (agg : List V → V) (rows cols : Axis) (data : List (Row V)) : List V :=
  (List.range (nbins rows cols + 1)).map fun b => agg ((data.filter fun x => binOf rows x = b).map Row.v)

/-- `arr[start:stop]` -/
def slice {α : Type} (l : List α) (start stop : Nat) : List α := (l.take stop).drop start

def filteredName : Name := "Filtered".toList

/-- `:418-428`: an empty label is replaced -/
def colName (i : Nat) (label : Name) : Name := if label = [] then "Inv".toList ++ (toString i).toList else label

/-- `:383-385` -/
def sortIdx (rows : Axis) (showfilter : Bool) : List Nat :=
  if showfilter then 0 :: rows.isort.map (· + 1) else rows.isort

/-- `:417-436`: one column -/
def dataColumn (rows cols : Axis) (arr : List V) (showfilter : Bool) (i : Nat) : List V :=
  let base := if showfilter then 0 else 1
  let offsety := rows.n + 1
  let colIdx := 1 + (if cols.sortGb then cols.isort.getD i 0 else i)
  let start := base + colIdx * offsety
  let stop := start + offsety - base
  if rows.sortGb then gather (slice arr start stop) (sortIdx rows showfilter) else slice arr start stop

/-- `:375-405`: the key column and the column of filtered rows -/
def firstColumns (keyName : Name) (rows : Axis) (arr : List V) (showfilter : Bool) : Dict Name (Col V) :=
  let ds := [(keyName, Col.keys (if showfilter then filteredName :: rows.shown else rows.shown))]
  if showfilter then Dict.set ds filteredName (.vals (slice arr 0 (rows.n + 1))) else ds

/-- `:354-438` `make_dataset` -/
def makeDataset (keyName : Name) (rows cols : Axis) (arr : List V) (showfilter : Bool) : Dict Name (Col V) :=
  (List.range cols.n).foldl (fun (ds : Dict Name (Col V)) i =>
      Dict.set ds (colName i (cols.shown.getD i [])) (.vals (dataColumn rows cols arr showfilter i)))
    (firstColumns keyName rows arr showfilter)

/-! ## Totals -/

/-- `:335-351` `_make_imatrix`: the rows of the matrix; reshape in Fortran order -/
def makeImatrix (rows cols : Axis) (arr : List V) (showfilter : Bool) : List (List V) :=
  let tempi := if showfilter then slice arr 0 (arr.length - 1) else slice arr (rows.n + 1) (arr.length - 1)
  let ncols := if showfilter then cols.n + 1 else cols.n
  (List.range (rows.n + 1)).map fun i => (List.range ncols).filterMap fun j => tempi[i + j * (rows.n + 1)]?

/-- `:442-478` `_apply_2d_operation`: totals of the columns and of the rows -/
def apply2d (func : List V → V) (imatrix : List (List V)) (ncols : Nat) (showfilter : Bool) : List V × List V :=
  let totalsY := imatrix.map func
  let totalsX := (List.range ncols).map fun j =>
    let col := imatrix.filterMap fun row => row[j]?
    func (if showfilter then col else col.drop 1)
  (totalsX, if showfilter then totalsY else totalsY.drop 1)

/-- `:561-593` `_add_totals`; the lengths agree (see `accum2_totals`), so the branch for other lengths
(`:567-572`) is not modelled -/
def addTotals (ds : Dict Name (Col V)) (name : Name) (totalsX totalsY : List V) (total : V) : Table V :=
  let ds := Dict.set ds name (.vals totalsY)
  let footer := ((ds.keys.drop 1).zip totalsX).foldl (fun (f : Dict Name V) p => Dict.set f p.1 p.2) []
  ⟨ds, Dict.set footer name total⟩

/-- `:766-915` `_calc_onepass` without bad rows and columns -/
def onepass (func : List V → V) (rows cols : Axis) (ds : Dict Name (Col V)) (arr : List V) (name : Name)
    (showfilter : Bool) : Table V :=
  let t := apply2d func (makeImatrix rows cols arr showfilter) (if showfilter then cols.n + 1 else cols.n) showfilter
  let total := func t.2
  let totalsY := if rows.sortGb then gather t.2 (sortIdx rows showfilter) else t.2
  let totalsX := if cols.sortGb then gather t.1 (sortIdx cols showfilter) else t.1
  addTotals ds name totalsX totalsY total

/-- `:508-557` `_accum1_pass` with a function number; `code` selects the axis.  `:512-513` shifts
the codes of base index 0, though `Grouping.ikey` has already done so (`rt_grouping.py:1534-1536`). -/
def accum1 (agg : List V → V) (a : Axis) (code : Row V → Nat) (data : List (Row V)) (showfilter : Bool) : List V :=
  let key := fun x => if x.pass then (if a.base0 then code x + 1 else code x) else 0
  let res := (List.range (a.n + 1)).map fun b => agg ((data.filter fun x => key x = b).map Row.v)
  if showfilter then res else res.drop 1

/-- `:661-762` `_calc_multipass` without bad rows and columns -/
def multipass (agg func : List V → V) (rows cols : Axis) (ds : Dict Name (Col V)) (data : List (Row V)) (name : Name)
    (showfilter : Bool) : Table V :=
  let totalsX := accum1 agg cols Row.c data showfilter
  let totalsY := accum1 agg rows Row.r data showfilter
  addTotals ds name totalsX totalsY (func ((data.filter Row.pass).map Row.v))

/-- `:918-974` `_stack_dataset` for a function whose totals are computed from the cells -/
def accum2One (keyName name : Name) (agg func : List V → V) (rows cols : Axis) (data : List (Row V))
    (showfilter : Bool) : Table V :=
  let arr := calculate agg rows cols data
  onepass func rows cols (makeDataset keyName rows cols arr showfilter) arr name showfilter

/-- the same for a function whose totals are computed from the data -/
def accum2Multi (keyName name : Name) (agg func : List V → V) (rows cols : Axis) (data : List (Row V))
    (showfilter : Bool) : Table V :=
  let arr := calculate agg rows cols data
  multipass agg func rows cols (makeDataset keyName rows cols arr showfilter) data name showfilter

/-! ## One row of the `Accum2`, `:259-297` -/

/-- `:259-280` `_internal_getitem`: labels of the columns axis and of the rows axis, `none` for
filtered.  `get_bin` reads the labels of the key chain (`rt_groupbykeys.py:298-312`), which are in
display order once sorted. -/
def getItem (rows cols : Axis) (x : Row V) : Option Name × Option Name :=
  let b := binOf rows x
  let xi := b / (rows.n + 1)
  let yi := b % (rows.n + 1)
  (if xi = 0 then none else cols.shown[xi - 1]?, if yi = 0 then none else rows.shown[yi - 1]?)

end

/-! ## Saving and loading -/

/-- an `Accum2`: its two Categoricals -/
structure Acc (C : Type) where
  rows : C
  cols : C
  deriving DecidableEq

/-- `:1214-1244` `_build_sds_meta_data`: the Categoricals in the order they are written -/
def saveAcc {C : Type} (a : Acc C) : List C := [a.cols, a.rows]

/-- `:1248-1273` `_load_from_sds_meta_data`: `Accum2(cats[0], cats[1])`, with `Accum2(cat_rows, cat_cols)` -/
def loadAcc {C : Type} : List C → Option (Acc C)
  | r :: c :: _ => some ⟨r, c⟩
  | _ => none

end Verif.Accum
