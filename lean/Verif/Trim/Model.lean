import Verif.Idx.Model
import Verif.Trim.Spec
/-!
# `Dataset.trim` and `Dataset.keep`: model of `rt_dataset.py:7787-7984`

`func` is the test, already chosen (`:7859-7867`); it gives `none` when the result is not an array of bools. `inplace c` says that for
column `c` it returns the column itself and not a new array (for example `lambda x: x` and a column of bools), so that
`rowmask *= arr` changes the Dataset; `ofBool` is the item for a bool.
-/
namespace Verif.Trim
open Verif.Items (Dict)
open Verif.Idx (Table Err Got getitem)

variable {V : Type}

/-- one round of the loop `:7874-7899`: whether the column is in `col_filter`, and what is appended to `col_filter_mask` -/
def judge (labels : List String) (computable : String → Bool) (func : List V → Option (List Bool)) (columns keep : Bool)
    (e : String × List V) : Bool × Option (List Bool) :=
  if e.1 ∉ labels ∧ computable e.1 = true then
    match func e.2 with
    | some r =>
      let addcol := if keep then decide (r.count true ≠ 0) else decide (r.count true ≠ e.2.length)
      if addcol || !columns then (true, some r) else (false, none)
    | none => (true, none)
  else (true, none)

/-- `:7904-7919` -/
def combine (keep : Bool) (m : List Bool) (ms : List (List Bool)) : List Bool :=
  ms.foldl (fun (acc x : List Bool) => List.zipWith (fun (a b : Bool) => if keep then a || b else a && b) acc x) m

/-- `:7922-7934` -/
def rowFilter (keep : Bool) : Option (List Bool) → Option (List Bool)
  | none => none
  | some r =>
    if keep then if r.count true ≠ r.length then some r else none
    else if r.count true ≠ 0 then some (r.map fun (b : Bool) => !b) else none

/-- `rowmask` (`:7902-7919`) with the column it comes from -/
def rowMask (rows keep : Bool) : List (String × List Bool) → Option (String × List Bool)
  | [] => none
  | m :: ms => if rows then some (m.1, combine keep m.2 (ms.map Prod.snd)) else none

/-- the Dataset after `rowmask += arr` or `rowmask *= arr` -/
def written (ofBool : Bool → V) (inplace : String → Bool) (t : Table V) : Option (String × List Bool) → Table V
  | some m => if inplace m.1 then Dict.set t m.1 (m.2.map ofBool) else t
  | none => t

/-- `trim` (`:7787-7949`): what it returns, and the Dataset afterwards -/
def trim [DecidableEq V] (inv : V) (ofBool : Bool → V) (inplace : String → Bool) (t : Table V) (n : Nat) (labels : List String)
    (computable : String → Bool) (func : List V → Option (List Bool)) (columns rows keep : Bool) : Except Err (Got V) × Table V :=
  let colFilter := (t.filter fun (e : String × List V) => (judge labels computable func columns keep e).1).map Prod.fst
  let masks := t.filterMap fun (e : String × List V) => (judge labels computable func columns keep e).2.map fun (r : List Bool) => (e.1, r)
  let rowmask := rowMask rows keep masks
  let self := written ofBool inplace t rowmask
  (getitem inv self n labels ((rowFilter keep (rowmask.map Prod.snd)).map .boolArr) (.names colFilter), self)

/-- `keep` (`:7952-7984`) -/
def keepRows [DecidableEq V] (inv : V) (ofBool : Bool → V) (inplace : String → Bool) (t : Table V) (n : Nat) (labels : List String)
    (computable : String → Bool) (func : List V → Option (List Bool)) (rows : Bool) : Except Err (Got V) × Table V :=
  trim inv ofBool inplace t n labels computable func true rows true

end Verif.Trim
