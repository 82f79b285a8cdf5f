import Verif.Basic
import Verif.Items.Model
import Verif.Cols.Spec

/-!
# Model: functions and arithmetic on all columns of a Dataset

Models `/repo/riptable/rt_dataset.py` lines 2320-2604 (`apply_cols`, `_construct_new_footers`,
`_add_labels_footers_summaries`, `_operate_iter_input_cols`, `_labels_footers_summaries_conform`)
with 2606-2728 (the operators, which call `apply_cols`) and 643-687 (the constructor from a
dictionary).

Simplifications, for all definitions below:
* an array is a list with the answer of `iscomputable`; the function with its arguments is a
  parameter `f`, which may raise; a scalar is an array of one entry, as the constructor makes it;
  arrays of shape `(n, 1)` and lists are left out;
* names starting with `_` and names which are not valid column names are left out;
* the footers are what `footer_get_values` returns: for each footer label a list along the
  columns, `none` where a column has no value (`Verif.Foot` models how they are stored); footer
  values are numbers;
* a callable `fill_value` on a footer row with missing values is taken to raise.
-/
namespace Verif.Cols
open Verif.Items (Dict)
open Spec (Col Arg)

variable {V : Type}

/-- Exceptions: `ValueError`, whatever the function raises, others. -/
inductive Err
  | value
  | func
  | other
deriving DecidableEq

/-- what a function returns for an array: `None`, or an array -/
abbrev Out (V : Type) := Option (Col V)

/-- `fill_value` for one column -/
inductive Fill (V : Type)
  | no
  | func (g : List V → Except Err (Out V))
  | one (c : Col V)

/-- `fill_value` as passed: the same for all columns, or a dictionary -/
inductive FillArg (V : Type)
  | all (f : Fill V)
  | byName (d : Dict String (Fill V))

/-- lines 2444-2451 -/
def FillArg.at : FillArg V → String → Fill V
  | .all f, _ => f
  | .byName d, n => (d.get n).getD .no

/-- A Dataset. -/
structure Ds (V : Type) where
  cols : Dict String (Col V)
  labels : List String
  summaries : List String
  footers : Dict String (List (Option V))
deriving DecidableEq

/-- `_operate_on_array` (2419-2435) -/
def operate (f : List V → Except Err (Out V)) (fv : Fill V) (c : Col V) : Except Err (Out V) :=
  if c.comp then f c.vals
  else match fv with
    | .func g => g c.vals
    | .one x => .ok (some x)
    | .no => .ok (some c)

/-- the loop of `apply_cols` (2437-2452) -/
def outs (f : List V → Except Err (Out V)) (fill : FillArg V) (labels : List String) (labelsToo : Bool) :
    Dict String (Col V) → Except Err (Dict String (Out V))
  | [] => .ok []
  | (n, c) :: cs => do
    let o ← if n ∈ labels ∧ labelsToo = false then Except.ok (some c) else operate f (fill.at n) c
    let os ← outs f fill labels labelsToo cs
    pure ((n, o) :: os)

/-- all columns are there (a `None` cannot become a column, 510-540) -/
def present : Dict String (Out V) → Option (Dict String (Col V))
  | [] => some []
  | (n, o) :: os => o.bind fun c => (present os).map ((n, c) :: ·)

/-- all columns have the length of the first one (673-687) -/
def even (cols : Dict String (Col V)) : Bool :=
  match cols with
  | [] => true
  | e :: es => es.all fun e' => e'.2.vals.length = e.2.vals.length

/-- `type(self)(od)` (2456-2459; 643-687) -/
def construct (od : Dict String (Out V)) : Except Err (Dict String (Col V)) :=
  match present od with
  | none => .error .value
  | some cols => if even cols then .ok cols else .error .value

/-- `"Summary" + str(i)` -/
def summaryName (i : Nat) : String := "Summary" ++ toString i

/-- `col_rename` (rt_itemcontainer.py 409-440) -/
def renameCol (d : Dict String (Col V)) (old new : String) : Except Err (Dict String (Col V)) :=
  if old = new then .ok d
  else if !d.has old then .error .value
  else if d.has new then .error .value
  else .ok (d.map fun e => (if e.1 = old then new else e.1, e.2))

/-- lines 2463-2466 -/
def renameAll : List String → Nat → Dict String (Col V) → Except Err (Dict String (Col V))
  | [], _, d => .ok d
  | s :: ss, i, d => do
    let d' ← renameCol d s (summaryName i)
    renameAll ss (i + 1) d'

/-- the values of a footer row if none is missing -/
def whole : List (Option V) → Option (List V)
  | [] => some []
  | o :: os => o.bind fun v => (whole os).map (v :: ·)

/-- `_operate_on_array(FastArray(self_footervals[num_labels:]), …)` (2474-2475); `none` is an
exception.  With a missing value the array holds Python objects and is not computable.  `fv` is
the variable `fval` as the loop over the columns has left it. -/
def footOp (f : List V → Except Err (Out V)) (fv : Option (Fill V)) (row : List (Option V)) : Option (List (Option V)) :=
  match whole row with
  | some vs =>
    match f vs with
    | .ok (some c) => some (c.vals.map some)
    | _ => none
  | none =>
    match fv with
    | some .no => some row
    | _ => none

/-- the inner loop of `_construct_new_footers` (2486-2496), from the column after the first
`num_labels` on: the names of the summary columns are taken in the order of the columns; `none`
is an IndexError -/
def footCells (summ : List String) : List String → List (Option V) → List String → Option (Dict String (Option V))
  | [], _, _ => some []
  | _ :: _, [], _ => none
  | n :: ns, a :: as, sn =>
    if n ∈ summ then
      match sn with
      | [] => none
      | s :: sn' => (footCells summ ns as sn').map ((s, a) :: ·)
    else (footCells summ ns as sn).map ((n, a) :: ·)

/-- the names and rows of the new footers (2497, 2508-2509), as `footer_get_values` of the result
shows them -/
def footRows (keys : List String) : Nat → List (Dict String (Option V)) → Dict String (List (Option V))
  | _, [] => []
  | k, d :: ds => ("Footer" ++ toString k, keys.map fun n => (d.get n).join) :: footRows keys (k + 1) ds

/-- every element, or nothing -/
def every {α β : Type} (g : α → Option β) : List α → Option (List β)
  | [] => some []
  | a :: as => (g a).bind fun b => (every g as).map (b :: ·)

/-- `_construct_new_footers` (2482-2500) and `footer_set_values` for each (2507-2509); `none` is an
IndexError, after which there are no footers -/
def newFooters (d : Ds V) (sn : List String) (keys : List String) (arrays : List (List (Option V))) : Dict String (List (Option V)) :=
  match every (fun a => footCells d.summaries (d.cols.keys.drop d.labels.length) a sn) arrays with
  | none => []
  | some ds => footRows keys 0 ds

/-- the fill value the loop has left behind; `none` if it has not run -/
def lastFill (fill : FillArg V) (labelsToo : Bool) (d : Ds V) : Option (Fill V) :=
  ((d.cols.keys.filter fun n => labelsToo || decide (n ∉ d.labels)).getLast?).map fill.at

/-- lines 2468-2478 -/
def applyFooters (f : List V → Except Err (Out V)) (fill : FillArg V) (labelsToo : Bool) (d : Ds V)
    (sn keys : List String) : Dict String (List (Option V)) :=
  match every (fun row => footOp f (lastFill fill labelsToo d) (row.drop d.labels.length)) (d.footers.map Prod.snd) with
  | none => []
  | some arrays => newFooters d sn keys arrays

/-- `apply_cols` with a unary function, or with a number or an array as first argument (then `f`
is the function with that argument).  The result `none` is Python's `None`. -/
def applyCols (f : List V → Except Err (Out V)) (fill : FillArg V) (labelsToo : Bool) (d : Ds V) : Except Err (Option (Ds V)) := do
  let od ← outs f fill d.labels labelsToo d.cols
  if od.all fun e => e.2.isNone then pure none
  else
    let cols ← construct od
    let cols' ← renameAll d.summaries 0 cols
    let sn := (List.range d.summaries.length).map summaryName
    pure (some { cols := cols', labels := d.labels.filter fun n => cols'.has n, summaries := sn
                 footers := applyFooters f fill labelsToo d sn cols'.keys })

/-- the other operand: a Struct of numbers and arrays, or a Dataset -/
inductive Other (V : Type)
  | struct (cols : Dict String (Arg V))
  | ds (d : Ds V)

/-- its columns -/
def Other.cols : Other V → Dict String (Arg V)
  | .struct c => c
  | .ds d => d.cols.map fun e => (e.1, .arr e.2.vals)

/-- `summary_get_names` of the other operand -/
def Other.summaries : Other V → List String
  | .struct _ => []
  | .ds d => d.summaries

/-- `_footers_conform` (2562-2573) -/
def footersConform (a b : Ds V) : Bool :=
  a.footers.length = b.footers.length ∧
  (List.zip (a.footers.map Prod.snd) (b.footers.map Prod.snd)).all fun e => e.1.length = e.2.length

/-- `_get_indexes` (2576-2577) -/
def indexes (keys names : List String) : List Nat := names.map fun n => keys.idxOf n

/-- `_columns_conform` for the labels (2575-2594) -/
def labelsConform (a b : Ds V) : Bool :=
  (a.labels = [] ∧ b.labels = []) ∨
  (a.labels ≠ [] ∧ b.labels ≠ [] ∧ indexes a.cols.keys a.labels = indexes b.cols.keys b.labels ∧
    indexes a.cols.keys a.labels = List.range a.labels.length)

/-- `_columns_conform` for the summaries -/
def summariesConform (a b : Ds V) : Bool :=
  (a.summaries = [] ∧ b.summaries = []) ∨
  (a.summaries ≠ [] ∧ b.summaries ≠ [] ∧ indexes a.cols.keys a.summaries = indexes b.cols.keys b.summaries ∧
    indexes a.cols.keys a.summaries = (List.range a.cols.length).drop (a.cols.length - a.summaries.length))

/-- `_labels_footers_summaries_conform` (2561-2604) -/
def conforms (a : Ds V) : Other V → Bool
  | .struct _ => false
  | .ds b => footersConform a b && labelsConform a b && summariesConform a b

/-- `Dataset({"a": col}).apply_cols(f, arg, fill_value=…)` and `.a` of it (2535-2539): the column is
called `a` there -/
def single (f : List V → Arg V → Except Err (Out V)) (fill : FillArg V) (c : Col V) (a : Arg V) : Except Err (Col V) :=
  if a.fits c.vals.length then
    match operate (fun xs => f xs a) (fill.at "a") c with
    | .error e => .error e
    | .ok none => .error .other
    | .ok (some r) => .ok r
  else .error .value

/-- one column (2534-2541) -/
def oneCol (f : List V → Arg V → Except Err (Out V)) (fill : FillArg V) (labels : List String) (n : String) (c : Col V) :
    Option (Arg V) → Except Err (Col V)
  | some a => if n ∈ labels then Except.ok c else single f fill c a
  | none => Except.ok c

/-- the loop of `_operate_iter_input_cols` (2527-2541); `k` is the number of summary columns seen -/
def iterCols (f : List V → Arg V → Except Err (Out V)) (fill : FillArg V) (conform : Bool) (d : Ds V) (o : Other V) :
    Nat → Dict String (Col V) → Dict String (Col V) → Except Err (Dict String (Col V))
  | _, od, [] => .ok od
  | k, od, (n, c) :: cs => do
    let summary : Bool := conform && decide (n ∈ d.summaries)
    let to := if summary then summaryName k else n
    let from' := if summary then o.summaries.getD k "" else n
    let r ← oneCol f fill d.labels n c (o.cols.get from')
    iterCols f fill conform d o (if summary then k + 1 else k) (od.set to r) cs

/-- one pair of footer rows (2549-2556); missing values are NaN here -/
def footPair (f : List V → Arg V → Except Err (Out V)) (nan : V) (nl : Nat) (row row' : List (Option V)) : Except Err (List (Option V)) :=
  if (row'.drop nl).length = (row.drop nl).length then
    match f ((row.map fun o => o.getD nan).drop nl) (.arr ((row'.map fun o => o.getD nan).drop nl)) with
    | .error e => .error e
    | .ok none => .error .other
    | .ok (some c) => .ok (c.vals.map some)
  else .error .value

/-- the loop over the footers -/
def footPairs (f : List V → Arg V → Except Err (Out V)) (nan : V) (nl : Nat) :
    List (List (Option V)) → List (List (Option V)) → Except Err (List (List (Option V)))
  | r :: rs, r' :: rs' => do
    let a ← footPair f nan nl r r'
    let as ← footPairs f nan nl rs rs'
    pure (a :: as)
  | _, _ => .ok []

/-- the footers of the other operand -/
def Other.footers : Other V → Dict String (List (Option V))
  | .struct _ => []
  | .ds d => d.footers

/-- `_operate_iter_input_cols` (2512-2559) -/
def operateIter (f : List V → Arg V → Except Err (Out V)) (nan : V) (fill : FillArg V) (d : Ds V) (o : Other V) : Except Err (Option (Ds V)) := do
  let conform := conforms d o
  let od ← iterCols f fill conform d o 0 [] d.cols
  if od = [] then pure none
  else if even od then
    let sn := if conform then (List.range d.summaries.length).map summaryName else []
    let foots ← if conform ∧ d.footers ≠ [] then
        (footPairs f nan d.labels.length (d.footers.map Prod.snd) (o.footers.map Prod.snd)).map (newFooters d sn od.keys)
      else Except.ok []
    pure (some { cols := od, labels := d.labels.filter fun n => od.has n, summaries := sn, footers := foots })
  else .error .value

/-- number of rows -/
def nrows (d : Ds V) : Nat := match d.cols with
  | [] => 0
  | e :: _ => e.2.vals.length

/-- `apply_cols` with a Struct or a Dataset as first argument (2409-2417): the columns it has in
common with `self` must fit -/
def applyOther (f : List V → Arg V → Except Err (Out V)) (nan : V) (fill : FillArg V) (d : Ds V) (o : Other V) : Except Err (Option (Ds V)) :=
  if o.cols.all fun e => !d.cols.has e.1 || e.2.fits (nrows d) then operateIter f nan fill d o
  else .error .value

/-! ## In place -/

/-- a Dataset whose arrays are in memory: for each column whether one can compute with it, and
the address of its array; two columns may share an array -/
structure Mem where
  cols : Dict String (Bool × Nat)
  labels : List String
deriving DecidableEq

/-- `ds += x` (2606-2644 with 2437-2452): each computable column that is not a label is changed in
place, one after another.  The memory afterwards, and the exception if `f` raises. -/
def inplace (f : List V → Except Err (List V)) (labels : List String) : Dict String (Bool × Nat) → List (List V) → List (List V) × Option Err
  | [], h => (h, none)
  | (n, comp, a) :: cs, h =>
    if comp = true ∧ n ∉ labels then
      match f (h.getD a []) with
      | .error e => (h, some e)
      | .ok xs => inplace f labels cs (h.set a xs)
    else inplace f labels cs h

end Verif.Cols
