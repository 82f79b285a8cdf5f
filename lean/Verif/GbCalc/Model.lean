import Verif.GbCalc.Spec
/-!
# Arguments, names and columns of group-by operations: model

`GroupByOps.get_header_names`, `_prepare_gb_data`, `agg` (`rt_groupbyops.py`), `Grouping._get_calculate_dict`,
`_calculate_all`, `_make_accum_dataset`, `_return_dataset`, `_finalize_dataset` (`rt_grouping.py`), `GroupBy._calculate_all`,
`GroupBy._getitem` (`rt_groupby.py`) and `Categorical._calculate_all` (`rt_categorical.py`). The calculation of one column is
C++ and a parameter `agg`: name of the operation and column to one value per group, `none` when it cannot be calculated.
-/
namespace Verif.GbCalc

/-- `d[k] = v` of an ordered dictionary: overwritten in place, otherwise added at the end -/
def put {A : Type} (d : List (Name × A)) (k : Name) (v : A) : List (Name × A) :=
  if k ∈ names d then d.map fun p => if p.1 = k then (k, v) else p else d ++ [(k, v)]

/-- `dict(zip(names, values))` -/
def dictOf {A : Type} (l : List (Name × A)) : List (Name × A) := l.foldl (fun d p => put d p.1 p.2) []

/-! ## Names of arrays -/

/-- `str(i)` -/
def str (i : Nat) : Name := Nat.toDigits 10 i

/-- `get_array_name` for all arrays (`rt_groupbyops.py:580-595`) -/
def rawNames (l : List (Option Name)) : List Name :=
  l.zipIdx.map fun p => match p.1 with | some n => n | none => "col_".toList ++ str p.2

/-- `while new_name in headers: counter += 1` (`:608-610`); the search stops after one more step than there are headers,
`free_isSome` shows that it has succeeded by then -/
def free (headers : List Name) (name : Name) (counter : Nat) : Option Nat :=
  ((List.range (headers.length + 1)).map (counter + ·)).find? fun k => decide (name ++ str k ∉ headers)

/-- one step of the loop `:601-616`; state: `unique_dict`, `final_headers` -/
def headerStep (headers : List Name) (s : List (Name × Nat) × List Name) (name : Name) : List (Name × Nat) × List Name :=
  match at? s.1 name with
  | none => (put s.1 name 1, s.2 ++ [name])
  | some c =>
    let k := (free headers name c).getD c
    (put s.1 name (k + 1), s.2 ++ [name ++ str k])

/-- `get_header_names` for a list of arrays (`:577-618`) -/
def headerNames (l : List (Option Name)) : List Name :=
  ((rawNames l).foldl (headerStep (rawNames l)) ([], [])).2

/-! ## Arguments -/

/-- the first argument of an operation: an array or a list or tuple of arrays (each with its name; lists of lists or of
scalars become arrays without a name; a single array is treated like a list of one), a `Dataset` or `dict`, or a list of them -/
inductive Arg (V : Type)
  | arrays (tup : Bool) (l : List (Option Name × Col V))
  | table (t : List (Name × Col V))
  | tables (l : List (List (Name × Col V)))

/-- `_prepare_gb_data` (`rt_groupbyops.py:649-856`) for the operations other than `apply*`. `own` is `self._dataset`, `gb` says
whether it is called from a `GroupBy`, `dataset` is the keyword. Arguments after the first one become `user_args`, which the
operations do not look at. `none` is the `ValueError` for missing data. -/
def prepare {V : Type} (own : Option (List (Name × Col V))) (gb : Bool) (args : List (Arg V))
    (dataset : Option (List (Name × Col V))) : Option (List (Name × Col V)) :=
  let special := fun (tup : Bool) => tup && own.isSome && gb
  let ds : Option (List (Name × Col V)) :=
    match args with
    | .arrays _ [] :: _ => none
    | .arrays tup l :: _ => if special tup then none else some (dictOf ((headerNames (l.map Prod.fst)).zip (l.map Prod.snd)))
    | .table t :: _ => some t
    | .tables (t :: _) :: _ => some t
    | .tables [] :: _ => none
    | [] => none
  match dataset with
  | some d =>
    let d' :=
      match args with
      | .arrays tup l :: _ =>
        if special tup && !l.isEmpty then
          d.filter fun p => !(l.any fun a => decide (a.1 = some p.1) && decide (a.2.ident = p.2.ident))
        else d
      | _ => d
    some (match ds with | some t => t.foldl (fun d p => put d p.1 p.2) d' | none => d')
  | none => match ds with | some t => some t | none => own

/-! ## Calculation -/

/-- `k in s` for texts: `k` stands at some position of `s` -/
def isPart (k s : Name) : Bool := (List.range (s.length + 1)).any fun i => k.isPrefixOf (s.drop i)

/-- `key in col_idx` (`rt_grouping.py:2449`): for a text Python's `in` looks for a part of the text -/
def Sel.has : Sel → Name → Bool
  | .text s, k => isPart k s
  | .list l, k => decide (k ∈ l)

/-- `funcNum` is in the list of operations allowed for the kind of column (`rt_enum.py:536-565`) -/
def stringAllowed : List Name := ["first", "nth", "last", "shift"].map String.toList
def dateAllowed : List Name :=
  ["first", "nth", "last", "mean", "min", "max", "nanmean", "nanmin", "nanmax", "median", "quantile", "mode", "diff", "shift"].map
    String.toList
def categoricalAllowed : List Name := ["first", "nth", "last", "shift", "median", "mode"].map String.toList

/-- columns removed by `_get_calculate_dict` because of what they hold (`:2461-2495`) -/
def removed (f : Name) : Kind → Bool
  | .span => false
  | .date => decide (f ∉ dateAllowed)
  | .category => decide (f ∉ categoricalAllowed)
  | .text => decide (f ∉ stringAllowed)
  | .number => false

/-- `_get_calculate_dict` (`:2428-2516`); `keys` are the names in `_anydict` -/
def calcDict {V : Type} (keys : List Name) (f : Name) (sel : Option Sel) (returnAll computable : Bool)
    (orig : List (Name × Col V)) : List (Name × Col V) :=
  let np := match sel with
    | some s => orig.filter fun p => s.has p.1 || decide (p.1 ∈ keys)
    | none => orig
  let np := if returnAll then np else np.filter fun p => decide (p.1 ∉ keys)
  if computable then np.filter fun p => !(removed f p.2.kind) else np

/-- the columns calculated (`_calculate_all` `:3360-3468` and `_make_accum_dataset` `:2337-2352`): results that are `None` are
removed -/
def accumDict {V : Type} (agg : Name → Col V → Option (List V)) (f : Name) (np : List (Name × Col V)) : List (Name × List V) :=
  np.filterMap fun p => (agg f p.2).map fun v => (p.1, v)

/-- `column[isortrows]`; positions are in range -/
def pick {V : Type} (rows : List Nat) (v : List V) : List V := rows.filterMap fun i => v[i]?

/-- `_return_dataset` (`:2266-2318`): the dictionary in the order of the data; `inv` is `fill_invalid` -/
def newDict {V : Type} (inv : Col V → List V) (returnAll : Bool) (gbkeys : List (Name × List V)) (orig : List (Name × Col V))
    (acc : List (Name × List V)) : List (Name × List V) :=
  orig.filterMap fun p =>
    match at? acc p.1 with
    | some v => some (p.1, v)
    | none =>
      match at? gbkeys p.1 with
      | some v => some (p.1, v)
      | none => if returnAll then some (p.1, inv p.2) else none

/-- the columns that are not keys, in the order of the groups (`:2238-2247`) -/
def sortData {V : Type} (isort : Option (List Nat)) (gbkeys d : List (Name × List V)) : List (Name × List V) :=
  match isort with
  | some rows => d.map fun p => if p.1 ∈ names gbkeys then p else (p.1, pick rows p.2)
  | none => d

/-- `_finalize_dataset` without `transform` (`:2213-2263`): `isort` is `isortrows` of the keys when the display is sorted. The
labels are the names of `gbkeys`. -/
def finalize {V : Type} (isort : Option (List Nat)) (gbkeys : List (Name × List V)) (d : List (Name × List V)) :
    List (Name × List V) :=
  gbkeys.foldl (fun d p => put d p.1 p.2) (sortData isort gbkeys d)

/-- the keyword arguments of an operation that the model looks at -/
structure Opts where
  sel : Option Sel := none
  returnAll : Bool := false
  computable : Bool := true

/-- the keys of a grouping: their columns (`keychain.gbkeys`, one row per group, in display order), the rows of the groups in
display order (`isortrows`), and the calculation of one column -/
structure Env (V : Type) where
  gbkeys : List (Name × List V)
  isort : Option (List Nat)
  agg : Name → Col V → Option (List V)
  inv : Col V → List V

/-- `Grouping._calculate_all` for reducing operations (`rt_grouping.py:3277-3490`), without `transform`, `showfilter`, `accum2` -/
def calculate {V : Type} (e : Env V) (f : Name) (o : Opts) (orig : List (Name × Col V)) : List (Name × List V) :=
  finalize e.isort e.gbkeys
    (newDict e.inv o.returnAll e.gbkeys orig
      (accumDict e.agg f (calcDict (names e.gbkeys) f o.sel o.returnAll o.computable orig)))

/-- the same for operations with one value per row, such as `cumsum` and the rolling ones (`:2290-2292`, `:2321-2326`): no keys
unless `return_all`; `none` is the `KeyError` for a key that is not among the data -/
def calculateRows {V : Type} (e : Env V) (f : Name) (o : Opts) (orig : List (Name × Col V)) : Option (List (Name × List V)) :=
  let acc := accumDict e.agg f (calcDict (names e.gbkeys) f o.sel o.returnAll o.computable orig)
  let d := orig.filterMap fun p => (at? acc p.1).map fun v => (p.1, v)
  if o.returnAll then
    (names e.gbkeys).foldl (fun d k => d.bind fun d => (at? orig k).map fun c => put d k c.vals) (some d)
  else some d

/-- `GroupBy._calculate_all` (`rt_groupby.py:322-347`), without totals: `data` is the Dataset grouped -/
def gbOp {V : Type} (e : Env V) (data : List (Name × Col V)) (f : Name) (o : Opts) (args : List (Arg V))
    (dataset : Option (List (Name × Col V))) : Option (List (Name × List V)) :=
  (prepare (some data) true args (some (dataset.getD data))).map (calculate e f o)

/-- `Categorical._calculate_all` (`rt_categorical.py:5060-5093`): `own` is the Dataset the Categorical was made from by
`Dataset.cat`, if any. Lengths are taken to be right. -/
def catOp {V : Type} (e : Env V) (own : Option (List (Name × Col V))) (f : Name) (o : Opts) (args : List (Arg V))
    (dataset : Option (List (Name × Col V))) : Option (List (Name × List V)) :=
  (prepare own false args dataset).map (calculate e f o)

/-- `Dataset[list of names]`: the columns in the order of the list; `none` for a name that is not there or a repeated one -/
def takeCols {A : Type} (d : List (Name × A)) (l : List Name) : Option (List (Name × A)) :=
  if l.Nodup then l.mapM fun k => (at? d k).map fun v => (k, v) else none

/-- `GroupBy._getitem` (`rt_groupby.py:748-769`): the Dataset of the new GroupBy -/
def gbSelect {V : Type} (e : Env V) (data : List (Name × Col V)) (l : List Name) : Option (List (Name × Col V)) :=
  takeCols data ((names e.gbkeys).foldl (fun ix k => if k ∈ ix then ix else ix ++ [k]) l)

/-! ## `agg` -/

/-- `_get_agg_func` (`rt_groupbyops.py:863-887`); `none` is `ValueError` -/
def aggFunc : Item → Option Name
  | .text s => if s ∈ aggNames then some s else none
  | .func s =>
    let s := if s = "amin".toList then "min".toList else if s = "amax".toList then "max".toList else s
    if s ∈ aggNames then some s else none

/-- `name.capitalize()` for the lower case names -/
def capitalize (s : Name) : Name := match s with | [] => [] | c :: t => c.toUpper :: t

/-- calling an operation from `agg` (`:986`, `:1008`): `count` and `nth` do not accept the arguments `agg` passes
(`rt_groupby.py:350,355`, `rt_categorical.py:4956,5161`), which is a `TypeError` (`none`) -/
def aggCall {V : Type} (op : Name → Opts → Option (List (Name × List V))) (f : Name) (o : Opts) :
    Option (List (Name × List V)) :=
  if f = "count".toList ∨ f = "nth".toList then none else op f o

/-- `agg` with a list of operations (`:981-986`); `op` is the operation on the data. The check of the number of rows in
`Multiset.__setitem__` is not modelled: all tables have one row per group. -/
def aggList {V : Type} (op : Name → Opts → Option (List (Name × List V))) (o : Opts) (items : List Item) :
    Option (List (Name × List (Name × List V))) :=
  items.foldl (fun ms it => ms.bind fun ms => (aggFunc it).bind fun f =>
      (aggCall op f o).map fun t => put ms (capitalize f) t) (some [])

/-- `func_dict.setdefault(aggfunc, []).append(col_name)` -/
def addTo (d : List (Name × List Name)) (f c : Name) : List (Name × List Name) := put d f ((at? d f).getD [] ++ [c])

/-- the functions and their columns (`:990-1003`); `none` is `ValueError` -/
def funcDict (cols : List Name) (spec : List (Name × List Item)) : Option (List (Name × List Name)) :=
  spec.foldl (fun d p => d.bind fun d =>
    if p.1 ∈ cols then p.2.foldl (fun d it => d.bind fun d => (aggFunc it).map fun f => addTo d f p.1) (some d)
    else none) (some [])

/-- `agg` with a dictionary (`:988-1008`); `cols` are the names of the data -/
def aggDict {V : Type} (op : Name → Opts → Option (List (Name × List V))) (cols : List Name) (o : Opts)
    (spec : List (Name × List Item)) : Option (List (Name × List (Name × List V))) :=
  (funcDict cols spec).bind fun fd =>
    fd.foldl (fun ms p => ms.bind fun ms =>
      (aggCall op p.1 { o with sel := some (.list p.2) }).map fun t => put ms (capitalize p.1) t) (some [])

end Verif.GbCalc
