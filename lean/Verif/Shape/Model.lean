import Verif.Idx.Model
import Verif.Shape.Spec
/-!
# Reshaping Datasets: model of `melt` and `pivot`

Columns hold items of one type `V` with an invalid value `inv`; conversions between types are not modelled (Categorical columns are
expanded first, `rt_dataset.py:6844-6847`). Column names are valid names.
-/
namespace Verif.Shape
open Verif.Items (Dict)
open Verif.Idx (Err Table)

/-! ## `melt` -/

/-- `np.tile(a, k)` -/
def tile {V : Type} (a : List V) (k : Nat) : List V := (List.replicate k a).flatten

/-- `a.repeat(n)` -/
def repeatEach {V : Type} (a : List V) (n : Nat) : List V := a.flatMap fun (x : V) => List.replicate n x

/-- `:6822-6830`: the columns to work on, as a dictionary -/
def meltInput {V : Type} [DecidableEq V] (inv : V) (t : Table V) (n : Nat) (labels : List String) (ids : List String) :
    Option (List String) → Except Err (Table V)
  | none => .ok t
  | some vs => match Verif.Idx.getitem inv t n labels none (.names (ids ++ vs)) with
    | .ok (.table t') => .ok t'
    | .ok _ => .error .typeError
    | .error e => .error e

/-- the loop `:6842-6848`; state: `tempdict`, `mdata` -/
def meltIds {V : Type} (k : Nat) : List String → Table V → Table V → Except Err (Table V × Table V)
  | [], temp, m => .ok (temp, m)
  | c :: cs, temp, m => match Dict.get temp c with
    | none => .error .keyError
    | some col => meltIds k cs (Dict.del temp c) (Dict.set m c (tile col k))

/-- `melt` (`rt_dataset.py:6781-6855`), with `id_vars`, `value_vars` already made lists (`:6815-6827`). `str` makes an item of a name;
`bad` is `isnanorzero` when `trim` is set. `hstack` of no arrays raises (`rc.HStack` fails, then `np.hstack([])` raises ValueError).
`K` can not be negative where it matters: a missing or repeated name raises first. -/
def melt {V : Type} [DecidableEq V] (inv : V) (str : String → V) (t : Table V) (n : Nat) (labels : List String) (ids : List String)
    (vals : Option (List String)) (varName : Option String) (valueName : String) (trim : Option (V → Bool)) : Except Err (Table V) := do
  let temp ← meltInput inv t n labels ids vals
  let k := temp.length - ids.length
  let (temp, m) ← meltIds k ids temp []
  let m := Dict.set m (varName.getD "variable") (repeatEach ((Dict.keys temp).map str) n)
  if temp = [] then .error .valueError
  let stacked := (temp.map Prod.snd).flatten
  let m := Dict.set m valueName stacked
  match trim with
  | none => return m
  | some bad =>
    match Verif.Idx.getitem inv m stacked.length [] (some (.boolArr (stacked.map fun (x : V) => !bad x))) (.slice none none none) with
    | .ok (.table t') => .ok t'
    | .ok _ => .error .typeError
    | .error e => .error e

/-! ## `pivot` -/

/-- a grouping: `ikey` (0 for rows in no group) and `uniquedict` -/
structure Grp (V : Type) where
  codes : List Nat
  uniq : Table V

/-- the number of rows of the Dataset made of `uniquedict` -/
def Grp.count {V : Type} (g : Grp V) : Nat := match g.uniq with
  | [] => 0
  | e :: _ => e.2.length

/-- row `i` passes the mask -/
def passes (filter : Option (List Bool)) (i : Nat) : Bool := match filter with
  | none => true
  | some m => (m[i]?).getD false

/-- `combine2groups(grows, gcols, filter)` (`rt_grouping.py:84-133`, `rc.CombineAccum2Filter` C++): the bin of every row. Rows removed by
the filter are put into bin 0 (`rt_numpy.py:1592`). -/
def binsOf {V : Type} (gr gc : Grp V) (filter : Option (List Bool)) (n : Nat) : List Nat :=
  (List.range n).map fun (i : Nat) =>
    if passes filter i then
      (gc.codes[i]?).getD 0 * (gr.count + 1) + (gr.codes[i]?).getD 0
    else 0

/-- `makeifirst(ikey, U + 1)[1:-1]` (`:1557-1574`, C++): entry `k` is the first row in bin `k + 1`, invalid when there is none -/
def ifirst (bins : List Nat) (u : Nat) : List (Option Nat) :=
  (List.range u).map fun (k : Nat) => (List.range bins.length).find? fun (i : Nat) => decide (bins[i]? = some (k + 1))

/-- `:8089-8098`: some bin holds more than one row. `nCountGroup` comes from C++; `count0` says whether it counts the rows removed by the
filter in bin 0. -/
def hasDup (bins : List Nat) (passed : Nat → Bool) (count0 : Bool) : Bool :=
  (List.range bins.length).any fun (i : Nat) => (List.range i).any fun (j : Nat) =>
    decide (bins[i]? = bins[j]?) && (count0 || (passed i && passed j))

/-- `:8117-8123`: the name of the `i`-th new column, the parts joined with `_` -/
def colName {V : Type} (uname : V → String) (uniq : Table V) (i : Nat) : String :=
  "_".intercalate (uniq.map fun (e : String × List V) => ((e.2[i]?).map uname).getD "")

/-- `arr[start:stop]` -/
def slice {V : Type} (l : List V) (start stop : Nat) : List V := (l.take stop).drop start

/-- `make_dataset` (`:8102-8128`): the loop over the column keys. `arr_long = val[ifirstkey]`; an invalid index gives an invalid item. -/
def makeDataset {V : Type} (inv : V) (uname : V → String) (gc : Grp V) (rowLen : Nat) (first : List (Option Nat)) (val : List V)
    (newds : Table V) : Table V :=
  let long := first.map fun (o : Option Nat) => (o.bind fun (i : Nat) => val[i]?).getD inv
  (List.range gc.count).foldl (fun (ds : Table V) (i : Nat) =>
    Dict.set ds (colName uname gc.uniq i) (slice long (rowLen * (i + 1)) (rowLen * (i + 1) + rowLen - 1))) newds

/-- what `pivot` returns -/
inductive Wide (V : Type) where
  | dataset (t : Table V)
  | multiset (ts : Dict String (Table V))
deriving DecidableEq

/-- `:8131-8137`: a Dataset for each value column -/
def spread {V : Type} (inv : V) (uname : V → String) (gr gc : Grp V) (first : List (Option Nat)) (t : Table V) (values : List String) :
    Except Err (Dict String (Table V)) :=
  values.foldlM (fun (ms : Dict String (Table V)) (v : String) =>
    match Dict.get t v with
    | none => (.error .indexError : Except Err (Dict String (Table V)))
    | some val => .ok (Dict.set ms v (makeDataset inv uname gc (gr.count + 1) first val gr.uniq))) []

/-- `:8139-8147` -/
def wrap {V : Type} : Dict String (Table V) → Wide V
  | [(_, t')] => .dataset t'
  | ms => .multiset ms

/-- `pivot` (`rt_dataset.py:7987-8144`). `group` is `self.cat(cols, ordered, lex).grouping`. `labels=None` calls
`self.labels_get_names()`, which does not exist (`:8044`). Filters are boolean masks. -/
def pivot {V : Type} (inv : V) (uname : V → String) (group : List String → Grp V) (count0 : Bool) (t : Table V) (n : Nat)
    (labels : Option (List String)) (columns : List String) (values : Option (List String)) (filter : Option (List Bool)) :
    Except Err (Wide V) := do
  let labels ← match labels with
    | none => .error .attributeError
    | some l => .ok l
  if labels = [] then .error .valueError
  if columns = [] then .error .valueError
  let values := values.getD ((Dict.keys t).filter fun (c : String) => !decide (c ∈ labels ++ columns))
  if values = [] then .error .valueError
  if ¬ (labels ++ columns).all (fun (c : String) => Dict.has t c) then .error .indexError
  let gr := group labels
  let gc := group columns
  let bins := binsOf gr gc filter n
  let first := ifirst bins ((gr.count + 1) * (gc.count + 1))
  if hasDup bins (passes filter) count0 then .error .valueError
  let ms ← spread inv uname gr gc first t values
  return wrap ms

end Verif.Shape
