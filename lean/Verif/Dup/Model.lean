import Verif.Grp.Model
import Verif.Items.Model
import Verif.Dup.Spec
/-!
# `Dataset.duplicated`, `Dataset.drop_duplicates`: model (`rt_dataset.py:3557-3777`)

The grouping of the rows is C++ (`groupby`), here the numbers `keys` it gives to the rows, from 1 to `n` (0 for rows of a Categorical
that are filtered).
-/
namespace Verif.Dup
open Verif.Grp
open Verif.Items (Dict)

inductive Err where
  | indexError | valueError | keyError
deriving DecidableEq, Repr

/-- the argument `keep`; `other` is any other value -/
inductive Keep where
  | first | last | drop | other
deriving DecidableEq, Repr

/-- position of an index of numpy in an array of `len` items: negative counts from the end -/
def npPos (len : Nat) (k : Int) : Option Nat :=
  if 0 ≤ k then (if k.toNat < len then some k.toNat else none)
  else if 0 ≤ (len : Int) + k then some ((len : Int) + k).toNat else none

/-- `result[idx] = False` (`FastArray.__setitem__` with integers goes to numpy, `rt_fastarray.py:1283-1301`); an index out of range is
an IndexError -/
def setFalse (r : List Bool) (idx : List Int) : Except Err (List Bool) :=
  match idx.mapM (npPos r.length) with
  | none => .error .indexError
  | some ps => .ok (r.mapIdx fun (i : Nat) (b : Bool) => if i ∈ ps then false else b)

/-- `igroup[idx]`: `mbget`, out of range gives the invalid integer, which no later index can be -/
def pick (ig : List Nat) (idx : List Int) : List (Option Nat) := idx.map fun (k : Int) => mbget ig k

/-- `result[igroup[idx]] = False` -/
def setPicked (r : List Bool) (ig : List Nat) (idx : List Int) : Except Err (List Bool) :=
  match (pick ig idx).mapM id with
  | none => .error .indexError
  | some ps => setFalse r (ps.map fun (i : Nat) => (i : Int))

/-- `Dataset.duplicated` (`rt_dataset.py:3592-3628`) after `get_groupings()`. The second result is what `iFirstGroup` holds afterwards:
`ilast = ifirstgroup[2:]; ilast -= 1` works in place on a view. -/
def duplicated (p : Packing) (keep : Keep) : Except Err (List Bool) × List Int :=
  let r := List.replicate p.iGroup.length true
  let fi : List Int := p.iFirst.map fun (s : Nat) => (s : Int)
  match keep with
  | .first => (setPicked r p.iGroup (fi.drop 1), fi)
  | .last =>
    let ilast := (fi.drop 2).map fun (s : Int) => s - 1
    let res := match fi.getLast?, p.nCount.getLast? with
      | some s, some c => do
        let r1 ← setPicked r p.iGroup ilast
        setFalse r1 [s + (c : Int) - 1]
      | _, _ => .error .indexError
    (res, fi.take 2 ++ ilast)
  | .drop => (setPicked r p.iGroup ((List.zip fi p.nCount).filterMap fun e => if e.2 = 1 then some e.1 else none), fi)
  | .other => (.ok r, fi)

/-! ## With a Categorical as key

`Grouping(...)` of a single Categorical shares the arrays of the grouping of the Categorical (`copy_from`, `rt_grouping.py:893-908`,
`:544-562`), so when the Categorical is already packed `get_groupings` returns its own arrays. -/

/-- Python `a[lo:hi]` -/
def pySlice (a : List Nat) (lo hi : Int) : List Nat :=
  let cl (x : Int) : Nat := min (if 0 ≤ x then x.toNat else ((a.length : Int) + x).toNat) a.length
  (a.drop (cl lo)).take (cl hi - cl lo)

/-- `as_filter(index)` (`rt_grouping.py:3497-3503`) of a packed grouping whose `iFirstGroup` is `fi` -/
def asFilter (p : Packing) (fi : List Int) (g : Nat) : Option (List Nat) := do
  let s ← fi[g]?
  let c ← p.nCount[g]?
  return pySlice p.iGroup s (s + (c : Int))

/-! ## `drop_duplicates` -/

/-- columns in order -/
abbrev Table (V : Type) := Dict String (List V)

/-- first row of every group (`iFirstKey` of the C++ grouping, and the row of `GB_FIRST`) -/
def firstOf (keys : List Nat) (g : Nat) : Option Nat := (rowsOf keys g).head?

/-- the row of `GB_LAST` -/
def lastOf (keys : List Nat) (g : Nat) : Option Nat := (rowsOf keys g).getLast?

/-- values of a column at the row chosen for every group -/
def perGroup {V : Type} (col : List V) (n : Nat) (row : Nat → Option Nat) : List V :=
  (List.range n).filterMap fun (g : Nat) => (row (g + 1)).bind fun (i : Nat) => col[i]?

/-- `gb.first()` and `gb.last()` (`rt_grouping.py:3277-3490`, `_return_dataset` `:2266-2329`): columns in the order of the Dataset, key
columns hold the unique keys, which are those of the first rows; the other columns hold the values of the chosen rows. All columns
are taken to be of a kind these functions accept. -/
def reduceBy {V : Type} (t : Table V) (subset : List String) (keys : List Nat) (n : Nat) (row : Nat → Option Nat) : Table V :=
  t.map fun (e : String × List V) =>
    (e.1, if e.1 ∈ subset then perGroup e.2 n (firstOf keys) else perGroup e.2 n row)

/-- what `gb.count().Count` holds: the counts, unless a key column is called `Count`: the keys are added to the result after the counts
(`rt_grouping.py:3542-3550`, `_finalize_dataset` `:2251-2259`). `isOne` compares with 1. -/
def countIsOne {V : Type} (isOne : V → Bool) (t : Table V) (subset : List String) (keys : List Nat) (n : Nat) : List Bool :=
  if "Count" ∈ subset then (perGroup ((Dict.get t "Count").getD []) n (firstOf keys)).map isOne
  else (List.range n).map fun (g : Nat) => decide ((rowsOf keys (g + 1)).length = 1)

/-- rows of a table where a mask is True -/
def maskRows {V : Type} (t : Table V) (m : List Bool) : Table V :=
  t.map fun (e : String × List V) => (e.1, (List.zip e.2 m).filterMap fun (x : V × Bool) => if x.2 then some x.1 else none)

/-- `drop_duplicates` (`rt_dataset.py:3733-3765`) without `inplace`; `subset` names existing columns (`dataset[k]` raises otherwise),
`group` gives the numbers of the rows -/
def dropDuplicates {V : Type} (group : List (List (Option V)) → List Nat × Nat) (isOne : V → Bool) (t : Table V) (nrows : Nat)
    (subset : Option (List String)) (keep : Keep) : Except Err (Table V) :=
  if nrows = 0 then .ok t
  else
    let sub := subset.getD (Dict.keys t)
    if sub.all (fun c => Dict.has t c) then
      let (keys, n) := group (contents t sub nrows)
      match keep with
      | .first => .ok (reduceBy t sub keys n (firstOf keys))
      | .last => .ok (reduceBy t sub keys n (lastOf keys))
      | .drop => .ok (maskRows (reduceBy t sub keys n (firstOf keys)) (countIsOne isOne t sub keys n))
      | .other => .error .valueError
    else .error .keyError

/-- number of rows of a table with columns of equal length -/
def nrowsOf {V : Type} (t : Table V) : Nat := match t with
  | [] => 0
  | e :: _ => e.2.length

/-- `drop_duplicates(inplace=True)` (`:3733-3738`, `:3767-3777`): the Dataset afterwards, what is returned, and whether that is the Dataset
itself -/
def dropDuplicatesInplace {V : Type} (group : List (List (Option V)) → List Nat × Nat) (isOne : V → Bool) (t : Table V)
    (nrows : Nat) (subset : Option (List String)) (keep : Keep) : Except Err (Table V × Table V × Bool) :=
  if nrows = 0 then .ok (t, t, true)
  else do
    let d ← dropDuplicates group isOne t nrows subset keep
    if nrowsOf d ≠ nrows then return (d, d, true) else return (t, d, false)

end Verif.Dup
