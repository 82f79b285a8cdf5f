import Verif.Cat.Model
import Verif.Grp.Spec
/-!
# Group packing, group-by keys, apply, transform: model

`Grouping` (`rt_grouping.py`), `GroupByKeys` (`rt_groupbykeys.py`) and the operations of `GroupByOps` (`rt_groupbyops.py`) that
walk over groups. Bin numbers (`ikey`) are 1-based with 0 for filtered rows; `n` is `unique_count`.
-/
namespace Verif.Grp
open Verif.Cat (npGet)

/-- `FastArray[...]` with an integer array (`rt_fastarray.py:1322-1326`, `_MBGET`): negative positions count from the end,
positions out of range give the invalid value (`none`); behaviour stated in `tests/test_rtutils.py:64-84` and
`tests/test_fastarray.py:1204-1207`. -/
def mbget {V : Type} (a : List V) (k : Int) : Option V := npGet a k

/-! ## Packing -/

/-- the three arrays of a packing (`rt_grouping.py:2357-2410`) -/
structure Packing where
  iGroup : List Nat
  iFirst : List Nat
  nCount : List Nat
deriving DecidableEq, Repr

/-- running sums: starting positions of consecutive blocks of the given sizes -/
def starts : Nat → List Nat → List Nat
  | _, [] => []
  | s, c :: cs => s :: starts (s + c) cs

/-- `groupbypack(iKey, None, n + 1)` (`rt_numpy.py:1901-1975`): `rc.BinCount(ikey, n + 1, pack=True)` is C++; this is its documented
result: rows of bin 0, then of bin 1, …, each in ascending order, with the position of the first and the number of rows of
every bin. -/
def pack (keys : List Nat) (n : Nat) : Packing :=
  let c := (List.range (n + 1)).map fun g => (rowsOf keys g).length
  { iGroup := (List.range (n + 1)).flatMap (rowsOf keys), iFirst := starts 0 c, nCount := c }

/-- `rc.BinCount(ikey, n + 1)` (C++): number of rows of every bin -/
def binCount (keys : List Nat) (n : Nat) : List Nat := (List.range (n + 1)).map fun g => keys.count g

/-- `rc.ReverseShuffle(igroup)` (C++): for every row its position in `igroup` -/
def reverseShuffle (ig : List Nat) : List Nat := (List.range ig.length).map fun i => ig.idxOf i

/-- `igroup[first:first+count]` of bin `g` -/
def Packing.slice (p : Packing) (g : Nat) : List Nat := (p.iGroup.drop (p.iFirst.getD g 0)).take (p.nCount.getD g 0)

/-- packing state of a `Grouping` (`GroupingInit`, `rt_grouping.py:509-538`): `_iKey`, `_unique_count`, `_packed`,
`_packedwithfilter`, `iGroup`, `iFirstGroup`, `nCountGroup`, `iGroupReverse`. Groupings created with `lex=True` start packed and
are not modelled, neither are `cutoffs`. -/
structure G where
  ikey : List Nat
  n : Nat
  packed : Bool := false
  withFilter : Bool := false
  iGroup : Option (List Nat) := none
  iFirst : Option (List Nat) := none
  nCount : Option (List Nat) := none
  rev : Option (List Nat) := none
deriving DecidableEq, Repr

/-- `Grouping.pack_by_group` (`rt_grouping.py:2357-2410`) -/
def G.packBy (g : G) (filter : Option (List Bool)) (mustrepack : Bool) : G :=
  if g.packed = true ∧ filter = none ∧ (g.withFilter = false ∨ mustrepack = false) then g
  else
    let p := pack (masked g.ikey filter) g.n
    { g with packed := true, withFilter := filter.isSome, iGroup := some p.iGroup, iFirst := some p.iFirst,
             nCount := some p.nCount, rev := none }

/-- `igroup` (`:1626-1641`) -/
def G.igroup (g : G) : G × Option (List Nat) := let g' := g.packBy none false; (g', g'.iGroup)

/-- `ifirstgroup` (`:1688-1703`) -/
def G.ifirstgroup (g : G) : G × Option (List Nat) := let g' := g.packBy none false; (g', g'.iFirst)

/-- `ncountgroup` (`:1664-1684`); for no rows `zeros(n + 1)`, which is `binCount` of an empty list -/
def G.ncountgroup (g : G) : G × Option (List Nat) :=
  match g.nCount with
  | some _ => (g, g.nCount)
  | none => ({ g with nCount := some (binCount g.ikey g.n) }, some (binCount g.ikey g.n))

/-- `igroupreverse` (`:1645-1660`) -/
def G.igroupreverse (g : G) : G × Option (List Nat) :=
  match g.rev with
  | some _ => (g, g.rev)
  | none => let (g', ig) := g.igroup; let r := ig.map reverseShuffle; ({ g' with rev := r }, r)

/-- the packing of the state, when packed -/
def G.packing (g : G) : Option Packing := do
  let a ← g.iGroup
  let b ← g.iFirst
  let c ← g.nCount
  return ⟨a, b, c⟩

/-- `GroupByOps.get_groupings(filter)` (`rt_groupbyops.py:214-235`) -/
def G.getGroupings (g : G) (filter : Option (List Bool)) : G × Option Packing :=
  let g' := g.packBy filter true
  (g', g'.packing)

/-- what `apply_reduce` and `apply_nonreduce` do to the packing (`rt_grouping.py:2635-2637`) -/
def G.applyPack (g : G) (filter : Option (List Bool)) : G × Option Packing :=
  let g' := { g with packed := false }.packBy filter false
  (g', g'.packing)

/-- `Grouping.count` without `transform` and `showfilter` (`:3514-3550`): the `Count` column before sorting -/
def G.count (g : G) (filter : Option (List Bool)) : G × Option (List Nat) :=
  match filter with
  | some _ => (g, some ((binCount (masked g.ikey filter) g.n).drop 1))
  | none =>
    if g.withFilter then (g, some ((binCount g.ikey g.n).drop 1))
    else let (g', c) := g.ncountgroup; (g', c.map (List.drop 1))

/-- `_set_newinstance` and `set_dirty` (`:1109-1141`, `:1487-1514`), and plain replacement of the bins -/
def G.setInstance (g : G) (keys : List Nat) : G :=
  { g with ikey := keys, packed := false, iGroup := none, iFirst := none, nCount := none, rev := none }

/-- `iter_groups` (`rt_groupbyops.py:158-182`): for every group the rows, in the order of the groups -/
def G.iterGroups (g : G) : G × Option (List (List Nat)) :=
  let g' := g.packBy none false
  (g', g'.packing.map fun p => (List.range g.n).map fun i => p.slice (i + 1))

/-- `as_filter(index)` (`rt_grouping.py:3497-3503`); `none` for an index out of range -/
def G.asFilter (g : G) (i : Nat) : G × Option (List Nat) :=
  let (g1, fi) := g.ifirstgroup
  let (g2, nc) := g1.ncountgroup
  let (g3, ig) := g2.igroup
  (g3, do
    let first ← (← fi)[i]?
    let count ← (← nc)[i]?
    return ((← ig).drop first).take count)

/-- `first_fancy` (`rt_groupbyops.py:238-261`); an entry `none` is an invalid number -/
def G.firstFancy (g : G) : G × Option (List (Option Nat)) :=
  let g' := g.packBy none false
  (g', g'.packing.map fun p => (p.iFirst.drop 1).map fun (s : Nat) => mbget p.iGroup (s : Int))

/-- `last_fancy` (`:264-288`) -/
def G.lastFancy (g : G) : G × Option (List (Option Nat)) :=
  let g' := g.packBy none false
  (g', g'.packing.map fun p =>
    (List.zip (p.iFirst.drop 1) (p.nCount.drop 1)).map fun (s, c) => mbget p.iGroup ((s : Int) + (c : Int) - 1))

/-- everything that reads or changes the packing. `calculate` stands for all operations that pack with `mustrepack=True`
(`_calculate_all` for packed functions, `Grouping.apply`, `get_groupings`), `applyHelper` for `apply_reduce` and
`apply_nonreduce`. -/
inductive Op where
  | calculate (filter : Option (List Bool))
  | applyHelper (filter : Option (List Bool))
  | igroup | ifirstgroup | ncountgroup | igroupreverse | iterGroups | firstFancy | lastFancy
  | asFilter (i : Nat)
  | count (filter : Option (List Bool))
  | setInstance (keys : List Nat)
deriving DecidableEq, Repr

/-- effect of an operation on the packing state -/
def G.step (g : G) : Op → G
  | .calculate f => (g.getGroupings f).1
  | .applyHelper f => (g.applyPack f).1
  | .igroup => g.igroup.1
  | .ifirstgroup => g.ifirstgroup.1
  | .ncountgroup => g.ncountgroup.1
  | .igroupreverse => g.igroupreverse.1
  | .iterGroups => g.iterGroups.1
  | .firstFancy => g.firstFancy.1
  | .lastFancy => g.lastFancy.1
  | .asFilter i => (g.asFilter i).1
  | .count f => (g.count f).1
  | .setInstance k => g.setInstance k

/-- a history of operations -/
def G.run (g : G) (ops : List Op) : G := ops.foldl G.step g

/-- a new grouping (`rt_grouping.py:638-986` without `lex`) -/
def G.fresh (keys : List Nat) (n : Nat) : G := { ikey := keys, n := n }

/-! ## `apply_reduce`, `apply_nonreduce` -/

/-- number types: the dtype of a result, storing into an array of a dtype, the invalid value of a dtype. The types are a
parameter: nothing is assumed about them. -/
structure Dt (V D : Type) where
  of : V → D
  cast : D → V → V
  inv : D → V

variable {V D : Type}

/-- the loop over the bins of the reduce path (`rt_grouping.py:2755-2791`). `arr` is the column in packed order. The state is
the dtype and the result array, an entry `none` is uninitialised memory (`empty`). A result of the user function `none` is
an exception. Only scalar results are modelled. -/
def reduceLoop (t : Dt V D) (rows : Nat) (arr : List V) (f : List V → Option V) :
    Nat → List (Nat × Nat) → Option (D × List (Option V)) → Option (Option (D × List (Option V)))
  | _, [], st => some st
  | i, (first, count) :: rest, st =>
    if 0 < count then
      match f ((arr.drop first).take count) with
      | none => none
      | some r =>
        let s := st.getD (t.of r, List.replicate rows none)
        reduceLoop t rows arr f (i + 1) rest (some (s.1, s.2.set i (some (t.cast s.1 r))))
    else reduceLoop t rows arr f (i + 1) rest st

/-- one column of the reduce path (`:2745-2800`): allocation when the dtype is known, the loop, the invalid fill of the empty
bins, `return_arr[base_bin:]`. Returns the dtype, which stays assigned for the following columns. With no bin that has rows
and no dtype, `return_arr.dtype` is an AttributeError (`none`). -/
def reduceCol (t : Dt V D) (p : Packing) (baseBin : Nat) (f : List V → Option V) (dt : Option D) (col : List V) :
    Option (D × List (Option V)) :=
  let rows := p.nCount.length
  let arr := valuesAt col p.iGroup
  match reduceLoop t rows arr f 0 (List.zip p.iFirst p.nCount) (dt.map fun d => (d, List.replicate rows none)) with
  | none => none
  | some none => none
  | some (some (d, a)) =>
    let a := List.zipWith (fun c x => if c = 0 then some (t.inv d) else x) p.nCount a
    some (d, a.drop baseBin)

/-- all columns (`:2700-2801`): `dtype` is a local variable of the whole call -/
def reduceCols (t : Dt V D) (p : Packing) (baseBin : Nat) (f : List V → Option V) :
    Option D → List (List V) → Option (List (List (Option V)))
  | _, [] => some []
  | dt, c :: cs =>
    match reduceCol t p baseBin f dt c with
    | none => none
    | some (d, r) => (reduceCols t p baseBin f (some d) cs).map (r :: ·)

/-- `apply_reduce` before the keys are attached -/
def applyReduce (t : Dt V D) (keys : List Nat) (n : Nat) (filter : Option (List Bool)) (showfilter : Bool)
    (f : List V → Option V) (dt : Option D) (cols : List (List V)) : Option (List (List (Option V))) :=
  reduceCols t (pack (masked keys filter) n) (if showfilter then 0 else 1) f dt cols

/-- `return_arr[first:last] = result`: numpy stores an array of the same length or repeats an array of length 1; anything
else is a ValueError (`none`) -/
def writeSlice (a : List (Option V)) (first : Nat) (count : Nat) (r : List V) : Option (List (Option V)) :=
  if r.length = count then some (a.take first ++ r.map some ++ a.drop (first + count))
  else match r with
    | [x] => some (a.take first ++ List.replicate count (some x) ++ a.drop (first + count))
    | _ => none

/-- the loop of the nonreduce path (`rt_grouping.py:2885-2928`): the dtype of the first result, when no dtype is given, is that of
the column -/
def nonreduceLoop (t : Dt V D) (rows : Nat) (arr : List V) (f : List V → Option (D × List V)) :
    List (Nat × Nat) → Option (D × List (Option V)) → Option (Option (D × List (Option V)))
  | [], st => some st
  | (first, count) :: rest, st =>
    if 0 < count then
      match f ((arr.drop first).take count) with
      | none => none
      | some (d, r) =>
        let s := st.getD (d, List.replicate rows none)
        match writeSlice s.2 first count (r.map (t.cast s.1)) with
        | none => none
        | some a => nonreduceLoop t rows arr f rest (some (s.1, a))
    else nonreduceLoop t rows arr f rest st

/-- one column of the nonreduce path (`:2880-2931`); with no rows at all and no dtype `None[reverse_back]` is a TypeError -/
def nonreduceCol (t : Dt V D) (p : Packing) (f : List V → Option (D × List V)) (dt : Option D) (col : List V) :
    Option (List (Option V)) :=
  let rows := p.iGroup.length
  let arr := valuesAt col p.iGroup
  match nonreduceLoop t rows arr f (List.zip p.iFirst p.nCount) (dt.map fun d => (d, List.replicate rows none)) with
  | none => none
  | some none => none
  | some (some (_, a)) => (reverseShuffle p.iGroup).mapM fun i => a[i]?

/-- `apply_nonreduce` (`return_arr = None` after every column, and `dtype` is not assigned) -/
def applyNonreduce (t : Dt V D) (keys : List Nat) (n : Nat) (filter : Option (List Bool))
    (f : List V → Option (D × List V)) (dt : Option D) (cols : List (List V)) : Option (List (List (Option V))) :=
  cols.mapM (nonreduceCol t (pack (masked keys filter) n) f dt)

/-! ## Keys of the results -/

/-- `GroupByKeys` with `prebinned=True` (`rt_groupbykeys.py:58-84`), as built by `GroupBy.gb_keychain` and
`Categorical.gb_keychain`; a multikey is one key here (all columns are reordered alike). `keys` is `_gbkeys`. -/
structure Keychain (K : Type) where
  keys : List K
  isort : Option (List Nat) := none
  sortDisplay : Bool
  preSorted : Bool
  sortApplied : Bool := false
  filterApplied : Bool := false

variable {K : Type}

/-- positions in the order `idx`, `v[isortrows]` (in range by contract of `lexsort`) -/
def reorder {A : Type} (v : List A) (idx : List Nat) : List A := idx.filterMap fun i => v[i]?

/-- `keys()` (`rt_groupbykeys.py:155-179`) with `sort=None`; `srt` is `lexsort` of the key columns (C++) -/
def Keychain.getKeys (srt : List K → List Nat) (c : Keychain K) (showfilter : Bool) : Keychain K × List K :=
  let c := if c.sortDisplay = true ∧ c.preSorted = false ∧ c.sortApplied = false then
      let i := c.isort.getD (srt c.keys)
      { c with isort := some i, keys := reorder c.keys i, sortApplied := true }
    else c
  (c, if showfilter = false ∧ c.filterApplied = true then c.keys.drop 1 else c.keys)

/-- `gbkeys` (`:106-111`) -/
def Keychain.gbkeys (srt : List K → List Nat) (c : Keychain K) : Keychain K × List K := c.getKeys srt false

/-- `gbkeys_filtered` (`:114-129`); `flt` is the filter name -/
def Keychain.gbkeysFiltered (srt : List K → List Nat) (flt : K) (c : Keychain K) : Keychain K × List K :=
  let c := if c.filterApplied = false then
      let (c', ks) := c.gbkeys srt
      { c' with keys := flt :: ks, filterApplied := true }
    else c
  c.getKeys srt true

/-- `isortrows` (`:96-103`) -/
def Keychain.isortrows (srt : List K → List Nat) (c : Keychain K) : Keychain K × List Nat :=
  let i := c.isort.getD (srt c.keys)
  ({ c with isort := some i }, i)

/-- `sort_gb_data` (`:86-93`) -/
def Keychain.sortData (c : Keychain K) : Bool := c.sortDisplay && !c.preSorted

/-- the uses of the keychain by the results -/
inductive KOp where
  | gbkeys | gbkeysFiltered | isortrows
deriving DecidableEq, Repr

def Keychain.step (srt : List K → List Nat) (flt : K) (c : Keychain K) : KOp → Keychain K
  | .gbkeys => (c.gbkeys srt).1
  | .gbkeysFiltered => (c.gbkeysFiltered srt flt).1
  | .isortrows => (c.isortrows srt).1

/-- adding a column to a Dataset with `nrows` rows (`rt_dataset.py:560-625`): one value is repeated, another length is a ValueError -/
def addCol {A : Type} (nrows : Nat) (col : List A) : Option (List A) :=
  if col.length = nrows then some col
  else match col with
    | [x] => some (List.replicate nrows x)
    | _ => none

/-- `_finalize_dataset` (`rt_grouping.py:2213-2262`) with `transform=False` and `addkeys=True`, for one data column of the result;
`gbkeys` is the argument when given. Gives the keychain and the key column and the data column. -/
def finalize (srt : List K → List Nat) (flt : K) (c : Keychain K) (gbkeys : Option (List K)) (showfilter : Bool)
    (col : List V) : Keychain K × Option (List K × List (Option V)) :=
  let (c, ks) := match gbkeys with
    | some ks => (c, ks)
    | none => if showfilter then c.gbkeysFiltered srt flt else c.gbkeys srt
  if c.sortData then
    let (c, i) := c.isortrows srt
    let i := if showfilter then 0 :: i.map (· + 1) else i
    let data := i.map fun (j : Nat) => mbget col (j : Int)
    (c, (addCol data.length ks).map fun ks => (ks, data))
  else (c, (addCol col.length ks).map fun ks => (ks, col.map some))

/-! ## `transform` -/

/-- `_possibly_transform` (`rt_groupbyops.py:331-363`): one column. `base` is `grouping.base_index` (`none` for groupings of an
enum), `isort` the keychain order when the object has `_sort_display` set and `grouping.Ordered` is true. -/
def transformCol (base : Option Nat) (ikey : List Nat) (showfilter : Bool) (isort : Option (List Nat))
    (col : List V) : List (Option V) :=
  let k : List Int := ikey.map fun (k : Nat) => if showfilter = false ∧ base = some 1 then (k : Int) - 1 else (k : Int)
  match isort with
  | none => k.map (mbget col)
  | some i => k.map fun (k : Int) => match mbget (reverseShuffle i) k with
    | some j => mbget col (j : Int)
    | none => none

/-! ## `Grouping.apply` -/

/-- what the result of `apply` is: rows labelled with keys, or rows in the places of the original rows -/
inductive Applied (K R : Type) where
  | reduced (rows : List (K × Option R))
  | perRow (rows : List (Option R))
deriving DecidableEq, Repr

variable {R S : Type}

/-- the callbacks (`rt_grouping.py:3078-3150`): `f` maps the rows of a group to rows of a result Dataset, `none` is an exception.
Bins without rows are skipped. Modelled for a function that takes the sub-Dataset; the fallback `Dataset.apply` after a failing
first call, and the results that are arrays or dictionaries, are not. -/
def applyCalls (p : Packing) (n : Nat) (f : List S → Option (List R)) (rows : List S) : Option (List (List R)) :=
  ((List.range n).filter fun i => decide (0 < (p.slice (i + 1)).length)).mapM fun i => f (valuesAt rows (p.slice (i + 1)))

/-- `Grouping.apply` (`rt_grouping.py:2944-3227`). `keys` are `label_keys.gbkeys`, `isort` is `some` order when
`sort_gb_data`. In the reduce branch with empty groups the keys are picked by a mask in bin order, and with `isort` the
data columns are reindexed with all bins and no longer fit (`addCol`). In the other branch the result is scattered back
with `result[iGroup, :] = result.copy()`, which raises when the number of rows differs. -/
def apply (p : Packing) (n : Nat) (keys : List K) (isort : Option (List Nat)) (f : List S → Option (List R))
    (rows : List S) : Option (Applied K R) :=
  match applyCalls p n f rows with
  | none => none
  | some accum =>
    if accum = [] then none
    else
      let result := accum.flatten
      if result.length = accum.length then
        if accum.length < n then
          let mask := (p.nCount.drop 1).map fun c => decide (0 < c)
          let ks := (List.zip keys mask).filterMap fun (k, m) => if m then some k else none
          let data : Option (List (Option R)) := match isort with
            | none => some (result.map some)
            | some i => addCol result.length (i.map fun (j : Nat) => mbget result (j : Int))
          match data, addCol result.length ks with
          | some d, some ks => some (.reduced (List.zip ks d))
          | _, _ => none
        else
          let data : List (Option R) := match isort with
            | none => result.map some
            | some i => i.map fun (j : Nat) => mbget result (j : Int)
          some (.reduced (List.zip keys data))
      else
        let c0 := p.nCount.getD 0 0
        let result : List (Option R) := List.replicate c0 none ++ result.map some
        if result.length = p.iGroup.length then
          some (.perRow ((List.range result.length).map fun i => ((p.iGroup.zip result).lookup i).join))
        else none

/-! ## `shrink`, `regroup`, `take_groups`, `extract_groups`, `count_uniques` -/

/-- `ismember(oldcats, newcats)[1]` (`rt_numpy.py:1188-1420`; the list form drops `base_index`, `:1320-1321`): position in
`newcats`, `sent` (the smallest integer of the index dtype) when missing -/
def memberIdx [DecidableEq K] (sent : Int) (old new : List K) : List Int :=
  old.map fun u => if u ∈ new then (new.idxOf u : Int) else sent

/-- `Grouping.shrink(newcats)` (`rt_grouping.py:1920-2046`) for a base-1 grouping without `misc`: codes and categories. An entry
`none` is an invalid code. -/
def shrink [DecidableEq K] (sent : Int) (old : List K) (codes : List Nat) (new : List K) : List (Option Int) × List K :=
  let idx := (memberIdx sent old new).map (· + 1)
  let idx := List.zipWith (fun u i => if u ∈ new then i else 0) old idx
  (codes.map fun (k : Nat) => mbget (0 :: idx) (k : Int), new)

/-- `Grouping.shrink(newcats, misc)` -/
def shrinkMisc [DecidableEq K] (sent : Int) (old : List K) (codes : List Nat) (new : List K) (misc : K) :
    Option (List (Option Int) × List K) :=
  let idx := (memberIdx sent old new).map (· + 1)
  match idx.max? with
  | none => none
  | some m =>
    let mx := m + 1
    let idx := List.zipWith (fun u i => if u ∈ new then i else mx) old idx
    let inst := codes.map fun (k : Nat) => mbget (0 :: idx ++ [mx]) (k : Int)
    some (List.zipWith (fun k i => if k = 0 then some 0 else i) codes inst, new ++ [misc])

/-- `Grouping.take_groups` (`rt_grouping.py:3640-3714`): the loop copies the slice of each group to the output; the output has the
sum of the counts as length -/
def takeGroups (data : List V) (indices : List Nat) (nCount iFirst : List Nat) : Option (List V) :=
  (indices.mapM fun g => do
    let c ← nCount[g]?
    let s ← iFirst[g]?
    return (data.drop s).take c).map List.flatten

/-- `Grouping.extract_groups` (`:3717-3807`) -/
def extractGroups (cond : List Bool) (data : List V) (nCount iFirst : List Nat) : Option (List V) :=
  if cond.length = nCount.length ∧ iFirst.length = nCount.length then
    takeGroups data ((List.range cond.length).filter fun g => cond.getD g false) nCount iFirst
  else none

/-- `rc.CombineAccum1Filter(ikey, n, filter)` (C++, documented in `rt_numpy.py:1512-1545`): the old bin numbers in the order in
which they first appear among the kept rows. The new bin of a row is its place in this list plus one, 0 for filtered rows. -/
def appearing (keys : List Nat) : List Nat := keys.foldl (fun acc k => if k = 0 ∨ k ∈ acc then acc else acc ++ [k]) []

/-- `Grouping.regroup(filter)` (`rt_grouping.py:2049-2201`), not for enums: new bins and labels. `argsort` is `lexsort` of one
column (C++). Both paths for an unchanged number of groups give `ifkremap[ikey_new]` with `ifkremap = [0] + sortkey`
(the first is the same lookup with `- 1`, used when there are no zeros, `:2143-2151`). -/
def regroup (argsort : List Nat → List Nat) (old : List K) (keys : List Nat) (n : Nat) (filter : Option (List Bool)) :
    Option (List (Option Nat) × List K) :=
  let eff := masked keys filter
  let a := appearing eff
  let new : List Nat := eff.map fun k => if k = 0 then 0 else a.idxOf k + 1
  if a.length = n then
    if keys = [] ∧ filter = none then none   -- `ikey_new.min()` of an empty array raises
    else some (new.map fun (j : Nat) => mbget (0 :: a) (j : Int), old)
  else
    let rank := argsort (argsort a)
    let remap := 0 :: rank.map (· + 1)
    let idx := reorder (a.map (· - 1)) (argsort a)     -- `sort(sortkey - 1)`: values in sorted order
    some (new.map fun (j : Nat) => mbget remap (j : Int), reorder old idx)

/-- the rows that pass a filter (rows with bin 0 of the pair categorical are left out of the counts) -/
def keptRows {A : Type} (rows : List A) : Option (List Bool) → List A
  | none => rows
  | some f => (List.zip rows f).filterMap fun (r : A × Bool) => if r.2 then some r.1 else none

/-- the different rows in order of first appearance: the groups of a categorical made of the rows -/
def uniqueRows {A : Type} [DecidableEq A] (l : List A) : List A := l.foldl (fun acc r => if r ∈ acc then acc else acc ++ [r]) []

/-- `GroupByOps.count_uniques` (`rt_groupbyops.py:1076-1104`, the fast path, without `transform` and `showfilter`) before sorting: `codes`
is `grouping.catinstance`. The pairs of code and value are grouped (`Categorical([catinstance, arr], filter)`), the codes of the
groups are counted and stored in `result[count[0]] = count.Count`, a code out of range is an IndexError. -/
def countUniques {A : Type} [DecidableEq A] (codes : List Nat) (vals : List A) (filter : Option (List Bool)) (n : Nat) :
    Option (List Nat) :=
  let rows := List.zip codes vals
  let kept := keptRows rows filter
  let pairs : List (Nat × A) := uniqueRows kept
  if pairs.all (fun r => decide (r.1 ≤ n)) then
    some (((List.range (n + 1)).map fun g => (pairs.filter fun r => decide (r.1 = g)).length).drop 1)
  else none

end Verif.Grp
