import Mathlib.Data.List.Sort

/-!
# Model of the join-index construction in `riptable/rt_merge.py`

A row selector ("fancy index") is a list of `Option Nat`: `some i` is row `i`,
`none` is the integer invalid, which selects an invalid value.

`riptide_cpp` is not part of the repository.  Its results that are used here
are taken from their documentation: a `Grouping` assigns to every row a group
number (`0` is the null/filtered group) and lists the distinct keys; the other
arrays (`igroup`, `ifirstgroup`, `ncountgroup`, `ifirstkey`, `ilastkey`) are
the ones determined by the group numbers.  The numbering of the groups itself is
left open (`Grouping.WF` in `Spec.lean`).
-/
namespace Verif.Merge

/-! ## Array primitives -/

/-- Sequence of single-cell writes `out[p] = v`. -/
def applyWrites {β : Type} (out : List β) (w : List (Nat × β)) : List β :=
  w.foldl (fun o p => o.set p.1 p.2) out

/-- numpy `base[idx] = vals` -/
def scatter {β : Type} (base : List β) (idx : List Nat) (vals : List β) : List β :=
  applyWrites base (idx.zip vals)

/-- running sums, starting from `acc` -/
def cumsumFrom : Nat → List Nat → List Nat
  | _, [] => []
  | acc, x :: xs => (acc + x) :: cumsumFrom (acc + x) xs

/-- numpy `cumsum` -/
def cumsum (l : List Nat) : List Nat := cumsumFrom 0 l

/-- numpy `arr[mask]` -/
def maskSel {β : Type} (arr : List β) (mask : List Bool) : List β :=
  (arr.zip mask).filterMap fun p => if p.2 then some p.1 else none

/-- riptable `bool_to_fancy(mask)`: positions of the true entries. -/
def boolToFancy (mask : List Bool) : List Nat := maskSel (List.range mask.length) mask

/-- riptable `arr[idx]` where `idx` may hold invalids: an invalid (or out of
range) index gives an invalid. -/
def take {β : Type} (arr : List β) (idx : List (Option Nat)) : List (Option β) :=
  idx.map fun o => o.bind fun i => arr[i]?

/-! ## Groupings -/

/-- The two independent parts of a `Grouping` object (`rt_grouping.py:1517-1541`
`ikey`; `gbkeys`): group number of each row, distinct keys (key of group `g` is
`gbkeys[g-1]`).  Base index 1. -/
structure Grouping (K : Type) where
  ikey : List Nat
  gbkeys : List K

/-- the rows carrying group number `c`, in row order -/
def rowsOf (ikey : List Nat) (c : Nat) : List Nat :=
  (List.range ikey.length).filter fun i => ikey[i]? == some c

namespace Grouping
variable {K : Type} (g : Grouping K)

/-- `rt_grouping.py:1663-1684`: `BinCount(ikey, unique_count + 1)`. -/
def ncountgroup : List Nat := (List.range (g.gbkeys.length + 1)).map fun c => (rowsOf g.ikey c).length

/-- `rt_grouping.py:1625-1641`: rows sorted by group number, stable. -/
def igroup : List Nat := (List.range (g.gbkeys.length + 1)).flatMap (rowsOf g.ikey)

/-- `rt_grouping.py:1687-1703`: start of each group in `igroup`. -/
def ifirstgroup : List Nat :=
  (List.range (g.gbkeys.length + 1)).map fun c =>
    ((List.range c).map fun d => (rowsOf g.ikey d).length).sum

/-- `rt_grouping.py:1557-1574`: first row of each non-null group.  A group without
rows (excluded by `WF`; `rt_merge.py:2001` regroups) would hold an invalid
instead of `0`. -/
def ifirstkey : List Nat :=
  (List.range g.gbkeys.length).map fun c => (rowsOf g.ikey (c + 1)).head?.getD 0

/-- `rt_grouping.py:1579-1594`: last row of each non-null group. -/
def ilastkey : List Nat :=
  (List.range g.gbkeys.length).map fun c => (rowsOf g.ikey (c + 1)).getLast?.getD 0

end Grouping

/-- the `keep` argument when it is not `None` -/
inductive Keep where
  | first
  | last
  deriving DecidableEq, Repr

/-- `rt_merge.py:488-499` `_get_keep_ifirstlastkey` -/
def keepRows {K : Type} (g : Grouping K) : Keep → List Nat
  | .first => g.ifirstkey
  | .last => g.ilastkey

/-- `rt_merge.py:502-558` `_get_keep_ifirstlastkey_with_null` -/
def keepRowsWithNull {K : Type} (g : Grouping K) : Keep → List Nat
  | .first =>
    if g.ncountgroup.getD 0 0 > 0 then g.igroup.getD 0 0 :: g.ifirstkey else g.ifirstkey
  | .last =>
    if g.ncountgroup.getD 0 0 > 0 then g.igroup.getD (g.ncountgroup.getD 0 0 - 1) 0 :: g.ilastkey
    else g.ilastkey

/-- integer array indexed by in-range rows -/
def gather (arr : List Nat) (idx : List Nat) : List Nat := idx.map fun i => arr.getD i 0

/-- `rt_merge.py:561-572` `_get_keep_ikey` -/
def keepIkey {K : Type} (g : Grouping K) : Option Keep → List Nat
  | none => g.ikey
  | some k => gather g.ikey (keepRows g k)

/-- `rt_merge.py:575-586` `_get_keep_ikey_with_null`; the same expression is inlined
at `:775-779`. -/
def keepIkeyWithNull {K : Type} (g : Grouping K) : Option Keep → List Nat
  | none => g.ikey
  | some k => gather g.ikey (keepRowsWithNull g k)

/-! ## Kernels -/

/-- Offset of block `i` in the output: `rt_merge.py:644`, `:923`, `:968`. -/
def blockStart (cum : List Nat) (i : Nat) : Nat := if i = 0 then 0 else cum.getD (i - 1) 0

/-- The writes of iteration `i` of `_build_right_fancyindex_impl`,
`rt_merge.py:642-665`.  `keyids` holds 1-based right group numbers or invalid. -/
def rightImplIter (keyids : List (Option Nat)) (ifirstgroup igroup cum : List Nat) (outLen i : Nat) :
    List (Nat × Option Nat) :=
  let off := blockStart cum i
  if off < outLen then
    match keyids.getD i none with
    | none => [(off, none)]
    | some k =>
      if k = 0 ∨ k ≥ ifirstgroup.length then [(off, none)]
      else
        (List.range (cum.getD i 0 - off)).map fun j =>
          (off + j, some (igroup.getD (ifirstgroup.getD k 0 + j) 0))
  else []

/-- `rt_merge.py:611-665` `_build_right_fancyindex_impl` (`parallel=False`). -/
def rightImpl (keyids : List (Option Nat)) (ifirstgroup igroup cum : List Nat)
    (out : List (Option Nat)) : List (Option Nat) :=
  applyWrites out ((List.range keyids.length).flatMap
    (rightImplIter keyids ifirstgroup igroup cum out.length))

/-- `rt_merge.py:669-731` `_fancy_index_fetch_keymap`.  Each iteration writes its own
cell. -/
def fetchKeymap (map : List (Option Nat)) (ikey : List Nat) : List (Option Nat) :=
  ikey.map fun raw =>
    if raw = 0 ∨ raw > map.length then none
    else match map.getD (raw - 1) none with
      | none => none
      | some v => some (v + 1)

/-- The writes of iteration `i` of `_partial_repeat`, `rt_merge.py:921-930`. -/
def partialRepeatIter {β : Type} (arr : List β) (d : β) (cum : List Nat) (i : Nat) : List (Nat × β) :=
  (List.range (cum.getD i 0 - blockStart cum i)).map fun j => (blockStart cum i + j, arr.getD i d)

/-- `rt_merge.py:888-930` `_partial_repeat`; `order` is the order in which the
iterations of the parallel loop run. -/
def partialRepeat {β : Type} (order : List Nat) (arr : List β) (d : β) (cum : List Nat) (out : List β) :
    List β :=
  applyWrites out (order.flatMap (partialRepeatIter arr d cum))

/-- The writes of iteration `i` of `_fused_arange_repeat`, `rt_merge.py:966-975`. -/
def fusedArangeIter (cum : List Nat) (i : Nat) : List (Nat × Nat) :=
  (List.range (cum.getD i 0 - blockStart cum i)).map fun j => (blockStart cum i + j, i)

/-- `rt_merge.py:934-975` `_fused_arange_repeat` -/
def fusedArange (order : List Nat) (cum out : List Nat) : List Nat :=
  applyWrites out (order.flatMap (fusedArangeIter cum))

/-! ## Index construction -/

/-- `rt_merge.py:734-884` `_build_right_fancyindex`.  `g0` is the content of the
uninitialised output buffer. -/
def buildRight {K : Type} (g0 : Option Nat) (l2r : List (Option Nat)) (L R : Grouping K)
    (inner : Bool) (keepL keepR : Option Keep) : List (Option Nat) :=
  let leftIkey := keepIkeyWithNull L keepL
  if leftIkey.length = 0 then []
  else if R.ikey.length = 0 then
    if inner then [] else List.replicate leftIkey.length none
  else
    let keyids := fetchKeymap l2r leftIkey
    match keepR with
    | some k =>
      if inner then take (keepRows R k) ((keyids.filter Option.isSome).map (Option.map (· - 1)))
      else take (keepRows R k) (keyids.map (Option.map (· - 1)))
    | none =>
      let counts := (take R.ncountgroup keyids).map fun o => o.getD (if inner then 0 else 1)
      let cum := cumsum counts
      rightImpl keyids R.ifirstgroup R.igroup cum (List.replicate (cum.getLast?.getD 0) g0)

/-- `rt_merge.py:978-1211` `_build_left_fancyindex`.  `ok none` is Python's `None`
(use the left rows as they are).  `min` of an empty array raises
(`rt_merge.py:1155`).  `order` is the schedule of the parallel repeat kernel. -/
def buildLeft {K : Type} (sched : Nat → List Nat) (g0 : Nat) (r2l : List (Option Nat)) (exist : List Bool)
    (L R : Grouping K) (inner : Bool) (keepL keepR : Option Keep) :
    Except String (Option (List Nat)) :=
  if R.ikey.length = 0 then
    if inner then .ok (some [])
    else match keepL with
      | none => .ok none
      | some k => .ok (some (keepRowsWithNull L k))
  else if L.ikey.length = 0 then .ok (some [])
  else
    let allUnique := R.gbkeys.length == R.ikey.length
    let targets := (maskSel r2l exist).map fun o => o.getD 0 + 1
    if keepR.isSome || allUnique then
      if inner then
        let mask := scatter (List.replicate L.ncountgroup.length false) targets
          (List.replicate targets.length true)
        match keepL with
        | none => .ok (some (boolToFancy (L.ikey.map fun c => mask.getD c false)))
        | some k => .ok (some (maskSel (keepRows L k) (mask.drop 1)))
      else match keepL with
        | none => .ok none
        | some k => .ok (some (keepRowsWithNull L k))
    else
      let mult := scatter (List.replicate L.ncountgroup.length (if inner then 0 else 1)) targets
        (maskSel (R.ncountgroup.drop 1) exist)
      let leftIkey := keepIkey L keepL
      let repeats := leftIkey.map fun c => mult.getD c 0
      if repeats.length = 0 then .error "min of an empty array"
      else
        let cum := cumsum repeats
        let out := List.replicate (cum.getLast?.getD 0) g0
        match keepL with
        | none => .ok (some (fusedArange (sched cum.length) cum out))
        | some k => .ok (some (partialRepeat (sched (keepRows L k).length) (keepRows L k) 0 cum out))

/-- `JoinIndices`, `rt_merge.py:1214-1241`; `none` = use the side as it is. -/
structure JoinIndices where
  left : Option (List (Option Nat))
  right : Option (List (Option Nat))
  rightOnly : Option Nat
  deriving DecidableEq, Repr

/-- Contents of uninitialised buffers and schedules of the parallel loops: nothing
is known about them except that `sched n` runs each of `n` iterations once. -/
structure Env where
  g0 : Nat
  g1 : Option Nat
  sched : Nat → List Nat

/-- `ismember(a, b)` for distinct `b`: position of each element of `a` in `b`
(`riptide_cpp`). -/
def ismember {K : Type} [DecidableEq K] (a b : List K) : List (Option Nat) :=
  a.map fun x => b.findIdx? fun y => decide (y = x)

/-- `rt_merge.py:1357-1385`, `:1427-1447`: `(exists, right→left map, left→right map)`. -/
def keyMaps {K : Type} [DecidableEq K] (L R : Grouping K) :
    List Bool × List (Option Nat) × List (Option Nat) :=
  let r2l := if L.ikey.length = 0 ∨ R.ikey.length = 0 then R.ikey.map fun _ => none
    else ismember R.gbkeys L.gbkeys
  let exist := r2l.map Option.isSome
  (exist, r2l,
    scatter (List.replicate L.ncountgroup.length none)
      ((maskSel r2l exist).map fun o => o.getD 0) ((boolToFancy exist).map some))

/-- `rt_merge.py:1336-1402` `left_or_inner_join` -/
def leftOrInner {K : Type} [DecidableEq K] (env : Env) (L R : Grouping K) (inner : Bool)
    (keepL keepR : Option Keep) : Except String JoinIndices := do
  let (exist, r2l, l2r) := keyMaps L R
  let li ← buildLeft env.sched env.g0 r2l exist L R inner keepL keepR
  let ri := buildRight env.g1 l2r L R inner keepL keepR
  return ⟨li.map (List.map some), some ri, none⟩

/-- `rt_grouping.py:3717-3807` `Grouping.extract_groups`: concatenation of the
selected groups (the loop copies consecutive slices). -/
def extractGroups (cond : List Bool) (grouped ncount ifirst : List Nat) : List Nat :=
  (List.range cond.length).flatMap fun c =>
    if cond.getD c false then (grouped.drop (ifirst.getD c 0)).take (ncount.getD c 0) else []

/-- `ndarray.sort` -/
def sortRows (l : List Nat) : List Nat := l.insertionSort (· ≤ ·)

/-- Right-only rows, `rt_merge.py:1450-1497`.  `RG` is the second grouping with
SQL `GROUP BY` null semantics, present only for multi-column keys.
`unique(..., sorted=False)` is `dedup`.  An index past the end of
`keep_ifirstlastkey` reads the invalid row number there; here it is `none`, an error (no theorem is about it). -/
def rightOnlyRows {K : Type} (exist : List Bool) (R : Grouping K) (RG : Option (Grouping K))
    (keepR : Option Keep) : Option (List Nat) :=
  let mask := decide (R.ncountgroup.getD 0 0 > 0) :: exist.map not
  match keepR with
  | none => some (sortRows (extractGroups mask R.igroup R.ncountgroup R.ifirstgroup))
  | some k =>
    match RG with
    | some rg =>
      if R.ncountgroup.getD 0 0 > 0 then do
        let rows := R.igroup.take (R.ncountgroup.getD 0 0)
        let groups := (gather rg.ikey rows).eraseDups
        let tbl := keepRowsWithNull rg k
        let invalidRows ← groups.mapM fun g => tbl[g]?
        some (sortRows (invalidRows ++ maskSel (keepRows R k) (mask.drop 1)))
      else some (sortRows (maskSel (keepRowsWithNull R k) (if mask.getD 0 false then mask else mask.drop 1)))
    | none => some (sortRows (maskSel (keepRowsWithNull R k) (if mask.getD 0 false then mask else mask.drop 1)))

/-- `rt_merge.py:1404-1576` `outer_join` -/
def outerJoin {K : Type} [DecidableEq K] (env : Env) (L R : Grouping K) (RG : Option (Grouping K))
    (keepL keepR : Option Keep) : Except String JoinIndices := do
  let (exist, r2l, l2r) := keyMaps L R
  match rightOnlyRows exist R RG keepR with
  | none => .error "IndexError"
  | some ro =>
    let li ← buildLeft env.sched env.g0 r2l exist L R false keepL keepR
    let ri := buildRight env.g1 l2r L R false keepL keepR
    if ro.length > 0 then
      let li' := match li with
        | none => (List.range L.ikey.length).map some ++ ro.map fun _ => none
        | some l => l.map some ++ ro.map fun _ => none
      return ⟨some li', some (ri ++ ro.map some), some ro.length⟩
    else return ⟨li.map (List.map some), some ri, some ro.length⟩

/-- the `how` argument -/
inductive How where
  | left | right | inner | outer
  deriving DecidableEq, Repr

/-- `rt_merge.py:1587-1589`: the right join runs the left join with sides swapped. -/
def rightJoin {K : Type} [DecidableEq K] (env : Env) (L R : Grouping K)
    (keepL keepR : Option Keep) : Except String JoinIndices := do
  let j ← leftOrInner env R L false keepR keepL
  return ⟨j.right, j.left, none⟩

/-- `rt_merge.py:1285-1625` `_create_merge_fancy_indices` -/
def createIndices {K : Type} [DecidableEq K] (env : Env) (L R : Grouping K) (RG : Option (Grouping K))
    (how : How) (keepL keepR : Option Keep) : Except String JoinIndices :=
  match how with
  | .left => leftOrInner env L R false keepL keepR
  | .right => rightJoin env L R keepL keepR
  | .inner => leftOrInner env L R true keepL keepR
  | .outer =>
    if L.ikey.length = 0 ∨ R.ikey.length = 0 then
      if R.ikey.length = 0 then do
        let j ← leftOrInner env L R false keepL keepR
        return ⟨j.left, j.right, some 0⟩
      else do
        let j ← rightJoin env L R keepL keepR
        return ⟨j.left, j.right, some ((j.right.map List.length).getD 0)⟩
    else outerJoin env L R RG keepL keepR

/-- Key column with nulls masked: `rt_merge.py:1848-1931`, `:2004-2009` (single
column).  `force` is `force_invalids`; without it nulls are ordinary keys. -/
def maskKeys {V : Type} (isnull : V → Bool) (force : Bool) (col : List V) : List (Option V) :=
  col.map fun v => if force && isnull v then none else some v

/-- `rt_merge.py:2080-2289` `merge_indices` for one non-categorical key column.
`mk` builds a `Grouping` (`riptide_cpp`).  Argument checks on names and dtypes are
omitted. -/
def mergeIndices {V : Type} [DecidableEq V] (env : Env) (mk : List (Option V) → Grouping V)
    (isnull : V → Bool) (how : How) (keepL keepR : Option Keep) (lcol rcol : List V) :
    Except String JoinIndices :=
  if how = .outer ∧ keepL.isSome then .error "ValueError: keep for the left side of an outer merge"
  else createIndices env (mk (maskKeys isnull (decide (how ≠ .left)) lcol))
    (mk (maskKeys isnull (decide (how ≠ .right)) rcol)) none how keepL keepR

/-- The row pairs a merge reads through the two selectors
(`rt_merge.py:1243-1266`, `:2655-2800`); selectors of different lengths do not form a
Dataset. -/
def JoinIndices.rows (nl nr : Nat) (j : JoinIndices) : Option (List (Option Nat × Option Nat)) :=
  let l := j.left.getD ((List.range nl).map some)
  let r := j.right.getD ((List.range nr).map some)
  if l.length = r.length then some (l.zip r) else none

end Verif.Merge
