import Verif.Merge.Model
import Verif.Items.Model

/-!
# Model of the Dataset level of `merge2` / `merge_lookup`, `riptable/rt_merge.py`

The join indices come from `Verif.Merge.createIndices`.  A `Dataset` is a number
of rows and an insertion-ordered dictionary of columns.  All values live in one type
`V` with one missing value `inv` (every dtype has its own; promotion by
`hstack` and the Categorical branch of `mbget_wrapper` are not modelled).  Copies and
read-only views are the same value here.  The dtype compatibility check of key columns
(`:2213-2235`) is not modelled.
-/
namespace Verif.Merge2
open Verif.Merge Verif.Items

/-- a `Dataset` -/
structure DS (V : Type) where
  nrows : Nat
  cols : Dict Name (List V)

/-- `ds[name]`; presence is checked by the callers -/
def DS.col {V : Type} (ds : DS V) (c : Name) : List V := (ds.cols.get c).getD []

/-- the pair of suffixes; each may be `None` or a string -/
abbrev Suffixes := Option (Option Name × Option Name)

/-! ## `:382-485` `_construct_colname_mapping` -/

/-- `set(a) & set(b)`; the iteration order of a Python set is given by `ord`. -/
def setInter (ord : List Name → List Name) (a b : List Name) : List Name :=
  ord (a.eraseDups.filter fun c => c ∈ b)

/-- `:440-465` `create_suffixed_remapped_cols` with `check_self_overlap` `:433-437`. -/
def remapCols (on only overlap : List Name) (suffix : Option Name) : Except String (List Name) :=
  let s := suffix.getD []
  if s = [] then .ok only
  else
    let renamed := overlap.map fun c => c ++ s
    if renamed.any fun c => c ∈ on then .error "ValueError: self-collision with key columns"
    else if renamed.any fun c => c ∈ only then .error "ValueError: self-collision"
    else .ok (only.map fun c => if c ∈ overlap then c ++ s else c)

/-- result of `_construct_colname_mapping` -/
structure Mapping where
  oldL : List Name
  newL : List Name
  oldR : List Name
  newR : List Name
  inter : List Name
  deriving DecidableEq, Repr

/-- first component of `suffixes`, `:467` -/
def sufL : Suffixes → Option Name
  | none => some []
  | some p => p.1

/-- second component of `suffixes`, `:468` -/
def sufR : Suffixes → Option Name
  | none => some []
  | some p => p.2

/-- `:421-426`: the requested columns that are not common key columns -/
def onlyCols (inter cols : List Name) : List Name :=
  if inter.isEmpty then cols else cols.filter fun c => c ∉ inter

/-- `:382-485` -/
def colnameMapping (ord : List Name → List Name) (leftOn rightOn : List Name) (suffixes : Suffixes)
    (colsL colsR : List Name) : Except String Mapping :=
  let inter := setInter ord leftOn rightOn
  let onlyL := onlyCols inter colsL
  let onlyR := onlyCols inter colsR
  let overlap := setInter ord onlyL onlyR
  if !overlap.isEmpty && suffixes.isNone then .error "ValueError: columns overlap but no suffix specified"
  else if !overlap.isEmpty && decide (sufL suffixes = sufR suffixes) then
    .error "ValueError: columns overlap but suffixes are the same"
  else
    match remapCols leftOn onlyL overlap (sufL suffixes) with
    | .error e => .error e
    | .ok newL =>
      match remapCols rightOn onlyR overlap (sufR suffixes) with
      | .error e => .error e
      | .ok newR =>
        if newL.any fun c => c ∈ newR then .error "ValueError: column name collision after applying suffixes"
        else .ok ⟨onlyL, newL, onlyR, newR, inter⟩

/-! ## Keys, `:1767-1845`, `:1934-2078`, `:2080-2289` -/

/-- the `validate` argument -/
inductive Validate where
  | oneToOne | oneToMany | manyToOne | manyToMany
  deriving DecidableEq, Repr

/-- `:1827-1839` `_perform_validation`: `ncountkey.max(initial=0) > 1`; `ncountkey` is
`ncountgroup` without the null group. -/
def hasRepeatedKey {K : Type} (g : Grouping K) : Bool :=
  decide ((g.ncountgroup.drop 1).foldl max 0 > 1)

/-- `require_unique_left`, `:1791-1824` -/
def requireUniqueLeft (keepL : Option Keep) : Validate → Bool
  | .oneToOne => keepL.isNone
  | .oneToMany => keepL.isNone
  | .manyToOne => false
  | .manyToMany => false

/-- `require_unique_right`, `:1791-1824` -/
def requireUniqueRight (keepR : Option Keep) : Validate → Bool
  | .oneToOne => keepR.isNone
  | .oneToMany => false
  | .manyToOne => keepR.isNone
  | .manyToMany => false

/-- `:1767-1845` `_validate_groupings` -/
def validateGroupings {K : Type} (L R : Grouping K) (v : Validate) (keepL keepR : Option Keep) :
    Except String Unit :=
  if requireUniqueLeft keepL v && hasRepeatedKey L then .error "ValueError: left keys occur more than once"
  else if requireUniqueRight keepR v && hasRepeatedKey R then .error "ValueError: right keys occur more than once"
  else .ok ()

/-- `:2267-2268`: no validation unless asked for -/
def optValidate {K : Type} (L R : Grouping K) (v : Option Validate) (keepL keepR : Option Keep) :
    Except String Unit :=
  match v with
  | none => .ok ()
  | some v => validateGroupings L R v keepL keepR

/-- What is outside the modelled code: buffers and schedules, `Grouping` construction
(`riptide_cpp`), null test, string dtype test, iteration order of sets, and the value that
stands for category `n` of the indicator column. -/
structure World (V : Type) where
  env : Env
  group : List (Option (List V)) → Grouping (List V)
  inv : V
  isnull : V → Bool
  isStr : List V → Bool
  ord : List Name → List Name
  cat : Nat → V

variable {V : Type} [DecidableEq V]

/-- the tuple of key values of each row -/
def keyTuples (inv : V) (ds : DS V) (on : List Name) : List (List V) :=
  (List.range ds.nrows).map fun i => on.map fun c => (ds.col c).getD i inv

/-- a tuple with a null in any component is null for the join, `:2046-2051` -/
def tupleNull (isnull : V → Bool) (t : List V) : Bool := t.any isnull

/-- `:1848-1874` `_create_column_valid_mask` of a plain column -/
def validMask (w : World V) (col : List V) : Option (List Bool) :=
  if w.isStr col then none else some (col.map fun v => !w.isnull v)

/-- `:2055-2064`: the running `valid_groupby_tuples_mask` -/
def groupbyMask (w : World V) (cols : List (List V)) : Option (List Bool) :=
  cols.foldl (fun acc col =>
    match validMask w col with
    | none => none
    | some m =>
      match acc with
      | none => some m
      | some a => some (List.zipWith (· || ·) a m)) none

/-- `:2069-2074`: the second grouping of the right keys, made for outer joins over several
columns -/
def groupbyGrouping (w : World V) (how : How) (ds : DS V) (on : List Name) : Option (Grouping (List V)) :=
  if how = .outer ∧ on.length ≠ 1 then
    let mask := groupbyMask w (on.map ds.col)
    some (w.group ((keyTuples w.inv ds on).mapIdx fun i t =>
      if (mask.map fun m => m.getD i false).getD true then some t else none))
  else none

/-- `:2080-2289` `merge_indices` on key columns `on` (pairs left name, right name). -/
def mergeIndices2 (w : World V) (left right : DS V) (on : List (Name × Name)) (how : How)
    (validate : Option Validate) (keepL keepR : Option Keep) : Except String JoinIndices :=
  if how = .outer ∧ keepL.isSome then .error "ValueError: keep for the left side of an outer merge"
  else
    let L := w.group (maskKeys (tupleNull w.isnull) (decide (how ≠ .left))
      (keyTuples w.inv left (on.map Prod.fst)))
    let R := w.group (maskKeys (tupleNull w.isnull) (decide (how ≠ .right))
      (keyTuples w.inv right (on.map Prod.snd)))
    match optValidate L R validate keepL keepR with
    | .error e => .error e
    | .ok _ =>
      createIndices w.env L R (groupbyGrouping w how right (on.map Prod.snd)) how keepL keepR

/-! ## `:2580-2870` `merge2` -/

/-- `mbget(arr, index)`: missing index gives the missing value -/
def mbget (inv : V) (col : List V) (fi : List (Option Nat)) : List V :=
  fi.map fun o =>
    match o with
    | some i => col.getD i inv
    | none => inv

/-- a column taken as it is or through a fancy index, `:2766-2773`, `:2784-2809` -/
def fetch (inv : V) (col : List V) : Option (List (Option Nat)) → List V
  | none => col
  | some fi => mbget inv col fi

/-- the last `k` entries, `arr[-k:]` for `k > 0` -/
def lastN {β : Type} (l : List β) (k : Nat) : List β := l.drop (l.length - k)

/-- `:2707-2753`: a key column with the same name on both sides.  `right_fancyindex[-k:]`
raises on `None`. -/
def keyColumn (inv : V) (how : How) (j : JoinIndices) (lcol rcol : List V) : Except String (List V) :=
  if how = .outer ∧ j.rightOnly.getD 0 > 0 then
    let k := j.rightOnly.getD 0
    let ld := match j.left with
      | none => lcol
      | some fi => mbget inv lcol (fi.take (fi.length - k))
    match j.right with
    | none => .error "TypeError"
    | some fi => .ok (ld ++ mbget inv rcol (lastN fi k))
  else
    match j.left with
    | none => .ok lcol
    | some fl =>
      match j.right with
      | none => .ok rcol
      | some fr => if how = .right then .ok (mbget inv rcol fr) else .ok (mbget inv lcol fl)

/-- the loops `for field in intersection_cols: out[field] = ...` -/
def addKeys (inv : V) (how : How) (j : JoinIndices) (left right : DS V) :
    List Name → Dict Name (List V) → Except String (Dict Name (List V))
  | [], out => .ok out
  | c :: cs, out =>
    match keyColumn inv how j (left.col c) (right.col c) with
    | .error e => .error e
    | .ok v => addKeys inv how j left right cs (out.set c v)

/-- the loops `for old_name, new_name in zip(*tuple): out[new_name] = ...` -/
def addCols (inv : V) (ds : DS V) (fi : Option (List (Option Nat))) (olds news : List Name)
    (out : Dict Name (List V)) : Dict Name (List V) :=
  (olds.zip news).foldl (fun o p => o.set p.2 (fetch inv (ds.col p.1) fi)) out

/-- `indicator` argument after `True` is replaced by the default name, `:2825-2827` -/
inductive Indicator where
  | no
  | yes
  | named (n : Name)
  deriving DecidableEq, Repr

def Indicator.name : Indicator → Option Name
  | .no => none
  | .yes => some "merge_indicator".toList
  | .named n => if n = [] then none else some n

/-- `where(is_good, a, 0)`; `is_good` is the scalar `True` when there is no index -/
def goodFlag (fi : Option (List (Option Nat))) (a n : Nat) : List Nat :=
  match fi with
  | none => List.replicate n a
  | some l => l.map fun o => if o.isSome then a else 0

/-- `:2841-2845`: category number of each output row.  When one index is missing its flag is a
scalar and broadcasts to the length of the other. -/
def indicatorCodes (j : JoinIndices) : List Nat :=
  let n := ((j.left.map List.length).orElse fun _ => j.right.map List.length).getD 1
  List.zipWith (· + ·) (goodFlag j.left 1 n) (goodFlag j.right 2 n)

/-- `:2755-2870`: the other columns and the indicator, after the common keys -/
def finish (w : World V) (j : JoinIndices) (left right : DS V) (m : Mapping)
    (requireMatch : Bool) (ind : Indicator) (out0 : Dict Name (List V)) : Except String (Dict Name (List V)) :=
  let out1 := addCols w.inv left j.left m.oldL m.newL out0
  if requireMatch && (j.right.getD []).any Option.isNone then
    .error "ValueError: one or more keys missing from the right Dataset"
  else
    let out2 := addCols w.inv right j.right m.oldR m.newR out1
    match ind.name with
    | none => .ok out2
    | some n =>
      if out2.has n then .error "ValueError: indicator column name collision"
      else .ok (out2.set n ((indicatorCodes j).map w.cat))

/-- `:2580-2870`, the part after the indices are known -/
def assemble (w : World V) (how : How) (j : JoinIndices) (left right : DS V) (m : Mapping)
    (requireMatch : Bool) (ind : Indicator) : Except String (Dict Name (List V)) :=
  match addKeys w.inv how j left right m.inter [] with
  | .error e => .error e
  | .ok out0 => finish w j left right m requireMatch ind out0

/-- `Dataset(out)`: all columns must have one length -/
def mkDataset (out : Dict Name (List V)) : Except String (DS V) :=
  match out with
  | [] => .ok ⟨0, []⟩
  | e :: rest =>
    if rest.all fun p => p.2.length = e.2.length then .ok ⟨e.2.length, out⟩
    else .error "ValueError: column lengths differ"

/-- arguments of `merge2` after normalisation of `on` (`:2596-2597`) -/
structure Args (V : Type) where
  left : DS V
  right : DS V
  leftOn : List Name
  rightOn : List Name
  how : How
  suffixes : Suffixes
  /-- `None` means all columns, `:1875-1884` -/
  colsL : Option (List Name) := none
  colsR : Option (List Name) := none
  indicator : Indicator := .no
  validate : Option Validate := none
  keepL : Option Keep := none
  keepR : Option Keep := none
  requireMatch : Bool := false

def Args.selL (a : Args V) : List Name := a.colsL.getD a.left.cols.keys
def Args.selR (a : Args V) : List Name := a.colsR.getD a.right.cols.keys

/-- `:1887-1904` `_require_columns_present` -/
def present (ds : DS V) (names : List Name) : Bool := names.all fun c => ds.cols.has c

/-- `:2580-2870` `merge2`.  Differing key counts are not rejected (`:2627-2630`
builds an exception without raising it) and `zip` truncates. -/
def merge2 (w : World V) (a : Args V) : Except String (DS V) :=
  if !(present a.left a.leftOn && present a.left a.selL && present a.right a.rightOn
      && present a.right a.selR) then .error "ValueError: columns not present"
  else
    match colnameMapping w.ord a.leftOn a.rightOn a.suffixes a.selL a.selR with
    | .error e => .error e
    | .ok m =>
      match mergeIndices2 w a.left a.right (a.leftOn.zip a.rightOn) a.how a.validate a.keepL a.keepR with
      | .error e => .error e
      | .ok j =>
        match assemble w a.how j a.left a.right m a.requireMatch a.indicator with
        | .error e => .error e
        | .ok out => mkDataset out

/-- `:3548-3569`: the arguments `merge_lookup` passes to `merge2` -/
def lookupArgs (left right : DS V) (leftOn rightOn : List Name) (suffixes : Suffixes)
    (colsL colsR : Option (List Name)) (keep : Option Keep) (requireMatch : Bool) : Args V :=
  { left, right, leftOn, rightOn, how := .left, suffixes, colsL, colsR, indicator := .no
    validate := if keep.isNone then some .manyToOne else none
    keepL := none, keepR := keep, requireMatch }

/-- `:3229-3569` `merge_lookup` -/
def mergeLookup (w : World V) (left right : DS V) (leftOn rightOn : List Name) (suffixes : Suffixes)
    (colsL colsR : Option (List Name)) (keep : Option Keep) (requireMatch : Bool) : Except String (DS V) :=
  merge2 w (lookupArgs left right leftOn rightOn suffixes colsL colsR keep requireMatch)

end Verif.Merge2
