import Verif.Asof.Model
import Verif.Merge2.Model

/-!
# Model of the Dataset level of `merge_asof2`, `riptable/rt_merge_asof.py:1250-1753`

The index construction is `Verif.Asof.asofIndices` / `asofGrouped`, the names come from
`Verif.Merge2.colnameMapping`.  Values, Datasets and the missing value are those of
`Verif.Merge2`.  Not modelled: the dtype half of `_verify_join_keys_compat` (its check of the
number of keys is), deprecated keyword arguments, `copy` (views and copies have the same
contents), warnings.
-/
namespace Verif.AsofDs
open Verif.Merge Verif.Merge2 Verif.Asof Verif.Items

/-- What is outside the modelled code: `w` as for `merge2`; `key` reads a value of the `on`
columns as a key (`none` is NaN); `bounds` are the extreme valid keys; `order n` is the order in
which the parallel loop runs over `n` groups. -/
structure AWorld (V α : Type) where
  w : World V
  key : V → Option α
  bounds : Bounds α
  order : Nat → List Nat

/-- arguments of `merge_asof2` after normalisation of `on` and `by` (`:1477-1517`).  `matched`
has the same three forms as the `indicator` of `merge2`. -/
structure AArgs (V α : Type) where
  left : DS V
  right : DS V
  leftOn : Name
  rightOn : Name
  leftBy : List Name := []
  rightBy : List Name := []
  suffixes : Suffixes := none
  colsL : Option (List Name) := none
  colsR : Option (List Name) := none
  tol : Option α := none
  exact : Bool := true
  dir : Dir := .backward
  matched : Indicator := .no

section
variable {V α : Type}

/-- `:1526-1529` `_normalize_selected_columns` -/
def AArgs.selL (a : AArgs V α) : List Name := a.colsL.getD a.left.cols.keys
def AArgs.selR (a : AArgs V α) : List Name := a.colsR.getD a.right.cols.keys
/-- `:1551-1554`: the `on` column and the `by` columns together -/
def AArgs.keysL (a : AArgs V α) : List Name := a.leftOn :: a.leftBy
def AArgs.keysR (a : AArgs V α) : List Name := a.rightOn :: a.rightBy

/-- `:1699-1703`: name of the `matched_on` column, if asked for -/
def matchedName : Indicator → Option Name
  | .no => none
  | .yes => some "matched_on".toList
  | .named n => if n = [] then none else some n

variable [DecidableEq V] [LinearOrder α]

/-- `:1531-1545` -/
def AArgs.present (a : AArgs V α) : Bool :=
  Merge2.present a.left [a.leftOn] && Merge2.present a.left a.leftBy && Merge2.present a.left a.selL &&
  Merge2.present a.right [a.rightOn] && Merge2.present a.right a.rightBy && Merge2.present a.right a.selR

/-- `:1606-1645`: the index into the right Dataset.  `how = "left"`: nulls in the left `by`
columns are ordinary keys, nulls in the right ones are masked. -/
def rightIndex [Sub α] (x : AWorld V α) (a : AArgs V α) : Except String (List (Option Nat)) :=
  let lon := (a.left.col a.leftOn).map x.key
  let ron := (a.right.col a.rightOn).map x.key
  if a.leftBy = [] then asofIndices x.bounds a.tol a.exact a.dir lon ron
  else
    let L := x.w.group (maskKeys (tupleNull x.w.isnull) false (keyTuples x.w.inv a.left a.leftBy))
    let R := x.w.group (maskKeys (tupleNull x.w.isnull) true (keyTuples x.w.inv a.right a.rightBy))
    asofGrouped (x.order L.gbkeys.length) x.bounds a.tol a.exact a.dir L R lon ron

/-- `:1650-1703`: the output columns.  The index into the left Dataset is always `None`, so
common key columns and left columns are taken as they are. -/
def assembleAsof (inv : V) (a : AArgs V α) (m : Mapping) (fi : List (Option Nat)) :
    Except String (Dict Name (List V)) :=
  let out0 := m.inter.foldl (fun (o : Dict Name (List V)) c => Dict.set o c (a.left.col c)) []
  let out1 := addCols inv a.left none m.oldL m.newL out0
  let out2 := addCols inv a.right (some fi) m.oldR m.newR out1
  match matchedName a.matched with
  | none => .ok out2
  | some n =>
    if out2.has n then .error "ValueError: matched_on column name collision"
    else .ok (out2.set n (mbget inv (a.right.col a.rightOn) fi))

/-- `:1250-1753` `merge_asof2`; `tol` has passed `_validate_and_normalize_tolerance`. -/
def mergeAsof2 [Sub α] (x : AWorld V α) (a : AArgs V α) : Except String (DS V) :=
  if !a.present then .error "ValueError: columns not present"
  else
    match colnameMapping x.w.ord a.keysL a.keysR a.suffixes a.selL a.selR with
    | .error e => .error e
    | .ok m =>
      if a.keysL.length ≠ a.keysR.length then .error "ValueError: differing numbers of columns used as join-keys"
      else
        match rightIndex x a with
        | .error e => .error e
        | .ok fi =>
          match assembleAsof x.w.inv a m fi with
          | .error e => .error e
          | .ok out => mkDataset out

end

/-! ## `:1146-1248` `_validate_and_normalize_tolerance` -/

/-- the common type of the two `on` columns -/
inductive OnType where
  /-- plain array of a signed integer dtype of that many bits -/
  | int (bits : Nat)
  /-- plain array of an unsigned integer dtype -/
  | uint (bits : Nat)
  /-- plain array of a float dtype -/
  | float
  /-- `DateTimeNano` -/
  | dtn
  /-- another subclass of `FastArray` -/
  | derived
  deriving DecidableEq, Repr

/-- the `tolerance` argument.  Floats are exact rationals or one of the special values. -/
inductive TolArg where
  | int (z : Int)
  | rat (q : Rat)
  | inf
  | nan
  /-- `TimeSpanScalar`, in nanoseconds -/
  | span (ns : Int)
  /-- `datetime.timedelta`: days, seconds `0..86399`, microseconds `0..999999` -/
  | delta (days secs micros : Int)
  | other
  deriving DecidableEq, Repr

/-- a normalised tolerance: an integer of the `on` dtype or a float -/
inductive TolVal where
  | int (z : Int)
  | rat (q : Rat)
  | inf
  deriving DecidableEq, Repr

/-- `np.array(z, dtype=intN)[()]`: the low bits (numpy before 2.0; later versions raise) -/
def wrapTo (signed : Bool) (bits : Nat) (z : Int) : Int :=
  if signed then z.bmod (2 ^ bits) else z.emod (2 ^ bits)

/-- `np.array(tolerance, dtype=unified_on_type)[()]` for a tolerance with integer part `z` -/
def castInt (t : OnType) (z : Int) (asFloat : TolVal) : Except String TolVal :=
  match t with
  | .int bits => .ok (.int (wrapTo true bits z))
  | .uint bits => .ok (.int (wrapTo false bits z))
  | .float => .ok asFloat
  | .dtn => .error "ValueError: tolerance type not supported for the 'on' columns"
  | .derived => .error "ValueError: tolerance type not supported for the 'on' columns"

/-- `:1146-1248`.  Conversion of a float to an integer dtype truncates.  `DateTimeNanoScalar`
refuses what does not fit in 64 bits. -/
def normTol (t : OnType) : TolArg → Except String TolVal
  | .int z =>
    if z < 0 then .error "ValueError: negative tolerance" else castInt t z (.rat z)
  | .rat q =>
    if q < 0 then .error "ValueError: negative tolerance" else castInt t q.floor (.rat q)
  | .inf =>
    match t with
    | .float => .ok .inf
    | .dtn | .derived => .error "ValueError: tolerance type not supported for the 'on' columns"
    | _ => .error "OverflowError"
  | .nan => .error "ValueError: negative tolerance"
  | .span ns =>
    if ns < 0 then .error "ValueError: negative tolerance"
    else if t = .dtn then .ok (.int ns)
    else .error "ValueError: can't determine how to use the tolerance"
  | .delta days secs micros =>
    if days < 0 then .error "ValueError: negative tolerance"
    else if t = .dtn then
      if days > 106751 then .error "ValueError: tolerance is too large"
      else
        let ns := (days * 86400 + secs) * 1000000000 + micros * 1000
        if ns < 2 ^ 63 then .ok (.int ns) else .error "OverflowError"
    else .error "ValueError: can't determine how to use the tolerance"
  | .other => .error "ValueError: tolerance value has unsupported type"

end Verif.AsofDs
