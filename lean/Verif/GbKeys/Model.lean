import Verif.GbKeys.Spec
/-!
# The chain of group keys (C332 - C335)

`riptable/rt_groupbykeys.py`: 56-84 (the constructor), 87-110 (`sort_gb_data`, `isortrows`), 112-135 (`gbkeys`, `gbkeys_filtered`,
`_insert_filter_bin`), 137-160 (`unique_unsorted`, `_pull_from_ifirstkey`), 162-188 (`keys`), 201-232 (`labels`, `_trim_keys`), 255-350
(`_get_index_from_tuple`, `get_bin_from_index`, `get_bin`), 353-395 (`_make_isortrows`, `unsort`, `copy`).

`Verif/Grp` has the chain of a Categorical under requests that leave the order as it is; here are all requests, in any order, with changes
of the order, copies and chains of a GroupBy that are not binned.

Simplifications: the columns of keys are one list of rows; `lexsort` (C++) is a parameter, which may look at the filtered bin like at any
other row; an exception is `none` and leaves the chain as it is; the warning of `unsort` is left out; text and bytes are not told apart.
-/
namespace Verif.GbKeys
variable {K : Type}

structure Chain (K : Type) where
  /-- the unique keys in order of their first rows: `v[ifirstkey]`, or the columns given when binned -/
  src : List K
  prebinned : Bool
  /-- `_gbkeys` -/
  gb : Option (List (Row K))
  /-- `_isortrows` -/
  iso : Option (List Nat)
  display : Bool
  pre : Bool
  applied : Bool
  filtered : Bool
deriving Repr, DecidableEq

/-- the constructor (56-84) -/
def make (src : List K) (prebinned : Bool) (iso : Option (List Nat)) (display pre : Bool) : Chain K :=
  ⟨src, prebinned, if prebinned then some (src.map .key) else none, iso, display, pre, false, false⟩

/-- `_pull_from_ifirstkey` (147-160) -/
def pull (s : Chain K) : List (Row K) :=
  match s.gb with
  | some g => g
  | none => s.src.map .key

/-- `v[index]` -/
def pick {A : Type} (l : List A) (idx : List Nat) : List A := idx.filterMap fun i => l[i]?

/-- `_trim_keys` (220-232) and the end of `keys` (185-188) -/
def trim (showFilter : Bool) (s : Chain K) (g : List (Row K)) : List (Row K) :=
  if !showFilter && s.filtered then g.drop 1 else g

/-- the sort in `keys` (175-183) -/
def order (srt : List (Row K) → List Nat) (s : Chain K) (g : List (Row K)) : Chain K :=
  if s.display && !s.pre && !s.applied then
    { s with gb := some (pick g (s.iso.getD (srt g))), iso := some (s.iso.getD (srt g)), applied := true }
  else { s with gb := some g }

/-- `if sort is not None: self._sort_display = sort` (170-171) -/
def setDisplay (s : Chain K) (sort : Option Bool) : Chain K := { s with display := sort.getD s.display }

/-- `keys(sort, showfilter)` (162-188) -/
def keys (srt : List (Row K) → List Nat) (sort : Option Bool) (showFilter : Bool) (s : Chain K) : Chain K × List (Row K) :=
  let s' := order srt (setDisplay s sort) (pull s)
  (s', trim showFilter s' (pull s'))

/-- `_insert_filter_bin` (127-134) -/
def insertBin (srt : List (Row K) → List Nat) (s : Chain K) : Chain K :=
  if s.filtered then s
  else
    let r := keys srt none false s
    { r.1 with gb := some (.filtered :: r.2), filtered := true }

/-- `gbkeys_filtered` (120-125) -/
def keysFiltered (srt : List (Row K) → List Nat) (s : Chain K) : Chain K × List (Row K) :=
  keys srt none true (insertBin srt s)

/-- `isortrows` (96-103) and `_make_isortrows` (353-357): `None.values()` raises -/
def sortRows (srt : List (Row K) → List Nat) (s : Chain K) : Option (Chain K × List Nat) :=
  match s.iso with
  | some i => some (s, i)
  | none => s.gb.map fun g => ({ s with iso := some (srt g) }, srt g)

/-- `sort_gb_data` (86-93) -/
def sortData (s : Chain K) : Bool := s.display && !s.pre

/-- `unsort` (360-369) -/
def unsort (s : Chain K) : Option (Chain K) :=
  if s.pre then some { s with display := false }
  else if s.applied then none
  else some { s with display := false }

/-- `copy` (372-395): built anew from the source, the flags as they are; `len(None)` raises for binned keys (75) -/
def copy (s : Chain K) : Option (Chain K) := if s.prebinned then none else some { s with gb := none }

/-- `unique_unsorted` (137-143) -/
def uniqueUnsorted (s : Chain K) : List (Row K) := pull s

/-- one request; one that raises leaves the chain as it is, but for the sort flag, which is set first -/
def step (srt : List (Row K) → List Nat) (s : Chain K) : Req → Chain K
  | .keys so sh => (keys srt so sh s).1
  | .filtered => (keysFiltered srt s).1
  | .sortRows => ((sortRows srt s).map Prod.fst).getD s
  | .unsort => (unsort s).getD s
  | .copy => (copy s).getD s

/-- a history of requests -/
def run (srt : List (Row K) → List Nat) (s : Chain K) (l : List Req) : Chain K := l.foldl (step srt) s

/-! ## Lookups -/

/-- `get_bin_from_index` (296-312) on the shown keys -/
def getBin (ks : List K) (i : Int) : Option K := if 0 ≤ i ∧ i < ks.length then ks[i.toNat]? else none

/-- `np.where(match)[0]` -/
def wheres [DecidableEq K] (ks : List K) (k : K) : List Nat := (List.range ks.length).filter fun i => ks[i]? = some k

/-- `_get_index_from_tuple` (255-283): the place of the only match, else -1 -/
def getIndex [DecidableEq K] (ks : List K) (k : K) : Int :=
  match wheres ks k with
  | [i] => i
  | _ => -1

/-- `get_bin` of a list of places (324-330): none raises (`index[0]` of an empty list), one gives the bin itself, more a list -/
inductive Bins (K : Type) where
  | one (k : K)
  | many (l : List K)
deriving DecidableEq, Repr

def getBins (ks : List K) : List Int → Option (Bins K)
  | [] => none
  | is => (is.mapM (getBin ks)).map fun l => match l with
    | [k] => .one k
    | l => .many l
end Verif.GbKeys
