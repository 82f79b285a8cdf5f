import Verif.H5.Spec
/-!
# Loading HDF5 files (C356 - C359)

`riptable/rt_utils.py`: 49-186 (`load_h5`: `fixblocks`, `drop_short`), 216-238 (`_possibly_escape_colname`), 282-332 (`h5io_to_struct`:
a dictionary of arrays).

Reading the file is done by the package `hdf5`, its result is given here. Which names are Python keywords and which attributes of Dataset are
parameters, as is `str.capitalize`. Warnings and printed lines are left out.
-/
namespace Verif.H5
variable {A : Type}

/-- `d[k] = v` -/
def set {B : Type} (d : List (Name × B)) (k : Name) (v : B) : List (Name × B) :=
  match d with
  | [] => [(k, v)]
  | e :: es => if e.1 = k then (k, v) :: es else e :: set es k v

def get {B : Type} (d : List (Name × B)) (k : Name) : Option B := (d.find? fun e => e.1 == k).map Prod.snd

/-! ## Names -/

structure Words where
  kw : Name → Bool
  attr : Name → Bool
  cap : Name → Name

/-- `while name.startswith("_"): name = name[1:]` (223-224) -/
def strip : Name → Name
  | '_' :: n => strip n
  | n => n

/-- `while name in container: name = name + "_"` (227-228); the first argument bounds the rounds, see `bump_ends` -/
def bump : Nat → List Name → Name → Name
  | 0, _, n => n
  | f + 1, c, n => if c.contains n then bump f c (n ++ ['_']) else n

/-- `_possibly_escape_colname` -/
def escape (w : Words) (container : List Name) (n : Name) : Name :=
  if w.kw (strip n) then bump (container.length + 1) container (strip n ++ ['_'])
  else if w.attr (strip n) then w.cap (strip n)
  else strip n

/-- `h5io_to_struct`, 311-320: the columns of a dictionary; `container`: the names of all its items, `d`: those of its items which are arrays -/
def loadDict (w : Words) (container : List Name) (d : List (Name × A)) : List (Name × A) :=
  d.foldl (fun out e => set out (escape w container e.1) e.2) []

/-! ## Blocks -/

/-- `rows.transpose()` -/
def transpose (m : Mat A) : List (List A) := (List.range m.width).map fun j => m.rows.filterMap fun row => row[j]?

/-- `k.endswith("_items")` -/
def endsItems (k : Name) : Bool := itemsEnd.isSuffixOf k

/-- `ws[k[:-5] + "values"]` -/
def valuesOf (ws : List (Name × Item A)) (k : Name) : Option (Item A) := get ws (k.take (k.length - 5) ++ valuesEnd.drop 1)

/-- 159-166: one item; `none`: it raises. The code collects the columns of the block in a dictionary of their own first, which has the same
result. -/
def block (ws : List (Name × Item A)) (out : List (Name × List A)) (e : Name × Item A) : Option (List (Name × List A)) :=
  if endsItems e.1 then
    match e.2, valuesOf ws e.1 with
    | .names names, some (.mat m) => some ((names.zip (transpose m)).foldl (fun out c => set out c.1 c.2) out)
    | _, _ => none
  else some out

/-- `load_h5(fixblocks=True)` -/
def fixBlocks (ws : List (Name × Item A)) : Option (List (Name × List A)) := ws.foldlM (block ws) []

/-! ## Short columns -/

/-- `load_h5(drop_short=True)`, 169-184; `none`: `max` of nothing raises -/
def dropShort (ws : List (Name × List A)) : Option (List (Name × List A)) :=
  match (ws.map fun c => c.2.length).max? with
  | none => none
  | some m => some (ws.filter fun c => c.2.length == m)
end Verif.H5
