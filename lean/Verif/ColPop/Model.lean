import Verif.Struct.Model
/-!
# Taking columns out of Structs (C364 - C366)

`riptable/rt_struct.py`: 3645-3698 (`col_pop`), 609-703 (`_mask_get_item`: which columns), 752-801 (`_extract_indexing`), 804-834 (`__getitem__`), on
top of the Structs of `Verif/Struct`. Bytes, slices other than `:`, arrays and pairs of rows and columns are left out. `getattr` of a column that has the
name of a method or property gives this attribute instead; here it is an error, and the theorems leave these names out.
-/
namespace Verif.ColPop
open Verif.Items Verif.Struct
variable {V : Type}

/-- the argument of `[]` and of `col_pop`: a name, a number, lists of names, of numbers and of bools, and `:` -/
inductive Arg where
  | name (n : Name)
  | index (i : Int)
  | names (l : List Name)
  | indices (l : List Int)
  | mask (l : List Bool)
  | all
deriving DecidableEq, Repr

/-- what is returned: a value, or a Struct of values -/
inductive Out (V : Type) where
  | one (v : V)
  | many (l : List (Name × V))
deriving DecidableEq, Repr

/-- `col_idx`: a string, a list, a numpy array of strings or `None` -/
inductive Sel where
  | one (n : Name)
  | list (l : List Name)
  | array (l : List Name)
  | none
deriving DecidableEq, Repr

/-- `list(self.keys())[i]` (rt_struct.py:791): negative numbers count from the end -/
def keyAt (s : St V) (i : Int) : Except String Name :=
  let k := if i < 0 then i + s.items.keys.length else i
  if k < 0 then .error "IndexError: out of range"
  else match s.items.keys[k.toNat]? with
    | some n => .ok n
    | none => .error "IndexError: out of range"

/-- `data[mask]` for bools -/
def masked : List Name → List Bool → List Name
  | n :: l, true :: m => n :: masked l m
  | _ :: l, false :: m => masked l m
  | _, _ => []

/-- `_extract_indexing` (rt_struct.py:752-801) of a column argument, with `_mask_get_item` (rt_struct.py:609-703): numbers and bools index a numpy array
of the names, names stay a list -/
def extract (s : St V) : Arg → Except String Sel
  | .name n => .ok (.one n)
  | .index i => (keyAt s i).map .one
  | .names [] => .error "IndexError: empty list"
  | .names (n :: l) => .ok (.list (n :: l))
  | .indices [] => .error "IndexError: empty list"
  | .indices (i :: l) => ((i :: l).mapM (keyAt s)).map .array
  | .mask [] => .error "IndexError: empty list"
  | .mask (b :: l) => if (b :: l).length = s.items.keys.length then .ok (.array (masked s.items.keys (b :: l))) else .error "IndexError: boolean index"
  | .all => .ok .none

/-- `{_k: getattr(self, _k) for _k in col_idx}` (rt_struct.py:834) -/
def attrs (cls : Cls) (s : St V) (l : List Name) : Except String (List (Name × V)) :=
  l.mapM fun n => (getAttr cls s n).map fun v => (n, v)

/-- `st[names]` (rt_struct.py:832-834) -/
def getMany (cls : Cls) (s : St V) (l : List Name) : Except String (Out V) :=
  if l.Nodup then (attrs cls s l).map .many else .error "IndexError: duplicates"

/-- `st[arg]` (rt_struct.py:804-834) once the columns are found -/
def getSel (cls : Cls) (s : St V) : Sel → Except String (Out V)
  | .one n => if s.items.has n then (getAttr cls s n).map .one else .error "IndexError: unknown column"
  | .list l => getMany cls s l
  | .array l => getMany cls s l
  | .none => .error "TypeError: None is not iterable"

/-- `st[arg]` (rt_struct.py:804-834) -/
def getItem (cls : Cls) (s : St V) (a : Arg) : Except String (Out V) :=
  match extract s a with
  | .error e => .error e
  | .ok c => getSel cls s c

/-- `self.col_remove(col_idx)` and `return newds` (rt_struct.py:3697-3698), `col_remove` raises for missing columns -/
def finish (s : St V) (l : List Name) : Except String (Out V) → St V × Except String (Out V)
  | .error e => (s, .error e)
  | .ok r =>
    match colRemove s l true with
    | (s', none) => (s', .ok r)
    | (s', some e) => (s', .error e)

/-- `col_pop` of names in a list: missing ones raise, then `self[col_idx]`, which raises for an empty list -/
def popList (cls : Cls) (s : St V) (l : List Name) : St V × Except String (Out V) :=
  if l.any fun n => !s.items.has n then (s, .error "IndexError: unknown column")
  else finish s l (getItem cls s (.names l))

/-- `col_pop` once the columns are found (rt_struct.py:3682-3698): only a list is taken as several columns, `getattr(self, array)` raises -/
def popSel (cls : Cls) (s : St V) : Sel → St V × Except String (Out V)
  | .one n => if s.items.has n then finish s [n] ((getAttr cls s n).map .one) else (s, .error "IndexError: unknown column")
  | .list l => popList cls s l
  | .array l => if l.any fun n => !s.items.has n then (s, .error "IndexError: unknown column")
      else (s, .error "TypeError: attribute name must be string")
  | .none => popList cls s s.items.keys

/-- `col_pop` (rt_struct.py:3645-3698) -/
def colPop (cls : Cls) (s : St V) (a : Arg) : St V × Except String (Out V) :=
  match extract s a with
  | .error e => (s, .error e)
  | .ok c => popSel cls s c
end Verif.ColPop
