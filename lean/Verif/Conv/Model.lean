import Mathlib.Data.List.Sort
import Mathlib.Data.Rat.Defs
import Mathlib.Data.Prod.Lex

/-!
`Utils/conversion_utils.py:28-203` (`dataset_as_matrix`, `numpy_array_to_dict`, `numpy2d_to_dict`, `dset_dict_to_list`) and
`Dataset.as_matrix` (`rt_dataset.py:7142-7207`).

Not modelled: copies and views (`inarray[:, col].copy()`, `arr.T`), columns with more than one dimension, types of numbers,
`numpy_array_to_dataset` (the constructor of Dataset is C40) and `append_dataset_dict` (`concat_rows` is C48).
-/
namespace Verif.Conv

abbrev Name := List Char

inductive Err where
  | valueError | typeError | indexError
  deriving DecidableEq

deriving instance DecidableEq for Except

/-- `d[k] = v` of a dictionary: a key that is there keeps its place -/
def put {X V : Type} [DecidableEq X] (d : List (X × V)) (k : X) (v : V) : List (X × V) :=
  if k ∈ d.map Prod.fst then d.map fun e => if e.1 = k then (k, v) else e else d ++ [(k, v)]

/-! ## as_matrix -/

/-- columns: numbers (`_is_float_encodable`), Categoricals (their codes are numbers, too), everything else (texts, Booleans) -/
inductive Col (N T : Type) where
  | num (vals : List N)
  | cat (codes : List Nat) (cats : List T)
  | other (vals : List T)

section
variable {N T : Type} [LinearOrder T]

/-- `unique(x, return_inverse=True)`, first result (`rt_numpy.py:755-986`; `numpy.unique` gives the same): sorted, each value once -/
def uniques (vals : List T) : List T := vals.dedup.insertionSort (· ≤ ·)

/-- second result: the place of every value -/
def inverse (vals : List T) : List (Option Rat) := vals.map fun v => some (((uniques vals).idxOf v : Nat) : Rat)

/-- `ismember(x, category_values, 1)`, `astype(float64)`, `vals[~isValid] = nan` (`conversion_utils.py:43-45`, `rt_dataset.py:7181-7183`).
The 1 is the parameter `h`, the base index is 0. -/
def keyed (fk vals : List T) : List (Option Rat) :=
  vals.map fun v => if v ∈ fk then some ((fk.idxOf v : Nat) : Rat) else none

/-- `category_values` and `is_categorical` of `column_info` -/
structure Info (T : Type) where
  cats : Option (List T)
  isCat : Bool

/-- `_normalize_column` (`conversion_utils.py:28-46`, `rt_dataset.py:7166-7184`); `conv` is `astype(float64)` of a number, none is NaN -/
def normalize (conv : N → Option Rat) (x : Col N T) (fk : Option (List T)) : List (Option Rat) × Info T :=
  match x with
  | .num vals => (vals.map conv, ⟨none, false⟩)
  | .cat codes cats => (codes.map fun k => some ((k : Nat) : Rat), ⟨some cats, true⟩)
  | .other vals =>
    match fk with
    | none => (inverse vals, ⟨some (uniques vals), false⟩)
    | some l => (keyed l vals, ⟨some l, false⟩)

/-- `as_matrix` (`rt_dataset.py:7187-7207`), `dataset_as_matrix` (`conversion_utils.py:49-72`): the columns of the matrix and
`column_info`; the names of a Dataset are all different -/
def asMatrix (conv : N → Option Rat) (ds : List (Name × Col N T)) (columnData : Name → Option (List T)) :
    List (List (Option Rat)) × List (Name × Info T) :=
  (ds.map fun c => (normalize conv c.2 (columnData c.1)).1, ds.map fun c => (c.1, (normalize conv c.2 (columnData c.1)).2))

end

/-! ## arrays to dictionaries -/

/-- `columns` -/
inductive Names where
  | none
  | str (s : Name)
  | list (l : List Name)
  | other

/-- `inarray`: one dimension, two dimensions (given by its columns), a structured array of one dimension, other structured arrays, more
dimensions -/
inductive Arr (V : Type) where
  | one (vals : List V)
  | two (cols : List (List V))
  | fields (fs : List (Name × List V))
  | fields2
  | more

/-- `for …: out[columns[col_num]] = …` -/
def fill {V : Type} (names : List Name) (cols : List (List V)) : List (Name × List V) :=
  (List.zip names cols).foldl (fun d e => put d e.1 e.2) []

/-- `"Var" + "_" + str(col_num)` -/
def varName (k : Nat) : Name := ['V', 'a', 'r', '_'] ++ Nat.toDigits 10 k

/-- what `columns[col_num]` gives for `col_num` from 0 on; the items of a text are its letters -/
def Names.items : Names → List Name
  | .none => []
  | .str s => s.map fun c => [c]
  | .list l => l
  | .other => []

/-- the branch of two dimensions (`conversion_utils.py:97-104`) -/
def twoToDict {V : Type} (cols : List (List V)) (columns : Names) : Except Err (List (Name × List V)) :=
  match columns with
  | .none => .ok (fill ((List.range cols.length).map varName) cols)
  | .other => .error .typeError
  | c => if c.items.length ≠ cols.length then .error .valueError else .ok (fill c.items cols)

/-- the branch of one dimension (`conversion_utils.py:83-95`) -/
def oneToDict {V : Type} (vals : List V) (columns : Names) : Except Err (List (Name × List V)) :=
  match columns with
  | .none => .ok [(['V', 'a', 'r'], vals)]
  | .str s => .ok [(s, vals)]
  | .other => .error .typeError
  | .list l =>
    if 1 < l.length then .error .valueError
    else match l with
      | [] => .error .indexError
      | n :: _ => .ok [(n, vals)]

/-- the branch of structured arrays (`conversion_utils.py:106-115`) -/
def fieldsToDict {V : Type} (fs : List (Name × List V)) (columns : Names) : Except Err (List (Name × List V)) :=
  match columns with
  | .none => .ok (fill (fs.map Prod.fst) (fs.map Prod.snd))
  | .other => .error .typeError
  | c => if fs.length ≠ c.items.length then .error .valueError else .ok (fill c.items (fs.map Prod.snd))

/-- `numpy_array_to_dict` (`conversion_utils.py:75-115`) -/
def toDict {V : Type} (a : Arr V) (columns : Names) : Except Err (List (Name × List V)) :=
  match a with
  | .more => .error .typeError
  | .fields2 => .error .typeError
  | .one vals => oneToDict vals columns
  | .two cols => twoToDict cols columns
  | .fields fs => fieldsToDict fs columns

/-- `numpy2d_to_dict` (`conversion_utils.py:124-145`): `dict(zip(columns, arr.T))` -/
def twoD {V : Type} (cols : List (List V)) (columns : List Name) : Except Err (List (Name × List V)) :=
  if columns.length ≠ cols.length then .error .valueError else .ok (fill columns cols)

/-! ## dictionaries of Datasets -/

/-- keys of the dictionary: text, bytes, something else -/
inductive Key where
  | str (s : Name)
  | bytes (b : List Nat)
  | other

/-- columns: those of the Dataset, and columns of keys -/
inductive Cell (V : Type) where
  | data (vals : List V)
  | keys (vals : List (List Nat))
  deriving DecidableEq

structure DS (V : Type) where
  nrows : Nat
  cols : List (Name × Cell V)
  deriving DecidableEq

/-- `key.encode("ascii")` works (`conversion_utils.py:170-174`); bytes are not looked at -/
def Key.ok : Key → Bool
  | .str s => s.all fun c => decide (c.toNat < 128)
  | .bytes _ => true
  | .other => false

/-- the bytes that numpy stores -/
def Key.raw : Key → List Nat
  | .str s => s.map Char.toNat
  | .bytes b => b
  | .other => []

/-- a value read from an array of type `S{w}` after `a[:] = b`: cut at `w` bytes, without NULs at the end -/
def fixed (w : Nat) (b : List Nat) : List Nat := ((b.take w).reverse.dropWhile (· == 0)).reverse

/-- `__setattr__` of a Dataset that is not locked (`rt_struct.py:520-563`): names with `_` are attributes of the object, the names of
methods give a warning (the AttributeError is returned, not raised). `method` tells the names of methods; the other attributes are not
modelled. -/
def setAttr {V : Type} (method : Name → Bool) (d : DS V) (name : Name) (v : Cell V) : DS V :=
  if name.head? = some '_' then d
  else if name ∈ d.cols.map Prod.fst then { d with cols := put d.cols name v }
  else if method name then d
  else { d with cols := put d.cols name v }

/-- `max_length` (`conversion_utils.py:168-175`) -/
def maxLength (keys : List Key) : Nat := keys.foldl (fun m k => max m k.raw.length) 1

/-- one round of the loop (`conversion_utils.py:178-183`) -/
def addKey {V : Type} (method : Name → Bool) (name : Name) (w : Nat) (heap : List (DS V)) (e : Key × Nat) : List (DS V) :=
  heap.modify e.2 fun d => setAttr method d name (.keys (List.replicate d.nrows (fixed w e.1.raw)))

/-- the Datasets of the dictionary have the column -/
def present {V : Type} (heap : List (DS V)) (dict : List (Key × Nat)) (name : Name) : Bool :=
  dict.any fun e => match heap[e.2]? with
    | some d => decide (name ∈ d.cols.map Prod.fst)
    | none => false

/-- `dset_dict_to_list` (`conversion_utils.py:148-184`). `heap` holds the Datasets, the dictionary and the result refer to them. -/
def dictToList {V : Type} (method : Name → Bool) (heap : List (DS V)) (dict : List (Key × Nat)) (name : Name) (overwrite : Bool) :
    Except Err (List (DS V) × List Nat) :=
  if !overwrite && present heap dict name then .error .valueError
  else if dict.any fun e => !e.1.ok then .error .valueError
  else .ok (dict.foldl (addKey method name (maxLength (dict.map Prod.fst))) heap, dict.map Prod.snd)

end Verif.Conv
