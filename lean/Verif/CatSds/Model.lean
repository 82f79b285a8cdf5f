import Verif.Items.Dict
import Verif.CatSds.Spec
/-!
# Saving and loading Categoricals (C296 - C298)

`riptable/rt_categorical.py`: 3558-3583 (`_meta_dict`), 3640-3704 (`_build_sds_meta_data`), 3707-3763
(`_load_from_sds_meta_data`), 1771-1815 (the part of `__new__` that rebuilds a Categorical from metadata), 4609-4660
(`_getsingleitem`); `riptable/rt_grouping.py`: 773-887 (`Grouping.__init__` with categories), 565-628 (`_from_categories`), 3832-3863
(`GroupingEnum.__init__`), 3968-3979 (`from_code`); `riptable/Utils/rt_metadata.py`: 79-81 (the metadata as json).

Simplifications: the file keeps arrays as they are (that is `Verif.Sds`), so it is the tuple of metadata and arrays; values of
key columns are of any type `V`, and a class such as DateTimeNano with its own metadata (time zone) is a value of any type `M`
beside the values.  Bytes are decoded as ASCII and labels have no trailing zero characters, so converting labels to and from
arrays keeps them.  Codes are signed integers.  The fixed names of the metadata ("name", "colnames", ...) do not end in "_meta",
so the metadata of key columns is a dictionary of its own.  `auto_add`, locks and names of arrays are not modelled.
-/
namespace Verif.CatSds
open Verif.Items Verif.CatSds.Spec
variable {V M : Type}

/-- the label for missing values; numpy integers and bytes are no json values -/
inductive Inv where
  | none
  | text (s : String)
  | int (z : Int)
  | npInt (z : Int)
  | bytes (s : String)
deriving DecidableEq, Repr

/-- `json.dumps` (`rt_metadata.py:79-81`) knows None, texts and Python integers -/
def Inv.json : Inv → Bool
  | .npInt _ => false
  | .bytes _ => false
  | _ => true

/-- a key column: its values, and the metadata of its class if it has any -/
structure Col (V M : Type) where
  vals : List V
  cls : Option M
deriving DecidableEq, Repr

/-- `Grouping.uniquedict`, or the two dictionaries of a `GroupingEnum` -/
inductive Cats (V M : Type) where
  | keys (cols : Dict String (Col V M))
  | mapping (i2s : Dict Int String) (s2i : Dict String Int)
deriving DecidableEq, Repr

structure C (V M : Type) where
  codes : List Int
  cats : Cats V M
  base : Nat
  ordered : Bool
  sortGb : Bool
  invalid : Inv
  filtered : String
deriving DecidableEq, Repr

/-- an array of the file beside the codes -/
inductive FCol (V : Type) where
  | vals (l : List V)
  | ints (l : List Int)
  | strs (l : List String)
deriving DecidableEq, Repr

/-- the metadata (`mode` only says whether there is a mapping) -/
structure Meta (M : Type) where
  version : Nat
  enum : Bool
  base : Nat
  ordered : Bool
  sortGb : Bool
  invalid : Inv
  filtered : String
  colnames : List String
  nested : Dict String M
deriving DecidableEq, Repr

structure File (V M : Type) where
  codes : List Int
  meta_ : Meta M
  cols : List (Option (FCol V))
deriving DecidableEq, Repr

deriving instance DecidableEq for Except

/-- `addmeta` (3658-3665): what a key column adds to the metadata of key columns -/
def addMeta (d : Dict String M) (name : String) (col : Col V M) : Dict String M :=
  match col.cls with
  | some m => d.set (name ++ "_meta") m
  | none => d

/-- the loop over the key columns (3681-3682) -/
def nestedOf (cols : List (String × Col V M)) : Dict String M :=
  cols.foldl (fun d e => addMeta d e.1 e.2) []

/-- `_meta_dict` (3558-3583) and `_build_sds_meta_data` (3640-3704): one key column is always named "key_0" -/
def build (c : C V M) : Except String (File V M) :=
  match c.cats with
  | .keys [] => .error "NotImplementedError"
  | .keys [(_, col)] =>
    .ok ⟨c.codes, ⟨1, false, c.base, c.ordered, c.sortGb, c.invalid, c.filtered, ["key_0"], nestedOf [("key_0", col)]⟩,
      [some (.vals col.vals)]⟩
  | .keys cols =>
    .ok ⟨c.codes, ⟨1, false, c.base, c.ordered, c.sortGb, c.invalid, c.filtered, cols.map Prod.fst, nestedOf cols⟩,
      cols.map fun e => some (.vals e.2.vals)⟩
  | .mapping i2s _ =>
    .ok ⟨c.codes, ⟨1, true, c.base, c.ordered, c.sortGb, c.invalid, c.filtered, ["codes", "values"], []⟩,
      [some (.ints (i2s.map Prod.fst)), some (.strs (i2s.map Prod.snd))]⟩

/-- the metadata is written as json (`MetaData.string`, `rt_metadata.py:79-81`) -/
def save (c : C V M) : Except String (File V M) :=
  match build c with
  | .error e => .error e
  | .ok f => if f.meta_.invalid.json then .ok f else .error "TypeError: not JSON serializable"

/-- `dict(zip(ks, vs))` -/
def dictOf {κ W : Type} [DecidableEq κ] (l : List (κ × W)) : Dict κ W :=
  l.foldl (fun d e => d.set e.1 e.2) []

/-- `mapping_reverse = {v: k for k, v in mapping.items()}` (`rt_grouping.py:3839`) -/
def reverse (d : Dict String Int) : Dict Int String :=
  dictOf (d.map fun e => (e.2, e.1))

/-- one key column of the loop of 1787-1794 -/
def loadCol (nested : Dict String M) (name : String) (vals : List V) : Col V M :=
  ⟨vals, nested.get (name ++ "_meta")⟩

/-- the loop of 1786-1794 -/
def loadCols (nested : Dict String M) (named : List (String × List V)) : Dict String (Col V M) :=
  dictOf (named.map fun e => (e.1, loadCol nested e.1 e.2))

/-- the values of the arrays; an array of another kind does not occur in a file of key columns -/
def FCol.values : FCol V → List V
  | .vals l => l
  | _ => []

def FCol.integers : FCol V → List Int
  | .ints l => l
  | _ => []

def FCol.strings : FCol V → List String
  | .strs l => l
  | _ => []

/-- the categories of 1777-1794 with the checks of `is_enumlike` and `GroupingEnum` (`rt_grouping.py:776-787`, 3832-3851):
label to code from the two arrays, code to label by turning that around -/
def loadCats (m : Meta M) (cols : List (FCol V)) : Except String (Cats V M) :=
  if m.enum then
    match cols with
    | ints :: strs :: _ =>
      let s2i := dictOf (strs.strings.zip ints.integers)
      if s2i.isEmpty then .error "ValueError: Categories dict was empty" else .ok (.mapping (reverse s2i) s2i)
    | _ => .error "IndexError"
  else
    let d := loadCols m.nested (m.colnames.zip (cols.map FCol.values))
    if d.isEmpty then .error "ValueError: Categories dict was empty" else .ok (.keys d)

/-- `_load_from_sds_meta_data` (3707-3763), then 1771-1815; `Grouping` keeps `sort_display` only for categories that are not
ordered (`rt_grouping.py:823-826`) and gives `cls(grouping)` its flags -/
def load (f : File V M) : Except String (C V M) :=
  if 1 < f.meta_.version then .error "ValueError: version not supported" else
  if f.cols.any Option.isNone then .error "ValueError: could not reconstruct" else
  match loadCats f.meta_ (f.cols.filterMap id) with
  | .error e => .error e
  | .ok cats => .ok ⟨f.codes, cats, f.meta_.base, f.meta_.ordered, f.meta_.sortGb && !f.meta_.ordered, f.meta_.invalid,
      f.meta_.filtered⟩

/-- all columns at one category -/
def rowOf (cols : List (List V)) (n : Nat) : List V := cols.filterMap fun c => c[n]?

/-- `unique_count`: the length of the key columns -/
def uniqueCount (cols : List (List V)) : Nat := (cols.head?.map List.length).getD 0

/-- `_getsingleitem` (4609-4660) of a row with this code -/
def shown (c : C V M) (k : Int) : Cell V :=
  match c.cats with
  | .mapping i2s _ =>
    match i2s.get k with
    | some l => .text l
    | none => .code k
  | .keys cols =>
    let idx := k - c.base
    let vals := cols.map fun e => e.2.vals
    if idx < 0 ∨ (uniqueCount vals : Int) ≤ idx then
      if c.base = 1 ∧ k = 0 then .text c.filtered else .code k
    else .labels (rowOf vals idx.toNat)

/-- `from_category` of a mapping (`rt_grouping.py:3959-3965`): the code of a label -/
def codeOf (c : C V M) (l : String) : Option Int :=
  match c.cats with
  | .mapping _ s2i => s2i.get l
  | .keys _ => none

/-- all rows -/
def rows (c : C V M) : List (Cell V) := c.codes.map (shown c)

end Verif.CatSds
