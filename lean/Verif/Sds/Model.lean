import Verif.Items.Model

/-!
# Model of saving and loading nested Structs (`riptable/rt_sds.py`, `riptable/rt_struct.py`)

Three layers are modelled:

* one container in one file: `Struct._build_sds_meta_data` (`rt_struct.py:1159-1316`) and
  `Struct._load_from_sds_meta_data` (`rt_struct.py:1588-1737`);
* a nested container flattened into one file: `Struct._serialize_item`, `Struct.flatten`,
  `Struct._flatten_undo`, `Struct._from_sds_onefile` (`rt_struct.py:2115-2429`) and the
  `onefile` branch of `save_struct` (`rt_sds.py:3519-3528`);
* a nested container saved as a directory of files: `Verif/Sds/Dir.lean`.

The native reader and writer of one `.sds` file are not in the repository; a file is taken
to give back the arrays, names, flags and meta data that were written to it.  Arrays,
scalars and special arrays (Categorical, DateTimeNano and so on) are opaque.
-/
namespace Verif.Sds
open Verif.Items (Dict Name)

/-! ## Containers -/

/-- What a container carries besides its items: whether it is a Dataset (otherwise a
Struct), the label columns and the columns it is sorted by (`_col_sortlist`). -/
structure Info where
  isDataset : Bool
  labels : List Name
  sort : Option (List Name)
  deriving DecidableEq, Repr

/-- an item that is not a container: a plain array, a scalar, or a special array -/
inductive Leaf (A S X : Type) where
  | arr (a : A)
  | sc (s : S)
  | spec (x : X)
  deriving DecidableEq, Repr

/-- The items of a container, in order: each is a leaf, or a container with items of its
own. -/
inductive Box (A S X : Type) where
  | nil
  | leaf (n : Name) (l : Leaf A S X) (rest : Box A S X)
  | nest (n : Name) (i : Info) (b : Box A S X) (rest : Box A S X)
  deriving DecidableEq, Repr

/-- one item of a container -/
inductive Node (A S X : Type) where
  | leaf (l : Leaf A S X)
  | box (i : Info) (b : Box A S X)
  deriving DecidableEq, Repr

namespace Box
variable {A S X : Type}

/-- the items, in order -/
def items : Box A S X → List (Name × Node A S X)
  | nil => []
  | leaf n l rest => (n, .leaf l) :: rest.items
  | nest n i b rest => (n, .box i b) :: rest.items

/-- the names of the items, in order -/
def names (b : Box A S X) : List Name := b.items.map Prod.fst

/-- a container with the given items -/
def ofItems : List (Name × Node A S X) → Box A S X
  | [] => nil
  | (n, .leaf l) :: rest => leaf n l (ofItems rest)
  | (n, .box i b) :: rest => nest n i b (ofItems rest)

end Box

/-- What saving and loading use of arrays and scalars.  `M` is the meta data string of a
special array. -/
structure Lib (A S X M : Type) where
  /-- `np.asarray([item])`, `rt_struct.py:1279`, `:2159` -/
  one : S → A
  /-- `value[0]`, `rt_struct.py:1676`, `:2394` -/
  first : A → S
  /-- `item._fa`, `rt_struct.py:2130`; the array itself when written, `:1229` -/
  base : X → A
  /-- the extra arrays of `item._build_sds_meta_data(name)`, with what follows the `!` in
  their names (`col_0`, `col_1`, … for a Categorical, `rt_categorical.py:3703`) -/
  cols : X → List (Name × A)
  /-- the meta data of `item._build_sds_meta_data(name)` -/
  info : X → M
  /-- `newclass._load_from_sds_meta_data(name, value, cols, meta)`; `none` when it raises -/
  load : A → List A → M → Option X
  /-- `np.asanyarray([json.dumps(metajson)], dtype="S")`, `rt_struct.py:2200` -/
  enc : Dict Name (Info ⊕ M) → A
  /-- `json.loads(bytes(meta))`, `rt_struct.py:2318`; `none` when it raises -/
  dec : A → Option (Dict Name (Info ⊕ M))

section
variable {A S X M : Type}

/-! ## One container in one file -/

/-- the flags of one array of a file (`SDSFlag` of `rt_enum.py`), as far as loading looks
at them: `Nested`, `Scalar`, or an array that does (`plain`) or does not (`extra`) carry
`OriginalContainer` -/
inductive FFlag where
  | nested
  | scalar
  | plain
  | extra
  deriving DecidableEq, Repr

/-- the contents of one file: meta data of the container, the list `item_meta` with the
name each entry holds, and the arrays with their names and flags -/
structure File (A M : Type) where
  info : Info
  metas : List (Name × M)
  cells : List (Name × FFlag × Option A)
  deriving DecidableEq, Repr

/-- `rt_struct.py:1200-1288`: the entries of the items, in order -/
def mainCells (L : Lib A S X M) : Box A S X → List (Name × FFlag × Option A)
  | .nil => []
  | .leaf n (.arr a) rest => (n, .plain, some a) :: mainCells L rest
  | .leaf n (.sc s) rest => (n, .scalar, some (L.one s)) :: mainCells L rest
  | .leaf n (.spec x) rest => (n, .plain, some (L.base x)) :: mainCells L rest
  | .nest n _ _ rest => (n, .nested, none) :: mainCells L rest

/-- `rt_struct.py:1232-1251`: the special items, in order -/
def specials : Box A S X → List (Name × X)
  | .nil => []
  | .leaf n (.spec x) rest => (n, x) :: specials rest
  | .leaf _ _ rest => specials rest
  | .nest _ _ _ rest => specials rest

/-- the extra arrays of one special item, named `name!suffix` -/
def colCells (L : Lib A S X M) (n : Name) (x : X) : List (Name × A) :=
  (L.cols x).map fun c => (n ++ '!' :: c.1, c.2)

/-- `Struct._build_sds_meta_data`, `rt_struct.py:1159-1316`: one container; nested
containers only leave their name.  Not modelled: the saved row order and the (unused)
`_footers` attribute, which are appended behind these arrays (`:1299-1309`); see
`Verif/SortCache` for the former. -/
def buildFile (L : Lib A S X M) (i : Info) (b : Box A S X) : File A M :=
  { info := i
    metas := (specials b).map fun p => (p.1, L.info p.2)
    cells := mainCells L b ++
      (specials b).flatMap fun p => (colCells L p.1 p.2).map fun c => (c.1, .extra, some c.2) }

/-- an item of a loaded file: a leaf, or `None` where a nested container belongs
(`rt_struct.py:1665-1666`) -/
abbrev Slot (A S X : Type) := Option (Leaf A S X)

/-- `rt_struct.py:1696-1702`: `itemname[:itemname.find("!")]` for a name that has a `!` -/
def beforeBang (n : Name) : Name := n.takeWhile fun c => c != '!'

/-- `rt_struct.py:1658-1702`: one entry of the file -/
def loadCell (L : Lib A S X M) (st : Dict Name (Slot A S X) × Dict Name (List A))
    (c : Name × FFlag × Option A) : Dict Name (Slot A S X) × Dict Name (List A) :=
  match c.2.1, c.2.2 with
  | .nested, _ => (st.1.set c.1 none, st.2)
  | .scalar, some a => (st.1.set c.1 (some (.sc (L.first a))), st.2)
  | .plain, some a => (st.1.set c.1 (some (.arr a)), st.2)
  | .extra, some a =>
      (st.1, st.2.set (beforeBang c.1) (((st.2.get (beforeBang c.1)).getD []) ++ [a]))
  | _, none => st

/-- `rt_struct.py:1707-1722`: one entry of `item_meta`.  Loading the special array from
something that is not an array raises. -/
def loadMeta (L : Lib A S X M) (sp : Dict Name (List A))
    (d : Option (Dict Name (Slot A S X))) (m : Name × M) : Option (Dict Name (Slot A S X)) :=
  match d with
  | none => none
  | some d =>
    match d.get m.1 with
    | none => some d
    | some (some (.arr a)) =>
        match L.load a ((sp.get m.1).getD []) m.2 with
        | some x => some (d.set m.1 (some (.spec x)))
        | none => none
    | some _ => none

/-- `Struct._load_from_sds_meta_data`, `rt_struct.py:1588-1737`: the items and the
container's own data; `none` when it raises.  The constructor of the container is taken
to accept the items. -/
def loadFile (L : Lib A S X M) (f : File A M) : Option (Info × Dict Name (Slot A S X)) :=
  let st := f.cells.foldl (loadCell L) ([], [])
  (f.metas.foldl (loadMeta L st.2) (some st.1)).map fun d => (f.info, d)

/-! ## Flattening into one file -/

/-- flags of a flattened array, as far as undoing looks at them -/
inductive Flag where
  | nested
  | scalar
  | special
  | plain
  deriving DecidableEq, Repr

/-- `flattened, arrayflags, metastringdict` of `Struct.flatten`, `rt_struct.py:2202-2204` -/
structure Flat (A M : Type) where
  d : Dict Name A
  flags : List Flag
  metas : Dict Name M
  deriving DecidableEq, Repr

/-- `make_nested_meta`, `rt_struct.py:2193-2200`, before it becomes a string -/
def nestedMeta (i : Info) (metas : Dict Name M) : Dict Name (Info ⊕ M) :=
  metas.foldl (fun (j : Dict Name (Info ⊕ M)) (p : Name × M) => j.set p.1 (.inr p.2))
    [("_root".toList, .inl i)]

/-- `_serialize_item`, `rt_struct.py:2115-2167`: arrays by name, and their flags -/
def serialize (L : Lib A S X M) (n : Name) : Leaf A S X → Dict Name A × List Flag
  | .arr a => ([(n, a)], [.plain])
  | .sc s => ([(n, L.one s)], [.scalar])
  | .spec x =>
      ((colCells L n x).foldl (fun (d : Dict Name A) (c : Name × A) => d.set c.1 c.2) [(n, L.base x)],
        .special :: (L.cols x).map fun _ => .plain)

/-- `rt_struct.py:2228-2229`: `for k, v in other.items(): flattened[prefix + k] = v` -/
def addAll (pre : Name) (d : Dict Name A) (other : Dict Name A) : Dict Name A :=
  other.foldl (fun (d : Dict Name A) (p : Name × A) => d.set (pre ++ p.1) p.2) d

/-- `rt_struct.py:2223-2231` for an item that is not a container -/
def flatLeaf (L : Lib A S X M) (st : Flat A M) (n : Name) (l : Leaf A S X) : Flat A M :=
  let o := serialize L n l
  { d := addAll [] st.d o.1
    flags := st.flags ++ o.2
    metas := match l with
      | .spec x => st.metas.set n (L.info x)
      | _ => st.metas }

/-- `rt_struct.py:2207-2231` for a nested container, given its own flattening -/
def flatNest (L : Lib A S X M) (st : Flat A M) (n : Name) (i : Info) (o : Flat A M) : Flat A M :=
  { d := addAll (n ++ ['/']) (st.d.set (n ++ ['/']) (L.enc (nestedMeta i o.metas))) o.d
    flags := st.flags ++ .nested :: o.flags
    metas := st.metas }

/-- `Struct.flatten`, `rt_struct.py:2170-2244`, the loop `:2206-2231`, with separator `/` -/
def flatInto (L : Lib A S X M) : Box A S X → Flat A M → Flat A M
  | .nil, st => st
  | .leaf n l rest, st => flatInto L rest (flatLeaf L st n l)
  | .nest n i b rest, st => flatInto L rest (flatNest L st n i (flatInto L b ⟨[], [], []⟩))

/-- a flattened array with its name and flags -/
abbrev Entry (A : Type) := Name × A × Flag

/-- what is written for a flattened container: the meta data and the arrays -/
structure OneFile (A M : Type) where
  info : Dict Name (Info ⊕ M)
  entries : List (Entry A)
  deriving DecidableEq, Repr

/-- `Struct.flatten` at level 0 (`rt_struct.py:2233-2242`) followed by
`save_struct(onefile=True)` (`rt_sds.py:3521-3527`) or by `flatten_undo`
(`rt_struct.py:2264-2282`).  Flags and meta data are put among the flattened items as
`arrayflags` and `metastring` and deleted again, so items with these names disappear; the
remaining items are then zipped with the flags. -/
def saveOne (L : Lib A S X M) (i : Info) (b : Box A S X) : OneFile A M :=
  let o := flatInto L b ⟨[], [], []⟩
  let d := o.d.filter fun p => p.1 ≠ "arrayflags".toList && p.1 ≠ "metastring".toList
  { info := nestedMeta i o.metas, entries := d.zipWith (fun p f => (p.1, p.2, f)) o.flags }

/-- what loading a flattened container keeps of its own data: class and labels,
`rt_struct.py:1582-1585` -/
def Info.kept (i : Info) : Info := { i with sort := none }

/-- `build_class_nested`, `rt_struct.py:2305-2314`.  `none`: there is no meta data of a
container, so nothing is built. -/
def buildClass (m : Dict Name (Info ⊕ M)) (acc : List (Name × Node A S X)) :
    Option (Info × Box A S X) :=
  match m.get "_root".toList with
  | some (.inl i) => some (i.kept, Box.ofItems acc)
  | _ => none

/-- `Struct._flatten_undo`, `rt_struct.py:2299-2406`: walks over the arrays from the current
one, returning the container and the arrays that are left.  The first argument bounds the
number of steps; the code has no such bound.  An empty `startname` is a prefix of every
name, which is what `startpos != 0` (`:2330`) is about. -/
def undo (L : Lib A S X M) : Nat → Name → Dict Name (Info ⊕ M) → Dict Name (Node A S X) →
    List (Entry A) → Option ((Info × Box A S X) × List (Entry A))
  | _, _, m, acc, [] => (buildClass m acc).map fun c => (c, [])
  | 0, _, _, _, _ :: _ => none
  | f + 1, start, m, acc, (k, a, fl) :: es =>
    if start.isPrefixOf k then
      match fl with
      | .nested =>
        match L.dec a with
        | none => none
        | some m' =>
          match undo L f k m' [] es with
          | none => none
          | some (c, es') => undo L f start m (acc.set (k.drop start.length).dropLast (.box c.1 c.2)) es'
      | .special =>
        match m.get (k.drop start.length) with
        | some (.inr mm) =>
          match L.load a ((es.takeWhile fun e => (k ++ ['!']).isPrefixOf e.1).map fun e => e.2.1) mm with
          | none => none
          | some x =>
            undo L f start m (acc.set (k.drop start.length) (.leaf (.spec x)))
              (es.dropWhile fun e => (k ++ ['!']).isPrefixOf e.1)
        | some (.inl _) => none
        | none => undo L f start m (acc.set (k.drop start.length) (.leaf (.arr a))) es
      | .scalar => undo L f start m (acc.set (k.drop start.length) (.leaf (.sc (L.first a)))) es
      | .plain => undo L f start m (acc.set (k.drop start.length) (.leaf (.arr a))) es
    else (buildClass m acc).map fun c => (c, (k, a, fl) :: es)

/-- `Struct._from_sds_onefile`, `rt_struct.py:2409-2429`, without `folders` -/
def loadOne (L : Lib A S X M) (f : OneFile A M) : Option (Info × Box A S X) :=
  (undo L f.entries.length [] f.info [] f.entries).map Prod.fst

end

end Verif.Sds
