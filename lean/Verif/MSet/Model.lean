import Verif.MSet.Spec
/-!
# Multisets: model

`Multiset` (`rt_multiset.py`). Names are taken to be allowed names of columns unless said otherwise; locking is not modelled.
-/
namespace Verif.MSet

/-- `d[k] = v` of an ordered dictionary -/
def put {A : Type} (d : List (Name × A)) (k : Name) (v : A) : List (Name × A) :=
  if k ∈ names d then d.map fun p => if p.1 = k then (k, v) else p else d ++ [(k, v)]

/-! ## Numbers of rows -/

/-- a Multiset as far as its rows are concerned; `A` are the containers -/
structure Multi (A : Type) where
  items : List (Name × A)
  nrows : Option Nat
deriving Repr, DecidableEq

/-- `self._nrows and self._nrows != value._nrows`: neither `None` nor `0` is compared -/
def clash (nrows r : Option Nat) : Bool :=
  match nrows with
  | some (n + 1) => decide (r ≠ some (n + 1))
  | _ => false

/-- one step of `_init_from_dict` (`rt_multiset.py:120-129`): `req_nrows` starts as 0; `rows` is `_nrows` of a container -/
def initStep {A : Type} (rows : A → Option Nat) (s : Option (Multi A)) (p : Name × A) : Option (Multi A) :=
  s.bind fun m =>
    if p.1.head? = some '_' then some m
    else if clash m.nrows (rows p.2) then none
    else some ⟨put m.items p.1 p.2, match m.nrows with | some (n + 1) => some (n + 1) | _ => rows p.2⟩

/-- `Multiset(dict)` (`:102-133`); `none` is `ValueError` -/
def init {A : Type} (rows : A → Option Nat) (d : List (Name × A)) : Option (Multi A) :=
  (d.foldl (initStep rows) (some ⟨[], some 0⟩)).map fun m => if m.items = [] then ⟨[], none⟩ else m

/-- `ms.name = value` (`rt_struct.py:520-563` with `Multiset._check_addtype`, `rt_multiset.py:136-145`); `none` is `ValueError`.
`_nrows` is not changed. `method` are the names that cannot be assigned: a warning, nothing else. -/
def setAttr {A : Type} (rows : A → Option Nat) (method : Name → Bool) (m : Multi A) (k : Name) (v : A) : Option (Multi A) :=
  if k ∉ names m.items ∧ method k then some m
  else if clash m.nrows (rows v) then none
  else some { m with items := put m.items k v }

/-- `ms[name] = value` (`:203-221`); `valid` is `is_valid_colname` -/
def setItem {A : Type} (rows : A → Option Nat) (method valid : Name → Bool) (m : Multi A) (k : Name) (v : A) :
    Option (Multi A) :=
  if clash m.nrows (rows v) then none
  else if k ∈ names m.items ∨ valid k then (setAttr rows method m k v).map fun m' => { m' with nrows := rows v }
  else none

/-- the loop over `zip(col_idx, value)` (`:225-231`); the flag says that an exception was raised on the way -/
def setLoop {A : Type} (rows : A → Option Nat) (method : Name → Bool) : Multi A → List (Name × A) → Multi A × Bool
  | m, [] => (m, false)
  | m, p :: l =>
    if clash m.nrows (rows p.2) then (m, true)
    else
      match setAttr rows method m p.1 p.2 with
      | none => (m, true)
      | some m' => setLoop rows method { m' with nrows := rows p.2 } l

/-- `ms[[names]] = [values]` for several names (`:222-231`) -/
def setItems {A : Type} (rows : A → Option Nat) (method : Name → Bool) (m : Multi A) (ks : List Name) (vs : List A) :
    Multi A × Bool :=
  if ks.all fun k => decide (k ∈ names m.items) then setLoop rows method m (ks.zip vs) else (m, true)

/-- `del ms[name]` (`rt_struct.py:457-470`) -/
def delItem {A : Type} (m : Multi A) (k : Name) : Option (Multi A) :=
  if k ∈ names m.items then
    let l := m.items.filter fun p => decide (p.1 ≠ k)
    some ⟨l, if l = [] then none else m.nrows⟩
  else none

/-! ## Indexing -/

/-- `Dataset._copy(rows, cols)` (`rt_dataset.py:735-799`, `rt_itemcontainer.py:187-225`): `rows` is applied to every column; `cols` one
after the other into a dictionary; labels that are still there are kept. `none` is `KeyError`. -/
def DS.pick {V : Type} (d : DS V) (rows : List V → List V) (cols : Option (List Name)) : Option (DS V) :=
  match cols with
  | none => some ⟨d.cols.map fun c => (c.1, rows c.2), d.labels⟩
  | some l =>
    (l.foldl (fun (s : Option (List (Name × List V))) k => s.bind fun t => (at? d.cols k).map fun v => put t k (rows v))
      (some [])).map fun t => ⟨t, d.labels.filter fun x => decide (x ∈ names t)⟩

mutual
/-- `Multiset._copy` (`rt_multiset.py:239-272`) with rows or columns. The labels of the Multiset itself are not copied. -/
def Elem.pick {V : Type} (rows : List V → List V) (cols : Option (List Name)) : Elem V → Option (Elem V)
  | .ds d => (d.pick rows cols).map .ds
  | .ms l => (l.pick rows cols).map .ms
def Items.pick {V : Type} (rows : List V → List V) (cols : Option (List Name)) : Items V → Option (Items V)
  | .nil => some .nil
  | .cons n e rest => (e.pick rows cols).bind fun e' => (rest.pick rows cols).map fun r => .cons n e' r
end

/-- the item of a name -/
def Items.at? {V : Type} : Items V → Name → Option (Elem V)
  | .nil, _ => none
  | .cons n e rest, k => if n = k then some e else rest.at? k

def Items.names {V : Type} : Items V → List Name
  | .nil => []
  | .cons n _ rest => n :: rest.names

mutual
/-- `ds[rows, name]` for an item of a Multiset: for a Dataset a Dataset of that column (`:595-600`) -/
def Elem.column {V : Type} (rows : List V → List V) (k : Name) : Elem V → Option (Elem V)
  | .ds d => (MSet.at? d.cols k).map fun v => .ds ⟨[(k, rows v)], []⟩
  | .ms l =>
    match l.at? k with
    | some e => e.pick rows none
    | none =>
      match l.columns rows k with
      | .nil => none
      | r => some (.ms r)
/-- the loop of `single_array` (`:592-602`): items where it fails are left out -/
def Items.columns {V : Type} (rows : List V → List V) (k : Name) : Items V → Items V
  | .nil => .nil
  | .cons n e rest =>
    match e.column rows k with
    | some e' => .cons n e' (rest.columns rows k)
    | none => rest.columns rows k
end

/-- an argument in brackets, for the columns -/
inductive Idx
  | name (k : Name)
  | pos (l : List Nat)
  | list (l : List Name)
deriving Repr, DecidableEq

/-- an argument in brackets, for the rows: one row, or anything that selects rows -/
inductive RowIdx (V : Type)
  | all
  | one (sel : List V → List V)
  | many (sel : List V → List V)

/-- what a row index does with a column -/
def RowIdx.sel {V : Type} : RowIdx V → List V → List V
  | .all => id
  | .one f => f
  | .many f => f

mutual
/-- a single row of a single column is a number, not an array (`:596`), and cannot be put into a Multiset: true if that happens -/
def Elem.hasCol {V : Type} (k : Name) : Elem V → Bool
  | .ds d => decide (k ∈ MSet.names d.cols)
  | .ms _ => false
def Items.hasCol {V : Type} (k : Name) : Items V → Bool
  | .nil => false
  | .cons _ e rest => e.hasCol k || rest.hasCol k
end

/-- `ms[rows, cols]` (`:614-628`); `none` is an exception. Positions in a list (and masks) are turned into names of the items of
the Multiset by `_mask_get_item` (`rt_struct.py:694-699`), which are then looked up among the columns of every item. -/
def Items.get {V : Type} (l : Items V) (r : RowIdx V) (i : Idx) : Option (Elem V) :=
  match i with
  | .name k =>
    match l.at? k with
    | some e => e.pick r.sel none
    | none =>
      match r with
      | .one f => if l.hasCol k then none else (Elem.ms l).column f k
      | r => (Elem.ms l).column r.sel k
  | .pos ps => (ps.mapM fun p => l.names[p]?).bind fun ks => (l.pick r.sel (some ks)).map .ms
  | .list ks => if ks = [] then none else (l.pick r.sel (some ks)).map .ms

/-- what `multiget` is given (other than a slice) -/
inductive GetArg
  | text (s : Name)
  | list (l : List Name)
deriving Repr, DecidableEq

/-- the names `multiget` looks for (`:170-171`): a text is gone through character by character -/
def GetArg.wanted : GetArg → List Name
  | .text s => s.map fun c => [c]
  | .list l => l

/-- the wanted columns of one Dataset (`:170-173`) -/
def multigetStep {V : Type} (wanted : List Name) (s : Option (List (Name × DS V))) (p : Name × DS V) :
    Option (List (Name × DS V)) :=
  s.bind fun out =>
    if (wanted.filter fun c => decide (c ∈ names p.2.cols)) = [] then some out
    else (p.2.pick id (some (wanted.filter fun c => decide (c ∈ names p.2.cols)))).map fun d => out ++ [(p.1, d)]

/-- `multiget` (`:148-175`) for a Multiset of Datasets -/
def multiget {V : Type} (l : List (Name × DS V)) (a : GetArg) : Option (List (Name × DS V)) :=
  l.foldl (multigetStep a.wanted) (some [])

/-! ## Display -/

/-- a dictionary without a key -/
def erase {A : Type} (d : List (Name × A)) (k : Name) : List (Name × A) := d.filter fun p => decide (p.1 ≠ k)

/-- the two lines of headers and the arrays below them -/
structure Header (A : Type) where
  top : List (Name × Nat)
  bottom : List Name
  arrays : List A
deriving Repr, DecidableEq

def Header.app {A : Type} (h g : Header A) : Header A := ⟨h.top ++ g.top, h.bottom ++ g.bottom, h.arrays ++ g.arrays⟩

/-- `for k, v in returnlist[outerindex].items()` (`:387-409`): the headers made from one dictionary and the other dictionaries
afterwards -/
def headerRow {A : Type} (n : Name) : List (Name × A) → List (Name × List (Name × A)) → Header A × List (Name × List (Name × A))
  | [], rest => (⟨[], [], []⟩, rest)
  | (k, v) :: d, rest =>
    let found := rest.filterMap fun p => (at? p.2 k).map fun w => (p.1, w)
    let r := headerRow n d (rest.map fun p => (p.1, erase p.2 k))
    (Header.app ⟨[(k, 1 + found.length)], n :: names found, v :: found.map Prod.snd⟩ r.1, r.2)

/-- the outer loop (`:384-409`), with as many steps as there are dictionaries -/
def headerLoop {A : Type} : Nat → List (Name × List (Name × A)) → Header A
  | 0, _ => ⟨[], [], []⟩
  | _ + 1, [] => ⟨[], [], []⟩
  | f + 1, (n, d) :: rest => let r := headerRow n d rest; Header.app r.1 (headerLoop f r.2)

/-- `del returnlist[i][k]` for all keys (`:347-349`) -/
def dropKeys {A : Type} (keys : List Name) (d : List (Name × A)) : Option (List (Name × A)) :=
  keys.foldl (fun s k => s.bind fun d => if k ∈ names d then some (erase d k) else none) (some d)

/-- `_build_col_headers` (`:309-434`) for at least two items: `tier` are their names, `dicts` the dictionaries found by
`_depth_first` (`:287-306`), the columns of all Datasets. `none` is an exception. -/
def headers {A : Type} (keys : List Name) (tier : List Name) (dicts : List (List (Name × A))) : Option (Header A) :=
  (dicts.mapM (dropKeys keys)).bind fun ds =>
    if ds.length < tier.length then none else some (headerLoop tier.length (tier.zip ds))

/-- `_build_col_headers` for one item that is a Dataset (`:316-336`) -/
def headersOne {A : Type} (keys : List Name) (n : Name) (d : List (Name × A)) : Header A :=
  let cols := d.filter fun p => decide (p.1 ∉ keys)
  ⟨cols.map fun p => (p.1, 1), cols.map fun _ => n, cols.map Prod.snd⟩

/-! ## Flattening -/

/-- `d[list of names]`: an empty list is an error (`rt_struct.py:651-652`) -/
def DS.take {V : Type} (d : DS V) (l : List Name) : Option (DS V) := if l = [] then none else d.pick id (some l)

/-- number of rows shown by `shape` -/
def DS.rows {V : Type} (d : DS V) : Nat := match d.cols with | [] => 0 | c :: _ => c.2.length

/-- `Dataset.concat_columns([a, b], do_copy=False)` (`rt_dataset.py:6996-7138`): `none` for different numbers of rows and for
repeated names -/
def besides {V : Type} (a b : DS V) : Option (DS V) :=
  if a.rows = b.rows ∧ ∀ k ∈ names b.cols, k ∉ names a.cols then some ⟨a.cols ++ b.cols, []⟩ else none

/-- `col_rename` (`rt_struct.py:3421-3498`, `rt_itemcontainer.py:409-440`) -/
def DS.rename {V : Type} (d : DS V) (old new : Name) : Option (DS V) :=
  if old = new then some d
  else if old ∉ names d.cols ∨ new ∈ names d.cols then none
  else some { d with cols := d.cols.map fun c => if c.1 = old then (new, c.2) else c }

/-- names of columns that are not labels -/
def DS.valueNames {V : Type} (d : DS V) : List Name := (names d.cols).filter fun n => decide (n ∉ d.labels)

/-- one step of `flatten(horizontal=True)` (`rt_multiset.py:658-695`): state: `label_col_names` and `dsr` once there is one -/
def stepH {V : Type} (delim : Name) (s : Option (List Name × DS V)) (name : Name) (e : DS V) : Option (List Name × DS V) :=
  let start : Option (List Name × DS V) :=
    match s with
    | none => if e.labels = [] then some ([], ⟨[], []⟩) else (e.take e.labels).map fun d => (e.labels, d)
    | some (labels, dsr) => if labels ≠ e.labels then none else some (labels, dsr)
  start.bind fun q =>
    (e.take ((names e.cols).filter fun n => decide (n ∉ q.1))).bind fun vals =>
      (besides q.2 vals).bind fun d =>
        (((names e.cols).filter fun n => decide (n ∉ q.1)).foldl
          (fun (s : Option (DS V)) n => s.bind fun d => d.rename n (name ++ delim ++ n)) (some d)).map fun d => (q.1, d)

/-- `dsr.label_set_names(label_col_names); return dsr` (`:696-697`); without items an `UnboundLocalError` -/
def finish {V : Type} : Option (List Name × DS V) → Option (DS V)
  | some (labels, d) => some { d with labels := labels.filter fun l => decide (l ∈ names d.cols) }
  | none => none

mutual
/-- an item flattened: Datasets are as they are (`:659-664`) -/
def Elem.flatH {V : Type} (delim : Name) : Elem V → Option (DS V)
  | .ds d => some d
  | .ms l => (l.flatH delim none).bind finish
/-- the loop (`:658-695`); the result is the state -/
def Items.flatH {V : Type} (delim : Name) : Items V → Option (List Name × DS V) → Option (Option (List Name × DS V))
  | .nil, s => some s
  | .cons n e rest, s => (e.flatH delim).bind fun d => (stepH delim s n d).bind fun s' => rest.flatH delim (some s')
end

/-- `ms.flatten()`; names made by joining are taken to be allowed names of columns -/
def flattenH {V : Type} (delim : Name) (l : Items V) : Option (DS V) := (Elem.ms l).flatH delim

/-- texts as values of columns -/
structure Text (V : Type) where
  txt : Name → V
  untxt : V → Option Name

/-- `cn.decode()`: only columns of bytes can be decoded, which are those where all characters are ASCII -/
def ascii (n : Name) : Bool := n.all fun c => decide (c.toNat < 128)

/-- `[delimiter.join([name, cn.decode()]) for cn in …]` (`:690`) -/
def prefixed {V : Type} (T : Text V) (delim name : Name) (col : List V) : Option (List V) :=
  (col.mapM T.untxt).bind fun ns =>
    if ns.all ascii then some (ns.map fun n => T.txt (name ++ delim ++ n)) else none

/-- `Dataset.concat_rows([a, b])` for Datasets with the same names of columns, column by column (`rt_hstack.py`; see `Verif/Hstack`
for others) -/
def below {V : Type} (a b : DS V) : Option (DS V) :=
  (a.cols.mapM fun c => (at? b.cols c.1).map fun v => (c.1, c.2 ++ v)).map fun t => ⟨t, []⟩

/-- `col_move_to_front(labels)` -/
def DS.front {V : Type} (d : DS V) (labels : List Name) : DS V :=
  { d with cols := (labels.filterMap fun l => (at? d.cols l).map fun v => (l, v)) ++
      d.cols.filter fun c => decide (c.1 ∉ labels) }

/-- state of `flatten(horizontal=False)`: `label_col_names`, `col_names`, `dsr` -/
structure StV (V : Type) where
  labels : List Name
  cols : List Name
  dsr : DS V

/-- the rows of one item, with the column of names (`:678-691`): `nested` says that the item is a flattened Multiset -/
def blockV {V : Type} (T : Text V) (delim colName : Name) (labels : List Name) (name : Name) (e : DS V) (nested : Bool) :
    Option (DS V) :=
  (if labels = [] then some ⟨[], []⟩ else e.take labels).bind fun (inds : DS V) =>
    (if nested then
      (at? e.cols colName).bind fun c => (prefixed T delim name c).map fun c' => (inds, { e with cols := put e.cols colName c' })
    else if colName ∈ names e.cols then none
    else some ({ inds with cols := put inds.cols colName (List.replicate e.rows (T.txt name)) }, e)).bind fun q =>
      (q.2.take ((names e.cols).filter fun n => decide (n ∉ labels))).bind fun vals => besides q.1 vals

/-- columns that are neither labels nor the column of names (`:668`, `:675`) -/
def ownCols {V : Type} (colName : Name) (labels : List Name) (e : DS V) : List Name :=
  (names e.cols).filter fun n => decide (n ≠ colName ∧ n ∉ labels)

/-- one step of `flatten(horizontal=False)` (`:658-695`) -/
def stepV {V : Type} (T : Text V) (delim colName : Name) (s : Option (StV V)) (name : Name) (e : DS V) (nested : Bool) :
    Option (StV V) :=
  match s with
  | none =>
    (blockV T delim colName e.labels name e nested).map fun b => ⟨e.labels, ownCols colName e.labels e, b.front e.labels⟩
  | some q =>
    if q.labels ≠ e.labels then none
    else if q.cols ≠ ownCols colName q.labels e then none
    else (blockV T delim colName q.labels name e nested).bind fun b =>
      (below q.dsr b).map fun d => ⟨q.labels, q.cols, d.front q.labels⟩

def Elem.isMs {V : Type} : Elem V → Bool
  | .ds _ => false
  | .ms _ => true

mutual
def Elem.flatV {V : Type} (T : Text V) (delim colName : Name) : Elem V → Option (DS V)
  | .ds d => some d
  | .ms l => (l.flatV T delim colName none).bind fun s => finish (s.map fun q => (q.labels, q.dsr))
def Items.flatV {V : Type} (T : Text V) (delim colName : Name) : Items V → Option (StV V) → Option (Option (StV V))
  | .nil, s => some s
  | .cons n e rest, s =>
    (e.flatV T delim colName).bind fun d =>
      (stepV T delim colName s n d e.isMs).bind fun s' =>
        rest.flatV T delim colName (some s')
end

/-- `ms.flatten(horizontal=False)` -/
def flattenV {V : Type} (T : Text V) (delim colName : Name) (l : Items V) : Option (DS V) := (Elem.ms l).flatV T delim colName

/-! ## Cascades and labels -/

/-- `cascade(func)` (`:745-770`): the results under the same names; `none` if the function raises or the rows do not match -/
def cascade {A B : Type} (rows : B → Option Nat) (method valid : Name → Bool) (f : A → Option B) (m : List (Name × A)) :
    Option (Multi B) :=
  m.foldl (fun s p => s.bind fun out => (f p.2).bind fun b => setItem rows method valid out p.1 b) (some ⟨[], none⟩)

/-- `label_fixup` (`:728-742`): the labels of the first item that has some -/
def labelFixup {V : Type} : List (Name × DS V) → Option (List (Name × List V))
  | [] => none
  | p :: l => if p.2.labels = [] then labelFixup l else some p.2.labelCols

end Verif.MSet
