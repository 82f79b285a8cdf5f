import Verif.Basic
/-!
# Model of the sort cache and the sort settings of a Dataset

`riptable/rt_sort_cache.py` and its callers in `rt_dataset.py` and `rt_struct.py`.

Column contents are opaque (`V`).  The two functions of the C++ library are parameters: the checksum `crc64` and
`lexsort`.  The identifiers of Datasets (`_uniqueid`, a time stamp) are arbitrary numbers, possibly equal.
-/
namespace Verif.SortCache

abbrev Name := String

/-- the values the `ascending` setting takes.  The cache compares the *types* first: a Python `bool`, a numpy array
(set by `sort_view`), or a Python list (set when a Dataset is copied). -/
inductive Asc where
  | bool (b : Bool)
  | arr (l : List Bool)
  | list (l : List Bool)
deriving DecidableEq, Repr

/-- the tuple kept per identifier: checksums, row order, number of rows, `ascending` -/
structure Entry (C : Type) where
  crcs : List C
  idx : List Nat
  nrows : Nat
  asc : Asc

/-- the two functions of the C++ library, and what an array means as an index of rows -/
structure Lib (V C : Type) where
  crc : V → C
  lexsort : List V → Asc → List Nat
  asRows : V → List Nat

/-- `SortCache._cache` -/
abbrev Cache (C : Type) := Nat → Option (Entry C)

def Cache.set {C : Type} (k : Cache C) (uid : Nat) (e : Option (Entry C)) : Cache C := fun u => if u = uid then e else k u

/-- `type(checkasc) != type(ascending)` (`rt_sort_cache.py:55`) -/
def Asc.sameType : Asc → Asc → Bool
  | .bool _, .bool _ => true
  | .arr _, .arr _ => true
  | .list _, .list _ => true
  | _, _ => false

/-- `:62-66`: booleans are compared; otherwise the lengths and then the elements -/
def Asc.sameValue : Asc → Asc → Bool
  | .bool a, .bool b => a == b
  | .arr a, .arr b => a.length == b.length && (a.zip b).all fun p => p.1 == p.2
  | .list a, .list b => a.length == b.length && (a.zip b).all fun p => p.1 == p.2
  | _, _ => false

section
variable {V C : Type} [DecidableEq C]

/-- `:44-68` `_cached` -/
def cached (cache : Cache C) (uid nrows : Nat) (crcvals : List C) (asc : Asc) : Option (List Nat) :=
  match cache uid with
  | none => none
  | some e =>
    if !(e.asc.sameType asc) || e.crcs.length != crcvals.length || e.nrows != nrows
        || (e.crcs.zip crcvals).any fun p => p.1 != p.2 then none
    else if e.asc.sameValue asc then some e.idx else none

/-- `:36-82` `get_sorted_row_index`.  `sortcols` are the values of `sortdict`; `none` when there is no sort. -/
def getSorted (lib : Lib V C) (cache : Cache C) (uid nrows : Nat) (sortcols : Option (List V)) (asc : Asc) :
    Cache C × Option (List Nat) :=
  match sortcols with
  | none => (cache, none)
  | some [] => (cache, none)
  | some cols =>
    let crcvals := cols.map lib.crc
    match cached cache uid nrows crcvals asc with
    | some idx => (cache, some idx)
    | none =>
      let idx := lib.lexsort cols.reverse asc
      (cache.set uid (some ⟨crcvals, idx, nrows, asc⟩), some idx)

/-- `:27-34` `store_sort` -/
def storeSort (lib : Lib V C) (cache : Cache C) (uid : Nat) (cols : List V) (idx : List Nat) (asc : Asc) : Cache C :=
  cache.set uid (some ⟨cols.map lib.crc, idx, idx.length, asc⟩)

/-- `:91-94` `invalidate` -/
def invalidate (cache : Cache C) (uid : Nat) : Cache C := cache.set uid none

/-- `:96-100` `invalidate_all` -/
def invalidateAll (_ : Cache C) : Cache C := fun _ => none

/-! ## Datasets -/

/-- the part of a Dataset that matters for its row order.  `cols` lists the columns by name (names are distinct). -/
structure Ds (V : Type) where
  uid : Nat
  nrows : Nat
  cols : List (Name × V)
  /-- `_col_sortlist` -/
  sortlist : Option (List Name)
  /-- `_sort_ascending` -/
  asc : Asc
  /-- `_sort_display` -/
  display : Bool

/-- `col_get_value` -/
def Ds.col? (d : Ds V) (n : Name) : Option V := (d.cols.find? fun p => p.1 = n).map (·.2)

/-- Python dictionary built from a list of keys: a repeated key keeps its first place -/
def dictKeys : List Name → List Name
  | [] => []
  | n :: l => n :: (dictKeys l).filter (· ≠ n)

/-- `rt_dataset.py:3985-4000` `get_row_sort_info`: the Dataset afterwards and the sort columns -/
def rowSortInfo (d : Ds V) : Ds V × Option (List V) :=
  match d.sortlist with
  | none => (d, none)
  | some names =>
    if names.all fun n => (d.col? n).isSome then (d, some ((dictKeys names).filterMap d.col?))
    else ({ d with sortlist := none, asc := .bool true }, none)

/-- the argument `by`: one name or a list of names -/
inductive By where
  | one (n : Name)
  | many (l : List Name)
deriving DecidableEq

def By.names : By → List Name
  | .one n => [n]
  | .many l => l

/-- Python `len(by)`: for a single name the number of its *characters* -/
def By.len : By → Nat
  | .one n => n.length
  | .many l => l.length

/-- checks and normalisation at the start of `_sort_values` (`rt_dataset.py:4064-4082`); `ascending` as an array of
booleans -/
def normSort (d : Ds V) (by_ : By) (ascending : List Bool) : Except String Asc :=
  if !(by_.names.all fun n => (d.col? n).isSome) then .error "ValueError: not a valid key to sort by"
  else
    match ascending with
    | [b] => .ok (.bool b)
    | l => if l.length ≠ by_.len then .error "ValueError: length of the ascending array" else .ok (.arr l.reverse)

/-- `sorts_off` (`rt_dataset.py:3974-3982`) -/
def sortsOff (d : Ds V) : Ds V := { d with sortlist := none, asc := .bool true, display := false }

/-- `sort_view` (`rt_dataset.py:4140-`, through `_sort_values` 4129-4137) -/
def sortView (d : Ds V) (by_ : By) (ascending : List Bool) : Except String (Ds V) :=
  match normSort d by_ ascending with
  | .error e => .error e
  | .ok a => .ok { d with sortlist := some by_.names, asc := a, display := true }

/-- `_sort_lexsort` (`rt_dataset.py:4003-4013`) -/
def sortLexsort (lib : Lib V C) (d : Ds V) (names : List Name) (asc : Asc) : List Nat :=
  lib.lexsort ((names.filterMap d.col?).reverse) asc

/-- `sort_inplace` (`_sort_values` 4084-4106, no `sort_rows`).  `take v idx` is numpy `v[idx]`. -/
def sortInplace (lib : Lib V C) (take : V → List Nat → V) (d : Ds V) (by_ : By) (ascending : List Bool) :
    Except String (Ds V) :=
  match normSort d by_ ascending with
  | .error e => .error e
  | .ok a =>
    let d := if d.display then sortsOff d else d
    let rows := sortLexsort lib d by_.names a
    .ok { d with cols := d.cols.map fun p => (p.1, take p.2 rows) }

/-- `sort_copy` (`_sort_values` 4084-4095, 4108-4126): a new Dataset, with identifier `uid` -/
def sortCopy (lib : Lib V C) (take : V → List Nat → V) (d : Ds V) (uid : Nat) (by_ : By) (ascending : List Bool) :
    Except String (Ds V) :=
  match normSort d by_ ascending with
  | .error e => .error e
  | .ok a =>
    let rows := sortLexsort lib d by_.names a
    .ok ⟨uid, d.nrows, d.cols.map fun p => (p.1, take p.2 rows), none, .bool true, false⟩

/-- What a saved file keeps of a Dataset: the columns, `_col_sortlist` (`rt_struct.py:988`, `:1184`) and the row
order (`:1298-1303`).  `_sort_ascending` is not saved. -/
structure File (V : Type) where
  nrows : Nat
  cols : List (Name × V)
  sortlist : Option (List Name)
  idx : Option (List Nat)

/-- saving (`rt_struct.py:1184`, `:1298-1303`): the metadata is built first, then `get_row_sort_info` runs -/
def save (lib : Lib V C) (cache : Cache C) (d : Ds V) : Cache C × Ds V × File V :=
  let i := rowSortInfo d
  let g := getSorted lib cache i.1.uid i.1.nrows i.2 i.1.asc
  (g.1, i.1, ⟨d.nrows, d.cols, d.sortlist, g.2⟩)

/-- loading (`rt_struct.py:1619-1630`, `:1729-1732`): `_sort_ascending` has its initial value `True` (`:176`). `arrays[0]`
(`:1628`) is meant to be the row order, but the arrays of a file begin with the columns (`:1229`, `:1303`, `:1680`), so it is the
first column. What raises after the sort list is set is ignored. -/
def load (lib : Lib V C) (cache : Cache C) (f : File V) (uid : Nat) : Cache C × Ds V :=
  let d : Ds V := ⟨uid, f.nrows, f.cols, f.sortlist, .bool true, false⟩
  match f.sortlist with
  | none => (cache, d)
  | some names =>
    match f.cols, names.mapM d.col? with
    | c :: _, some cols => (storeSort lib cache uid cols (lib.asRows c.2) d.asc, d)
    | _, _ => (cache, d)

/-- the sort settings given to a copy (`_copy_attributes`, `rt_dataset.py:707-719`).  `ds` is the new Dataset, with
the columns that were kept.  Line 712 reads the attribute `sort_ascending` (without underscore) of the original,
which exists only if there is a column of that name. -/
def copySort (d ds : Ds V) : Except String (Ds V) :=
  match d.sortlist with
  | none => .ok ds
  | some names =>
    match d.asc with
    | .bool _ =>
      let new := names.filter fun n => (ds.col? n).isSome
      if new.length > 0 then .error "AttributeError: sort_ascending"
      else .ok { ds with display := d.display }
    | .arr l | .list l =>
      let new := (names.zip l).filter fun p => (ds.col? p.1).isSome
      if new.length > 0 then
        .ok { ds with sortlist := some (new.map (·.1)), asc := .list (new.map (·.2)), display := d.display }
      else .ok { ds with display := d.display }

/-! ## Histories -/

/-- The state of a session: the cache, the Datasets (by handle) and the saved files. -/
structure World (V C : Type) where
  cache : Cache C
  ds : Nat → Option (Ds V)
  files : List (File V)

def World.setDs (w : World V C) (h : Nat) (d : Option (Ds V)) : World V C :=
  { w with ds := fun k => if k = h then d else w.ds k }

inductive Op (V : Type) where
  /-- a Dataset is created, or changed in any way at all: columns, number of rows, names, sort settings -/
  | put (h : Nat) (d : Ds V)
  /-- the row order is asked for: display, `get_sorted_col_data` -/
  | order (h : Nat)
  | save (h : Nat)
  /-- file number `k` is loaded into handle `h` -/
  | load (k h uid : Nat)
  /-- `Dataset.__del__` (`rt_dataset.py:689-698`) -/
  | del (h : Nat)
  | invalidate (uid : Nat)
  | invalidateAll

/-- one step; the second component is the row order returned by `order` -/
def step (lib : Lib V C) (w : World V C) : Op V → World V C × Option (List Nat)
  | .put h d => (w.setDs h (some d), none)
  | .order h =>
    match w.ds h with
    | none => (w, none)
    | some d =>
      let i := rowSortInfo d
      let g := getSorted lib w.cache i.1.uid i.1.nrows i.2 i.1.asc
      ({ w.setDs h (some i.1) with cache := g.1 }, g.2)
  | .save h =>
    match w.ds h with
    | none => (w, none)
    | some d =>
      let s := save lib w.cache d
      ({ w.setDs h (some s.2.1) with cache := s.1, files := w.files ++ [s.2.2] }, none)
  | .load k h uid =>
    match w.files[k]? with
    | none => (w, none)
    | some f =>
      let l := load lib w.cache f uid
      ({ w.setDs h (some l.2) with cache := l.1 }, none)
  | .del h =>
    match w.ds h with
    | none => (w, none)
    | some d => ({ w.setDs h none with cache := invalidate w.cache d.uid }, none)
  | .invalidate uid => ({ w with cache := invalidate w.cache uid }, none)
  | .invalidateAll => ({ w with cache := invalidateAll w.cache }, none)

def start : World V C := ⟨fun _ => none, fun _ => none, []⟩

def run (lib : Lib V C) : World V C → List (Op V) → World V C
  | w, [] => w
  | w, o :: os => run lib (step lib w o).1 os

end
end Verif.SortCache
