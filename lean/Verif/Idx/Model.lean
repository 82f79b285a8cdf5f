import Verif.Items.Model
import Verif.Idx.Spec
import Verif.Basic
/-!
# Indexing a Dataset: model

`Dataset.__getitem__`, `Dataset.__setitem__` (`rt_dataset.py:1234-1469`) with `_extract_indexing`, `_mask_get_item`,
`_index_from_row_labels`, `_get_count_for_slice` (`rt_struct.py:598-801`); `head`, `tail`, `filter`, `putmask`. Columns are
one-dimensional, do not share memory, and hold items of one type `V` with an invalid value `inv`; conversions between types are not
modelled. Column names are valid names, `Struct.AllNames` is False, the Dataset has its number of rows set (`_nrows` is not None).
-/
namespace Verif.Idx
open Verif.Items (Dict)

inductive Err where
  | indexError | typeError | keyError | valueError | notImplemented | attributeError
deriving DecidableEq, Repr

abbrev Table (V : Type) := Dict String (List V)

/-! ## numpy indexing of one array -/

/-- how an array is indexed -/
inductive Idx where
  | all
  | slice (start stop : Option Int) (step : Int)
  /-- a list, or an array on the left of an assignment: IndexError when out of range -/
  | ints (ks : List Int)
  /-- an integer array on the right: `mbget`, invalid when out of range (`rt_fastarray.py:1322-1326`) -/
  | mbints (ks : List Int)
  | mask (m : List Bool)
deriving DecidableEq, Repr

/-- `PySlice_AdjustIndices` of Python -/
def adjust (n : Nat) (x : Option Int) (step dflt : Int) : Int :=
  let lower : Int := if step < 0 then -1 else 0
  let upper : Int := if step < 0 then (n : Int) - 1 else n
  match x with
  | none => dflt
  | some s => if s < 0 then (if s + n < lower then lower else s + n) else if s > upper then upper else s

/-- the loop over a range -/
def walk (stop step : Int) : Nat → Int → List Nat
  | 0, _ => []
  | fuel + 1, i =>
    if (0 < step ∧ i < stop) ∨ (step < 0 ∧ stop < i) then i.toNat :: walk stop step fuel (i + step) else []

/-- `range(n)[start:stop:step]` -/
def sliceRows (n : Nat) (start stop : Option Int) (step : Int) : List Nat :=
  walk (adjust n stop step (if step < 0 then -1 else n)) step n (adjust n start step (if step < 0 then (n : Int) - 1 else 0))

/-- position of an integer index -/
def pos (n : Nat) (k : Int) : Option Nat :=
  if k < 0 then (if k + n < 0 then none else some (k + n).toNat) else if k.toNat < n then some k.toNat else none

/-- boolean indexing of an array -/
def compress {V : Type} : List V → List Bool → List V
  | x :: xs, b :: bs => if b then x :: compress xs bs else compress xs bs
  | _, _ => []

/-- `arr[idx]` -/
def take {V : Type} (inv : V) (col : List V) : Idx → Except Err (List V)
  | .all => .ok col
  | .slice a b s => if s = 0 then .error .valueError else .ok ((sliceRows col.length a b s).filterMap fun (i : Nat) => col[i]?)
  | .ints ks =>
    match ks.mapM fun (k : Int) => (pos col.length k).bind fun (i : Nat) => col[i]? with
    | some l => .ok l
    | none => .error .indexError
  | .mbints ks => .ok (ks.map fun (k : Int) => ((pos col.length k).bind fun (i : Nat) => col[i]?).getD inv)
  | .mask m => if m.length = col.length then .ok (compress col m) else .error .indexError

/-- positions of True -/
def nonzero : Nat → List Bool → List Nat
  | _, [] => []
  | s, b :: bs => if b then s :: nonzero (s + 1) bs else nonzero (s + 1) bs

/-- the rows an index stands for in an assignment -/
def targets (n : Nat) : Idx → Except Err (List Nat)
  | .all => .ok (List.range n)
  | .slice a b s => if s = 0 then .error .valueError else .ok (sliceRows n a b s)
  | .ints ks | .mbints ks =>
    match ks.mapM (pos n) with
    | some l => .ok l
    | none => .error .indexError
  | .mask m => if m.length = n then .ok (nonzero 0 m) else .error .indexError

/-- storing items one after another -/
def storeAt {V : Type} (col : List V) : List Nat → List V → List V
  | i :: is, v :: vs => storeAt (col.set i v) is vs
  | _, _ => col

/-- `arr[idx] = vals` for an array of values: as many as there are rows, or one for all -/
def assign {V : Type} (col : List V) (idx : Idx) (vals : List V) : Except Err (List V) :=
  match targets col.length idx with
  | .error e => .error e
  | .ok rows =>
    if vals.length = rows.length then .ok (storeAt col rows vals)
    else match vals with
      | [v] => .ok (storeAt col rows (List.replicate rows.length v))
      | _ => .error .valueError

/-! ## row and column arguments -/

/-- `col == k` -/
def eqMask {V : Type} [DecidableEq V] (col : List V) (k : V) : List Bool := col.map fun (x : V) => decide (x = k)

/-- one key of `_index_from_row_labels` (`rt_struct.py:729-744`): the masks of the parts, and-ed -/
def keyMask {V : Type} [DecidableEq V] (t : Table V) (labels : List String) (key : List V) : Except Err (List Bool) := do
  let ms ← (List.zip (List.range key.length) key).mapM fun (e : Nat × V) =>
    match labels[e.1]? with
    | none => Except.error Err.indexError
    | some c => match Dict.get t c with
      | none => .error .attributeError
      | some col => .ok (eqMask col e.2)
  match ms with
  | [] => .error .valueError
  | m :: ms => .ok (ms.foldl (fun (a b : List Bool) => List.zipWith (fun x y => x && y) a b) m)

/-- `_index_from_row_labels` (`rt_struct.py:706-749`) -/
def labelMask {V : Type} [DecidableEq V] (t : Table V) (labels : List String) (ks : List (List V)) : Except Err (List Bool) :=
  match ks with
  | [] => .error .indexError
  | k :: _ =>
    if labels.length ≠ k.length then .error .indexError
    else do
      let ms ← ks.mapM (keyMask t labels)
      match ms with
      | [] => .error .valueError
      | m :: ms => .ok (ms.foldl (fun (a b : List Bool) => List.zipWith (fun x y => x || y) a b) m)

/-- `_mask_get_item(row_arg, by_col_arg=False)` (`rt_struct.py:609-703`), and the `int` row of `_extract_indexing` (`:776-778`) with
`row_idx = [row_arg]` (`rt_dataset.py:1269-1270`, `:1466-1467`) -/
def rowIdx {V : Type} [DecidableEq V] (t : Table V) (labels : List String) : RowArg V → Except Err Idx
  | .int k => .ok (.ints [k])
  | .slice none none none => .ok .all
  | .slice a b s => .ok (.slice a b (s.getD 1))
  | .boolList [] | .intList [] => .error .indexError
  | .boolList m | .boolArr m => .ok (.mask m)
  | .intList ks => .ok (.ints ks)
  | .intArr ks => .ok (.mbints ks)
  | .labels ks => (labelMask t labels ks).map Idx.mask

/-- `_get_count_for_slice(row_idx, True)` (`rt_struct.py:598-606`), 1 for an `int` -/
def rowCount {V : Type} (n : Nat) : RowArg V → Idx → Except Err Nat
  | .int _, _ => .ok 1
  | _, .all => .ok n
  | _, .slice a b s => if s = 0 then .error .valueError else .ok (sliceRows n a b s).length
  | _, .ints ks | _, .mbints ks => .ok ks.length
  | _, .mask m => .ok m.length

/-- the row part of `_extract_indexing` (`rt_struct.py:770-787`): the index, `none` for all rows, and the number of rows -/
def rowPart {V : Type} [DecidableEq V] (t : Table V) (n : Nat) (labels : List String) : Option (RowArg V) →
    Except Err (Option Idx × Nat)
  | none => .ok (none, n)
  | some r =>
    match rowIdx t labels r with
    | .error e => .error e
    | .ok i => match rowCount n r i with
      | .error e => .error e
      | .ok k => .ok (if i = .all then none else some i, k)

/-- `_mask_get_item(col_arg, by_col_arg=True)`: `.inl` a single column, `.inr none` all columns -/
def colIdx (keys : List String) : ColArg → Except Err (String ⊕ Option (List String))
  | .name c => .ok (.inl c)
  | .int k => match (pos keys.length k).bind fun (i : Nat) => keys[i]? with
    | some c => .ok (.inl c)
    | none => .error .indexError
  | .slice none none none => .ok (.inr none)
  | .slice a b s => (take "" keys (.slice a b (s.getD 1))).map fun l => .inr (some l)
  | .names [] | .ints [] | .bools [] => .error .indexError
  | .names cs => .ok (.inr (some cs))
  | .ints ks => (take "" keys (.ints ks)).map fun l => .inr (some l)
  | .bools m => (take "" keys (.mask m)).map fun l => .inr (some l)

/-! ## `__getitem__` -/

inductive Got (V : Type) where
  | scalar (v : V)
  | array (l : List V)
  | table (t : Table V)
deriving DecidableEq

/-- `copy_apply` (`rt_itemcontainer.py:204-225`) -/
def copyApply {V : Type} (inv : V) (t : Table V) (idx : Idx) (cols : List String) : Except Err (Table V) :=
  cols.foldlM (fun (o : Table V) (c : String) =>
    match Dict.get t c with
    | none => .error .keyError
    | some col => match take inv col idx with
      | .error e => .error e
      | .ok l => .ok (Dict.set o c l)) []

/-- `Dataset.__getitem__` (`rt_dataset.py:1425-1469`); `row` is `none` for `ds[col]` -/
def getitem {V : Type} [DecidableEq V] (inv : V) (t : Table V) (n : Nat) (labels : List String) (row : Option (RowArg V))
    (col : ColArg) : Except Err (Got V) := do
  let (ri, _) ← rowPart t n labels row
  let idx := ri.getD .all
  let c ← colIdx (Dict.keys t) col
  match c with
  | .inl c =>
    match Dict.get t c with
    | none => .error .indexError
    | some a => match row with
      | some (.int k) => match (pos a.length k).bind fun (i : Nat) => a[i]? with
        | some v => .ok (.scalar v)
        | none => .error .indexError
      | _ => do let l ← take inv a idx; return .array l
  | .inr cs => do
    let t' ← copyApply inv t idx (cs.getD (Dict.keys t))
    return .table t'

/-- `head` (`rt_dataset.py:3007-3010`) -/
def head {V : Type} [DecidableEq V] (inv : V) (t : Table V) (n : Nat) (labels : List String) (k : Int) : Except Err (Got V) :=
  getitem inv t n labels (some (.slice none (some (min (n : Int) k)) none)) (.slice none none none)

/-- `tail` (`:3040-3044`) -/
def tail {V : Type} [DecidableEq V] (inv : V) (t : Table V) (n : Nat) (labels : List String) (k : Int) : Except Err (Got V) :=
  getitem inv t n labels (some (.slice (some (-(min (n : Int) k))) none none)) (.slice none none none)

inductive Filter where
  | bools (m : List Bool)
  | ints (ks : List Int)
deriving DecidableEq, Repr

/-- `filter` (`:954-997`): the Dataset returned; `bool_to_fancy` gives the positions of True as an integer array -/
def filter {V : Type} [DecidableEq V] (inv : V) (t : Table V) (n : Nat) (labels : List String) (f : Filter) : Except Err (Got V) :=
  match f with
  | .bools m =>
    if m.length ≠ n then .error .valueError
    else getitem inv t n labels (some (.intArr ((nonzero 0 m).map fun (i : Nat) => (i : Int)))) (.slice none none none)
  | .ints ks => getitem inv t n labels (some (.intArr ks)) (.slice none none none)

/-- `filter(inplace=True)` (`:983-989`, `copy_inplace` `rt_itemcontainer.py:173-184`): columns and number of rows of the Dataset -/
def filterInplace {V : Type} (inv : V) (t : Table V) (n : Nat) (f : Filter) : Except Err (Table V × Nat) :=
  let go (ks : List Int) : Except Err (Table V × Nat) := do
    let t' ← t.mapM fun (e : String × List V) => do let l ← take inv e.2 (.mbints ks); return (e.1, l)
    return (t', ks.length)
  match f with
  | .bools m => if m.length ≠ n then .error .valueError else go ((nonzero 0 m).map fun (i : Nat) => (i : Int))
  | .ints ks => go ks

/-! ## `__setitem__` -/

inductive Val (V : Type) where
  | scalar (v : V)
  | vec (l : List V)
  /-- a Dataset with its number of rows -/
  | table (t : Table V) (n : Nat)

/-- a Dataset after an assignment and the exception raised, if any -/
abbrev Out (V : Type) := Table V × Option Err

/-- `getattr(self, c)[idx] = vals` -/
def setCol {V : Type} (t : Table V) (c : String) (idx : Idx) (vals : List V) : Out V :=
  match Dict.get t c with
  | none => (t, some .keyError)
  | some col => match assign col idx vals with
    | .error e => (t, some e)
    | .ok l => (Dict.set t c l, none)

/-- `setattr(self, c, value)` for a column that exists or a new one: the length must be that of the Dataset, a scalar is repeated -/
def setAttr {V : Type} (t : Table V) (n : Nat) (c : String) (v : Val V) : Out V :=
  match v with
  | .scalar x => (Dict.set t c (List.replicate n x), none)
  | .vec l => if l.length = n then (Dict.set t c l, none) else (t, some .valueError)
  | .table _ _ => (t, some .typeError)

/-- a loop of statements, ended by the first exception -/
def loop {V A : Type} (f : Table V → A → Out V) : Table V → List A → Out V
  | t, [] => (t, none)
  | t, a :: as => match f t a with
    | (t', none) => loop f t' as
    | (t', some e) => (t', some e)

/-- column number `i` of a Dataset: `value[i]` -/
def nthCol {V : Type} (v : Table V) (i : Nat) : Option (List V) := (v[i]?).map Prod.snd

/-- one column of a list of statements `getattr(self, c)[row_idx] = value[i]` or `setattr(self, c, value[i])` -/
def setFrom {V : Type} (value : Table V) (idx : Option Idx) (n : Nat) (t : Table V) (e : String × Nat) : Out V :=
  match idx with
  | some ix => match Dict.get t e.1 with
    | none => (t, some .attributeError)
    | some _ => match nthCol value e.2 with
      | none => (t, some .indexError)
      | some l => setCol t e.1 ix l
  | none => match nthCol value e.2 with
    | none => (t, some .indexError)
    | some l => setAttr t n e.1 (.vec l)

/-- `Dataset.__setitem__` (`rt_dataset.py:1265-1373`). `ofName` is what storing a name in a column of strings gives: iterating over a
Dataset yields names (`:1328-1330`). Not modelled: storing a whole Dataset as a column (`:1284`). -/
def setitem {V : Type} [DecidableEq V] (ofName : String → V) (t : Table V) (n : Nat) (labels : List String) (row : Option (RowArg V))
    (col : ColArg) (v : Val V) : Out V :=
  let pre : Except Err (Option Idx × Nat × (String ⊕ Option (List String))) := do
    let (ri, nr) ← rowPart t n labels row
    let c ← colIdx (Dict.keys t) col
    return (ri, nr, c)
  match pre with
  | .error e => (t, some e)
  | .ok (ri, nr, c) =>
    let cols : List String := match c with
      | .inl c => [c]
      | .inr cs => cs.getD (Dict.keys t)
    match cols with
    | [] => (t, some .indexError)
    | [c] =>
      if Dict.has t c then
        match ri with
        | none => setAttr t n c v
        | some ix => match v with
          | .table w _ => match nthCol w 0 with
            | none => (t, some .indexError)
            | some l => setCol t c ix l
          | .scalar x => setCol t c ix [x]
          | .vec l => setCol t c ix l
      else if nr = n ∨ nr = 0 then
        match ri with
        | some _ => (t, some .notImplemented)
        | none => setAttr t n c v
      else (t, some .notImplemented)
    | _ =>
      if nr = 1 ∧ n ≠ 1 then
        if cols.all fun c => Dict.has t c then
          let ix := ri.getD .all
          match v with
          | .scalar x => loop (fun t c => setCol t c ix [x]) t cols
          | .table w wn =>
            if wn = 1 ∧ w.length = cols.length then
              loop (fun t (e : String × Nat) => match (nthCol w e.2).bind List.head? with
                | none => (t, some .indexError)
                | some x => setCol t e.1 ix [x]) t (List.zip cols (List.range cols.length))
            else if wn = cols.length then
              loop (fun t (e : String × String) => setCol t e.1 ix [ofName e.2]) t (List.zip cols (Dict.keys w))
            else (t, some .valueError)
          | .vec l =>
            if l.length = cols.length then loop (fun t (e : String × V) => setCol t e.1 ix [e.2]) t (List.zip cols l)
            else (t, some .valueError)
        else (t, some .indexError)
      else
        match v with
        | .scalar x => match ri with
          | some ix => loop (fun t c => setCol t c ix [x]) t cols
          | none => loop (fun t c => setAttr t n c (.scalar x)) t cols
        | .table w _ => loop (setFrom w ri n) t (List.zip cols (List.range cols.length))
        | .vec _ => (t, some .valueError)

/-- `putmask` (`rt_dataset.py:1596-1625`); `rt.putmask(dst, mask, src)` is C++: where the mask is True the item of `src` at the same row.
The arrays are those of the Dataset, changed in place. -/
def putmask {V : Type} (t : Table V) (n : Nat) (mask : List Bool) (v : Val V) : Out V :=
  let put (dst src : List V) : List V := List.zipWith (fun (e : V × Bool) (s : V) => if e.2 then s else e.1) (List.zip dst mask) src
  if mask.length ≠ n then (t, some .valueError)
  else match v with
    | .table w wn =>
      if wn = n ∧ w.length = t.length then (List.zipWith (fun e w => (e.1, put e.2 w.2)) t w, none) else (t, some .valueError)
    | .vec l => if l.length = n then (t.map fun (e : String × List V) => (e.1, put e.2 l), none) else (t, some .valueError)
    | .scalar _ => (t, some .valueError)

end Verif.Idx
