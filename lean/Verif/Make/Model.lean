import Verif.Items.Model
import Verif.Make.Spec
import Verif.Basic
import Mathlib.Data.List.Sort
/-!
# Making Datasets: model of `concat_columns`, `from_rows`, `from_tagged_rows`, `from_jagged_rows`, `from_jagged_dict`

`rt_dataset.py:6996-7138`, `:7477-7784`. Columns hold items of one type `V`; what numpy does to lists of items of different types is not
modelled. `cls(dict)` with columns of the same length makes a Dataset of these columns.
-/
namespace Verif.Make
open Verif.Items (Dict)

inductive Err where
  | value | key | runtime | type | notImplemented | unboundLocal | index
deriving DecidableEq, Repr

abbrev Table (V : Type) := Dict String (List V)

/-! ## `concat_columns` -/

inductive OnDup where
  | raise | first | last
deriving DecidableEq, Repr

inductive OnMismatch where
  | warn | raise | ignore
deriving DecidableEq, Repr

/-- the state of the loop `:7116-7129`: `dict_retval`, `columns`, whether `dups` is not empty -/
structure CC (V : Type) where
  out : Table V
  columns : List String
  dups : Bool

/-- one step of the loop -/
def ccStep {V : Type} (dup : OnDup) (mis : OnMismatch) (s : CC V) (e : String × List V) : Except Err (CC V) :=
  if e.1 ∈ s.columns then
    let s := if mis ≠ .ignore then { s with dups := true } else s
    match dup with
    | .raise => .error .key
    | .first => .ok s
    | .last => .ok { s with out := Dict.set s.out e.1 e.2 }
  else .ok { s with columns := e.1 :: s.columns, out := Dict.set s.out e.1 e.2 }

/-- `concat_columns` (`:6996-7138`): the Dataset and whether a warning was issued. `dsets` are Datasets with their numbers of rows; Structs
have been converted (`:7093-7107`). Copies are not told from originals, so `do_copy` matters only for a single Dataset. -/
def concatColumns {V : Type} (dsets : List (Table V × Nat)) (doCopy : Bool) (dup : OnDup) (mis : OnMismatch) :
    Except Err (Table V × Bool) :=
  match dsets with
  | [] => .error .value
  | d :: ds =>
    if ds = [] ∧ doCopy = false then .ok (d.1, false)
    else if ¬ ds.all (fun (x : Table V × Nat) => x.2 == d.2) then .error .value
    else match ((d :: ds).flatMap Prod.fst).foldlM (ccStep dup mis) ⟨[], [], false⟩ with
      | .error e => .error e
      | .ok s =>
        if s.dups ∧ mis = .raise then .error .runtime
        else .ok (s.out, s.dups && mis == .warn)

/-! ## `from_rows`, `from_tagged_rows` -/

/-- `dict(zip(names, cols))` -/
def dictZip {A : Type} (names : List String) (cols : List A) : Dict String A :=
  (names.zip cols).foldl (fun (o : Dict String A) (e : String × A) => Dict.set o e.1 e.2) []

/-- the loop `:7563-7569` over the rows (of items, not dictionaries) -/
def rowLoop {V : Type} (ncols : Nat) : List (List V) → List (List V) → Except Err (List (List V))
  | [], cols => .ok cols
  | r :: rs, cols => if r.length ≠ ncols then .error .value else rowLoop ncols rs (List.zipWith (fun (c : List V) (x : V) => c ++ [x]) cols r)

/-- `from_rows` (`:7536-7571`) -/
def fromRows {V : Type} (rows : List (List V)) (names : List String) : Except Err (Table V) :=
  if names.length = 0 then .ok []
  else match rowLoop names.length rows (names.map fun _ => []) with
    | .error e => .error e
    | .ok cols => .ok (dictZip names cols)

/-- how many rows have the key: the `Counter` of `:7504-7515` -/
def countKey {V : Type} (rows : List (Dict String V)) (k : String) : Nat := (rows.filter fun (r : Dict String V) => Dict.has r k).length

/-- the keys of all rows -/
def allKeys {V : Type} (rows : List (Dict String V)) : List String := (rows.flatMap Dict.keys).eraseDups

/-- `from_tagged_rows` (`:7477-7534`) for rows that are dictionaries or Structs; `sorted` compares code points -/
def fromTagged {V : Type} (rows : List (Dict String V)) : Except Err (Table V) :=
  let keys := allKeys rows
  match keys with
  | [] => .ok []
  | k :: ks =>
    if ¬ ks.all (fun (k' : String) => countKey rows k' == countKey rows k) then .error .notImplemented
    else .ok ((keys.insertionSort fun (a b : String) => a ≤ b).map fun (c : String) =>
      (c, rows.filterMap fun (r : Dict String V) => Dict.get r c))

/-! ## `from_jagged_rows` -/

/-- a string -/
abbrev Text := List Char

/-- `fill_value` -/
inductive Fill where
  | none
  | str (s : Text)
  | bytes (s : Text)
  /-- anything else, as `str(fill_value)` gives it -/
  | other (s : Text)
deriving DecidableEq, Repr

/-- the length of the longest string of an array, at least 1: `itemsize` for bytes, a quarter of it for unicode -/
def width (r : List Text) : Nat := (r.map List.length).foldl max 1

/-- `:7617-7630`: what is stored for missing items; `none` when `inv` is not assigned -/
def fillText (unicode : Bool) : Fill → Option Text
  | .none => some []
  | .str s => if unicode then none else some s
  | .bytes s => if unicode then some s else none
  | .other s => some s

/-- one column `:7641-7651` -/
def jaggedCol (rows : List (List Text)) (w : Nat) (inv : Option Text) (i : Nat) : Except Err (List Text) :=
  rows.mapM fun (r : List Text) => match r[i]? with
    | some x => .ok (x.take w)
    | none => match inv with
      | none => .error .unboundLocal
      | some f => .ok (f.take w)

/-- `from_jagged_rows` (`:7573-7655`). Rows are arrays of strings, `true` for unicode; lists and other arrays have been turned into bytes
(`:7594-7607`). For unicode the width is divided by 4 and becomes a float, and `empty` refuses the type `U3.0` (`:7633-7640`). Storing
cuts a string at the width. -/
def fromJagged (rows : List (Bool × List Text)) (base : String) (fill : Fill) : Except Err (Table Text) :=
  if rows = [] then .error .value
  else
    let unicode := rows.any fun (r : Bool × List Text) => r.1
    let rs := rows.map Prod.snd
    let ncols := longest rs
    let w := (rs.map width).foldl max 1
    let inv := fillText unicode fill
    match (List.range ncols).mapM (fun (i : Nat) =>
        if unicode then (.error .type : Except Err (String × List Text))
        else match jaggedCol rs w inv i with
          | .error e => .error e
          | .ok col => .ok (base ++ toString i, col)) with
    | .error e => .error e
    | .ok cols => .ok (dictZip (cols.map Prod.fst) (cols.map Prod.snd))

/-! ## `from_jagged_dict` -/

/-- `:7720-7726` -/
def sameLength {A : Type} : Nat → List (List A) → Except Err Nat
  | k, [] => .ok k
  | k, v :: vs => if k = 0 then sameLength v.length vs else if v.length ≠ k then .error .value else sameLength k vs

/-- `from_jagged_dict(stacked=False)` (`:7729-7735`) -/
def jaggedDict (dct : List (String × List (Bool × List Text))) (fill : Fill) : Except Err (Table Text) := do
  let _ ← sameLength 0 (dct.map Prod.snd)
  dct.foldlM (fun (ds : Table Text) (e : String × List (Bool × List Text)) =>
    match fromJagged e.2 e.1 fill with
    | .error er => (.error er : Except Err (Table Text))
    | .ok ids => .ok (ids.foldl (fun (o : Table Text) (c : String × List Text) => Dict.set o c.1 c.2) ds)) []

def tile {V : Type} (a : List V) (k : Nat) : List V := (List.replicate k a).flatten

def repeatEach {V : Type} (a : List V) (n : Nat) : List V := a.flatMap fun (x : V) => List.replicate n x

/-- the items of `block` stored one after another from position `pos` -/
def writeAt {V : Type} (col : List V) (pos : Nat) (block : List V) : List V := col.take pos ++ block ++ col.drop (pos + block.length)

/-- `:7740-7743`: how many rows come of input row `i` -/
def outRows {V : Type} (cols : List (List (List V))) (i : Nat) : Nat :=
  (cols.map fun (vals : List (List V)) => match vals[i]? with
    | some l => l.length
    | none => 1).foldl (· * ·) 1

/-- the loop `:7766-7781` over the columns for one input row: what is stored in each column, nothing in finished ones. `num_out_rows / 0` is
NaN, and `int` of it raises ValueError. -/
def rowBlocks {V : Type} (out i : Nat) : Nat → List (Bool × List (List V)) → Except Err (List (List V))
  | _, [] => .ok []
  | reps, (done, vals) :: rest =>
    if done then match rowBlocks out i reps rest with
      | .error e => .error e
      | .ok bs => .ok ([] :: bs)
    else match vals[i]? with
      | none => .error .index
      | some val =>
        if reps * val.length = 0 then .error .value
        else match rowBlocks out i (reps * val.length) rest with
          | .error e => .error e
          | .ok bs => .ok (tile (repeatEach val reps) (out / (reps * val.length)) :: bs)

/-- the loop `:7763-7782` over the input rows -/
def fillCols {V : Type} (all : List (Bool × List (List V))) : List Nat → Nat → List (List V) → Except Err (List (List V))
  | [], _, cols => .ok cols
  | i :: is, pos, cols =>
    let out := outRows (all.map Prod.snd) i
    match rowBlocks out i 1 all with
    | .error e => .error e
    | .ok bs => fillCols all is (pos + out) (List.zipWith (fun (c : List V) (b : List V) => writeAt c pos b) cols bs)

/-- `from_jagged_dict(stacked=True)` (`:7738-7784`); scalars are lists of one item. `zero` is what `np.zeros` fills with. -/
def stacked {V : Type} (zero : V) (dct : Dict String (List (List V))) : Except Err (Table V) := do
  let n ← sameLength 0 (dct.map Prod.snd)
  let cols := dct.map Prod.snd
  let numRows := ((List.range n).map (outRows cols)).foldl (· + ·) 0
  let typed := cols.map List.flatten
  let all := cols.map fun (vals : List (List V)) => (decide (vals.flatten.length = numRows), vals)
  let init := typed.map fun (c : List V) => if c.length = numRows then c else List.replicate numRows zero
  match fillCols all (List.range n) 0 init with
  | .error e => .error e
  | .ok cols => .ok (dictZip (dct.map Prod.fst) cols)

end Verif.Make
