import Verif.Make.Model
/-!
# Model of `load_csv_as_dataset` (`rt_csv.py`), versions 0 to 3

The file has been read and cut into rows of fields by Python's `csv.reader`, header and skipped rows taken off (`rt_csv.py:79-83`); a
blank line is a row without fields. `F` are fields, `V` values of columns. Column names are identifiers (`:84`) and names that a Dataset
takes. Version 4 (pandas) is not modelled.
-/
namespace Verif.Csv
open Verif.Items (Dict)
open Verif.Make (Table fromRows fromTagged dictZip)

inductive Err where
  | index
  | type
  | make (e : Verif.Make.Err)
deriving DecidableEq, Repr

/-- `converters.get(name)`: none given, something that cannot be called (`None`, a text), a function. -/
inductive Conv (F V : Type) where
  | absent
  | noCall
  | fn (f : F → V)

variable {F V : Type}

/-- `_c(_v)` with `_ident` for missing converters (`rt_csv.py:116-117`). -/
def call (ident : F → V) : Conv F V → F → Except Err V
  | .absent, x => .ok (ident x)
  | .noCall, _ => .error .type
  | .fn f, x => .ok (f x)

/-- The test of version 0 (`rt_csv.py:107-110`). -/
def call0 (ident : F → V) : Conv F V → F → V
  | .fn f, x => f x
  | _, x => ident x

/-- `Dataset(data)` with a dictionary of arrays: the lengths must agree (`rt_dataset.py:673-687`). -/
def mkDataset (t : Table V) : Except Err (Table V) :=
  match t with
  | [] => .ok []
  | e :: es => if es.all (fun (x : String × List V) => x.2.length == e.2.length) then .ok t else .error (.make .value)

/-- `[_conv(_e[_i]) for _e in rawd]` (`rt_csv.py:108-110`). -/
def column0 (ident : F → V) (cv : Conv F V) (i : Nat) : List (List F) → Except Err (List V)
  | [] => .ok []
  | r :: rs =>
    match r[i]? with
    | none => .error .index
    | some x =>
      match column0 ident cv i rs with
      | .error e => .error e
      | .ok l => .ok (call0 ident cv x :: l)

/-- The loop of `_load_rows_to_dict_conv_by_col` (`rt_csv.py:105-110`). -/
def loop0 (ident : F → V) (cv : String → Conv F V) (rows : List (List F)) : List String → Nat → Table V → Except Err (Table V)
  | [], _, out => .ok out
  | c :: cs, i, out =>
    match column0 ident (cv c) i rows with
    | .error e => .error e
    | .ok l => loop0 ident cv rows cs (i + 1) (Dict.set out c l)

/-- `_load_rows_to_dict_conv_by_col` (`rt_csv.py:101-111`). -/
def load0 (ident : F → V) (cv : String → Conv F V) (names : List String) (rows : List (List F)) : Except Err (Table V) :=
  match loop0 ident cv rows names 0 [] with
  | .error e => .error e
  | .ok t => mkDataset t

/-- One row of version 1 (`rt_csv.py:120-121`): the fields are appended to the columns as far as they go. -/
def addRow (ident : F → V) : List (Conv F V) → List F → List (List V) → Except Err (List (List V))
  | c :: cs, x :: xs, l :: ls =>
    match call ident c x with
    | .error e => .error e
    | .ok y =>
      match addRow ident cs xs ls with
      | .error e => .error e
      | .ok rest => .ok ((l ++ [y]) :: rest)
  | _, _, ls => .ok ls

/-- The loop over the rows of version 1 (`rt_csv.py:119-121`). -/
def loop1 (ident : F → V) (cvs : List (Conv F V)) : List (List F) → List (List V) → Except Err (List (List V))
  | [], cols => .ok cols
  | r :: rs, cols =>
    match addRow ident cvs r cols with
    | .error e => .error e
    | .ok cols => loop1 ident cvs rs cols

/-- `_load_rows_to_dict_conv_by_row` (`rt_csv.py:114-123`). -/
def load1 (ident : F → V) (cv : String → Conv F V) (names : List String) (rows : List (List F)) : Except Err (Table V) :=
  match loop1 ident (names.map cv) rows (names.map fun _ => []) with
  | .error e => .error e
  | .ok cols => mkDataset (dictZip names cols)

/-- `[_c(_v) for _v, _c in zip(_r, convs)]` (`rt_csv.py:132`, `:144`). -/
def convRow (ident : F → V) : List (Conv F V) → List F → Except Err (List V)
  | c :: cs, x :: xs =>
    match call ident c x with
    | .error e => .error e
    | .ok y =>
      match convRow ident cs xs with
      | .error e => .error e
      | .ok rest => .ok (y :: rest)
  | _, _ => .ok []

/-- All rows. -/
def convRows (ident : F → V) (cvs : List (Conv F V)) : List (List F) → Except Err (List (List V))
  | [] => .ok []
  | r :: rs =>
    match convRow ident cvs r with
    | .error e => .error e
    | .ok x =>
      match convRows ident cvs rs with
      | .error e => .error e
      | .ok xs => .ok (x :: xs)

/-- The body of the first loop of `item_move_to_front` (`rt_itemcontainer.py:469-488`). -/
def frontBody (t acc : Table V) (cn : String) : Table V :=
  match Dict.get t cn with
  | some v => Dict.set acc cn v
  | none => acc

/-- The first loop. -/
def front (t : Table V) (names : List String) : Table V := names.foldl (frontBody t) []

/-- `col_move_to_front` (`rt_struct.py:3158-3198`, `rt_itemcontainer.py:443-488`). -/
def moveFront (t : Table V) (names : List String) : Except Err (Table V) :=
  if names.length > t.length then .error (.make .value)
  else .ok (t.foldl (fun (acc : Table V) (e : String × List V) => if Dict.has acc e.1 then acc else Dict.set acc e.1 e.2) (front t names))

/-- `_load_rows_to_tagged_rows` (`rt_csv.py:126-135`). -/
def load2 (ident : F → V) (cv : String → Conv F V) (names : List String) (rows : List (List F)) : Except Err (Table V) :=
  match convRows ident (names.map cv) rows with
  | .error e => .error e
  | .ok vals =>
    match fromTagged (vals.map fun (v : List V) => dictZip names v) with
    | .error e => .error (.make e)
    | .ok t => moveFront t names

/-- `_load_rows_to_rows_and_cols` (`rt_csv.py:138-145`). -/
def load3 (ident : F → V) (cv : String → Conv F V) (names : List String) (rows : List (List F)) : Except Err (Table V) :=
  match convRows ident (names.map cv) rows with
  | .error e => .error e
  | .ok vals =>
    match fromRows vals names with
    | .error e => .error (.make e)
    | .ok t => .ok t

end Verif.Csv
