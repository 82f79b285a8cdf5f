import Verif.DsOps.Spec

/-!
# Assigning columns, looking at rows, applying functions, and matrices of a Dataset

Model of parts of `riptable/rt_dataset.py`.
-/

namespace Verif.DsOps

/-- Python exceptions. -/
inductive Err where
  | type
  | rows
  | index
  deriving Repr, DecidableEq

/-- A Dataset: `_nrows` (`None` when no column was ever set) and the columns in order. Labels, footers and sort lists are not
part of this model. -/
structure Ds (V : Type) where
  nrows : Option Nat
  cols : List (String × List V)
  deriving Repr, DecidableEq

variable {V : Type}

/-- `Dataset()` (rt_dataset.py 310-341, 643-667). -/
def empty : Ds V := { nrows := none, cols := [] }

/-- `arr.repeat(n)` (numpy). -/
def repeatEach (n : Nat) (xs : List V) : List V := xs.flatMap fun (x : V) => List.replicate n x

/-- `item_set_value` (rt_itemcontainer.py): the column at its place, a new one last. -/
def setCol (name : String) (xs : List V) : List (String × List V) → List (String × List V)
  | [] => [(name, xs)]
  | e :: es => if e.1 = name then (name, xs) :: es else e :: setCol name xs es

/-- `_possibly_convert_array` (rt_dataset.py 407-490) for the number of rows, then `_check_add_dimensions` (673-687) and
`_superadditem`. `ok` says whether the conversion of the array succeeds (an object array may be refused, 473; what the conversion
does to the cells is `convert` below). An array of one row is repeated when the Dataset has more than one (487-489). -/
def addCol (ok : List V → Bool) (d : Ds V) (name : String) (xs : List V) : Ds V × Option Err :=
  if ok xs = false then (d, some .type) else
  match d.nrows with
  | none => ({ nrows := some xs.length, cols := setCol name xs d.cols }, none)
  | some n =>
    if xs.length = 1 ∧ 1 < n then
      if (repeatEach n xs).length = n then ({ d with cols := setCol name (repeatEach n xs) d.cols }, none) else (d, some .rows)
    else if xs.length = n then ({ d with cols := setCol name xs d.cols }, none)
    else (d, some .rows)

/-- `_check_addtype` (rt_dataset.py 552-620) and the assignment. `_nrows` of an empty Dataset is set at once (581-588), before
anything can fail. Values of lists are taken to have no `repeat` method (595-596 gives the same column); Dataset values (554-568)
and arrays of several dimensions are not modelled. -/
def assign (ok : List V → Bool) (d : Ds V) (name : String) : Value V → Ds V × Option Err
  | .set => (d, some .type)
  | .array xs => addCol ok d name xs
  | .scalar x => addCol ok { d with nrows := some (d.nrows.getD 1) } name (List.replicate (d.nrows.getD 1) x)
  | .seq xs =>
    if xs.length = 1 ∧ d.nrows.getD xs.length ≠ 1 then
      addCol ok { d with nrows := some (d.nrows.getD xs.length) } name (repeatEach (d.nrows.getD xs.length) xs)
    else if xs.length = d.nrows.getD xs.length then
      addCol ok { d with nrows := some (d.nrows.getD xs.length) } name xs
    else ({ d with nrows := some (d.nrows.getD xs.length) }, some .rows)

/-- `_deleteitem` (rt_struct.py 455-470): the number of rows is forgotten with the last column. -/
def delete (d : Ds V) (name : String) : Ds V × Option Err :=
  if d.cols.any (fun (c : String × List V) => c.1 == name) = false then (d, some .index)
  else if d.cols.eraseP (fun (c : String × List V) => c.1 == name) = [] then ({ nrows := none, cols := [] }, none)
  else ({ d with cols := d.cols.eraseP fun (c : String × List V) => c.1 == name }, none)

/-- `head(n)` and `tail(n)` (rt_dataset.py 2980-3044) set `_nrows` to 0 in a Dataset without any (3007, 3040). The result itself is
modelled in `Verif.Idx`. -/
def look (d : Ds V) : Ds V := match d.nrows with
  | none => { d with nrows := some 0 }
  | some _ => d

/-- What a user does with a Dataset. -/
inductive Op (V : Type) where
  | assign (name : String) (v : Value V)
  | delete (name : String)
  | look

/-- One step; exceptions are caught by the user. -/
def step (ok : List V → Bool) (d : Ds V) : Op V → Ds V × Option Err
  | .assign name v => assign ok d name v
  | .delete name => delete d name
  | .look => (look d, none)

/-- A history. -/
def run (ok : List V → Bool) (d : Ds V) (ops : List (Op V)) : Ds V := ops.foldl (fun (s : Ds V) (o : Op V) => (step ok s o).1) d

/-- The same history, with the exceptions. -/
def errors (ok : List V → Bool) : Ds V → List (Op V) → List (Option Err)
  | _, [] => []
  | d, o :: os => (step ok d o).2 :: errors ok (step ok d o).1 os

/-! ### Object arrays -/

/-- `int(x)` for the cells of an object array (numpy `astype(np.int64)`): fractions are cut off, text is parsed, `None`, NaN and
numbers beyond 64 bits raise. `parse` is Python's `int(text)`. -/
def toInt (parse : String → Option Int) : Obj → Option Int
  | .str s => (parse s).bind fun i => if -(2 ^ 63) ≤ i ∧ i < 2 ^ 63 then some i else none
  | .int i => if -(2 ^ 63) ≤ i ∧ i < 2 ^ 63 then some i else none
  | .bool b => some (if b then 1 else 0)
  | .float t => if -(2 ^ 63) ≤ t.tdiv 1000 ∧ t.tdiv 1000 < 2 ^ 63 then some (t.tdiv 1000) else none
  | .nan => none
  | .none => none

/-- `float(x)` (numpy `astype(np.float64)`). `parse` is Python's `float(text)` in thousandths; whole numbers beyond 2^53 are
rounded by the code, here they are kept (see DESIGN.md). `None` gives NaN in numpy. -/
def toFloat (parse : String → Option Int) : Obj → Option Cell
  | .str s => (parse s).map Cell.float
  | .int i => some (.float (1000 * i))
  | .bool b => some (.float (if b then 1000 else 0))
  | .float t => some (.float t)
  | .nan => some .nan
  | .none => some .nan

/-- All cells or nothing. -/
def everyCell {α β : Type} (f : α → Option β) : List α → Option (List β)
  | [] => some []
  | x :: xs => match f x, everyCell f xs with
    | some y, some ys => some (y :: ys)
    | _, _ => none

/-- `_possibly_convert_array` for object arrays (rt_dataset.py 449-473): the type of the first object decides, a conversion that
fails falls back to text (471, 493-507). A Python bool is an `int`, so 464 is taken before 466. `text` is Python's `str`; the text of
a text is itself. Bytes and encodings are not modelled. -/
def convert (parseI parseF : String → Option Int) (text : Obj → String) (v : List Obj) : Except Err (List Cell) :=
  match v with
  | [] => .error .index
  | .str _ :: _ => .ok (v.map fun (o : Obj) => .text (text o))
  | .int _ :: _ => .ok (((everyCell (toInt parseI) v).map fun (is : List Int) => is.map Cell.int).getD (v.map fun (o : Obj) => .text (text o)))
  | .bool _ :: _ => .ok (((everyCell (toInt parseI) v).map fun (is : List Int) => is.map Cell.int).getD (v.map fun (o : Obj) => .text (text o)))
  | .float _ :: _ => .ok ((everyCell (toFloat parseF) v).getD (v.map fun (o : Obj) => .text (text o)))
  | .nan :: _ => .ok ((everyCell (toFloat parseF) v).getD (v.map fun (o : Obj) => .text (text o)))
  | .none :: _ => .error .type

/-! ### Rows -/

/-- Structs in memory, and the references a loop over rows has been given. -/
structure Loop (V : Type) where
  heap : List (List V)
  given : List Nat
  deriving Repr, DecidableEq

/-- `iterrows` (rt_dataset.py 1663-1724): one Struct is made, `temp_vals[ci][0]` is overwritten for each row and the same Struct is
given again. -/
def iterrows (cols : List (String × List V)) : Nat → Loop V
  | 0 => { heap := [[]], given := [] }
  | k + 1 => { heap := (iterrows cols k).heap.set 0 (cols.filterMap fun (c : String × List V) => c.2[k]?), given := (iterrows cols k).given ++ [0] }

/-- `asrows` (rt_dataset.py 3067-3120) for `dict`, `tuple`, `list`, `array`, `Struct`: a new object for each row. -/
def asrows (cols : List (String × List V)) : Nat → Loop V
  | 0 => { heap := [], given := [] }
  | k + 1 => { heap := (asrows cols k).heap ++ [cols.filterMap fun (c : String × List V) => c.2[k]?],
               given := (asrows cols k).given ++ [(asrows cols k).heap.length] }

/-- What the user sees in the `j`-th row they were given, now. -/
def seen (l : Loop V) (j : Nat) : Option (List V) := (l.given[j]?).bind fun (r : Nat) => l.heap[r]?

/-! ### Functions -/

/-- A function with its `__name__`; `A` are the extra arguments. -/
structure Fn (V A : Type) where
  name : String
  call : A → List V → List V

/-- A result: the Dataset's own method of this name, or the columns one by one (rt_dataset.py 7449-7469). `methods name` is what
`getattr(self, name)()` gives, `none` if it raises. -/
def apply1 {A : Type} (checkOp : Bool) (methods : String → Option (List (String × List V))) (cols : List (String × List V))
    (f : Fn V A) (a : A) : List (String × List V) :=
  match (if checkOp then methods f.name else none) with
  | some r => r
  | none => cols.map fun (c : String × List V) => (c.1, f.call a c.2)

/-- `apply` with several functions (rt_dataset.py 7445-7474): a dictionary by `__name__.capitalize()`. -/
def applyAll {A : Type} (cap : String → String) (checkOp : Bool) (methods : String → Option (List (String × List V)))
    (cols : List (String × List V)) (fs : List (Fn V A)) (a : A) : List (String × List (String × List V)) :=
  fs.foldl (fun (r : List (String × List (String × List V))) (f : Fn V A) =>
    put (cap f.name) (apply1 checkOp methods cols f a) r) []

/-! ### Matrices -/

/-- `_imatrix_y_internal` for a list of functions (rt_dataset.py 2043-2055, 2079-2095): one column for each function, computed from
the rows of the matrix; with names, `zip` pairs functions and names. -/
def imatrixY (cap : String → String) (n : Nat) (matrix : List (String × List V)) (fs : List (String × (List V → V)))
    (names : Option (List String)) (cols : List (String × List V)) : List (String × List V) :=
  (match names with
    | some ns => (fs.zip ns).map fun (p : (String × (List V → V)) × String) => (p.2, p.1.2)
    | none => fs.map fun (p : String × (List V → V)) => (cap p.1, p.2)).foldl
    (fun (c : List (String × List V)) (p : String × (List V → V)) =>
      setCol p.1 ((List.range n).map fun (i : Nat) => p.2 (matrix.filterMap fun (m : String × List V) => m.2[i]?)) c) cols

/-- `add_matrix` (rt_dataset.py 5794-5888) for a matrix given by its columns (`arr.T`): assigned one after another with `setattr`;
the first exception ends it. -/
def addMatrix (ok : List V → Bool) (d : Ds V) : List (List V) → List String → Ds V × Option Err
  | c :: cs, n :: ns => match assign ok d n (.array c) with
    | (d', none) => addMatrix ok d' cs ns
    | (d', some e) => (d', some e)
  | _, _ => (d, none)

/-- `arange(n)` repeated by `tile(arng, k)`. -/
def tile (n : Nat) : Nat → List Nat
  | 0 => []
  | k + 1 => List.range n ++ tile n k

/-- `gbrows` (rt_dataset.py 6394-6459): the chosen columns one below another with the row number beside each cell; a group is what
`groupby("RowNum")` sees, the cells with the row number in order (contract of grouping). -/
def gbrows (n : Nat) (cols : List (String × List V)) (r : Nat) : List V :=
  ((cols.flatMap fun (c : String × List V) => c.2).zip (tile n cols.length)).filterMap
    fun (p : V × Nat) => if p.2 = r then some p.1 else none

end Verif.DsOps
