/-!
# Columns, rows, functions and matrices of a Dataset: what is meant

Independent of the model of the code.
-/

namespace Verif.DsOps

/-- What a user assigns to a column: an array, a list (or tuple) of values, a single value, or a set. -/
inductive Value (V : Type) where
  | array (xs : List V)
  | seq (xs : List V)
  | scalar (x : V)
  | set
  deriving Repr, DecidableEq

/-- The column meant by a value in a Dataset of `n` rows: `n` values are these rows, one value fills all rows, nothing
else has a meaning. -/
def meant {V : Type} (n : Nat) : Value V → Option (List V)
  | .set => none
  | .scalar x => some (List.replicate n x)
  | .array xs => if xs.length = n then some xs else match xs with
    | [x] => some (List.replicate n x)
    | _ => none
  | .seq xs => if xs.length = n then some xs else match xs with
    | [x] => some (List.replicate n x)
    | _ => none

/-- A table with one column put in: at its place if the name is there, else at the end. -/
def put {C : Type} (name : String) (c : C) : List (String × C) → List (String × C)
  | [] => [(name, c)]
  | e :: es => if e.1 = name then (name, c) :: es else e :: put name c es

/-- Row `i` of columns: the `i`-th value of every column. -/
def row {V : Type} (cols : List (String × List V)) (i : Nat) : List V :=
  cols.filterMap fun (c : String × List V) => c.2[i]?

/-- A Python object in an object array: text, whole number, bool, finite float (in units of 1/1000, enough to tell
fractions apart), NaN, `None`. -/
inductive Obj where
  | str (s : String)
  | int (i : Int)
  | bool (b : Bool)
  | float (thousandths : Int)
  | nan
  | none
  deriving Repr, DecidableEq

/-- A cell of the column. -/
inductive Cell where
  | text (s : String)
  | int (i : Int)
  | bool (b : Bool)
  | float (thousandths : Int)
  | nan
  deriving Repr, DecidableEq

/-- The cell has the value of the object (`1` and `1.0` and `True` are equal in Python). -/
def Same : Obj → Cell → Prop
  | .str s, .text t => s = t
  | .int i, .int j => i = j
  | .int i, .float t => t = 1000 * i
  | .bool b, .bool c => b = c
  | .bool b, .int j => j = if b then 1 else 0
  | .bool b, .float t => t = if b then 1000 else 0
  | .float t, .float u => t = u
  | .float t, .int j => t = 1000 * j
  | .nan, .nan => True
  | _, _ => False

instance (o : Obj) (c : Cell) : Decidable (Same o c) := by
  cases o <;> cases c <;> simp only [Same] <;> infer_instance

end Verif.DsOps
