import Verif.Basic
import Verif.Items.Model
import Verif.Reduce.Spec

/-!
# Model: reductions of a Dataset, its matrix, and transposing

Models `/repo/riptable/rt_dataset.py` lines 6463-6676 (`reduce` and the reductions made of it),
3388-3554 and 3795-3958 (`any`, `all`), 4476-4539 (`computable`, `_mask_reduce`), 1912-2160
(`imatrix_make`, `imatrix_y`, `imatrix_totals`), 5891-5949 (`transpose`), and
`/repo/riptable/rt_imatrix.py` lines 47-58.

Simplifications, for all definitions below:
* a column is a list with the answer of `iscomputable`, its kind (numbers; bytes or text; other,
  such as complex numbers), and its dtype; the reduction with its keyword arguments is a function
  `func` from lists to values; results of `axis=0` are kept as values (a Dataset makes columns of
  length 1 of them);
* `cast t v` is the value `v` converted to the dtype `t`, `common` the common dtype that `vstack`
  chooses; both are parameters (numpy);
* Categoricals among the columns of `any`, `all`, and `cats=True` are left out;
* names which are not valid column names are left out.
-/
namespace Verif.Reduce
open Verif.Items (Dict)

variable {V T : Type}

/-- Exceptions: `ValueError`, others. -/
inductive Err
  | value
  | type
deriving DecidableEq

/-- what `any` and `all` distinguish: `dtype.num <= 13`, `dtype.char in "US"`, the rest -/
inductive Kind
  | num
  | text
  | other
deriving DecidableEq

/-- A column. -/
structure Col (V T : Type) where
  kind : Kind
  comp : Bool
  dtype : T
  vals : List V
deriving DecidableEq

/-- A Dataset. -/
structure Ds (V T : Type) where
  cols : Dict String (Col V T)
  labels : List String
deriving DecidableEq

/-- `fill_value` for one column -/
inductive Fill (V : Type)
  | no
  | func (g : List V → V)
  | one (v : V)

/-- `fill_value` as passed -/
inductive FillArg (V : Type)
  | all (f : Fill V)
  | byName (d : Dict String (Fill V))

/-- lines 6516-6527 -/
def FillArg.at : FillArg V → String → Fill V
  | .all f, _ => f
  | .byName d, n => (d.get n).getD .no

/-- `fill_value is None` -/
def FillArg.isNone : FillArg V → Bool
  | .all .no => true
  | _ => false

/-- one column of `reduce(axis=0)` (6541-6550); `none` means it is left out -/
def reduceCol (func : List V → V) (fv : Fill V) (c : Col V T) : Option V :=
  if c.comp then some (func c.vals)
  else match fv with
    | .func g => some (g c.vals)
    | .one v => some v
    | .no => none

/-- `reduce(axis=0)` (6534-6551) -/
def reduce0 (func : List V → V) (fill : FillArg V) : Dict String (Col V T) → Dict String V
  | [] => []
  | (n, c) :: cs =>
    match reduceCol func (fill.at n) c with
    | some v => (n, v) :: reduce0 func fill cs
    | none => reduce0 func fill cs

/-- the columns `imatrix_make()` takes (1970-1990) -/
def chosen (d : Ds V T) : Dict String (Col V T) :=
  d.cols.filter fun e => e.2.comp && decide (e.1 ∉ d.labels)

/-- a column converted to a dtype -/
def castCol (cast : T → V → V) (t : T) (c : Col V T) : Col V T := { c with dtype := t, vals := c.vals.map (cast t) }

/-- `imatrix_make()` with `inplace=True` (1912-2008; IMatrix.rebuild, rt_imatrix.py 55-58): the
columns of the matrix, and the Dataset afterwards, whose columns are those of the matrix -/
def imatrixMake (common : List T → T) (cast : T → V → V) (d : Ds V T) : Except Err (List (List V) × Ds V T) :=
  if chosen d = [] then .error .value
  else
    let t := common ((chosen d).map fun e => e.2.dtype)
    .ok ((chosen d).map fun e => e.2.vals.map (cast t),
      { d with cols := d.cols.map fun e => (e.1, if e.2.comp && decide (e.1 ∉ d.labels) then castCol cast t e.2 else e.2) })

/-- number of rows -/
def nrows (d : Ds V T) : Nat := match d.cols with
  | [] => 0
  | e :: _ => e.2.vals.length

/-- the reduction along `axis=1` of a matrix given by its columns (numpy) -/
def byRows (func : List V → V) (n : Nat) (cols : List (List V)) : List V :=
  (List.range n).map fun i => func (cols.filterMap fun c => c[i]?)

/-- one entry of a row with fill values (6570-6578): a function is called with the entry -/
def rowEntry (fv : Fill V) (comp : Bool) (v : V) : Option V :=
  if comp then some v
  else match fv with
    | .func g => some (g [v])
    | .one x => some x
    | .no => none

/-- `reduce(axis=1)` (6553-6584): the result and the Dataset afterwards -/
def reduce1 (common : List T → T) (cast : T → V → V) (func : List V → V) (fill : FillArg V) (d : Ds V T) :
    Except Err (List V × Ds V T) :=
  if fill.isNone then
    match imatrixMake common cast d with
    | .error e => .error e
    | .ok (cols, d') => .ok (byRows func (nrows d) cols, d')
  else
    .ok ((List.range (nrows d)).map fun i =>
      func (d.cols.filterMap fun e => e.2.vals[i]?.bind (rowEntry (fill.at e.1) e.2.comp)), d)

/-- `reduce(axis=None)` (6586-6595); `funcPlain` is the reduction without the keyword arguments -/
def reduceAll (func funcPlain : List V → V) (fill : FillArg V) (d : Ds V T) : V :=
  if d.cols.any fun e => !e.2.comp then funcPlain ((reduce0 func fill d.cols).map Prod.snd)
  else func (d.cols.map fun e => e.2.vals).flatten

/-! ## any and all -/

/-- `any(axis=0)` (3525-3534) -/
def any0 (t : V → Bool) (d : Ds V T) : Dict String Bool := d.cols.map fun e => (e.1, e.2.vals.any t)

/-- `any(axis=None)` (3535-3536) -/
def anyAll (t : V → Bool) (d : Ds V T) : Bool := d.cols.any fun e => e.2.vals.any t

/-- the loop of `any(axis=1)` (3537-3553) -/
def anyLoop (t : V → Bool) : List (Col V T) → List Bool → List Bool
  | [], acc => acc
  | c :: cs, acc => anyLoop t cs (if c.kind = .other then acc else List.zipWith (fun a v => a || t v) acc c.vals)

/-- `any(axis=1)` -/
def any1 (t : V → Bool) (d : Ds V T) : List Bool := anyLoop t (d.cols.map Prod.snd) (List.replicate (nrows d) false)

/-- `all(axis=0)` (3929-3938) -/
def all0 (t : V → Bool) (d : Ds V T) : Dict String Bool := d.cols.map fun e => (e.1, e.2.vals.all t)

/-- `all(axis=None)` (3939-3940) -/
def allAll (t : V → Bool) (d : Ds V T) : Bool := d.cols.all fun e => e.2.vals.all t

/-- the loop of `all(axis=1)` (3941-3957) -/
def allLoop (t : V → Bool) : List (Col V T) → List Bool → List Bool
  | [], acc => acc
  | c :: cs, acc => allLoop t cs (if c.kind = .other then acc else List.zipWith (fun a v => a && t v) acc c.vals)

/-- `all(axis=1)` -/
def all1 (t : V → Bool) (d : Ds V T) : List Bool := allLoop t (d.cols.map Prod.snd) (List.replicate (nrows d) true)

/-- the loop of `_mask_reduce` (4530-4538) -/
def maskLoop (t : V → Bool) (isOr : Bool) : List (Col V T) → Option (List Bool) → Option (List Bool)
  | [], acc => acc
  | c :: cs, none => maskLoop t isOr cs (some (c.vals.map t))
  | c :: cs, some m => maskLoop t isOr cs (some (List.zipWith (fun a b => if isOr then a || b else a && b) m (c.vals.map t)))

/-- `_mask_reduce` (4519-4539), as in `mask_or_isnan`, `mask_and_isfinite`, … -/
def maskReduce (t : V → Bool) (isOr : Bool) (d : Ds V T) : Option (List Bool) :=
  maskLoop t isOr ((chosen d).map Prod.snd) none

/-! ## The matrix kept for totals -/

/-- a Dataset with the matrix it keeps, as list of columns (1998); columns may be replaced while
the matrix stays -/
structure Kept (V : Type) where
  cols : Dict String (List V)
  matrix : Option (List (List V))
deriving DecidableEq

/-- what one can do: assign a column, ask for a total by row -/
inductive Op (V : Type)
  | assign (n : String) (xs : List V)
  | total (n : String)

/-- `ds[n] = xs`, and `imatrix_y(func, name=n)` (2012-2102) for a Dataset of numbers without
labels -/
def step (func : List V → V) (rows : Nat) (s : Kept V) : Op V → Kept V
  | .assign n xs => { s with cols := s.cols.set n xs }
  | .total n =>
    let m := s.matrix.getD (s.cols.map Prod.snd)
    { cols := s.cols.set n (byRows func rows m), matrix := some m }

/-! ## Transposing -/

/-- the names of the new columns (5934-5941): `C0`, `C1`, … without labels, else the texts of the
labels joined by `_`; `text v` is the text of a value -/
def newNames (text : V → String) (d : Ds V T) : List String :=
  match d.labels with
  | [] => (List.range (nrows d)).map fun (i : Nat) => "C" ++ toString i
  | l :: ls => ls.foldl (fun acc n => List.zipWith (fun a v => a ++ "_" ++ text v) acc ((d.cols.get n).elim [] fun c => c.vals))
      (((d.cols.get l).elim [] fun c => c.vals).map text)

/-- the loop (5944-5945) -/
def addAll (t : T) : List (String × List V) → Dict String (Col V T) → Dict String (Col V T)
  | [], acc => acc
  | (n, xs) :: es, acc => addAll t es (acc.set n ⟨.num, true, t, xs⟩)

/-- `transpose()` (5891-5949): `ofText` makes an entry of a text, `textType` is the dtype of texts -/
def transpose (common : List T → T) (cast : T → V → V) (text : V → String) (ofText : String → V) (textType : T)
    (header : String) (d : Ds V T) : Except Err (Ds V T) :=
  match imatrixMake common cast d with
  | .error e => .error e
  | .ok (m, _) =>
    let rows := (List.range (nrows d)).map fun i => m.filterMap fun c => c[i]?
    .ok { cols := addAll (common ((chosen d).map fun e => e.2.dtype)) ((newNames text d).zip rows)
            [(header, ⟨.text, false, textType, (chosen d).keys.map ofText⟩)]
          labels := [header] }

end Verif.Reduce
