import Verif.Items.Model
import Verif.Equal.Spec

/-!
# Model of `Dataset.equals` and `Dataset.__eq__`

`riptable/rt_dataset.py:8147-8288`, `1472-1510`, `2320-2480` (`apply_cols`), `2512-2559`
(`_operate_iter_input_cols`), `rt_numpy.py:4729-4788` (`vstack`).

Parameters: `eq`, the element comparison done by the compiled library, and `nan`, the NaN test
(false for strings and for types that are not computable, `rt_dataset.py:8228-8235`, `8271`).
Left out: footers; column names that are also attributes of the class (`hasattr`, `:1493`);
`other` not a Dataset; `labels=False` unless both Datasets have the same labels, when it is
the comparison without these columns.
-/
namespace Verif.Equal
open Verif.Items (Dict)

/-- a Dataset: columns, rows, label names and summary names -/
structure Ds (C : Type) where
  cols : Dict String (List C)
  nrows : Nat
  labels : List String := []
  summary : List String := []
  deriving DecidableEq, Repr

variable {C : Type}

/-- `:1489-1501`: one column of the comparison -/
def compareCol (eq : C → C → Bool) (n : Nat) (v : List C) : Option (List C) → List Bool
  | some w => List.zipWith eq v w
  | none => List.replicate n false

/-- `_dataset_compare_check("__eq__", …)`, `:1472-1510`: the columns of the left, then those of
the right alone; `none` for the `ValueError` on different lengths -/
def compare (eq : C → C → Bool) (a b : Ds C) : Option (Dict String (List Bool)) :=
  if a.nrows ≠ b.nrows then none
  else some ((a.cols.map fun e => (e.1, compareCol eq a.nrows e.2 (b.cols.get e.1)))
    ++ (b.cols.filter fun e => !a.cols.has e.1).map fun e => (e.1, List.replicate a.nrows false))

/-- `col_rename(old, new)` for an existing `old`: `none` when `new` is another column -/
def rename (d : Dict String (List Bool)) (old new : String) : Option (Dict String (List Bool)) :=
  if old = new then some d
  else if d.has new then none
  else some (d.map fun e => (if e.1 = old then new else e.1, e.2))

/-- `:2462-2466`: summary columns are renamed `Summary0`, `Summary1`, … -/
def renames (d : Dict String (List Bool)) (summary : List String) :
    Option (Dict String (List Bool)) :=
  summary.zipIdx.foldlM (fun d s => rename d s.1 ("Summary" ++ toString s.2)) d

/-- `apply_cols(isnan, fill_value=fill_false, labels=True)`, `:2437-2480` -/
def nanTable (nan : C → Bool) (d : Ds C) : Option (Dict String (List Bool)) :=
  renames (d.cols.map fun e => (e.1, e.2.map nan)) d.summary

/-- `:2534-2541`: one column of `left & right` -/
def andCol (labels : List String) (right : Dict String (List Bool)) (k : String) (v : List Bool) :
    List Bool :=
  if k ∈ labels then v
  else match right.get k with
    | some w => List.zipWith and v w
    | none => v

/-- `left & right`, `_operate_iter_input_cols` `:2512-2559`: columns of the left; label columns
and columns the right does not have are those of the left.  (When both have summary columns in
the same places they have the same names by now, so pairing them by place or by name is the
same.) -/
def andTable (labels : List String) (left right : Dict String (List Bool)) :
    Dict String (List Bool) :=
  left.map fun e => (e.1, andCol labels right e.1 e.2)

/-- `:8274-8276` -/
def nanResult (a b : Ds C) (na nb : Dict String (List Bool)) : Dict String (List Bool) :=
  if a.cols.length > b.cols.length then andTable a.labels na nb else andTable b.labels nb na

/-- `:8277-8279`; `none` when `nan_result[colname]` raises -/
def orResult (nr cr : Dict String (List Bool)) : Option (Dict String (List Bool)) :=
  cr.mapM fun e => (nr.get e.1).map fun v => (e.1, List.zipWith or v e.2)

/-- the table computed for datasets with rows; `none` for `except: result = False` -/
def equalsTable (eq : C → C → Bool) (nan : C → Bool) (a b : Ds C) :
    Option (Dict String (List Bool)) :=
  (compare eq a b).bind fun cr => (nanTable nan a).bind fun na => (nanTable nan b).bind fun nb =>
    orResult (nanResult a b na nb) cr

/-- `set(self.keys()) == set(other.keys())` -/
def sameNames (a b : Ds C) : Bool :=
  a.cols.keys.all (fun k => b.cols.has k) && b.cols.keys.all fun k => a.cols.has k

/-- `result.all(axis=None)` -/
def allTrue : Option (Dict String (List Bool)) → Bool
  | none => false
  | some r => r.all fun e => e.2.all id

/-- `equals(other)`, `:8257-8288`, for `axis=None`, `exact=False` -/
def equals (eq : C → C → Bool) (nan : C → Bool) (a b : Ds C) : Bool :=
  if a.nrows ≠ b.nrows then false
  else if a.nrows = 0 then sameNames a b
  else allTrue (equalsTable eq nan a b)

/-! ## `exact=True` -/

/-- a two-dimensional array of booleans -/
structure Mat where
  r : Nat
  c : Nat
  at' : Nat → Nat → Bool

/-- `vstack(cols, order="F")` on columns of equal length; `none` for no columns, which
`np.vstack` refuses, and for different lengths -/
def vstackF : List (List Bool) → Option Mat
  | [] => none
  | v :: vs =>
    if vs.all (fun w => w.length = v.length) then
      some ⟨v.length, (v :: vs).length, fun i j => (((v :: vs)[j]?).bind fun w => w[i]?).getD false⟩
    else none

/-- `m op= x`: `x` is broadcast to the shape of `m`, otherwise an exception -/
def inplace (op : Bool → Bool → Bool) (m x : Mat) : Option Mat :=
  if (x.r = m.r ∨ x.r = 1) ∧ (x.c = m.c ∨ x.c = 1) then
    some ⟨m.r, m.c, fun i j => op (m.at' i j)
      (x.at' (if x.r = m.r then i else 0) (if x.c = m.c then j else 0))⟩
  else none

/-- `v1 == v2` on arrays, with broadcasting -/
def vecEq (eq : C → C → Bool) (v w : List C) : Option (List Bool) :=
  if v.length = w.length then some (List.zipWith eq v w)
  else match v, w with
    | v, [y] => some (v.map fun x => eq x y)
    | [x], w => some (w.map fun y => eq x y)
    | _, _ => none

/-- `ds_isnan`, `:8223-8236` -/
def isnanMat (nan : C → Bool) (d : Ds C) : Option Mat := vstackF (d.cols.map fun e => e.2.map nan)

/-- `:8246-8247` -/
def eqMat (eq : C → C → Bool) (a b : Ds C) : Option Mat :=
  ((a.cols.zip b.cols).mapM fun p => vecEq eq p.1.2 p.2.2).bind vstackF

/-- `:8239-8253`; `none` for the exception -/
def exactTable (eq : C → C → Bool) (nan : C → Bool) (a b : Ds C) : Option Mat :=
  (isnanMat nan a).bind fun ma => (isnanMat nan b).bind fun mb =>
    (inplace and ma mb).bind fun m => (eqMat eq a b).bind fun e => inplace or m e

/-- `np.all(result)` -/
def matAll : Option Mat → Bool
  | none => false
  | some m => (List.range m.r).all fun i => (List.range m.c).all fun j => m.at' i j

/-- `equals(other, exact=True)`, `:8238-8255`, for `axis=None` -/
def equalsExact (eq : C → C → Bool) (nan : C → Bool) (a b : Ds C) : Bool :=
  matAll (exactTable eq nan a b)

end Verif.Equal
