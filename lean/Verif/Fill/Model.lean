/-!
# Model of the fill and running-extremum kernels

Models `riptable/rt_fastarraynumba.py`.  Arrays are lists; element types are
abstract.  The float kernels test `np.isnan(x)`, the integer kernels test
`x == inv`; both tests are a Boolean predicate here.
-/
namespace Verif.Fill

/-- Loop state of a fill kernel: the array being rewritten in place, the last
good value and the remaining fill budget. -/
structure FillState (α : Type) where
  arr : List α
  lastgood : α
  counter : Int

/-- Body of the unlimited loop.
`rt_fastarraynumba.py:24-30` (`fill_forward_float`, `limit <= 0`),
`:48-53` (`fill_forward_int`), `:72-78`, `:96-101` (backward versions have the
same body, only the index order differs).
An index outside the array cannot occur in the Python loop; the `none` branch
leaves the state alone. -/
def bodyUnlimited {α : Type} (isInv : α → Bool) (s : FillState α) (idx : Nat) : FillState α :=
  match s.arr[idx]? with
  | none => s
  | some x =>
    if isInv x then { s with arr := s.arr.set idx s.lastgood }
    else { s with lastgood := x }

/-- Body of the limited loop.
`rt_fastarraynumba.py:33-41`, `:55-65`, `:81-89`, `:103-113`. -/
def bodyLimited {α : Type} (isInv : α → Bool) (limit : Int) (s : FillState α) (idx : Nat) :
    FillState α :=
  match s.arr[idx]? with
  | none => s
  | some x =>
    if isInv x then
      if s.counter > 0 then
        { s with arr := s.arr.set idx s.lastgood, counter := s.counter - 1 }
      else s
    else { s with lastgood := x, counter := limit }

/-- The kernel on a given index order.  `rt_fastarraynumba.py:22-113`: the four
kernels are this function with ascending or descending indices and with
`isnan` or `== inv` as the test. -/
def fillKernel {α : Type} (isInv : α → Bool) (fillVal : α) (limit : Int)
    (order : List Nat) (arr : List α) : List α :=
  if limit ≤ 0 then
    (order.foldl (bodyUnlimited isInv) ⟨arr, fillVal, 0⟩).arr
  else
    (order.foldl (bodyLimited isInv limit) ⟨arr, fillVal, limit⟩).arr

/-- `for idx in range(arr.shape[0])`: `rt_fastarraynumba.py:22-65`. -/
def fillForwardKernel {α : Type} (isInv : α → Bool) (fillVal : α) (limit : Int)
    (arr : List α) : List α :=
  fillKernel isInv fillVal limit (List.range arr.length) arr

/-- `for idx in range(arr.shape[0] - 1, -1, -1)`: `rt_fastarraynumba.py:70-113`. -/
def fillBackwardKernel {α : Type} (isInv : α → Bool) (fillVal : α) (limit : Int)
    (arr : List α) : List α :=
  fillKernel isInv fillVal limit (List.range arr.length).reverse arr

/-- What `_check_fill_values` and the wrappers need to know about a dtype: is it
numeric (`dtype.num` in 1..13), how is an invalid recognised, and which value is
written as the invalid (`INVALID_DICT`). -/
structure ElemKind (α : Type) where
  supported : Bool
  isInv : α → Bool
  inv : α

/-- Integer dtype with sentinel invalid: `rt_fastarraynumba.py:230-232`. -/
def intKind (inv : Int) : ElemKind Int := ⟨true, fun x => x == inv, inv⟩

/-- Float dtype; NaN is `none`: `rt_fastarraynumba.py:233-235`. -/
def floatKind {α : Type} : ElemKind (Option α) := ⟨true, Option.isNone, none⟩

/-- Exceptions raised by `_check_fill_values`. -/
inductive FillError where
  | unsupportedType
  | negativeLimit
deriving DecidableEq, Repr

/-- `_check_fill_values`, `rt_fastarraynumba.py:117-145`: returns the effective
fill value and limit.  (The conversion of `fill_val` to the dtype is not
modelled: the caller passes a value of the element type.) -/
def checkFillValues {α : Type} (k : ElemKind α) (fillVal : Option α) (limit : Option Int) :
    Except FillError (α × Int) :=
  if !k.supported then .error .unsupportedType
  else
    let limit := limit.getD 0
    if limit < 0 then .error .negativeLimit
    else .ok (fillVal.getD k.inv, limit)

/-- `fill_forward`, `rt_fastarraynumba.py:149-237`.  Result and the contents of
the caller's array afterwards (`inplace` rewrites it, otherwise a copy is used). -/
def fillForward {α : Type} (k : ElemKind α) (arr : List α) (fillVal : Option α)
    (inplace : Bool) (limit : Option Int) : Except FillError (List α × List α) :=
  match checkFillValues k fillVal limit with
  | .error e => .error e
  | .ok (fv, lim) =>
    let out := fillForwardKernel k.isInv fv lim arr
    .ok (out, if inplace then out else arr)

/-- `fill_backward`, `rt_fastarraynumba.py:241-327`. -/
def fillBackward {α : Type} (k : ElemKind α) (arr : List α) (fillVal : Option α)
    (inplace : Bool) (limit : Option Int) : Except FillError (List α × List α) :=
  match checkFillValues k fillVal limit with
  | .error e => .error e
  | .ok (fv, lim) =>
    let out := fillBackwardKernel k.isInv fv lim arr
    .ok (out, if inplace then out else arr)

end Verif.Fill
