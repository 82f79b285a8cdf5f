import Mathlib.Order.Defs.LinearOrder
/-!
# Model of cummin / cummax

`riptable/rt_fastarraynumba.py:331-502`.  The four kernels differ in the test
for invalid values (`== inv` for integers, `x != x` for floats) and in the
comparison (`<` for min, `>` for max); both are parameters of one function.
-/
namespace Verif.Cum

/-- First loop of the `skipna` branch (`rt_fastarraynumba.py:334-338`, `:358-362`,
`:382-386`, `:406-410`): copy until the first valid value and remember the
loop variable `j` and the running value.  `none` = the loop body never ran. -/
def loop1 {α : Type} (isInv : α → Bool) (arr : List α) :
    List Nat → Option (Nat × α) → List α → Option (Nat × α) × List α
  | [], cur, ret => (cur, ret)
  | j :: js, cur, ret =>
    match arr[j]? with
    | none => (cur, ret)
    | some x =>
      if isInv x then loop1 isInv arr js (some (j, x)) (ret.set j x)
      else (some (j, x), ret.set j x)

/-- Body of the second loop (`rt_fastarraynumba.py:340-344`, `:364-368`,
`:388-392`, `:412-416`). -/
def body2 {α : Type} (isInv : α → Bool) (better : α → α → Bool) (arr : List α)
    (s : α × List α) (i : Nat) : α × List α :=
  match arr[i]? with
  | none => s
  | some val =>
    let running := if !isInv val && better val s.1 then val else s.1
    (running, s.2.set i running)

/-- Body of the `skipna=False` loop (`rt_fastarraynumba.py:347-351`, `:371-375`,
`:395-399`, `:419-423`). -/
def body3 {α : Type} (isInv : α → Bool) (better : α → α → Bool) (arr : List α)
    (s : α × List α) (i : Nat) : α × List α :=
  match arr[i]? with
  | none => s
  | some val =>
    let running := if isInv val || better val s.1 then val else s.1
    (running, s.2.set i running)

/-- The whole kernel; `ret0` is the uninitialised output buffer (`empty_like`),
`rt_fastarraynumba.py:331-423` together with the wrappers' `len(arr) > 0` guard
(`:454-466`, `:490-502`). -/
def kernel {α : Type} (isInv : α → Bool) (better : α → α → Bool) (skipna : Bool)
    (ret0 arr : List α) : List α :=
  match arr with
  | [] => ret0
  | a0 :: _ =>
    if skipna then
      match loop1 isInv arr (List.range arr.length) none ret0 with
      | (none, ret) => ret
      | (some (j, running), ret) =>
        ((List.range' j (arr.length - j)).foldl (body2 isInv better arr) (running, ret)).2
    else
      ((List.range arr.length).foldl (body3 isInv better arr) (a0, ret0)).2

/-- Integer `cummin` with sentinel `inv`: `rt_fastarraynumba.py:331-351,469-502`. -/
def cumminInt (inv : Int) (skipna : Bool) (ret0 arr : List Int) : List Int :=
  kernel (fun x => x == inv) (fun v r => decide (v < r)) skipna ret0 arr

/-- Integer `cummax` with sentinel `inv`: `rt_fastarraynumba.py:379-399,426-466`. -/
def cummaxInt (inv : Int) (skipna : Bool) (ret0 arr : List Int) : List Int :=
  kernel (fun x => x == inv) (fun v r => decide (v > r)) skipna ret0 arr

/-- IEEE comparison: anything compared with NaN (`none`) is false. -/
def fltLt {α : Type} [LinearOrder α] : Option α → Option α → Bool
  | some a, some b => decide (a < b)
  | _, _ => false

/-- Float `cummin`, NaN is `none`: `rt_fastarraynumba.py:355-375,469-502`. -/
def cumminFloat {α : Type} [LinearOrder α] (skipna : Bool) (ret0 arr : List (Option α)) :
    List (Option α) :=
  kernel Option.isNone (fun v r => fltLt v r) skipna ret0 arr

/-- Float `cummax`: `rt_fastarraynumba.py:403-423,426-466`. -/
def cummaxFloat {α : Type} [LinearOrder α] (skipna : Bool) (ret0 arr : List (Option α)) :
    List (Option α) :=
  kernel Option.isNone (fun v r => fltLt r v) skipna ret0 arr

end Verif.Cum
