import Verif.Ufunc.Spec
import Verif.NpOps.Model
/-!
# Calculating with arrays: model

`/repo/riptable/rt_fastarray.py`: `__array_ufunc__` 4676-5215 for `np.add(a, b)` and the other functions of two arguments
(`gBinaryUFuncs`, `gBinaryLogicalUFuncs`, `rt_enum.py:287-325`), `logical_find_common_type` 265-353 (`NpOps.logicalCommon`), `_ASTYPE` 364-378,
the filtered reductions 149-245, `_kwarg_check` 2131-2134, `_reduce_check` 2137-2196, `_fa_filter_wrapper` 3145-3159, `_fa_keyword_wrapper`
3161-3188, `nansum` … `nanstd` 3190-3844.

Contracts of C++ (`riptide_cpp`, not in the repository): `_BASICMATH_TWO_INPUTS` on two arrays of a type calculates in that type; conversions
(`_AS_FA_TYPE`) keep a number that the type can hold (missing values become the missing value of the type). Contracts of numba: `prange` runs the
rows in chunks, in any order, and adds up what the chunks give; integers are added in 64 bits.

Not modelled: the operators `+`, `*`, … (they are taken over in C++, `rc.BasicMathHook`), strings, division, powers, bits, arrays with gaps between
the items, arrays of different lengths, rounding of float sums.
-/
namespace Verif.Ufunc
open Verif.NpOps

inductive Err where
  | valueError | zeroDivision
deriving DecidableEq, Repr

/-! ## functions of two arrays -/

/-- conversions: `cv s t q` is what the value `q` of the type `s` becomes in the type `t` -/
abbrev Conv := Ty → Ty → Rat → Rat

/-- `_ASTYPE(args[i], final_dtype)` unless it has the type already -/
def toTy (cv : Conv) (s t : Ty) (xs : List Rat) : List Rat := if s = t then xs else xs.map (cv s t)

/-- the type in which two arrays are calculated (`rt_fastarray.py:4924-4939`) -/
def finalTy (ta tb : Ty) : Ty := if ta = tb then ta else promote ta tb

/-- `np.add(a, b)`, … of two arrays (`rt_fastarray.py:4972-4989`, 5111); `fit t q` is what is stored for the result `q` in the type `t` -/
def npBinary (cv : Conv) (fit : Ty → Rat → Rat) (op : Op) (ta : Ty) (xs : List Rat) (tb : Ty) (ys : List Rat) : Ty × List Rat :=
  let t := finalTy ta tb
  (t, List.zipWith (fun (x y : Rat) => fit t (op.exact x y)) (toTy cv ta t xs) (toTy cv tb t ys))

/-- `np.less(a, b)`, … of two arrays -/
def npCompare (cv : Conv) (c : Cmp) (ta : Ty) (xs : List Rat) (tb : Ty) (ys : List Rat) : List Bool :=
  let t := finalTy ta tb
  List.zipWith (fun (x y : Rat) => c.truth x y) (toTy cv ta t xs) (toTy cv tb t ys)

/-- `np.less(a, k)`, … of an array of integers and a Python integer (`rt_fastarray.py:4909-4919`, 4992-5001); the integer is converted to the
type by C++ -/
def npCompareInt (cv : Conv) (pyTo : Ty → Int → Rat) (c : Cmp) (s : Bool) (w : Fin 4) (xs : List Rat) (k : Int) : List Bool :=
  let t := logicalCommon s w k
  (toTy cv (.int s w) t xs).map fun (x : Rat) => c.truth x (pyTo t k)

/-- `np.add(a, b, out=c)`, … (`rt_fastarray.py:4905-4907`, 4972-4989): arrays of different types are converted to the type of `c` before
calculating. Two arrays of the same type that is not that of `c` are left to C++ (`none`). -/
def npOut (cv : Conv) (fit : Ty → Rat → Rat) (op : Op) (ta : Ty) (xs : List Rat) (tb : Ty) (ys : List Rat) (tc : Ty) : Option (List Rat) :=
  if ta = tb then
    if ta = tc then some (List.zipWith (fun (x y : Rat) => fit tc (op.exact x y)) xs ys) else none
  else some (List.zipWith (fun (x y : Rat) => fit tc (op.exact x y)) (toTy cv ta tc xs) (toTy cv tb tc ys))

/-! ## filtered reductions -/

/-- addition of 64-bit integers -/
def wrap64 (z : Int) : Int := (z + 2 ^ 63) % 2 ^ 64 - 2 ^ 63

/-- the body of the loop of `_fnansumhelper` (`rt_fastarray.py:154-157`) and `_fsumhelper` (203-206): `skip` is `_isnan`, or never -/
def sumStep (skip : Int → Bool) (a : Int × Nat) (row : Int × Bool) : Int × Nat :=
  if row.2 && !skip row.1 then (wrap64 (a.1 + row.1), a.2 + 1) else a

/-- a chunk of rows -/
def chunkSum (skip : Int → Bool) (rows : List (Int × Bool)) : Int × Nat := rows.foldl (sumStep skip) (0, 0)

/-- the chunks are added up -/
def parSum (skip : Int → Bool) (chunks : List (List (Int × Bool))) : Int × Nat :=
  chunks.foldl (fun (a : Int × Nat) (c : List (Int × Bool)) => (wrap64 (a.1 + (chunkSum skip c).1), a.2 + (chunkSum skip c).2)) (0, 0)

/-- `_isnan` of an integer type (`rt_fastarray.py:127-147`) -/
def isnan (s : Bool) (w : Fin 4) (x : Int) : Bool := decide (x = missing s w)

/-- the argument `filter` -/
inductive Filter where
  | whole (b : Bool)
  | mask (m : List Bool)

/-- `_fa_filter_wrapper` (`rt_fastarray.py:3146-3151`): `True` and `False` stand for all rows, lengths are compared -/
def Filter.rows (f : Filter) (n : Nat) : Except Err (List Bool) :=
  match f with
  | .whole b => .ok (List.replicate n b)
  | .mask m => if m.length ≠ n then .error .valueError else .ok m

/-- `x.nansum(filter=f)` (`_fnansum`) of integers that are not uint64; `sched` cuts the rows into chunks -/
def nansumF (sched : List (Int × Bool) → List (List (Int × Bool))) (s : Bool) (w : Fin 4) (xs : List Int) (f : Filter) : Except Err Int := do
  let m ← f.rows xs.length
  pure (parSum (isnan s w) (sched (xs.zip m))).1

/-- the loop of `_fnansumhelper` for uint64: numba adds an int64 and a uint64 as float64; `rnd` is the rounding -/
def sumStepU (rnd : Rat → Rat) (a : Rat) (row : Int × Bool) : Rat := if row.2 && !isnan false 3 row.1 then rnd (a + rnd row.1) else a

/-- `x.nansum(filter=f)` of a uint64 array -/
def nansumU (rnd : Rat → Rat) (sched : List (Int × Bool) → List (List (Int × Bool))) (xs : List Int) (f : Filter) : Except Err Rat := do
  let m ← f.rows xs.length
  pure ((sched (xs.zip m)).foldl (fun (a : Rat) (c : List (Int × Bool)) => rnd (a + c.foldl (sumStepU rnd) 0)) 0)

/-- `tot / n` of Python integers -/
def quot (tot : Int) (n : Nat) : Except Err Rat := if n = 0 then .error .zeroDivision else .ok ((tot : Rat) / n)

/-- `x.nanmean(filter=f)` (`_fnanmean`) -/
def nanmeanF (sched : List (Int × Bool) → List (List (Int × Bool))) (s : Bool) (w : Fin 4) (xs : List Int) (f : Filter) : Except Err Rat := do
  let m ← f.rows xs.length
  let r := parSum (isnan s w) (sched (xs.zip m))
  quot r.1 r.2

/-- `x.mean(filter=f)` (`_fmean`) -/
def meanF (sched : List (Int × Bool) → List (List (Int × Bool))) (xs : List Int) (f : Filter) : Except Err Rat := do
  let m ← f.rows xs.length
  let r := parSum (fun _ => false) (sched (xs.zip m))
  quot r.1 r.2

/-- `ret += x[i]` of the rows that take part, in chunks, without rounding -/
def parAdd (g : Rat → Rat) (skip : Rat → Bool) (chunks : List (List (Rat × Bool))) : Rat × Nat :=
  chunks.foldl (fun (a : Rat × Nat) (c : List (Rat × Bool)) =>
    c.foldl (fun (b : Rat × Nat) (row : Rat × Bool) => if row.2 && !skip row.1 then (b.1 + g row.1, b.2 + 1) else b) a) (0, 0)

/-- `_fnanvar` and `_fvar` (`rt_fastarray.py:169-192`, 220-242); NaN is `none`. Rounding is not modelled; the two loops may be cut differently. -/
def varRows (skip : Rat → Bool) (chunks1 chunks2 : List (List (Rat × Bool))) : Except Err (Option Rat) :=
  let a := parAdd id skip chunks1
  if a.2 = 0 then .error .zeroDivision
  else
    let mean := a.1 / a.2
    let r := (parAdd (fun x => (x - mean) * (x - mean)) skip chunks2).1
    if 1 < a.2 then .ok (some (r / ((a.2 : Rat) - 1))) else .ok none

/-- `x.var(filter=f)` and `x.nanvar(filter=f)` -/
def varF (sched1 sched2 : List (Rat × Bool) → List (List (Rat × Bool))) (skip : Rat → Bool) (xs : List Rat) (f : Filter) : Except Err (Option Rat) := do
  let m ← f.rows xs.length
  varRows skip (sched1 (xs.zip m)) (sched2 (xs.zip m))

/-! ## reductions without filter -/

/-- `np.var`: numpy gives NaN (`none`) if `n ≤ ddof` -/
def npVar (ddof : Int) (l : List Rat) : Option Rat :=
  if (l.length : Int) - ddof ≤ 0 then none
  else some ((l.map fun x => (x - l.sum / l.length) * (x - l.sum / l.length)).sum / ((l.length : Rat) - ddof))

/-- `x.nanvar(ddof=…)` of integers (`rt_fastarray.py:3636-3641`, 2131-2155): with another `ddof` than 1 numpy is called, for which all integers
are numbers; otherwise C++, taken to leave out the missing values and to divide by n - 1 -/
def nanvarInt (s : Bool) (w : Fin 4) (ddof : Option Int) (xs : List Int) : Option Rat :=
  match ddof with
  | some d => if d ≠ 1 then npVar d (xs.map fun (x : Int) => (x : Rat)) else npVar 1 ((xs.filter fun (x : Int) => !isnan s w x).map fun (x : Int) => (x : Rat))
  | none => npVar 1 ((xs.filter fun (x : Int) => !isnan s w x).map fun (x : Int) => (x : Rat))

/-- results of a matrix -/
inductive Res where
  | one (z : Int)
  | vec (v : List Int)
deriving DecidableEq, Repr

/-- `np.nansum(m, axis=…)` of a matrix of integers with `cols` columns -/
def npSum2 (cols : Nat) (m : List (List Int)) (axis : Option Int) : Except Err Res :=
  match axis with
  | none => .ok (.one (m.map List.sum).sum)
  | some a =>
    if a = 0 ∨ a = -2 then .ok (.vec ((List.range cols).map fun (j : Nat) => (m.map fun (r : List Int) => r.getD j 0).sum))
    else if a = 1 ∨ a = -1 then .ok (.vec (m.map List.sum))
    else .error .valueError

/-- `m.nansum(axis=…)` of a matrix of integers (`rt_fastarray.py:3269-3274`, 3176-3177, 2141, 2152): `if axis:` -/
def nansum2 (cols : Nat) (m : List (List Int)) (axis : Option Int) : Except Err Res :=
  npSum2 cols m (match axis with | some a => if a ≠ 0 then some a else none | none => none)

end Verif.Ufunc
