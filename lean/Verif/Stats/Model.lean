import Mathlib.Algebra.BigOperators.Fin
import Mathlib.Algebra.Order.Field.Rat
import Mathlib.Algebra.Order.AbsoluteValue.Basic
import Mathlib.Data.Rat.Floor
/-!
# Model of `rt_stats.py` (`:40-151`): statx, winsorize, r2, mae, class_error, lm

Numbers are rational and exact; `none` is NaN. `np.linalg.solve` is a parameter. A fraction with the denominator 0 is NaN (`none`) whatever the numerator
(numpy gives an infinity for some). Not modelled: percentiles and the standard deviation of statx, RMSE, MAE and t statistics that `lm` prints, plots.
-/
namespace Verif.Stats

/-- `np.mean` without NaN; `none` for no elements -/
def mean (l : List ℚ) : Option ℚ := if l.length = 0 then none else some (l.sum / l.length)

def meanOf (l : List ℚ) : ℚ := l.sum / l.length

/-- `np.var` -/
def varOf (l : List ℚ) : ℚ := meanOf (l.map fun x => (x - meanOf l) * (x - meanOf l))

/-- `winsorize` (`:83-85`): `np.maximum(np.minimum(Y, ub), lb)` -/
def winsorize (y : List (Option ℚ)) (lb ub : ℚ) : List (Option ℚ) :=
  (y.map fun v => v.map fun x => min x ub).map fun v => v.map fun x => max x lb

/-- `r2` (`:93-101`) for columns of the same length without NaN -/
def r2 (l : List (ℚ × ℚ)) : Option ℚ :=
  let xmean := meanOf (l.map Prod.fst)
  let ymean := meanOf (l.map Prod.snd)
  let xycov := meanOf (l.map fun p => (p.1 - xmean) * (p.2 - ymean))
  let xvar := varOf (l.map Prod.fst)
  let yvar := varOf (l.map Prod.snd)
  if xvar * yvar = 0 then none else some (xycov * xycov / (xvar * yvar))

/-- `X - Y` in one row -/
def sub? : Option ℚ × Option ℚ → Option ℚ
  | (some x, some y) => some (x - y)
  | _ => none

/-- `mae` (`:104-105`): `np.nanmean(np.abs(X - Y))` -/
def mae (l : List (Option ℚ × Option ℚ)) : Option ℚ :=
  mean ((l.filterMap sub?).map fun d => |d|)

/-- `np.round`: to the nearest integer, halves to the even one -/
def roundEven (x : ℚ) : ℤ :=
  if x - ⌊x⌋ < 1 / 2 then ⌊x⌋
  else if 1 / 2 < x - ⌊x⌋ then ⌊x⌋ + 1
  else if ⌊x⌋ % 2 = 0 then ⌊x⌋ else ⌊x⌋ + 1

/-- `class_error` (`:108-112`) without NaN -/
def classError (l : List (ℚ × ℚ)) : Option ℚ :=
  mean (l.map fun p => |(roundEven p.1 : ℚ) - roundEven p.2|)

/-- one observation of `p` features and the value to explain -/
structure Obs (p : Nat) where
  x : Fin p → ℚ
  y : ℚ

/-- the same, with NaN -/
structure Raw (p : Nat) where
  x : Fin p → Option ℚ
  y : Option ℚ

/-- `np.hstack([np.ones(...), X0])` (`:122-123`) -/
def addOnes {p : Nat} (r : Raw p) : Raw (p + 1) := ⟨Fin.cons (some 1) r.x, r.y⟩

/-- `goodData` (`:126`): the sum of a row is NaN if one of its elements is -/
def Raw.good {p : Nat} (r : Raw p) : Bool := decide (∀ i, (r.x i).isSome) && r.y.isSome

/-- the numbers of a row without NaN -/
def Raw.obs {p : Nat} (r : Raw p) : Obs p := ⟨fun i => (r.x i).getD 0, r.y.getD 0⟩

/-- `VXX` (`:129`) -/
def vxx {p : Nat} (l : List (Obs p)) : Fin p → Fin p → ℚ := fun i j => (l.map fun o => o.x i * o.x j).sum

/-- `VXY` (`:130`) -/
def vxy {p : Nat} (l : List (Obs p)) : Fin p → ℚ := fun i => (l.map fun o => o.x i * o.y).sum

/-- `lm` with `removeNaN=True` (`:115-131`) after the column of ones; `none` is LinAlgError -/
def lmCore {p : Nat} (solve : (Fin p → Fin p → ℚ) → (Fin p → ℚ) → Option (Fin p → ℚ)) (l : List (Raw p)) : Option (Fin p → ℚ) :=
  let good := (l.filter Raw.good).map Raw.obs
  solve (vxx good) (vxy good)

/-- `lm(X, Y, intercept=False)` -/
def lmPlain {p : Nat} (solve : (Fin p → Fin p → ℚ) → (Fin p → ℚ) → Option (Fin p → ℚ)) (l : List (Raw p)) : Option (Fin p → ℚ) :=
  lmCore solve l

/-- `lm(X, Y)`; the first coefficient is the intercept -/
def lm {p : Nat} (solve : (Fin (p + 1) → Fin (p + 1) → ℚ) → (Fin (p + 1) → ℚ) → Option (Fin (p + 1) → ℚ)) (l : List (Raw p)) :
    Option (Fin (p + 1) → ℚ) := lmCore solve (l.map addOnes)

/-- `R2` as printed (`:141-142`) from the pairs of fitted and true values: `R = mean(YHat * Y0) / (std(YHat) * std(Y0))`, squared -/
def printedR2 (l : List (ℚ × ℚ)) : Option ℚ :=
  let num := meanOf (l.map fun p => p.1 * p.2)
  let den := varOf (l.map Prod.fst) * varOf (l.map Prod.snd)
  if den = 0 then none else some (num * num / den)

/-- an element of the array given to statx -/
inductive V where
  | num (q : ℚ)
  | nan
  | inf (neg : Bool)
deriving DecidableEq

/-- `np.isfinite` -/
def V.finite : V → Bool
  | .num _ => true
  | _ => false

/-- `np.isnan` -/
def V.isNan : V → Bool
  | .nan => true
  | _ => false

/-- what statx returns (`:61-79`): least, largest and mean of `X_sub`, Count and NaN_Count -/
structure Statx where
  min : Option ℚ
  max : Option ℚ
  mean : Option ℚ
  count : Nat
  nanCount : Nat
deriving DecidableEq

/-- `X[filt]` (`:61-62`) -/
def V.val? : V → Option ℚ
  | .num q => some q
  | _ => none

def least : List ℚ → Option ℚ
  | [] => none
  | a :: l => some (l.foldl (fun m x => if x < m then x else m) a)

def largest : List ℚ → Option ℚ
  | [] => none
  | a :: l => some (l.foldl (fun m x => if m < x then x else m) a)

/-- `statx` (`:40-79`) -/
def statx (x : List V) : Statx :=
  let sub := (x.filter V.finite).filterMap V.val?
  if sub.length > 0 then ⟨least sub, largest sub, mean sub, x.length, (x.filter V.isNan).length⟩
  else ⟨none, none, none, x.length, (x.filter V.isNan).length⟩

end Verif.Stats
