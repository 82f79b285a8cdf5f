import Mathlib.Algebra.Order.Ring.Defs
/-!
# Model of `ema_decay` (`rt_fastarraynumba.py:506-691`)

Numbers are float values without rounding: `F R` has the finite numbers of an ordered ring `R`, the two infinities and NaN. The
weight `np.exp(-decayRate * (a - b))` of a time `b` seen from a time `a` is a parameter `E a b : F R`: it is infinite where the
exponential overflows and NaN where a time is. Rounding, and overflow of sums and products, are not modelled; nor is the conversion
of the result to `dtype`. Integer columns are read as numbers, their invalid marker included (the loops only test for NaN).
-/
namespace Verif.Ema

/-- A float: a finite number, an infinity (`true` = negative) or NaN. -/
inductive F (R : Type) where
  | fin (x : R)
  | inf (neg : Bool)
  | nan
deriving DecidableEq, Repr

section
variable {R T : Type} [CommRing R] [LinearOrder R]

/-- IEEE addition without rounding. -/
def F.add : F R → F R → F R
  | .fin x, .fin y => .fin (x + y)
  | .fin _, .inf s => .inf s
  | .inf s, .fin _ => .inf s
  | .inf s, .inf t => if s = t then .inf s else .nan
  | _, _ => .nan

/-- An infinity times a finite number: `0 * inf` is NaN. -/
def F.mulInf (x : R) (s : Bool) : F R :=
  if x = 0 then .nan else .inf (xor s (decide (x < 0)))

/-- IEEE multiplication without rounding. -/
def F.mul : F R → F R → F R
  | .fin x, .fin y => .fin (x * y)
  | .fin x, .inf s => F.mulInf x s
  | .inf s, .fin y => F.mulInf y s
  | .inf s, .inf t => .inf (xor s t)
  | _, _ => .nan

/-- `value != value` (`rt_fastarraynumba.py:552`). -/
def F.isNan : F R → Bool
  | .nan => true
  | _ => false

/-- `value + lastEma * np.exp(-decayRate * (time[i] - lastTime))` (`rt_fastarraynumba.py:521`, `:539`, `:555`). -/
def next (E : T → T → F R) (value lastEma : F R) (t lastTime : T) : F R :=
  F.add value (F.mul lastEma (E t lastTime))

/-- The loop of `nb_ema_decay` (`rt_fastarraynumba.py:545-557`) from given registers `lastEma`, `lastTime`. -/
def plainLoop (E : T → T → F R) : F R → T → List (F R) → List T → List (F R)
  | lastEma, lastTime, x :: xs, t :: ts =>
    let value := if x.isNan then F.fin 0 else x
    let ema := next E value lastEma t lastTime
    ema :: plainLoop E ema t xs ts
  | _, _, _, _ => []

/-- The loop of `nb_ema_decay_with_filter` (`rt_fastarraynumba.py:528-541`). -/
def filterLoop (E : T → T → F R) : F R → T → List (F R) → List T → List Bool → List (F R)
  | lastEma, lastTime, x :: xs, t :: ts, f :: fs =>
    let value := if f then x else F.fin 0
    let ema := next E value lastEma t lastTime
    ema :: filterLoop E ema t xs ts fs
  | _, _, _, _, _ => []

/-- The loop of `nb_ema_decay_with_filter_and_reset` (`rt_fastarraynumba.py:507-524`). `t0` is the literal time `0`. -/
def resetLoop (E : T → T → F R) (t0 : T) : F R → T → List (F R) → List T → List Bool → List Bool → List (F R)
  | lastEma, lastTime, x :: xs, t :: ts, f :: fs, r :: rs =>
    let value := if f then x else F.fin 0
    let base := if f && r then F.fin 0 else lastEma
    let baseTime := if f && r then t0 else lastTime
    let ema := next E value base t baseTime
    ema :: resetLoop E t0 ema t xs ts fs rs
  | _, _, _, _, _, _ => []

/-- The errors of `ema_decay`. -/
inductive Err where
  | timeShape
  | filterShape
  | resetShape
  | resetWithoutFilter
deriving DecidableEq, Repr

/-- `ema_decay` (`rt_fastarraynumba.py:561-691`) on one-dimensional numpy arrays, with a decay rate. -/
def emaDecay (E : T → T → F R) (t0 : T) (arr : List (F R)) (time : List T) (filter reset : Option (List Bool)) :
    Except Err (List (F R)) :=
  if arr.length ≠ time.length then .error .timeShape
  else match filter with
    | some f =>
      if arr.length ≠ f.length then .error .filterShape
      else match reset with
        | some r =>
          if arr.length ≠ r.length then .error .resetShape
          else .ok (resetLoop E t0 (.fin 0) t0 arr time f r)
        | none => .ok (filterLoop E (.fin 0) t0 arr time f)
    | none =>
      match reset with
      | some _ => .error .resetWithoutFilter
      | none => .ok (plainLoop E (.fin 0) t0 arr time)

end
end Verif.Ema
