import Verif.Basic
import Verif.DateOps.Spec
import Verif.Calendar.Model

/-!
# Model: arithmetic and comparison of Date, DateSpan, DateTimeNano and TimeSpan

Models `/repo/riptable/rt_datetime.py` lines 545-581 (`_apply_inv_mask`), 824-834
(`_preserve_invalid_comparison`), 1018-1086 (`_funnel_mathops`, `_build_mathops_result`),
2238-2346 and 2481-2547 (`Date`), 2925-3049 (`DateSpan`), 4066-4109 and 5556-5867
(`DateTimeNano`), 6769-6886 and 7059-7095 (`TimeSpan`).

Simplifications and contracts, for all definitions below:
* columns are lists; `Date` and `DateSpan` hold 32-bit, `DateTimeNano` 64-bit integers, with
  `2^31` and `2^63` wrap-around (`Int.bmod`); a `TimeSpan` (float64 nanoseconds) is a list of
  whole numbers or NaN (`none`): rounding of floats is not modelled;
* riptide's arithmetic on plain arrays is taken to be entry by entry with numpy's broadcasting;
  its conversions keep the invalid entries (`int32` minimum to `int64` minimum or NaN, NaN to
  `int64` minimum), its operation SUBDATETIMES gives an invalid result when one of the two
  entries is 0 or the minimum;
* the scalar classes, strings, float and Categorical operands are not modelled; the other
  operand may be a column, a plain integer array, a Python integer or the float NaN;
* `DateTimeNano(…, from_tz=…)` of whole days is a parameter `toUtc`.
-/
namespace Verif.DateOps
open Spec (Kind Op)

/-- the marker of invalid entries of an `int32` array -/
def I32 : Int := -(2 ^ 31)
/-- the marker of invalid entries of an `int64` array -/
def I64 : Int := -(2 ^ 63)
/-- `NANOS_PER_DAY` -/
def NPD : Int := 86400000000000
/-- what an `int32` array keeps of a number -/
def w32 (x : Int) : Int := Int.bmod x (2 ^ 32)
/-- what an `int64` array keeps of a number -/
def w64 (x : Int) : Int := Int.bmod x (2 ^ 64)

/-- Exceptions. -/
inductive Err
  | type
  | value
  | notImplemented
deriving DecidableEq

/-- An operand. -/
inductive Val
  | date (xs : List Int)
  | dspan (xs : List Int)
  | nano (xs : List Int)
  | tspan (xs : List (Option Int))
  /-- a plain integer array and the marker of its dtype -/
  | ints (s : Int) (xs : List Int)
  | num (n : Int)
  | nan
deriving DecidableEq

/-- `Date.isnan`, `DateTimeNano.isnan` (rt_datetime.py 1531, 5355): zero or the marker. -/
def nanOrZero (s x : Int) : Bool := x = 0 ∨ x = s

/-- numpy's broadcasting of an operation on two arrays of one dimension. -/
def bcast {α β γ : Type} (f : α → β → γ) (xs : List α) (ys : List β) : Except Err (List γ) :=
  if xs.length = ys.length then .ok (List.zipWith f xs ys)
  else if xs.length = 1 then .ok (xs.flatMap fun x => ys.map (f x))
  else if ys.length = 1 then .ok (ys.flatMap fun y => xs.map fun x => f x y)
  else .error .value

/-- `putmask(arr, mask, v)`. -/
def putmask {γ : Type} (arr : List γ) (mask : List Bool) (v : γ) : List γ :=
  List.zipWith (fun x m => if m then v else x) arr mask

/-- `_apply_inv_mask` on an array `arr1` (rt_datetime.py 549-576): a first operand of one entry
takes a way of its own, which looks for an entry ≤ 0 and at nothing else.  `inv` is
`INVALID_DICT[arr2.dtype.num]`. -/
def applyInv {γ : Type} (arr1 : List Int) (mask1 : List Bool) (arr2 : List γ) (inv fill : γ)
    (mask2 : Option (List Bool)) : List γ :=
  if arr1.length = 1 then
    if arr1.headD 0 ≤ 0 then [inv] else arr2
  else
    match mask2 with
    | none => putmask arr2 mask1 fill
    | some m =>
      if m.length = 1 then
        if m.headD false then (putmask arr2 mask1 fill).map fun _ => fill else putmask arr2 mask1 fill
      else putmask (putmask arr2 mask1 fill) m fill

/-- conversion of an integer array with marker `s` to `int32` (`astype`) -/
def narrow (s x : Int) : Int := if x = s then I32 else w32 x
/-- conversion of an integer array with marker `s` to `int64` -/
def widen (s x : Int) : Int := if x = s then I64 else x
/-- conversion of a TimeSpan to `int64` -/
def spanInt : Option Int → Int
  | none => I64
  | some t => t
/-- conversion of an integer array with marker `s` to `float64` -/
def toFloat (s x : Int) : Option Int := if x = s then none else some x

/-- `x op t` of an integer and a float -/
def floatOp (op : Op) (x : Int) (t : Option Int) : Option Int := t.map (op.on x)
/-- `t op t'` of two floats -/
def floatOp2 (op : Op) (t u : Option Int) : Option Int := t.bind fun a => u.map (op.on a)

/-- SUBDATETIMES on two integer arrays with marker `s`, in an integer result with marker `I32`
(two Dates) -/
def subDays (x y : Int) : Int := if nanOrZero I32 x ∨ nanOrZero I32 y then I32 else w32 (x - y)
/-- SUBDATETIMES on two `int64` arrays -/
def subNanos (x y : Int) : Option Int := if nanOrZero I64 x ∨ nanOrZero I64 y then none else some (x - y)

/-- `_funnel_mathops` of a `Date` (rt_datetime.py 1018-1086 with 2481-2547). `self'` is what the
buffer of the first operand holds when `_apply_inv_mask` looks at it. -/
def dateFunnel (op : Op) (xs self' : List Int) : Val → Except Err Val
  | .tspan ts => do
    let r ← bcast (fun x t => w64 (op.on (w64 (x * NPD)) (spanInt t))) xs ts
    pure (.nano (applyInv xs (xs.map (nanOrZero I32)) r I64 0 (some (ts.map Option.isNone))))
  | .dspan ys => do
    let r ← bcast (fun x y => w32 (op.on x y)) xs ys
    pure (.date (applyInv self' (xs.map (nanOrZero I32)) r I32 0 (some (ys.map fun y => y = I32))))
  | .ints s ys => do
    let r ← bcast (fun x y => op.on x y) xs ys
    pure (.date ((applyInv self' (xs.map (nanOrZero I32)) r s 0 (some (ys.map fun y => y = s))).map (narrow s)))
  | .num n => .ok (.date (applyInv self' (xs.map (nanOrZero I32)) (xs.map fun x => w32 (op.on x n)) I32 0 none))
  | .nan => .ok (.date (xs.map fun _ => I32))
  | .date _ => .error .type
  | .nano _ => .error .type

/-- `DateTimeNano.__add__` and `__sub__` (rt_datetime.py 5745-5867 with 4066-4109). -/
def nanoOp (op : Op) (xs self' : List Int) : Val → Except Err Val
  | .tspan ts => do
    let r ← bcast (fun x t => w64 (op.on x (spanInt t))) xs ts
    pure (.nano (applyInv self' (xs.map (nanOrZero I64)) r I64 0 (some (ts.map fun t => spanInt t = I64))))
  | .dspan ys => do
    let r ← bcast (fun x y => w64 (op.on x (w64 (widen I32 y * NPD)))) xs ys
    pure (.nano (applyInv self' (xs.map (nanOrZero I64)) r I64 0 (some (ys.map fun y => y = I32))))
  | .ints s ys => do
    let r ← bcast (fun x y => w64 (op.on x (widen s y))) xs ys
    pure (.nano (applyInv self' (xs.map (nanOrZero I64)) r I64 0 (some (ys.map fun y => widen s y = I64))))
  | .num n => .ok (.nano (applyInv self' (xs.map (nanOrZero I64)) (xs.map fun x => w64 (op.on x n)) I64 0 (some [n = I64])))
  | .nan => .error .value
  | .date ys =>
    match op with
    | .add => .error .type
    | .sub => do
      let r ← bcast subNanos xs (ys.map fun y => w64 (widen I32 y * NPD))
      pure (.tspan r)
  | .nano ys =>
    match op with
    | .add => .error .type
    | .sub => do
      let r ← bcast subNanos xs ys
      pure (.tspan r)

/-- `Date.__add__` and `__sub__` (rt_datetime.py 2291-2337).  `toUtc` places the midnight of a
day in the zone the other operand was made with. -/
def dateOp (toUtc : Int → Int) (op : Op) (xs : List Int) (v : Val) : Except Err Val :=
  match op, v with
  | .sub, .date ys => do
    let r ← bcast subDays xs ys
    pure (.dspan r)
  | .sub, .nano ys => nanoOp .sub (xs.map fun x => toUtc (w64 (x * NPD))) (xs.map fun x => toUtc (w64 (x * NPD))) (.nano ys)
  | _, v => dateFunnel op xs xs v

/-- `DateSpan.__add__` and `__sub__` (rt_datetime.py 1018-1086 with 2925-2988): every result is
filled with `DateSpan.NAN_DATE`, the `int32` minimum. -/
def dspanOp (op : Op) (xs self' : List Int) : Val → Except Err Val
  | .tspan ts => do
    let r ← bcast (fun x t => floatOp op (w64 (x * NPD)) t) xs ts
    pure (.tspan (applyInv xs (xs.map fun x => x = I32) r none (some I32) (some (ts.map Option.isNone))))
  | .nano ys =>
    match op with
    | .sub => .error .type
    | .add => do
      let r ← bcast (fun x y => w64 (w64 (x * NPD) + y)) xs ys
      pure (.nano (applyInv xs (xs.map fun x => x = I32) r I64 I32 (some (ys.map (nanOrZero I64)))))
  | .date ys =>
    match op with
    | .sub => .error .type
    | .add => do
      let r ← bcast (fun x y => w32 (x + y)) xs ys
      pure (.date (applyInv self' (xs.map fun x => x = I32) r I32 I32 (some (ys.map (nanOrZero I32)))))
  | .dspan ys => do
    let r ← bcast (fun x y => w32 (op.on x y)) xs ys
    pure (.dspan (applyInv self' (xs.map fun x => x = I32) r I32 I32 (some (ys.map fun y => y = I32))))
  | .ints s ys => do
    let r ← bcast (fun x y => op.on x y) xs ys
    pure (.dspan ((applyInv self' (xs.map fun x => x = I32) r s I32 (some (ys.map fun y => y = s))).map (narrow s)))
  | .num n =>
    if n = I32 then .ok (.dspan (xs.map fun _ => I32))
    else .ok (.dspan (applyInv self' (xs.map fun x => x = I32) (xs.map fun x => w32 (op.on x n)) I32 I32 none))
  | .nan => .ok (.dspan (xs.map fun _ => I32))

/-- the mask step of `_fix_binary_ops` (rt_datetime.py 6877-6883): a mask of one entry is asked
whether it is NaN, which a boolean never is. -/
def fixMask (r : List (Option Int)) (m : List Bool) : List (Option Int) :=
  if m.length = 1 then r else putmask r m none

/-- `TimeSpan.__add__` and `__sub__` (rt_datetime.py 6769-6799 with 6855-6886): only the addition
turns days into nanoseconds. -/
def tspanOp (op : Op) (ts : List (Option Int)) : Val → Except Err Val
  | .tspan us => do
    let r ← bcast (floatOp2 op) ts us
    pure (.tspan (match op with | .add => fixMask r (us.map Option.isNone) | .sub => r))
  | .dspan ys =>
    match op with
    | .add => do
      let r ← bcast (fun t y => floatOp2 .add t (some (w64 (y * NPD)))) ts ys
      pure (.tspan (fixMask r (ys.map fun y => y = I32)))
    | .sub => do
      let r ← bcast (fun t y => floatOp2 .sub t (toFloat I32 y)) ts ys
      pure (.tspan r)
  | .date ys =>
    match op with
    | .add => dateFunnel .add ys ys (.tspan ts)
    | .sub => .error .notImplemented
  | .nano ys =>
    match op with
    | .add => nanoOp .add ys ys (.tspan ts)
    | .sub => .error .type
  | .ints s ys =>
    match op with
    | .add => do
      let r ← bcast (fun t y => floatOp2 .add t (toFloat s y)) ts ys
      pure (.tspan (fixMask r (ys.map fun y => y = s)))
    | .sub => do
      let r ← bcast (fun t y => floatOp2 .sub t (toFloat s y)) ts ys
      pure (.tspan r)
  | .num n => .ok (.tspan (ts.map fun t => floatOp2 op t (some n)))
  | .nan => .ok (.tspan (ts.map fun _ => none))

/-- `a + b` and `a - b` of two columns. -/
def binop (toUtc : Int → Int) (op : Op) : Val → Val → Except Err Val
  | .date xs, w => dateOp toUtc op xs w
  | .dspan xs, w => dspanOp op xs xs w
  | .nano xs, w => nanoOp op xs xs w
  | .tspan ts, w => tspanOp op ts w
  | _, _ => .error .notImplemented

/-- The raw update `self._fa op= value` which the in-place operators do before anything else
(rt_datetime.py 1045-1046, 4084-4085): a longer operand does not fit. `cell` is the operation on
the entries, `ys` the other operand as numbers. -/
def rawInplace (cell : Int → Int → Int) (xs ys : List Int) : Except Err (List Int) :=
  if ys.length = xs.length then .ok (List.zipWith cell xs ys)
  else if ys.length = 1 then .ok (ys.flatMap fun y => xs.map fun x => cell x y)
  else .error .value

/-- `d += v` and `d -= v` on a `Date` with a Date, a DateSpan or a number: what the buffer of
`d` holds afterwards, and the result (rt_datetime.py 2304, 2339, 1045-1056: the update comes
before the check of the types; after it the result is masked in the same buffer). -/
def dateInplace (op : Op) (xs : List Int) (v : Val) : List Int × Except Err Val :=
  match v with
  | .dspan ys =>
    match rawInplace (fun x y => w32 (op.on x y)) xs ys with
    | .error e => (xs, .error e)
    | .ok self' =>
      match dateFunnel op xs self' v with
      | .ok (.date r) => (if xs.length = 1 then self' else r, .ok (.date r))
      | r => (self', r)
  | .num n =>
    match dateFunnel op xs (xs.map fun x => w32 (op.on x n)) v with
    | .ok (.date r) => (if xs.length = 1 then xs.map (fun x => w32 (op.on x n)) else r, .ok (.date r))
    | r => (xs, r)
  | .date ys =>
    match rawInplace (fun x y => w32 (op.on x y)) xs ys with
    | .error e => (xs, .error e)
    | .ok self' => (self', .error .type)
  | v => (xs, dateFunnel op xs xs v)

/-- the six comparisons -/
inductive Cmp
  | eq | ne | lt | le | gt | ge
deriving DecidableEq

/-- the comparison of two integers -/
def Cmp.on : Cmp → Int → Int → Bool
  | .eq, a, b => a = b
  | .ne, a, b => a ≠ b
  | .lt, a, b => a < b
  | .le, a, b => a ≤ b
  | .gt, a, b => b < a
  | .ge, a, b => b ≤ a

/-- `_preserve_invalid_comparison` (rt_datetime.py 824-834): the first operand's invalid entries
are taken out, `!=` is True there. -/
def preserveInv (s : Int) (c : Cmp) (x : Int) (r : Bool) : Bool :=
  match c with
  | .ne => r || nanOrZero s x
  | _ => r && !nanOrZero s x

/-- `Date` compared with a `Date` (rt_datetime.py 2256-2268) or with a plain array or string
made into one (2259-2264). -/
def dateCmp (c : Cmp) (xs ys : List Int) : Except Err (List Bool) :=
  bcast (fun x y => preserveInv I32 c x (c.on x y)) xs ys

/-- `DateTimeNano` compared with a `DateTimeNano` or an integer array (5556-5574). -/
def nanoCmp (c : Cmp) (xs ys : List Int) : Except Err (List Bool) :=
  bcast (fun x y => preserveInv I64 c x (c.on x y)) xs ys

/-- `Date` compared with a `DateTimeNano` (2249-2253): the midnights of the days in the zone the
other operand is displayed in; both masks are applied. -/
def dateNanoCmp (toUtc : Int → Int) (c : Cmp) (xs ys : List Int) : Except Err (List Bool) :=
  bcast (fun x y => preserveInv I32 c x (preserveInv I64 c (toUtc (w64 (x * NPD))) (c.on (toUtc (w64 (x * NPD))) y))) xs ys

/-- `DateTimeNano` compared with a `Date` (5566-5567). -/
def nanoDateCmp (toUtc : Int → Int) (c : Cmp) (xs ys : List Int) : Except Err (List Bool) :=
  bcast (fun x y => preserveInv I64 c x (c.on x (toUtc (w64 (y * NPD))))) xs ys

/-- `DateSpan` compared with a `DateSpan` (3020-3029): the bare integers. -/
def dspanCmp (c : Cmp) (xs ys : List Int) : Except Err (List Bool) := bcast c.on xs ys

/-- the comparison of two floats: with NaN only `!=` is True -/
def floatCmp (c : Cmp) : Option Int → Option Int → Bool
  | some a, some b => c.on a b
  | _, _ => c = .ne

/-- `TimeSpan` compared with a `TimeSpan` (7059-7075). -/
def tspanCmp (c : Cmp) (ts us : List (Option Int)) : Except Err (List Bool) := bcast (floatCmp c) ts us

/-- the end of `Date.range` before `closed` is looked at (rt_datetime.py 2209-2220): `days` is
read only when there is no `end` -/
def rangeEnd (start : Int) (e days : Option Int) (step : Int) : Except Err Int :=
  match e, days with
  | some e, _ => .ok e
  | none, some d => .ok (w32 (start + d * step))
  | none, none => .error .value

/-- `Date.range(start, end=None, days=None, step=1, closed=None)` after the dates have been read
(rt_datetime.py 2209-2235), `step` not 0.  `closed` is `none`, `some "left"`, `some "right"` or
something else. -/
def rangeEnds (start : Int) (e days : Option Int) (step : Int) (closed : Option String) : Except Err (Int × Int) :=
  match rangeEnd start e days step with
  | .error x => .error x
  | .ok e =>
    if days = none ∧ step = 1 then
      match closed with
      | none => .ok (start, e + 1)
      | some c => if c = "right" then .ok (start + 1, e + 1) else if c = "left" then .ok (start, e) else .error .value
    else .ok (start, e)

/-- number of entries of `arange(a, b, step)` -/
def arangeLen (a b step : Int) : Nat :=
  if 0 < step then ((b - a + (step - 1)) / step).toNat
  else if step < 0 then ((a - b + (-step - 1)) / (-step)).toNat
  else 0

/-- `arange(a, b, step)` of integers -/
def arange (a b step : Int) : List Int := (List.range (arangeLen a b step)).map fun (i : Nat) => a + (i : Int) * step

/-- `Date.range` -/
def dateRange (start : Int) (e : Option Int) (days : Option Int) (step : Int) (closed : Option String) :
    Except Err (List Int) :=
  match rangeEnds start e days step closed with
  | .error x => .error x
  | .ok (a, b) => .ok (arange a b step)

/-- an `int32` field of a `Date` as an array: the marker where it is invalid -/
def marked (r : List (Option Int)) : List Int := r.map fun x => x.getD I32

/-- `Date.start_of_week` (2583-2590): `self - self.day_of_week`; `none` is an IndexError of the
field (see `Verif.Calendar`). -/
def startOfWeek (xs : List Int) : Option (Except Err Val) :=
  (Calendar.fieldArray I32 (fun n => some (Calendar.dateDayOfWeek n)) xs).map fun dow =>
    dateFunnel .sub xs xs (.ints I32 (marked dow))

/-- `d + 1` of the result of another operation -/
def plusOne : Except Err Val → Except Err Val
  | .ok (.date r) => dateFunnel .add r r (.num 1)
  | r => r

/-- `Date.start_of_month` (2573-2580): `self - self.day_of_month + 1`. -/
def startOfMonth (xs : List Int) : Option (Except Err Val) :=
  (Calendar.fieldArray I32 Calendar.dateDayOfMonth xs).map fun dom =>
    plusOne (dateFunnel .sub xs xs (.ints I32 (marked dom)))

end Verif.DateOps
