import Verif.NanoObj.Spec
import Verif.Arrow.Model
import Verif.DateOps.Model
/-!
# DateTimeNano objects: model

`/repo/riptable/rt_datetime.py`: `DateTimeBase.__array_finalize__` 601-608, `__getitem__` 703-712, `copy` 769-771,
`_build_mathops_result` 4066-4109, `DateTimeNano.__new__` 4439-4564, `set_timezone` 4666-4714, `astimezone` 4717-4763,
`newclassfrominstance` 5062-5070, `shift` 5128-5146, `fill_invalid` 5290-5294, `isnan` 5297-5357, `min`, `max` 5597-5671,
`DateTimeNanoScalar` 7618-7767; `/repo/riptable/rt_hstack.py`: `hstack_any` 229-260, `_hstack_datetimenano` 734-754;
`/repo/riptable/rt_timezone.py`: `_set_timezone` 1171-1177, `copy` 1222-1234; `/repo/riptable/rt_numpy.py`: `repeat` 4841-4845, `tile`
4887-4890.

A `TimeZone` object is an entry of a list; the arrays and scalars hold its position. Values are lists of integers; that views share memory
with the array is not modelled here, and no call modelled here writes to values. Not modelled: strings, floats, matlab days.
-/
namespace Verif.NanoObj
open Verif.Tz (Zone TimeZone)
open Verif.Arrow (toUtcWrap)

/-- an array or a scalar: the nanoseconds in UTC, and where the `TimeZone` object is -/
inductive Obj where
  | arr (vals : List Int) (ref : Nat)
  | scal (x : Int) (ref : Nat)
deriving DecidableEq

def Obj.ref : Obj → Nat
  | .arr _ r => r
  | .scal _ r => r

def Obj.vals : Obj → List Int
  | .arr v _ => v
  | .scal x _ => [x]

structure State where
  zones : List TimeZone
  objs : List Obj

/-- a new object with a new `TimeZone` object -/
def State.alloc (st : State) (vals : List Int) (tz : TimeZone) : State :=
  ⟨st.zones ++ [tz], st.objs ++ [.arr vals st.zones.length]⟩

/-- a new object with the `TimeZone` object of another one -/
def State.share (st : State) (o : Obj) : State := ⟨st.zones, st.objs ++ [o]⟩

/-- the array with this number, and its `TimeZone`; other objects have no such method (AttributeError) -/
def State.array (st : State) (i : Nat) : Option (List Int × Nat × TimeZone) :=
  match st.objs[i]? with
  | some (.arr vals r) => (st.zones[r]?).map fun tz => (vals, r, tz)
  | _ => none

/-- the arrays of a list, with their `TimeZone` -/
def State.arrays (st : State) (js : List Nat) : Option (List (List Int × Nat × TimeZone)) := js.mapM st.array

/-- `_hstack_datetimenano` for two or more arrays (`rt_hstack.py:741-754`): `rc.HStack` of the values, `newclassfrominstance` -/
def State.stack (st : State) : List (List Int × Nat × TimeZone) → Option State
  | [] => none
  | a :: rest =>
    if rest.all fun b => decide (b.2.2.toTz = a.2.2.toTz) then some (st.alloc ((a :: rest).flatMap fun b => b.1) a.2.2.copy) else none

/-- one call; `none` if it raises -/
def State.step (st : State) : Call → Option State
  | .make vals f t => some (st.alloc (vals.map (toUtcWrap (TimeZone.init f t))) (TimeZone.init f t))
  | .view i => (st.array i).map fun a => st.share (.arr a.1 a.2.1)
  | .index i g => (st.array i).map fun a => st.alloc (g a.1) a.2.2.copy
  | .item i k => (st.array i).bind fun a => (a.1[k]?).map fun x => st.share (.scal x a.2.1)
  | .derive i g => (st.array i).map fun a => st.alloc ((g a.1).map (toUtcWrap (TimeZone.init .gmt a.2.2.toTz))) (TimeZone.init .gmt a.2.2.toTz)
  | .astz i z => (st.array i).map fun a => st.alloc (a.1.map (toUtcWrap (TimeZone.init .gmt z))) (TimeZone.init .gmt z)
  | .setTz i z => (st.array i).map fun a => ⟨st.zones.set a.2.1 (a.2.2.setTimezone z), st.objs⟩
  | .hstack [i] => (st.array i).map fun a => st.share (.arr a.1 a.2.1)
  | .hstack js => (st.arrays js).bind st.stack

/-- calls one after the other -/
def State.run (st : State) : List Call → Option State
  | [] => some st
  | c :: cs => (st.step c).bind fun s => s.run cs

def start : State := ⟨[], []⟩

/-- the `TimeZone` of an object -/
def State.zoneOf (st : State) (o : Obj) : Option TimeZone := st.zones[o.ref]?

/-- the clock of every value, as `to_iso`, `hour`, `year` and so on have it (`:4797`, `:3672`); `repr` leaves it to dateutil -/
def State.display (st : State) (o : Obj) : Option (List Int) := (st.zoneOf o).map fun tz => o.vals.map tz.fixDst

/-! ## scalars -/

/-- `DateTimeNanoScalar.isnan` (`:7711-7712`) -/
def scalarIsnan (x : Int) : Bool := decide (x ≤ 0)

/-- `DateTimeNano.isnan` (`:5357`) -/
def arrayIsnan (x : Int) : Bool := DateOps.nanOrZero DateOps.I64 x

/-- `DateTimeNanoScalar.repeat` and `tile` (`:7761-7767`), which a Dataset calls for a column that is given by a scalar
(`rt_dataset.py:591-592`) -/
def scalarRepeat (tz : TimeZone) (x : Int) (n : Nat) : List Int × TimeZone :=
  ((List.replicate n x).map (toUtcWrap (TimeZone.init tz.fromTz tz.toTz)), TimeZone.init tz.fromTz tz.toTz)

/-- `scalar + span`, `scalar - span` (`:7752-7758`, `:4070-4109`): the scalar becomes an array by `DateTimeNano(self)`; the `TimeZone` of the
scalar is not used. A span is a number of nanoseconds or NaN. -/
def scalarOp (op : DateOps.Spec.Op) (_tz : TimeZone) (x : Int) (t : Option Int) : Except DateOps.Err (Int × TimeZone) :=
  match DateOps.nanoOp op [toUtcWrap (TimeZone.init .utc .nyc) x] [toUtcWrap (TimeZone.init .utc .nyc) x] (.tspan [t]) with
  | .ok (.nano (y :: _)) => .ok (toUtcWrap (TimeZone.init .gmt .nyc) y, TimeZone.init .gmt .nyc)
  | .ok _ => .error .value
  | .error e => .error e

/-! ## start_date -/

/-- the nanoseconds of the start dates (`:4479-4488`): one for every row, or one for all -/
def startNanos (n : Nat) (days : List Int) : Except DateOps.Err (List Int) :=
  if days.length = n then .ok (days.map fun d => DateOps.w64 (d * DateOps.NPD))
  else if days.length = 1 then .ok (List.replicate n (DateOps.w64 (days.headD 0 * DateOps.NPD)))
  else .error .value

/-- `DateTimeNano(spans, from_tz=f, to_tz=t, start_date=dates)` (`:4469-4551`) -/
def newStart (f t : Zone) (spans : List (Option Int)) (days : List Int) : Except DateOps.Err (List Int × TimeZone) :=
  match startNanos spans.length days with
  | .error e => .error e
  | .ok ns => .ok ((List.zipWith (fun s d => DateOps.w64 (DateOps.spanInt s + d)) spans ns).map (toUtcWrap (TimeZone.init f t)), TimeZone.init f t)

end Verif.NanoObj
