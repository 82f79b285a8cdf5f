import Verif.Tz.Model
import Verif.Calendar.Model
import Mathlib.Algebra.Order.Field.Rat
import Mathlib.Data.Rat.Floor
/-!
# Model of dates from matlab (`rt_datetime.py:223`, `:1284-1337`, `:1414-1436`, `:4636-4662`, `rt_timezone.py:1294-1317`)

Matlab numbers days with fractions; `none` is NaN. Simplified: floating point numbers are exact (rationals), integers do not overflow.
-/
namespace Verif.MatDate
open Verif.Tz (Zone TimeZone)

/-- `MATLAB_EPOCH_DATENUM` (`rt_datetime.py:223`) -/
def epochDatenum : Int := 719529

/-- `NANOS_PER_DAY` -/
def nanosPerDay : Int := 24 * Tz.nanosPerHour

/-- conversion of a float to an integer: towards 0 -/
def trunc (q : ℚ) : Int := if q < 0 then ⌈q⌉ else ⌊q⌋

/-- `Date(arr, from_matlab=True)` (`:1426-1436`): NaN becomes `NAN_DATE`, 0 -/
def dateFromMatlab (arr : List (Option ℚ)) : List Int :=
  arr.map fun v => match v with
    | none => 0
    | some q => trunc q - epochDatenum

/-- `to_utc` with a mask (`rt_timezone.py:1294-1317`) for an element that is not masked: 0 is an instant as any other -/
def toUtcUnmasked (tz : TimeZone) (x : Int) : Int :=
  if tz.fromTz ≠ .gmt ∧ tz.fromTz ≠ .utc then
    let isDst := tz.maskDst x tz.dstCutoffs
    let y := x + tz.fixOffset
    if isDst then y - Tz.nanosPerHour else y
  else x

/-- `DateTimeNano(arr, from_matlab=True)` (`:4636-4662`): NaN becomes `NAN_TIME`, 0 -/
def nanoFromMatlab (tz : TimeZone) (arr : List (Option ℚ)) : List Int :=
  arr.map fun v => match v with
    | none => 0
    | some q => toUtcUnmasked tz (trunc ((q - epochDatenum) * nanosPerDay))

end Verif.MatDate
