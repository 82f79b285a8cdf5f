import Verif.Tz.Rules
/-!
# Model of the fields of a `DateTimeNano` (`riptable/rt_datetime.py:3114-4010`)

A `DateTimeNano` holds UTC nanoseconds `u`; what it displays is `tz.fixDst u`.  All functions work elementwise; the array
functions `year()` and `month()` mask invalid entries (`Calendar.applyInvMask`).  The division into fractions of an hour, minute
or second (floating point) is not modelled: the functions here give the nanoseconds that are divided, i.e. the `*_span` variants.
-/
namespace Verif.Tz
open Verif.Calendar

/-- `year` (`:3367-3382`) -/
def nanoYear (tz : TimeZone) (u : Int) : Int := yearOf nanosPerDay (tz.fixDst u)
/-- `month` (`:3385-3402`) -/
def nanoMonth (tz : TimeZone) (u : Int) : Option Int := monthOf nanosPerDay (tz.fixDst u)
/-- `nanos_since_start_of_year` (`:3962-3984`) -/
def nanosSinceYear (tz : TimeZone) (u : Int) : Option Int := sinceYear nanosPerDay (tz.fixDst u)
/-- `day_of_year` (`:3421-3443`) -/
def nanoDayOfYear (tz : TimeZone) (u : Int) : Option Int := (nanosSinceYear tz u).map fun t => t / nanosPerDay + 1
/-- `day_of_month` (`:3446-3486`): the year of the displayed time, but the UTC time -/
def nanoDayOfMonth (tz : TimeZone) (u : Int) : Option Int :=
  let year := yearOf nanosPerDay (tz.fixDst u)
  (Cat.npGet (scale nanosPerDay daySplits) (year - 1970)).bind fun start =>
    (sinceMonth nanosPerDay year (u - start)).map fun t => t / nanosPerDay + 1
/-- `yyyymmdd` (`:3297-3346`) -/
def nanoYyyymmdd (tz : TimeZone) (u : Int) : Option Int :=
  let x := tz.fixDst u
  let year := yearOf nanosPerDay x
  (sinceYear nanosPerDay x).bind fun t =>
    let s := if year % 4 = 0 then scale nanosPerDay ydaySplitsLeap else scale nanosPerDay ydaySplits
    (sinceMonth nanosPerDay year t).map fun mt => year * 10000 + (searchRight s t : Int) * 100 + (mt / nanosPerDay + 1)
/-- `days_since_epoch` (`:3113-3129`) -/
def daysSinceEpoch (tz : TimeZone) (u : Int) : Int := tz.fixDst u / nanosPerDay
/-- `nanos_since_midnight` (`:3152-3205`), `hour_span` (`:3724-3733`), before masking -/
def nanosSinceMidnight (tz : TimeZone) (u : Int) : Int := tz.fixDst u % nanosPerDay
/-- `day_of_week` (`:3489-3516`) -/
def nanoDayOfWeek (tz : TimeZone) (u : Int) : Int := (daysSinceEpoch tz u + 3) % 7
/-- `start_of_week` (`:3519-3535`), the day number -/
def nanoStartOfWeek (tz : TimeZone) (u : Int) : Int :=
  let a := daysSinceEpoch tz u + 3
  a - a % 7 - 3
def nanosPerSecond : Int := 1000000000
/-- `minute_span` (`:3736-3751`, `:3775-3792`): the UTC time, modulo an hour -/
def minuteSpan (u : Int) : Int := u % nanosPerHour
/-- `second_span` (`:3815-3826`) -/
def secondSpan (u : Int) : Int := u % nanosPerMinute
/-- `millisecond_span` (`:3849-…`) -/
def millisecondSpan (u : Int) : Int := u % nanosPerSecond

/-- `date()` (`:3266-3294`): the time zone and the UTC time of the result.  Without a table of switches the time is not shifted. -/
def nanoDate (tz : TimeZone) (u : Int) : TimeZone × Int :=
  let arr := match tz.dstReverse with
    | some _ => let arr := tz.fixDst u; arr - arr % nanosPerDay
    | none => u - u % nanosPerDay
  let tz' := TimeZone.init tz.toTz tz.toTz
  (tz', tz'.toUtc arr)

end Verif.Tz
