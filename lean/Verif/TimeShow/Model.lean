import Mathlib.Data.Rat.Floor
import Mathlib.Algebra.Order.Round
/-!
# Showing times: the code

`DateTimeBase._add_nano_ext`, `TimeSpanBase.display_item_clock`, `display_item_unit`, `_strftime`, `hhmmss`, `DateTimeNano.format_nano_time`
and `DateTimeCommon._strftime` of rt_datetime.py.

A float64 is a rational number; `rnd` is the rounding of float64 arithmetic.  Python's `time.gmtime`, `datetime.fromtimestamp` and
`strftime` are not in the repository: `gmtime` of a float takes the whole second below it, `strftime` writes fields of fixed width, and
`fromtimestamp` of a float turns it into whole microseconds by the function `micro`, and a day number into a date by `cal`.
-/
namespace Verif.TimeShow

/-- `str(n).zfill(w)`. -/
def zfill (w : Nat) (n : Nat) : List Char := List.replicate (w - (Nat.toDigits 10 n).length) '0' ++ Nat.toDigits 10 n

/-- rt_datetime.py:591 `DateTimeBase.PRECISION`, as it comes. -/
def defaultPrecision : Int := 9

/-- rt_datetime.py:681-692 `_add_nano_ext`: `precision` is the class attribute, `nanos` the time; `nanos % power` of a float is exact, `int` drops what is behind the point. -/
def addNanoExt (precision : Int) (nanos : Rat) (text : List Char) : List Char :=
  if 0 < precision then
    let p : Nat := if 9 < precision then 9 else precision.toNat
    let power : Rat := 10 ^ p
    text ++ '.' :: zfill p (⌊nanos - power * (⌊nanos / power⌋ : Rat)⌋.toNat)
  else text

/-- `strftime("%H:%M:%S", time.gmtime(sec))` for a whole second. -/
def hms (sec : Int) : List Char :=
  zfill 2 (sec / 3600 % 24).toNat ++ ':' :: zfill 2 (sec / 60 % 60).toNat ++ ':' :: zfill 2 (sec % 60).toNat

/-- rt_datetime.py:6701-6724 `display_item_clock` for a number (a NaN gives "Inv"): the clock of `abs(nanosecs) / 1e9` seconds, the days of
`np.int64(item) // NANOS_PER_DAY`, the sign and the nanoseconds. -/
def displayClock (rnd : Rat → Rat) (precision : Int) (nanosecs : Rat) : List Char :=
  let item := |nanosecs|
  let clock := hms ⌊rnd (item / 1000000000)⌋
  let days : Int := ⌊item⌋ / 86400000000000
  let text := if 0 < days then Nat.toDigits 10 days.toNat ++ ['d', ' '] ++ clock else clock
  let text := if nanosecs < 0 then '-' :: text else text
  addNanoExt precision item text

/-- rt_datetime.py:4910-4952 `format_nano_time` in the long format "%Y%m%d %H:%M:%S" with nanoseconds.  `off` is the offset of the zone in seconds
at a second of UTC (tz database), `cal` Python's calendar.  A time out of Python's range is not modelled (int64 nanoseconds never are). -/
def formatNano (off : Int → Int) (cal : Int → Nat × Nat × Nat) (precision : Int) (utcnano : Int) : List Char :=
  if utcnano = -9223372036854775808 ∨ utcnano = 0 then ['I', 'n', 'v'] else
  let sec := utcnano / 1000000000
  let wall := sec + off sec
  let date := cal (wall / 86400)
  let text := zfill 4 date.1 ++ zfill 2 date.2.1 ++ zfill 2 date.2.2 ++ ' ' :: hms wall
  addNanoExt precision utcnano text

/-- The moment `datetime.fromtimestamp` makes, before it is written: the day number, the second of the day and the microsecond. -/
structure Broken where
  day : Int
  sec : Int
  us : Int
deriving DecidableEq, Repr

/-- `datetime.fromtimestamp(timestamp, zone)` of so many microseconds after 1970 on the clock of the zone. -/
def broken (t : Int) : Broken := ⟨t / 1000000 / 86400, t / 1000000 % 86400, t % 1000000⟩

/-- rt_datetime.py:4153-4173 `DateTimeCommon._strftime`: `self / NANOS_PER_SECOND` (the int64 becomes a float64, then it is divided), then
`fromtimestamp`.  The writing of the format is Python's; the result here is what it writes from. -/
def strftimeNano (rnd : Rat → Rat) (micro : Rat → Int) (off : Int → Int) (utcnano : Int) : Broken :=
  let t := micro (rnd (rnd utcnano / 1000000000))
  broken (t + off (t / 1000000) * 1000000)

/-- rt_datetime.py:6529-6555 `TimeSpanBase._strftime` with a format of hours, minutes, seconds and microseconds: whether a minus is put in front, the
second of the day and the microsecond. -/
def strftimeSpan (rnd : Rat → Rat) (micro : Rat → Int) (nanosecs : Rat) : Bool × Int × Int :=
  let b := broken (micro (rnd (|nanosecs| / 1000000000)))
  (decide (nanosecs < 0), b.sec, b.us)

/-- `astype(np.int64)` of a float. -/
def trunc (q : Rat) : Int := if 0 ≤ q then ⌊q⌋ else -⌊-q⌋

/-- rt_datetime.py:6600-6606 `hhmmss`: whole seconds by floor division, then `divmod`. -/
def hhmmss (nanosecs : Rat) : Int :=
  let s := trunc nanosecs / 1000000000
  10000 * (s / 3600) + 100 * (s % 3600 / 60) + s % 3600 % 60

/-- The units of `_display_resolution`. -/
inductive Unit' where
  | ns | us | ms | s | m | h
deriving DecidableEq, Repr

/-- rt_datetime.py:6662-6697 `_display_resolution`. -/
def resolution (nanosecs : Rat) : Int × Unit' :=
  let n := |nanosecs|
  if n < 1000 then (1, .ns)
  else if n < 1000000 then (1000, .us)
  else if n < 1000000000 then (1000000, .ms)
  else if n < 60000000000 then (1000000000, .s)
  else if n < 3600000000000 then (60000000000, .m)
  else (3600000000000, .h)

/-- What `display_item_unit` writes before the unit: the number itself, or so many thousandths. -/
inductive Amount where
  | exact (q : Rat)
  | thousandths (n : Int)
deriving DecidableEq

/-- rt_datetime.py:6643-6660 `display_item_unit` for a number: `str` of it, or `"{0:.3f}"` of the quotient; `fmt` is that rounding to thousandths. -/
def displayUnit (rnd : Rat → Rat) (fmt : Rat → Int) (nanosecs : Rat) : Amount × Unit' :=
  let r := resolution nanosecs
  if r.1 = 1 then (.exact nanosecs, r.2) else (.thousandths (fmt (rnd (nanosecs / r.1))), r.2)

/-- The formats of `clock_format_short`. -/
inductive ClockFmt where
  | hmsf | hms | hm
deriving DecidableEq, Repr

/-- `q % 1` is not zero. -/
def fractional (q : Rat) : Bool := decide (q ≠ (⌊q⌋ : Rat))

/-- rt_datetime.py:6727-6736 `clock_format_short`: `(self.seconds % 1).any()` and `(self.minutes % 1).any()`; `seconds` and `minutes` (6571-6579) divide float64. -/
def clockFormatShort (rnd : Rat → Rat) (spans : List Rat) : ClockFmt :=
  if spans.any fun v => fractional (rnd (v / 1000000000)) then .hmsf
  else if spans.any fun v => fractional (rnd (v / 60000000000)) then .hms
  else .hm

end Verif.TimeShow
