import Verif.Calendar.Spec
import Verif.Cat.Model
/-!
# Model of the calendar fields of `Date` (`riptable/rt_datetime.py:85-226`, `:545-581`, `:782-821`, `:1700-2015`)

`_year` and `_month` work in days for Date and in nanoseconds for DateTimeNano: `u` is the length of a day in the unit.
Simplified: integers do not overflow (values that could are masked as invalid afterwards).
-/
namespace Verif.Calendar

def daysPerYear : Int := 365
def daysPerLeapyear : Int := 366
/-- `DAYS_AT_2000` (`:84`) -/
def daysAt2000 : Int := daysPerYear * 30 + 7

/-- `UTC_1970_DAY_SPLITS` (`:85-218`), first days of the years 1970, …, 2099 -/
def daySplits : List Int := [
    0, daysPerYear, 2 * daysPerYear, 3 * daysPerYear + 1, 4 * daysPerYear + 1,
    5 * daysPerYear + 1, 6 * daysPerYear + 1, 7 * daysPerYear + 2, 8 * daysPerYear + 2, 9 * daysPerYear + 2,
    10 * daysPerYear + 2, 11 * daysPerYear + 3, 12 * daysPerYear + 3, 13 * daysPerYear + 3, 14 * daysPerYear + 3,
    15 * daysPerYear + 4, 16 * daysPerYear + 4, 17 * daysPerYear + 4, 18 * daysPerYear + 4, 19 * daysPerYear + 5,
    20 * daysPerYear + 5, 21 * daysPerYear + 5, 22 * daysPerYear + 5, 23 * daysPerYear + 6, 24 * daysPerYear + 6,
    25 * daysPerYear + 6, 26 * daysPerYear + 6, 27 * daysPerYear + 7, 28 * daysPerYear + 7, 29 * daysPerYear + 7,
    daysAt2000, daysAt2000 + daysPerLeapyear, daysAt2000 + 2 * daysPerYear + 1, daysAt2000 + 3 * daysPerYear + 1, daysAt2000 + 4 * daysPerYear + 1,
    daysAt2000 + 5 * daysPerYear + 2, daysAt2000 + 6 * daysPerYear + 2, daysAt2000 + 7 * daysPerYear + 2, daysAt2000 + 8 * daysPerYear + 2, daysAt2000 + 9 * daysPerYear + 3,
    daysAt2000 + 10 * daysPerYear + 3, daysAt2000 + 11 * daysPerYear + 3, daysAt2000 + 12 * daysPerYear + 3, daysAt2000 + 13 * daysPerYear + 4, daysAt2000 + 14 * daysPerYear + 4,
    daysAt2000 + 15 * daysPerYear + 4, daysAt2000 + 16 * daysPerYear + 4, daysAt2000 + 17 * daysPerYear + 5, daysAt2000 + 18 * daysPerYear + 5, daysAt2000 + 19 * daysPerYear + 5,
    daysAt2000 + 20 * daysPerYear + 5, daysAt2000 + 21 * daysPerYear + 6, daysAt2000 + 22 * daysPerYear + 6, daysAt2000 + 23 * daysPerYear + 6, daysAt2000 + 24 * daysPerYear + 6,
    daysAt2000 + 25 * daysPerYear + 7, daysAt2000 + 26 * daysPerYear + 7, daysAt2000 + 27 * daysPerYear + 7, daysAt2000 + 28 * daysPerYear + 7, daysAt2000 + 29 * daysPerYear + 8,
    daysAt2000 + 30 * daysPerYear + 8, daysAt2000 + 31 * daysPerYear + 8, daysAt2000 + 32 * daysPerYear + 8, daysAt2000 + 33 * daysPerYear + 9, daysAt2000 + 34 * daysPerYear + 9,
    daysAt2000 + 35 * daysPerYear + 9, daysAt2000 + 36 * daysPerYear + 9, daysAt2000 + 37 * daysPerYear + 10, daysAt2000 + 38 * daysPerYear + 10, daysAt2000 + 39 * daysPerYear + 10,
    daysAt2000 + 40 * daysPerYear + 10, daysAt2000 + 41 * daysPerYear + 11, daysAt2000 + 42 * daysPerYear + 11, daysAt2000 + 43 * daysPerYear + 11, daysAt2000 + 44 * daysPerYear + 11,
    daysAt2000 + 45 * daysPerYear + 12, daysAt2000 + 46 * daysPerYear + 12, daysAt2000 + 47 * daysPerYear + 12, daysAt2000 + 48 * daysPerYear + 12, daysAt2000 + 49 * daysPerYear + 13,
    daysAt2000 + 50 * daysPerYear + 13, daysAt2000 + 51 * daysPerYear + 13, daysAt2000 + 52 * daysPerYear + 13, daysAt2000 + 53 * daysPerYear + 14, daysAt2000 + 54 * daysPerYear + 14,
    daysAt2000 + 55 * daysPerYear + 14, daysAt2000 + 56 * daysPerYear + 14, daysAt2000 + 57 * daysPerYear + 15, daysAt2000 + 58 * daysPerYear + 15, daysAt2000 + 59 * daysPerYear + 15,
    daysAt2000 + 60 * daysPerYear + 15, daysAt2000 + 61 * daysPerYear + 16, daysAt2000 + 62 * daysPerYear + 16, daysAt2000 + 63 * daysPerYear + 16, daysAt2000 + 64 * daysPerYear + 16,
    daysAt2000 + 65 * daysPerYear + 17, daysAt2000 + 66 * daysPerYear + 17, daysAt2000 + 67 * daysPerYear + 17, daysAt2000 + 68 * daysPerYear + 17, daysAt2000 + 69 * daysPerYear + 18,
    daysAt2000 + 70 * daysPerYear + 18, daysAt2000 + 71 * daysPerYear + 18, daysAt2000 + 72 * daysPerYear + 18, daysAt2000 + 73 * daysPerYear + 19, daysAt2000 + 74 * daysPerYear + 19,
    daysAt2000 + 75 * daysPerYear + 19, daysAt2000 + 76 * daysPerYear + 19, daysAt2000 + 77 * daysPerYear + 20, daysAt2000 + 78 * daysPerYear + 20, daysAt2000 + 79 * daysPerYear + 20,
    daysAt2000 + 80 * daysPerYear + 20, daysAt2000 + 81 * daysPerYear + 21, daysAt2000 + 82 * daysPerYear + 21, daysAt2000 + 83 * daysPerYear + 21, daysAt2000 + 84 * daysPerYear + 21,
    daysAt2000 + 85 * daysPerYear + 22, daysAt2000 + 86 * daysPerYear + 22, daysAt2000 + 87 * daysPerYear + 22, daysAt2000 + 88 * daysPerYear + 22, daysAt2000 + 89 * daysPerYear + 23,
    daysAt2000 + 90 * daysPerYear + 23, daysAt2000 + 91 * daysPerYear + 23, daysAt2000 + 92 * daysPerYear + 23, daysAt2000 + 93 * daysPerYear + 24, daysAt2000 + 94 * daysPerYear + 24,
    daysAt2000 + 95 * daysPerYear + 24, daysAt2000 + 96 * daysPerYear + 24, daysAt2000 + 97 * daysPerYear + 25, daysAt2000 + 98 * daysPerYear + 25, daysAt2000 + 99 * daysPerYear + 25]

/-- `YDAY_SPLITS` (`:225`) -/
def ydaySplits : List Int := [0, 31, 59, 90, 120, 151, 181, 212, 243, 273, 304, 334]

/-- `YDAY_SPLITS_LEAP` (`:226`) -/
def ydaySplitsLeap : List Int := [0, 31, 60, 91, 121, 152, 182, 213, 244, 274, 305, 335]

/-- `a.searchsorted(x, side="right")` on an ascending array: the number of entries not above `x` -/
def searchRight (s : List Int) (x : Int) : Nat := (s.filter (· ≤ x)).length

/-- `_year_splits`, `_yearday_splits`, `_yearday_splits_leap` in units of `u` per day (`:221`, `:230-262`) -/
def scale (u : Int) (s : List Int) : List Int := s.map (· * u)

/-- `_year` (`:782-798`), after the time zone fix-up -/
def yearOf (u x : Int) : Int := (searchRight (scale u daySplits) x : Int) + 1969

/-- `arr - self._year_splits[year - 1970]`; the index -1 wraps around, `none` is IndexError -/
def sinceYear (u x : Int) : Option Int := (Cat.npGet (scale u daySplits) (yearOf u x - 1970)).map (x - ·)

/-- `_month` (`:801-821`): both tables are searched, the leap year mask chooses -/
def monthOf (u x : Int) : Option Int :=
  (sinceYear u x).map fun t =>
    let smonth := (searchRight (scale u ydaySplits) t : Int)
    let smonthLeap := (searchRight (scale u ydaySplitsLeap) t : Int)
    if yearOf u x % 4 = 0 then smonthLeap else smonth

/-- time since the first of the month (`:1957-1969`): `y` is the year already determined, `t` the time since its start -/
def sinceMonth (u y t : Int) : Option Int :=
  let s := if y % 4 = 0 then scale u ydaySplitsLeap else scale u ydaySplits
  (Cat.npGet s ((searchRight s t : Int) - 1)).map (t - ·)

/-! ## `Date` -/

/-- `Date.year` before masking (`:1761`) -/
def dateYear (n : Int) : Int := yearOf 1 n
/-- `Date.month` (`:1725-…`) -/
def dateMonth (n : Int) : Option Int := monthOf 1 n
/-- `Date.day_of_year` (`:1916-1919`) -/
def dateDayOfYear (n : Int) : Option Int := (sinceYear 1 n).map (· + 1)
/-- `Date.day_of_month` (`:1957-1974`) -/
def dateDayOfMonth (n : Int) : Option Int := (sinceYear 1 n).bind fun t => (sinceMonth 1 (yearOf 1 n) t).map (· + 1)
/-- `Date.day_of_week` (`:2014`), Monday is 0 -/
def dateDayOfWeek (n : Int) : Int := (n + 3) % 7
/-- `Date.is_leapyear` (`:1875-1878`) -/
def dateIsLeap (n : Int) : Bool := yearOf 1 n % 4 = 0

/-- `_apply_inv_mask(arr1, arr2)` (`:545-581`): `none` is the invalid of the result type.  An array of length one is
invalid for every number up to 0, in longer arrays only 0 and the sentinel are. -/
def applyInvMask {α : Type} (inv : Int) (arr1 : List Int) (arr2 : List α) : List (Option α) :=
  if arr1.length = 1 then
    (if arr1.headD 0 ≤ 0 then [none] else arr2.map some)
  else List.zipWith (fun a b => if a = inv ∨ a = 0 then none else some b) arr1 arr2

/-- a field of a Date array; `none` is IndexError -/
def fieldArray (inv : Int) (f : Int → Option Int) (arr : List Int) : Option (List (Option Int)) :=
  (arr.mapM f).map (applyInvMask inv arr)

end Verif.Calendar
