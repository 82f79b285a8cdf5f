import Mathlib.Data.Rat.Floor
import Mathlib.Algebra.Order.Round
import Mathlib.Data.Nat.Log
import Verif.Calendar.Spec
/-!
# Showing times: what is meant

Binary64 numbers, a rounding to the nearest one, decimal numerals, and the reading of a clock text.  Nothing here uses the model.
-/
namespace Verif.TimeShow

/-- The numbers a float64 can hold, leaving aside overflow and underflow: up to 53 binary digits and a power of two. -/
def IsF (q : Rat) : Prop := ∃ m e : Int, |m| ≤ 2 ^ 53 ∧ q = (m : Rat) * (2 : Rat) ^ e

/-- An operation of float64 arithmetic: the result is the float64 nearest to the exact value (however ties are broken). -/
structure Nearest (rnd : Rat → Rat) : Prop where
  float : ∀ q, IsF (rnd q)
  near : ∀ q f, IsF f → |rnd q - q| ≤ |f - q|

/-- The number a list of digits stands for. -/
def value (l : List Char) : Nat := l.foldl (fun a c => 10 * a + (c.toNat - 48)) 0

/-- `l` is a numeral for `n` (digits only, at least one). -/
def Numeral (l : List Char) (n : Nat) : Prop := l ≠ [] ∧ (∀ c ∈ l, c.isDigit = true) ∧ value l = n

/-- `l` is a numeral for `n` with exactly `w` digits. -/
def Field (w : Nat) (l : List Char) (n : Nat) : Prop := l.length = w ∧ (∀ c ∈ l, c.isDigit = true) ∧ value l = n

/-- The text of a clock, `hh:mm:ss.nnnnnnnnn`, reads as `t` nanoseconds. -/
def ClockReads (text : List Char) (t : Nat) : Prop :=
  ∃ hh mm ss nn : List Char, ∃ h m s n : Nat,
    text = hh ++ ':' :: mm ++ ':' :: ss ++ '.' :: nn ∧ Field 2 hh h ∧ Field 2 mm m ∧ Field 2 ss s ∧ Field 9 nn n ∧
    h < 24 ∧ m < 60 ∧ s < 60 ∧ t = ((h * 60 + m) * 60 + s) * 10 ^ 9 + n

/-- The text of a span, `-Dd hh:mm:ss.nnnnnnnnn` with the sign and the days where there are any, reads as `v` nanoseconds. -/
def SpanReads (text : List Char) (v : Int) : Prop :=
  ∃ sign days clock : List Char, ∃ d t : Nat,
    text = sign ++ days ++ clock ∧ ClockReads clock t ∧
    ((d = 0 ∧ days = []) ∨ (0 < d ∧ ∃ dd, days = dd ++ ['d', ' '] ∧ Numeral dd d)) ∧
    ((sign = [] ∧ v = d * (24 * 3600 * 10 ^ 9) + t) ∨ (sign = ['-'] ∧ v = -(d * (24 * 3600 * 10 ^ 9) + t)))

/-- The text of a moment, `yyyymmdd hh:mm:ss.nnnnnnnnn`, reads as `t` nanoseconds after 1 January 1970 on the clock it is shown for. -/
def StampReads (text : List Char) (t : Int) : Prop :=
  ∃ yy mo dd clock : List Char, ∃ y m d k : Nat,
    text = yy ++ mo ++ dd ++ ' ' :: clock ∧ Field 4 yy y ∧ Field 2 mo m ∧ Field 2 dd d ∧ ClockReads clock k ∧
    1 ≤ m ∧ m ≤ 12 ∧ 1 ≤ d ∧ d ≤ Calendar.monthLen y m ∧
    t = Calendar.dayNumber y m d * (24 * 3600 * 10 ^ 9) + k

/-- What a calendar has to do for the days from `lo` to `hi`: name the day by a year of at most four digits, a month and a day of the month. -/
def CalendarOk (cal : Int → Nat × Nat × Nat) (lo hi : Int) : Prop :=
  ∀ n, lo ≤ n → n < hi → (cal n).1 < 10000 ∧ 1 ≤ (cal n).2.1 ∧ (cal n).2.1 ≤ 12 ∧ 1 ≤ (cal n).2.2 ∧
    (cal n).2.2 ≤ Calendar.monthLen (cal n).1 (cal n).2.1 ∧ Calendar.dayNumber (cal n).1 (cal n).2.1 (cal n).2.2 = n

end Verif.TimeShow
