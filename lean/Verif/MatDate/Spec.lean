import Verif.Calendar.Spec
import Mathlib.Algebra.Order.Field.Rat
/-! # Numbers of days in matlab: 1 January of the year 0 is 1 -/
namespace Verif.MatDate
open Verif.Calendar

def datenum (y m d : Nat) : Nat := daysBeforeYear y + daysBeforeMonth y m + d

end Verif.MatDate
