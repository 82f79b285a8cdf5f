import Verif.AsofDs.Spec
import Verif.Asof.Nearest
/-!
# What `merge_asof` matches, for columns in any order

`cand j y`: right row `j`, with key `y`, has the `by` key of the left row under consideration.  For columns in
ascending order these are `Verif.Asof.IsBackward`, `IsForward`; `IsNearest` needs no order.
-/
namespace Verif.OldAsof
open Verif.Asof

section
variable {α : Type} [LinearOrder α]

/-- `r` is the row with the latest key at or before `x`; of equal keys the last row -/
def IsLatest (exact : Bool) (cand : Nat → α → Prop) (x : α) (r : Option Nat) : Prop :=
  ∀ j, r = some j ↔ ∃ y, cand j y ∧ Before exact y x ∧ ∀ j' y', cand j' y' → Before exact y' x → y' < y ∨ (y' = y ∧ j' ≤ j)

/-- `r` is the row with the earliest key at or after `x`; of equal keys the first row -/
def IsEarliest (exact : Bool) (cand : Nat → α → Prop) (x : α) (r : Option Nat) : Prop :=
  ∀ j, r = some j ↔ ∃ y, cand j y ∧ Before exact x y ∧ ∀ j' y', cand j' y' → Before exact x y' → y < y' ∨ (y = y' ∧ j ≤ j')

/-- what the direction asks for -/
def IsMatch [AddCommGroup α] (dir : Dir) (exact : Bool) (cand : Nat → α → Prop) (x : α) (r : Option Nat) : Prop :=
  match dir with
  | .backward => IsLatest exact cand x r
  | .forward => IsEarliest exact cand x r
  | .nearest => IsNearest exact none cand x r

end
end Verif.OldAsof
