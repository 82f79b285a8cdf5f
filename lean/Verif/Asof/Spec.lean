import Verif.Asof.Model

/-!
# What an as-of join is

`cand j y` says that right row `j` is eligible for the left row under consideration and
has key `y`.
-/
namespace Verif.Asof
section
variable {α : Type} [LinearOrder α]

/-- key `y` is at or before `x`; strictly before when exact matches are not allowed -/
def Before (exact : Bool) (y x : α) : Prop := if exact then y ≤ x else y < x

/-- `d` is within the tolerance, if there is one -/
def Within (tol : Option α) (d : α) : Prop := ∀ t, tol = some t → d ≤ t

/-- `r` is the last eligible right row at or before `x`, provided that row is within
tolerance; otherwise no row. -/
def IsBackward [Sub α] (exact : Bool) (tol : Option α) (cand : Nat → α → Prop) (x : α)
    (r : Option Nat) : Prop :=
  ∀ j, r = some j ↔ ∃ y, cand j y ∧ Before exact y x ∧ Within tol (x - y) ∧
    ∀ j' y', cand j' y' → Before exact y' x → j' ≤ j

/-- `r` is the first eligible right row at or after `x`, provided that row is within
tolerance; otherwise no row. -/
def IsForward [Sub α] (exact : Bool) (tol : Option α) (cand : Nat → α → Prop) (x : α)
    (r : Option Nat) : Prop :=
  ∀ j, r = some j ↔ ∃ y, cand j y ∧ Before exact x y ∧ Within tol (y - x) ∧
    ∀ j' y', cand j' y' → Before exact x y' → j ≤ j'

/-- A key column in ascending order: no NaN, no key below the smallest valid value
`lo`. -/
def Ascending (lo : α) (l : List (Option α)) : Prop :=
  ∃ v : List α, l = v.map some ∧ v.Pairwise (· ≤ ·) ∧ ∀ x ∈ v, lo ≤ x

/-- The same with the largest valid value `hi`. -/
def AscendingTo (hi : α) (l : List (Option α)) : Prop :=
  ∃ v : List α, l = v.map some ∧ v.Pairwise (· ≤ ·) ∧ ∀ x ∈ v, x ≤ hi

end
end Verif.Asof
