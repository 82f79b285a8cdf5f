import Mathlib.Data.List.Basic
/-! # What fills are, for the values of a group in order -/
namespace Verif.GrpFill

/-- `v` is the last value at `j` or before -/
def LastUpTo {α : Type} (l : List (Option α)) (j : Nat) (v : α) : Prop :=
  ∃ i, i ≤ j ∧ l[i]? = some (some v) ∧ ∀ k, i < k → k ≤ j → l[k]? = some none

/-- `v` is the first value at `j` or after -/
def FirstFrom {α : Type} (l : List (Option α)) (j : Nat) (v : α) : Prop :=
  ∃ i, j ≤ i ∧ l[i]? = some (some v) ∧ ∀ k, j ≤ k → k < i → l[k]? = some none

/-- there is no value at `j` or before, at `j` or after -/
def NoneUpTo {α : Type} (l : List (Option α)) (j : Nat) : Prop := ∀ k, k ≤ j → l[k]? = some none
def NoneFrom {α : Type} (l : List (Option α)) (j : Nat) : Prop := ∀ k, j ≤ k → k < l.length → l[k]? = some none

/-- rows in groups: every row at most once, in the table -/
def Groups (groups : List (List Nat)) (n : Nat) : Prop := groups.flatten.Nodup ∧ ∀ r ∈ groups.flatten, r < n

end Verif.GrpFill
