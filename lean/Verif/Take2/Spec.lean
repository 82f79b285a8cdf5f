import Mathlib.Data.List.Basic

/-! What taking rows of a matrix by position means, and what replacing texts means. -/
namespace Verif.Take2.Spec

/-- the row that a position means: positions from 0 on; if `fromEnd`, negative positions count from the end -/
def rowOf {V : Type} (fromEnd : Bool) (m : List (List V)) (i : Int) : Option (List V) :=
  if 0 ≤ i then m[i.toNat]?
  else if fromEnd = true ∧ 0 ≤ i + m.length then m[(i + m.length).toNat]?
  else none

/-- the row of the result: the row of the matrix, or a row of invalid values -/
def shown {V : Type} (fromEnd : Bool) (inv : V) (m : List (List V)) (ncols : Nat) (i : Int) : List V :=
  (rowOf fromEnd m i).getD (List.replicate ncols inv)

/-- `out` has for every text of `arr` the text of `new` at the first place where `old` has it -/
def Replaced {S : Type} (arr old new out : List S) : Prop :=
  out.length = arr.length ∧
  ∀ (i : Nat) (v : S), arr[i]? = some v →
    ∃ (j : Nat) (w : S), old[j]? = some v ∧ (∀ k, k < j → old[k]? ≠ some v) ∧ new[j]? = some w ∧ out[i]? = some w

end Verif.Take2.Spec
