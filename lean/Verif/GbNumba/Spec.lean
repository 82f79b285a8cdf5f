import Mathlib.Data.List.Basic

/-! # What a group-by aggregation is -/
namespace Verif.GbNumba
variable {α : Type}

/-- the values of the rows in group `g`, in row order -/
def groupVals (ikey : List Nat) (data : List α) (g : Nat) : List α :=
  ((ikey.zip data).filter fun p => p.1 = g).map Prod.snd

/-- `m` is the least element of `l` -/
def IsMin [LE α] (m : α) (l : List α) : Prop := m ∈ l ∧ ∀ x ∈ l, m ≤ x

end Verif.GbNumba
