/-!
# What filling means

`FilledFrom isInv fillVal limit arr out` says that `out` is `arr` filled
forward: nothing valid changes, and an invalid entry takes the nearest
preceding valid value (or `fillVal` if there is none) when that value is at
most `limit` positions away (`limit ≤ 0`: no bound).
-/
namespace Verif.Fill

/-- `j` is the position of the last valid entry before position `i`. -/
def LastValidBefore {α : Type} (isInv : α → Bool) (arr : List α) (i j : Nat) (y : α) : Prop :=
  j < i ∧ arr[j]? = some y ∧ isInv y = false ∧
    ∀ (k : Nat) (z : α), j < k → k < i → arr[k]? = some z → isInv z = true

/-- No valid entry occurs before position `i`. -/
def NoneValidBefore {α : Type} (isInv : α → Bool) (arr : List α) (i : Nat) : Prop :=
  ∀ (k : Nat) (z : α), k < i → arr[k]? = some z → isInv z = true

/-- Distance `d` is allowed by `limit`. -/
def Within (limit : Int) (d : Nat) : Prop := limit ≤ 0 ∨ (d : Int) ≤ limit

instance (limit : Int) (d : Nat) : Decidable (Within limit d) := by
  unfold Within; infer_instance

structure FilledFrom {α : Type} (isInv : α → Bool) (fillVal : α) (limit : Int)
    (arr out : List α) : Prop where
  length_eq : out.length = arr.length
  valid_kept : ∀ (i : Nat) (x : α), arr[i]? = some x → isInv x = false → out[i]? = some x
  filled : ∀ (i : Nat) (x : α) (j : Nat) (y : α), arr[i]? = some x → isInv x = true → LastValidBefore isInv arr i j y →
    out[i]? = some (if Within limit (i - j) then y else x)
  leading : ∀ (i : Nat) (x : α), arr[i]? = some x → isInv x = true → NoneValidBefore isInv arr i →
    out[i]? = some (if Within limit (i + 1) then fillVal else x)

end Verif.Fill
