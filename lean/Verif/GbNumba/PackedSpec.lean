import Verif.GbNumba.Spec
import Verif.Fill.Spec
import Mathlib.Algebra.BigOperators.Group.List.Basic
import Mathlib.Algebra.Ring.Defs

/-! # What the grouped fills and the grouped EMA compute -/
namespace Verif.GbNumba
variable {α : Type}

/-- `out` is `arr` filled within each of the groups `base … n` separately: forward, or
backward (then the reversed group is filled forward). -/
def GroupFilled (isInv : α → Bool) (fillVal : α) (limit : Int) (forward : Bool) (ikey : List Nat) (base n : Nat) (arr out : List α) : Prop :=
  ∀ c, base ≤ c → c ≤ n →
    if forward then Fill.FilledFrom isInv fillVal limit (groupVals ikey arr c) (groupVals ikey out c)
    else Fill.FilledFrom isInv fillVal limit (groupVals ikey arr c).reverse (groupVals ikey out c).reverse

/-- Exponentially decayed sum at position `i`: every earlier value of the group counts
with the weight of its age. -/
def decayedSum {R T : Type} [CommRing R] [Sub T] (E : T → R) (vals : List R) (times : List T) (i : Nat) (t : T) : R :=
  (((vals.zip times).take (i + 1)).map fun p => p.1 * E (t - p.2)).sum

end Verif.GbNumba
