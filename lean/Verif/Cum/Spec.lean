/-!
# What a running extremum is
-/
namespace Verif.Cum

/-- `y` is a best valid value among positions `0..i` of `arr`; `better a b` reads
"`a` should replace `b`". -/
def BestUpTo {α : Type} (isInv : α → Bool) (better : α → α → Prop) (arr : List α) (i : Nat)
    (y : α) : Prop :=
  (∃ j, j ≤ i ∧ arr[j]? = some y) ∧ isInv y = false ∧
    ∀ (k : Nat) (z : α), k ≤ i → arr[k]? = some z → isInv z = false → ¬ better z y

/-- Some position in `0..i` holds a valid value. -/
def SomeValidUpTo {α : Type} (isInv : α → Bool) (arr : List α) (i : Nat) : Prop :=
  ∃ (k : Nat) (z : α), k ≤ i ∧ arr[k]? = some z ∧ isInv z = false

/-- Some position in `0..i` holds an invalid value. -/
def SomeInvalidUpTo {α : Type} (isInv : α → Bool) (arr : List α) (i : Nat) : Prop :=
  ∃ (k : Nat) (z : α), k ≤ i ∧ arr[k]? = some z ∧ isInv z = true

/-- Running extremum ignoring invalid values. -/
structure RunningSkip {α : Type} (isInv : α → Bool) (better : α → α → Prop)
    (arr out : List α) : Prop where
  length_eq : out.length = arr.length
  best : ∀ i, i < arr.length → SomeValidUpTo isInv arr i →
    ∃ y, out[i]? = some y ∧ BestUpTo isInv better arr i y
  none_yet : ∀ i, i < arr.length → ¬ SomeValidUpTo isInv arr i →
    ∃ y, out[i]? = some y ∧ isInv y = true

/-- Running extremum that becomes and stays invalid at the first invalid value. -/
structure RunningSticky {α : Type} (isInv : α → Bool) (better : α → α → Prop)
    (arr out : List α) : Prop where
  length_eq : out.length = arr.length
  best : ∀ i, i < arr.length → ¬ SomeInvalidUpTo isInv arr i →
    ∃ y, out[i]? = some y ∧ BestUpTo isInv better arr i y
  sticky : ∀ i, i < arr.length → SomeInvalidUpTo isInv arr i →
    ∃ y, out[i]? = some y ∧ isInv y = true

end Verif.Cum
