/-!
# Specification: moved arrays, changes between entries, numbers of different entries (C93, C94)
-/
namespace Verif.Arr.Spec

/-- entry `j` of an array, for any whole number `j` -/
def entry {V : Type} (xs : List V) (j : Int) : Option V := if 0 ≤ j then xs[j.toNat]? else none

/-- `ys` is `xs` moved by `p` places to the right (left if negative), `inv` where nothing arrives -/
def Moved {V : Type} (inv : V) (p : Int) (xs ys : List V) : Prop :=
  ys.length = xs.length ∧ ∀ i : Nat, i < xs.length → ys[i]? = some ((entry xs (i - p)).getD inv)

/-- `bs` is True exactly where there is an entry `p` places before and `r` holds for the two -/
def Related {V : Type} (r : V → V → Bool) (p : Int) (xs : List V) (bs : List Bool) : Prop :=
  bs.length = xs.length ∧ ∀ (i : Nat) (x : V), xs[i]? = some x → ∃ b, bs[i]? = some b ∧ (b = true ↔ ∃ y, entry xs (i - p) = some y ∧ r x y = true)

/-- the number of different entries with property `p`: `l` lists them -/
def DifferentOf {V : Type} (p : V → Prop) (xs : List V) (k : Nat) : Prop :=
  ∃ l : List V, l.Nodup ∧ l.length = k ∧ ∀ v, v ∈ l ↔ v ∈ xs ∧ p v

end Verif.Arr.Spec
