import Mathlib.Data.List.Basic

/-! What `ismember` of labels means; `none` is a filtered row. -/
namespace Verif.MemberCat.Spec

/-- `r` tells for every row of `la` the first row of `lb` that shows the same label, nothing if there is none; filtered rows have none -/
def Found {T : Type} (la lb : List (Option T)) (r : List (Option Nat)) : Prop :=
  r.length = la.length ∧
  ∀ (i : Nat) (x : Option Nat), r[i]? = some x →
    ∀ j : Nat, x = some j ↔ ∃ v : T, la[i]? = some (some v) ∧ lb[j]? = some (some v) ∧ ∀ k, k < j → lb[k]? ≠ some (some v)

end Verif.MemberCat.Spec
