import Verif.Idx.Spec
/-!
# Trimming a table: specification

`keep = false` is `trim`: bad items are those where the test is True. `keep = true` is `keep`: bad items are those where it is False.
Nothing here refers to the model.
-/
namespace Verif.Trim
export Verif.Idx (cell Rect ColFrom)

variable {V : Type}

/-- column `c` of `t` is tested, with result `r` -/
def Tested (t : List (String × List V)) (labels : List String) (computable : String → Bool) (func : List V → Option (List Bool)) (c : String)
    (r : List Bool) : Prop :=
  ∃ (l : List V), (c, l) ∈ t ∧ c ∉ labels ∧ computable c = true ∧ func l = some r

/-- a test result without a good item -/
def AllBad (keep : Bool) (r : List Bool) : Prop := keep ∉ r

/-- the column stays: it is not tested, or columns are not to be removed, or it has a good item -/
def ColStays (t : List (String × List V)) (labels : List String) (computable : String → Bool) (func : List V → Option (List Bool))
    (columns keep : Bool) (c : String) : Prop :=
  ∀ (r : List Bool), Tested t labels computable func c r → columns = true → ¬ AllBad keep r

/-- the row stays: rows are not to be removed, or it has a good item in a tested column. Also when no tested column stays. -/
def RowStays (t : List (String × List V)) (labels : List String) (computable : String → Bool) (func : List V → Option (List Bool))
    (columns rows keep : Bool) (i : Nat) : Prop :=
  rows = false ∨ (∃ (c : String) (r : List Bool), Tested t labels computable func c r ∧ r[i]? = some keep) ∨
    ¬ ∃ (c : String) (r : List Bool), Tested t labels computable func c r ∧ ColStays t labels computable func columns keep c

end Verif.Trim
