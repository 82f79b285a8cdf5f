import Verif.Outlier.Model
/-! # What outliers are: only the types of values are shared with the model -/
namespace Verif.Outlier

/-- `arg` finds the row of a value that is best for the order `le` among the numbers, if there is a number -/
def Finds (le : ℚ → ℚ → Prop) (arg : Arg) : Prop :=
  ∀ l, (∀ v, some v ∈ l → arg l ≠ none) ∧ ∀ p, arg l = some p → ∃ v, l[p]? = some (some v) ∧ ∀ w, some w ∈ l → le w v

/-- the columns of the result with a row for each column that is not the one kept; the best value, its row, and what is kept in that row -/
def Describes (le : ℚ → ℚ → Prop) (ds : List (String × Col)) (keep : String) (kept : List Cell) (out : List (String × List Cell)) : Prop :=
  ∃ names values whose rows : List Cell, out = [("Values", values), (keep, whose), ("Pos", rows), ("Names", names)] ∧
    names = (ds.filter fun c => c.1 ≠ keep).map (fun c => Cell.text c.1) ∧
    values.length = names.length ∧ whose.length = names.length ∧ rows.length = names.length ∧
    ∀ (i : Nat) (n : String) (l : List (Option ℚ)), (ds.filter fun c => c.1 ≠ keep)[i]? = some (n, Col.num l) → (∃ v, some v ∈ l) →
      ∃ (p : Nat) (v : ℚ), l[p]? = some (some v) ∧ (∀ w, some w ∈ l → le w v) ∧ values[i]? = some (Cell.num (some v)) ∧
        rows[i]? = some (Cell.num (some (p : ℚ))) ∧ whose[i]? = kept[p]?

end Verif.Outlier
