import Mathlib.Data.List.Basic
import Mathlib.Data.List.Lex
/-!
# Making, indexing and copying Categoricals: specification

A Categorical is seen through its rows (`c[i]`) and its categories. Nothing here refers to the model.
-/
namespace Verif.CatNew

/-- what a row of a Categorical shows: the category (one value per key), the filtered row, or a code without category -/
inductive Row (S : Type) where
  | label (k : List S)
  | filtered
  | bad (code : Int)
deriving DecidableEq, Repr

/-- row `i` passes the filter -/
def Passes (filter : Option (List Bool)) (i : Nat) : Prop :=
  match filter with
  | none => True
  | some f => f[i]? = some true

instance (filter : Option (List Bool)) (i : Nat) : Decidable (Passes filter i) := by
  unfold Passes; cases filter <;> infer_instance

/-- the keys of row `i` of several arrays -/
def keysOf {S : Type} (arrs : List (List S)) (i : Nat) : List S := arrs.filterMap fun a => a[i]?

/-- `cats` lists the keys of the rows that pass, each once -/
structure AreCategories {S : Type} (arrs : List (List S)) (n : Nat) (filter : Option (List Bool)) (cats : List (List S)) : Prop where
  once : cats.Nodup
  mem : ∀ k, k ∈ cats ↔ ∃ i, i < n ∧ Passes filter i ∧ keysOf arrs i = k

/-- in the order in which the rows show them first: before the first row of a category come first rows of the categories before it -/
def ByAppearance {S : Type} (arrs : List (List S)) (filter : Option (List Bool)) (cats : List (List S)) : Prop :=
  ∃ first : List Nat, first.Pairwise (· < ·) ∧ cats = first.map (keysOf arrs) ∧
    ∀ i ∈ first, Passes filter i ∧ ∀ j < i, Passes filter j → keysOf arrs j ≠ keysOf arrs i

end Verif.CatNew
