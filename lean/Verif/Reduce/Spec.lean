/-!
# Specification: reductions of a Dataset by column, by row, as a whole; transposing (C89-C92)

A table is a list of named columns of one length; `rowOf` reads a row of it.
-/
namespace Verif.Reduce.Spec

/-- row `i` of a list of columns -/
def rowOf {V : Type} (cols : List (List V)) (i : Nat) : List V :=
  cols.filterMap fun c => c[i]?

/-- all columns have `n` entries -/
def Even {V : Type} (cols : List (List V)) (n : Nat) : Prop := ∀ c ∈ cols, c.length = n

/-- the function of all entries is the function of the results of the parts -/
def ByParts {V : Type} (func : List V → V) : Prop :=
  ∀ parts : List (List V), func (parts.map func) = func parts.flatten

/-- some entry of some column is true -/
def SomeTrue {V : Type} (t : V → Bool) (cols : List (List V)) : Prop := ∃ c ∈ cols, ∃ v ∈ c, t v = true

/-- every entry of every column is true -/
def AllTrue {V : Type} (t : V → Bool) (cols : List (List V)) : Prop := ∀ c ∈ cols, ∀ v ∈ c, t v = true

end Verif.Reduce.Spec
