/-!
# Specification: `Dataset.equals` (C81)

"Test whether two Datasets contain the same elements in each column.  NaNs in the same location
are considered equal."  "`exact`: when True, the exact order of all columns must match."

A table is a list of named columns.  `eq` and `nan` are the element comparison and the NaN test.
-/
namespace Verif.Equal.Spec
variable {C : Type}

/-- a table -/
abbrev Table (C : Type) := List (String × List C)

/-- the column of a name -/
def col (t : Table C) (k : String) : Option (List C) :=
  (t.find? fun e => e.1 = k).map Prod.snd

/-- two elements count as equal -/
def Same (eq : C → C → Bool) (nan : C → Bool) (x y : C) : Prop :=
  eq x y = true ∨ nan x = true ∧ nan y = true

/-- two columns are both absent, or both present with the same elements -/
inductive SameCol (eq : C → C → Bool) (nan : C → Bool) : Option (List C) → Option (List C) → Prop
  | absent : SameCol eq nan none none
  | present {v w : List C} (h : v.length = w.length)
      (hs : ∀ i (h1 : i < v.length) (h2 : i < w.length), Same eq nan v[i] w[i]) :
      SameCol eq nan (some v) (some w)

/-- the tables have the same elements in each column -/
def SameContents (eq : C → C → Bool) (nan : C → Bool) (t u : Table C) : Prop :=
  ∀ k, SameCol eq nan (col t k) (col u k)

/-- … and the columns are in the same order -/
def SameInOrder (eq : C → C → Bool) (nan : C → Bool) (t u : Table C) : Prop :=
  t.map Prod.fst = u.map Prod.fst ∧ SameContents eq nan t u

end Verif.Equal.Spec
