/-!
# Functions of groups with several results: specification

Rows are numbered from 0; the group of a row is a number between 0 and `n`, group 0 holds the rows that belong to no group.
Nothing here refers to the model.
-/
namespace Verif.ApplyOut

/-- the rows of group `g`, in ascending order -/
def rowsIn (keys : List Nat) (g : Nat) : List Nat := (List.range keys.length).filter fun i => keys[i]? == some g

/-- the values of a column at some rows -/
def picked {V : Type} (col : List V) (rows : List Nat) : List V := rows.filterMap fun i => col[i]?

/-- all rows of a matrix have the same number of entries -/
def Rectangular {R : Type} (m : List (List R)) : Prop := ∃ k, ∀ r ∈ m, r.length = k

end Verif.ApplyOut
