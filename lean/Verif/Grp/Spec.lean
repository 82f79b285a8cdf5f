/-!
# Groups of rows: specification

Rows are numbered from 0. The group of a row is a number between 0 and `n`; group 0 holds the rows that belong to no group
(filtered rows). Nothing here refers to the model.
-/
namespace Verif.Grp

/-- the rows of group `g`, in ascending order -/
def rowsOf (keys : List Nat) (g : Nat) : List Nat := (List.range keys.length).filter fun i => keys[i]? == some g

/-- the groups of the rows when only the rows where `f` is true take part: the others go to group 0 -/
def masked (keys : List Nat) : Option (List Bool) → List Nat
  | none => keys
  | some f => List.zipWith (fun k ok => if ok then k else 0) keys f

/-- the values of a column at the given rows -/
def valuesAt {V : Type} (col : List V) (rows : List Nat) : List V := rows.filterMap fun i => col[i]?

/-- the first group (from 0 to `n`) that has rows -/
def firstUsed (keys : List Nat) (n : Nat) : Option Nat := (List.range (n + 1)).find? fun g => decide (rowsOf keys g ≠ [])

end Verif.Grp
