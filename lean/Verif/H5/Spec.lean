/-! # What loading an HDF5 file should mean (C356 - C359) -/
namespace Verif.H5

abbrev Name := List Char

/-- the end of the names of lists of names, and of matrices -/
def itemsEnd : Name := ['_', 'i', 't', 'e', 'm', 's']
def valuesEnd : Name := ['_', 'v', 'a', 'l', 'u', 'e', 's']

/-- a matrix: its number of columns and its rows -/
structure Mat (A : Type) where
  width : Nat
  rows : List (List A)
deriving DecidableEq, Repr

/-- an item of a workspace -/
inductive Item (A : Type) where
  | names (l : List Name)
  | mat (m : Mat A)
  | other
deriving DecidableEq, Repr

namespace Spec

/-- the name a column gets: without underscores at the front; a keyword gets the fewest underscores at its end, but at least one, such that
no column in the file has this name; the name of an attribute gets a capital letter -/
def Escaped (kw attr : Name → Bool) (cap : Name → Name) (inFile : List Name) (n m : Name) : Prop :=
  ∃ u s, n = List.replicate u '_' ++ s ∧ s.head? ≠ some '_' ∧
    ((kw s = true ∧ ∃ k, 1 ≤ k ∧ m = s ++ List.replicate k '_' ∧ m ∉ inFile ∧
        ∀ j, 1 ≤ j → j < k → s ++ List.replicate j '_' ∈ inFile) ∨
     (kw s = false ∧ attr s = true ∧ m = cap s) ∨
     (kw s = false ∧ attr s = false ∧ m = s))

variable {A : Type}

/-- a block of columns: their names under one name and their matrix under the other -/
def Block (ws : List (Name × Item A)) (names : List Name) (m : Mat A) : Prop :=
  ∃ p, (p ++ itemsEnd, Item.names names) ∈ ws ∧ (p ++ valuesEnd, Item.mat m) ∈ ws

/-- the column of a matrix -/
def IsColumn (m : Mat A) (j : Nat) (col : List A) : Prop := j < m.width ∧ List.map some col = m.rows.map fun row => row[j]?

end Spec
end Verif.H5
