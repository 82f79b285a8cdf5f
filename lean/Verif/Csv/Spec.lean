import Verif.Make.Spec
/-!
# Reading CSV files: specification

Nothing here refers to the model.
-/
namespace Verif.Csv

/-- A row of a file as a row of the Dataset: its first fields, each converted. -/
def valueRow {F V : Type} (conv : String → F → V) (names : List String) (r : List F) : List V := List.zipWith conv names r

/-- The lines of a file that are not blank. -/
def filled {F : Type} (rows : List (List F)) : List (List F) := rows.filter fun r => !r.isEmpty

end Verif.Csv
