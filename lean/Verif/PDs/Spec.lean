import Verif.PDs.Model
/-!
# Specification: partitions

What a user sees of a PDataset made of the Datasets `dss` with the partition names `ps`.
-/
namespace Verif.PDs
open Verif.Items (Name Dict)

variable {R : Type}

/-- for every row of the whole, the name of the partition it came from -/
def rowNames (ps : List Name) (dss : List (List R)) : List Name :=
  (ps.zip dss).flatMap fun p => p.2.map fun _ => p.1

/-- `d` shows the partitions `dss` under the names `ps`: their number and sizes, each of them
by position (from the start or from the end), by iteration and by name where no column has
this name, the positions of the rows in the dictionary of slices, and for every row the name
of its partition, as displayed and as a Categorical. -/
structure Shows (d : PDS R) (dss : List (List R)) (ps : List Name) : Prop where
  count : pcount d = dss.length
  sizes : prows d.cutoffs = dss.map List.length
  names : names d = ps
  all : d.rows = dss.flatten
  part : ∀ i : Nat, i < dss.length → partition d i = dss[i]?
  back : ∀ k : Nat, 0 < k → k < dss.length → partition d (-(k : Int)) = dss[dss.length - k]?
  iter : piter d = some (ps.zip dss)
  dict : ∃ sl, pdict d = some (ps.zip sl) ∧ sl.length = dss.length ∧ sl.map (sliceRows d.rows) = dss
  item : ∀ (i : Nat) (n : Name), ps[i]? = some n → n ∉ d.cols → ∃ r, dss[i]? = some r ∧ getItem d (.str n) = .part r
  label : ∀ r : Nat, r < d.rows.length → rowLabel d r = (rowNames ps dss)[r]?
  cat : d.pcat = none → shown (pcat d).1 = (rowNames ps dss).map some

end Verif.PDs
