import Verif.Accum.Model

/-! # What a cross table should show -/
namespace Verif.Accum
open Verif.Items

/-- the label of a code, `none` is filtered -/
def Axis.label (a : Axis) (k : Nat) : Option Name := if k = 0 then none else a.labels[k - 1]?

/-- the display order is a permutation and the labels are different -/
def Axis.OK (a : Axis) : Prop := a.isort.Perm (List.range a.n) ∧ a.labels.Nodup

/-- codes stand for labels -/
def DataOK {V : Type} (rows cols : Axis) (data : List (Row V)) : Prop := ∀ x ∈ data, x.r ≤ rows.n ∧ x.c ≤ cols.n

/-- labels of a row of data; a row that does not pass the filter has none -/
def labels {V : Type} (rows cols : Axis) (x : Row V) : Option Name × Option Name :=
  if x.pass then (rows.label x.r, cols.label x.c) else (none, none)

/-- values of the rows of data with the given labels, in order -/
def cell {V : Type} (rows cols : Axis) (data : List (Row V)) (r c : Option Name) : List V :=
  (data.filter fun x => labels rows cols x = (r, c)).map Row.v

/-- which labels the table shows -/
def shows (showfilter : Bool) (l : Option Name) : Bool := showfilter || l.isSome

/-- values of the rows of data in one row of the table -/
def rowValues {V : Type} (rows cols : Axis) (data : List (Row V)) (showfilter : Bool) (r : Option Name) : List V :=
  (data.filter fun x => decide ((labels rows cols x).1 = r) && shows showfilter (labels rows cols x).2).map Row.v

/-- values of the rows of data in one column of the table -/
def colValues {V : Type} (rows cols : Axis) (data : List (Row V)) (showfilter : Bool) (c : Option Name) : List V :=
  (data.filter fun x => decide ((labels rows cols x).2 = c) && shows showfilter (labels rows cols x).1).map Row.v

/-- all values in the table -/
def allValues {V : Type} (rows cols : Axis) (data : List (Row V)) (showfilter : Bool) : List V :=
  (data.filter fun x => shows showfilter (labels rows cols x).1 && shows showfilter (labels rows cols x).2).map Row.v

/-- labels of the rows of the table in display order -/
def shownRows (rows : Axis) (showfilter : Bool) : List (Option Name) :=
  (if showfilter then [none] else []) ++ rows.shown.map some

/-- names of the columns that hold data -/
def dataNames (cols : Axis) (showfilter : Bool) : List Name :=
  (if showfilter then [filteredName] else []) ++
    (List.range cols.n).map fun i => colName i (cols.shown.getD i [])

/-- no two columns of the table have the same name -/
def NamesOK (keyName name : Name) (cols : Axis) (showfilter : Bool) : Prop :=
  (keyName :: (dataNames cols showfilter ++ [name])).Nodup

/-- the aggregate of everything can be computed from aggregates of parts (sum, nanmin, nanmax) -/
def IsTotal {V : Type} (agg func : List V → V) : Prop :=
  ∀ (parts : List (List V)) (l : List V), l.Perm parts.flatten → func (parts.map agg) = agg l

end Verif.Accum
