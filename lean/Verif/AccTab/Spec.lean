import Verif.Items.Dict
/-!
# Cross tables and what is shown around them
-/
namespace Verif.AccTab
open Verif.Items (Name Dict)

/-- a Dataset made by an `Accum2` calculation: name and contents of the label column, the other
columns, which of them are summary columns, and the footers (footer label, column, value) -/
structure Tab (L V : Type) where
  key : Name
  rows : List L
  cols : Dict Name (List V)
  summ : List Name
  foot : Dict Name (Dict Name V)
  deriving DecidableEq, Repr

/-- the contents of a cross table: one value for each pair of labels, for each row, for each
column, for everything -/
structure Cross (L V : Type) where
  cell : L → Name → V
  row : L → V
  col : Name → V
  all : V

/-- the cross table with these contents for rows `R` and columns `C`, its totals called `name` -/
def Cross.table {L V : Type} (x : Cross L V) (key : Name) (R : List L) (C : List Name) (name : Name) : Tab L V :=
  { key := key
    rows := R
    cols := C.map (fun c => (c, R.map fun r => x.cell r c)) ++ [(name, R.map x.row)]
    summ := [name]
    foot := [(name, C.map (fun c => (c, x.col c)) ++ [(name, x.all)])] }

/-- entry by entry -/
def Cross.map2 {L V : Type} (op : V → V → V) (x y : Cross L V) : Cross L V :=
  { cell := fun r c => op (x.cell r c) (y.cell r c)
    row := fun r => op (x.row r) (y.row r)
    col := fun c => op (x.col c) (y.col c)
    all := op x.all y.all }

/-- the table of `x` (called `name`) with the totals of other tables as more columns (`ms`) and
more footers (`fs`); with or without its own totals of the rows (`tot`) -/
def Cross.withMargins {L V : Type} (x : Cross L V) (key : Name) (R : List L) (C : List Name) (name : Name) (tot : Bool)
    (ms fs : List (Name × Cross L V)) : Tab L V :=
  { key := key
    rows := R
    cols := C.map (fun c => (c, R.map fun r => x.cell r c)) ++ ((if tot then [(name, R.map x.row)] else []) ++
      ms.map fun m => (m.1, R.map m.2.row))
    summ := (if tot then [name] else []) ++ ms.map Prod.fst
    foot := (name, C.map (fun c => (c, x.col c)) ++ if tot then [(name, x.all)] else []) ::
      fs.map fun f => (f.1, C.map (fun c => (c, f.2.col c)) ++ if f.1 ∈ ms.map Prod.fst then [(f.1, f.2.all)] else []) }

/-- the rows that a filter keeps: those where it is True, in order; all without a filter -/
def kept {α : Type} : Option (List Bool) → List α → List α
  | none, l => l
  | some m, l => go m l
where
  go : List Bool → List α → List α
    | true :: m, x :: l => x :: go m l
    | false :: m, _ :: l => go m l
    | _, _ => []

/-- `norm_by`: percentages of everything, of the row, of the column -/
inductive Norm where
  | T
  | R
  | C
  deriving DecidableEq, Repr

/-- the percentages (`pct part whole`).  The totals of the columns are percentages of everything,
or 100 if the columns are normalized; the totals of the rows likewise. -/
def Cross.percent {L V : Type} (pct : V → V → V) (hundred : V) (x : Cross L V) : Norm → Cross L V
  | .T => ⟨fun r c => pct (x.cell r c) x.all, fun r => pct (x.row r) x.all, fun c => pct (x.col c) x.all, pct x.all x.all⟩
  | .R => ⟨fun r c => pct (x.cell r c) (x.row r), fun r => pct (x.row r) (x.row r), fun c => pct (x.col c) x.all, pct x.all x.all⟩
  | .C => ⟨fun r c => pct (x.cell r c) (x.col c), fun r => pct (x.row r) x.all, fun _ => hundred, hundred⟩

/-- one entry of the list given to `accum_cols`: values, values as percentages, or a ratio -/
inductive Entry (L V : Type) where
  | plain (x : Cross L V)
  | pct (x : Cross L V)
  | ratio (num den : Cross L V)

/-- what `accum_cols` should show in each row and in the footer, where the columns are not grouped
(one column `c`) -/
def Entry.shown {L V : Type} (op pct : V → V → V) (c : Name) : Entry L V → (L → V) × V
  | .plain x => (fun r => x.cell r c, x.col c)
  | .pct x => (fun r => pct (x.cell r c) x.all, pct (x.col c) x.all)
  | .ratio n d => (fun r => op (n.cell r c) (d.cell r c), op (n.col c) (d.col c))

end Verif.AccTab
