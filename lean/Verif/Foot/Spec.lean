/-!
# Specification: footers of a Dataset (C80)

What the documentation of `footer_set_values`, `footer_remove`, `footer_get_values` and
`footer_get_dict` says, over an abstract table: a list of labels and at most one value for
each column and label.
-/
namespace Verif.Foot.Spec
variable {V : Type}

/-- the footers of a Dataset as a user sees them: its columns, the footer rows, and the value
a column has in a footer row -/
structure Foot (V : Type) where
  cols : List String
  labels : List String
  val : String → String → Option V

/-- the calls a user makes: `footer_set_values(label, footerdict)`,
`footer_remove(labels, columns)`, `ds[c] = array`, `del ds[c]` -/
inductive Op (V : Type)
  | set (label : String) (entries : List (String × V))
  | remove (labels : Option (List String)) (columns : Option (List String))
  | addCol (c : String)
  | delCol (c : String)

/-- `x` at the end of `l` unless it is there -/
def addOnce (x : String) (l : List String) : List String := if x ∈ l then l else l ++ [x]

/-- the value `entries` gives to column `c` -/
def given (entries : List (String × V)) (c : String) : Option V :=
  (entries.find? fun e => e.1 = c).map Prod.snd

/-- the labels a call names, among those that exist; all of them when it names none -/
def named (f : Foot V) : Option (List String) → List String
  | none => f.labels
  | some ls => ls.filter fun l => l ∈ f.labels

/-- the call is refused: a column it names does not exist, or it deletes a missing column.
(A removal that finds nothing to remove does not look at the columns.) -/
def Refused (f : Foot V) : Op V → Prop
  | .set _ es => ∃ e ∈ es, e.1 ∉ f.cols
  | .remove ls (some cs) => named f ls ≠ [] ∧ ∃ c ∈ cs, c ∉ f.cols
  | .remove _ none => False
  | .addCol _ => False
  | .delCol c => c ∉ f.cols

/-- what an accepted call does -/
def after (f : Foot V) : Op V → Foot V
  | .set label es =>
      { f with
        labels := addOnce label f.labels
        val := fun c l => if l = label then (given es c).or (f.val c l) else f.val c l }
  | .remove ls none =>
      { f with
        labels := f.labels.filter fun l => l ∉ named f ls
        val := fun c l => if l ∈ named f ls then none else f.val c l }
  | .remove ls (some cs) =>
      { f with val := fun c l => if l ∈ named f ls ∧ c ∈ cs then none else f.val c l }
  | .addCol c => { f with cols := addOnce c f.cols }
  | .delCol c =>
      { f with
        cols := f.cols.filter fun x => x ≠ c
        val := fun x l => if x = c then none else f.val x l }

open Classical in
/-- a call, refused or not -/
noncomputable def step (f : Foot V) (o : Op V) : Foot V := if Refused f o then f else after f o

/-- a history of calls -/
noncomputable def run (f : Foot V) (os : List (Op V)) : Foot V := os.foldl step f

/-- what `footer_get_values(labels, columns, fill_value)` should answer: for each label named, once,
one value for each column in the order asked -/
def values (f : Foot V) (labels : Option (List String)) (columns : Option (List String))
    (fill : V) : List (String × List V) :=
  (named f labels).eraseDups.map fun l =>
    (l, (columns.getD f.cols).map fun c => (f.val c l).getD fill)

/-- what `footer_get_dict(labels, columns)` should answer: for each label named, once, the
columns asked that have a value, with it -/
def dicts (f : Foot V) (labels : Option (List String)) (columns : Option (List String)) :
    List (String × List (String × V)) :=
  (named f labels).eraseDups.map fun l =>
    (l, (columns.getD f.cols).eraseDups.filterMap fun c => (f.val c l).map fun v => (c, v))

end Verif.Foot.Spec
