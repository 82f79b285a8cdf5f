import Verif.Cat.Spec
import Verif.SdsStack.Filter
/-!
# C249–C251: what a stack of saved Datasets shows

A Dataset is a list of named columns.  A column is kept as integers with the meaning of the integers: numbers of a class
(class 0 is `FastArray`; other numbers stand for a subclass together with its settings, for example a `DateTimeNano` in a
time zone), codes of an array of categories, or codes of a mapping.
-/
namespace Verif.SdsStack

inductive Kind (L : Type) where
  | plain (cls : Nat)
  | arr (base : Nat) (labels : List L)
  | map (pairs : List (Int × List Char))

structure Column (L : Type) where
  kind : Kind L
  vals : List Int

structure Table (L : Type) where
  rows : Nat
  cols : List (Name × Column L)

/-- what a cell shows -/
inductive Cell (L : Type) where
  | num (cls : Nat) (v : Int)
  | label (l : L)
  | text (s : List Char)
deriving DecidableEq

/-- the label of a code of an array of categories -/
def labelAt {L : Type} (base : Nat) (labels : List L) (v : Int) : Option L :=
  if v < base then none else labels[(v - base).toNat]?

/-- `none`: the cell is missing.  `inv` is the invalid integer.  A code without a label in a mapping is shown as a number. -/
def cellOf {L : Type} (inv : Int) : Kind L → Int → Option (Cell L)
  | .plain cls, v => if v = inv then none else some (.num cls v)
  | .arr base labels, v => (labelAt base labels v).map .label
  | .map pairs, v => match pairs.find? fun e => e.1 = v with
    | some e => some (.text e.2)
    | none => some (.num 0 v)

def Column.shows {L : Type} (inv : Int) (c : Column L) : List (Option (Cell L)) := c.vals.map (cellOf inv c.kind)

/-- the column of a name -/
def Table.col {L : Type} (t : Table L) (n : Name) : Option (Column L) := (t.cols.find? fun e => e.1 = n).map (·.2)

/-- the cells of one Dataset in the column of a name: all missing when it has no such column -/
def Table.shows {L : Type} (inv : Int) (t : Table L) (n : Name) : List (Option (Cell L)) :=
  match t.col n with
  | some c => c.shows inv
  | none => List.replicate t.rows none

/-- all names, in the order in which they first occur -/
def allNames {L : Type} (ts : List (Table L)) : List Name := (ts.flatMap fun t => t.cols.map (·.1)).eraseDups

/-- kind of a column without its categories: class, base index or mapping -/
def Kind.tag {L : Type} : Kind L → Nat × Nat
  | .plain cls => (0, cls)
  | .arr base _ => (1, base)
  | .map _ => (2, 0)

/-- codes and categories as they are constructed: distinct categories, codes of categories or of filtered rows -/
def KindOK {L : Type} (inv : Int) (c : Column L) : Prop :=
  match c.kind with
  | .plain _ => True
  | .arr base labels => base ≤ 1 ∧ labels.Nodup ∧ ∀ k ∈ c.vals, 0 ≤ k ∧ k < (base : Int) + labels.length
  | .map pairs => (pairs.map (·.1)).Nodup ∧ (pairs.map (·.2)).Nodup ∧ inv ∉ c.vals

structure TableOK {L : Type} (inv : Int) (t : Table L) : Prop where
  names : (t.cols.map (·.1)).Nodup
  bang : ∀ e ∈ t.cols, '!' ∉ e.1
  len : ∀ e ∈ t.cols, e.2.vals.length = t.rows
  kind : ∀ e ∈ t.cols, KindOK inv e.2

/-- the columns of one name are of one kind -/
def SameKind {L : Type} (ts : List (Table L)) : Prop :=
  ∀ t ∈ ts, ∀ t' ∈ ts, ∀ n c c', t.col n = some c → t'.col n = some c' → c.kind.tag = c'.kind.tag

/-- the mappings of the columns of one name -/
def pairsOf {L : Type} (t : Table L) (n : Name) : List (Int × List Char) :=
  match t.col n with
  | some ⟨.map pairs, _⟩ => pairs
  | _ => []

/-- no code with two labels and no label with two codes -/
def MapsAgree {L : Type} (ts : List (Table L)) (n : Name) : Prop :=
  ∀ e ∈ ts.flatMap (pairsOf · n), ∀ e' ∈ ts.flatMap (pairsOf · n), (e.1 = e'.1 ↔ e.2 = e'.2)

/-- every Dataset has the column -/
def Complete {L : Type} (ts : List (Table L)) (n : Name) : Prop := ∀ t ∈ ts, ∃ c, t.col n = some c

/-- Columns whose rows are shown as they were: numbers of any class and Categoricals of base 1; Categoricals of base 0 when
every Dataset has the column; mappings when every Dataset has the column, they do not contradict each other, and every code
has a label in its own Dataset. -/
def Stackable {L : Type} (ts : List (Table L)) (n : Name) : Prop :=
  ∀ t ∈ ts, ∀ c, t.col n = some c → match c.kind with
    | .plain _ => True
    | .arr base _ => base = 1 ∨ Complete ts n
    | .map pairs => Complete ts n ∧ MapsAgree ts n ∧ ∀ v ∈ c.vals, ∃ l, (v, l) ∈ pairs

end Verif.SdsStack
