import Mathlib.Data.List.Basic
/-!
# Multisets: specification

A Multiset holds Datasets and further Multisets under names. The specifications below talk about its Datasets and the paths of
names that lead to them.
-/
namespace Verif.MSet

abbrev Name := List Char

/-- a Dataset: columns with their values, and the names of its label columns -/
structure DS (V : Type) where
  cols : List (Name × List V)
  labels : List Name
deriving Repr, DecidableEq

mutual
/-- an item of a Multiset -/
inductive Elem (V : Type)
  | ds (d : DS V)
  | ms (l : Items V)
/-- the items of a Multiset, in order -/
inductive Items (V : Type)
  | nil
  | cons (name : Name) (e : Elem V) (rest : Items V)
end

deriving instance DecidableEq for Elem, Items

/-- value of a dictionary -/
def at? {A : Type} (d : List (Name × A)) (k : Name) : Option A := (d.find? fun p => decide (p.1 = k)).map Prod.snd

/-- keys of a dictionary -/
def names {A : Type} (d : List (Name × A)) : List Name := d.map Prod.fst

mutual
/-- all Datasets with the names leading to them -/
def Elem.leaves {V : Type} : Elem V → List (List Name × DS V)
  | .ds d => [([], d)]
  | .ms l => l.leaves
def Items.leaves {V : Type} : Items V → List (List Name × DS V)
  | .nil => []
  | .cons n e rest => (e.leaves.map fun p => (n :: p.1, p.2)) ++ rest.leaves
end

/-- `delimiter.join(path)` -/
def joined (delim : Name) (path : List Name) : Name := delim.intercalate path

/-- a Dataset as every Dataset is: every name once, all columns of one length, labels are columns -/
def DS.Ok {V : Type} (d : DS V) (n : Nat) : Prop :=
  (names d.cols).Nodup ∧ (∀ c ∈ d.cols, c.2.length = n) ∧ d.labels.Nodup ∧ ∀ l ∈ d.labels, l ∈ names d.cols

/-- the columns that are not labels -/
def DS.values {V : Type} (d : DS V) : List (Name × List V) := d.cols.filter fun c => decide (c.1 ∉ d.labels)

/-- the label columns, in the order of the labels -/
def DS.labelCols {V : Type} (d : DS V) : List (Name × List V) :=
  d.labels.filterMap fun l => (at? d.cols l).map fun v => (l, v)

/-- a name seen for the first time -/
def firsts : List Name → List Name
  | [] => []
  | a :: l => a :: (firsts l).filter fun b => decide (b ≠ a)

end Verif.MSet
