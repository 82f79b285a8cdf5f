import Verif.Grp.Spec
/-!
# Repeated rows: specification

A table has rows numbered from 0; `rows[i]` is what row `i` holds in the columns that are looked at. Nothing here refers to the
model.
-/
namespace Verif.Dup

/-- an earlier row holds the same -/
def Earlier {K : Type} (rows : List K) (i : Nat) : Prop := ∃ j, j < i ∧ rows[j]? = rows[i]?

/-- a later row holds the same -/
def Later {K : Type} (rows : List K) (i : Nat) : Prop := ∃ j, i < j ∧ j < rows.length ∧ rows[j]? = rows[i]?

/-- the rows nothing before which is the same, in ascending order -/
noncomputable def firstRows {K : Type} (rows : List K) : List Nat :=
  open Classical in (List.range rows.length).filter fun i => decide (¬ Earlier rows i)

/-- the rows that occur once, in ascending order -/
noncomputable def onceRows {K : Type} (rows : List K) : List Nat :=
  open Classical in (List.range rows.length).filter fun i => decide (¬ Earlier rows i ∧ ¬ Later rows i)

/-- `j` is the last row that holds the same as row `i` -/
def IsLastOf {K : Type} (rows : List K) (i j : Nat) : Prop := j < rows.length ∧ rows[j]? = rows[i]? ∧ ¬ Later rows j

/-- some other content of a row turns up for the first time after what row `i` holds has turned up -/
def NewerComes {K : Type} (rows : List K) (i : Nat) : Prop :=
  ∃ k j, k < j ∧ j < rows.length ∧ rows[k]? = rows[i]? ∧ ¬ Earlier rows j

/-- the value of column `c` in row `i` of a table given as a list of named columns -/
def cell {V : Type} (t : List (String × List V)) (c : String) (i : Nat) : Option V :=
  match t.find? fun e => decide (e.1 = c) with
  | some e => e.2[i]?
  | none => none

/-- what the rows of a table hold in the columns `cols` -/
def contents {V : Type} (t : List (String × List V)) (cols : List String) (nrows : Nat) : List (List (Option V)) :=
  (List.range nrows).map fun i => cols.map fun c => cell t c i

/-- the table made of the given rows of a table -/
def takeRows {V : Type} (t : List (String × List V)) (rows : List Nat) : List (String × List V) :=
  t.map fun e => (e.1, Verif.Grp.valuesAt e.2 rows)

/-- all columns have `nrows` rows and different names -/
def Rect {V : Type} (t : List (String × List V)) (nrows : Nat) : Prop :=
  (t.map Prod.fst).Nodup ∧ ∀ e ∈ t, e.2.length = nrows

/-- The contract of `groupby` (C++ hashing, `rt_numpy.py` `groupby`): rows get equal numbers exactly when they hold the same, numbers
go from 1 to `n`, each is used, and they are given in the order of first appearance. -/
structure Numbered {K : Type} (rows : List K) (keys : List Nat) (n : Nat) : Prop where
  len : keys.length = rows.length
  same : ∀ (i j : Nat), i < rows.length → j < rows.length → (keys[i]? = keys[j]? ↔ rows[i]? = rows[j]?)
  pos : ∀ k ∈ keys, 1 ≤ k ∧ k ≤ n
  used : ∀ (g : Nat), 1 ≤ g → g ≤ n → g ∈ keys
  order : ∀ (i b : Nat), keys[i]? = some b → ∀ (a : Nat), 1 ≤ a → a < b → ∃ j, j < i ∧ keys[j]? = some a

end Verif.Dup
