import Verif.Dup.Spec
/-!
# Making tables out of tables and rows: specification

`cell t c i` is the value of column `c` in row `i` of the table `t`. Nothing here refers to the model.
-/
namespace Verif.Make
export Verif.Dup (cell Rect contents)

/-- the table with the given rows and column names -/
structure HasRows {V : Type} (names : List String) (rows : List (List V)) (t : List (String × List V)) : Prop where
  cols : t.map Prod.fst = names
  rect : Rect t rows.length
  value : ∀ (i j : Nat) (c : String), i < rows.length → names[j]? = some c → cell t c i = (rows[i]?).bind fun r => r[j]?

/-- the first column called `c` in a list of columns -/
def FirstCol {A : Type} (l : List (String × A)) (c : String) (a : A) : Prop :=
  ∃ (k : Nat), l[k]? = some (c, a) ∧ ∀ (k' : Nat), k' < k → ∀ e, l[k']? = some e → e.1 ≠ c

/-- the last column called `c` in a list of columns -/
def LastCol {A : Type} (l : List (String × A)) (c : String) (a : A) : Prop :=
  ∃ (k : Nat), l[k]? = some (c, a) ∧ ∀ (k' : Nat), k < k' → ∀ e, l[k']? = some e → e.1 ≠ c

/-- all ways to take one item of each list; the item of the first list changes fastest -/
def combos {V : Type} : List (List V) → List (List V)
  | [] => [[]]
  | l :: ls => (combos ls).flatMap fun r => l.map fun x => x :: r

/-- the longest length -/
def longest {A : Type} (rows : List (List A)) : Nat := (rows.map List.length).foldl max 0

/-- `w` is the width of a column that just holds all the strings: the longest length, at least 1 -/
def IsWidth (rows : List (List (List Char))) (w : Nat) : Prop :=
  1 ≤ w ∧ (∀ r ∈ rows, ∀ x ∈ r, x.length ≤ w) ∧ (w = 1 ∨ ∃ r ∈ rows, ∃ x ∈ r, x.length = w)

end Verif.Make
