/-!
# Specification: functions and arithmetic on all columns of a Dataset (C85-C88)

A column is an array with a mark telling whether one can compute with it (strings and
Categoricals are not computable).  A function is applied to the computable columns which are not
labels; every other column stays as it is.
-/
namespace Verif.Cols.Spec

/-- a column -/
structure Col (V : Type) where
  comp : Bool
  vals : List V
deriving DecidableEq

/-- what applying `g` makes of the column `c` called `n` -/
def mapped {V : Type} (g : List V → Col V) (labels : List String) (n : String) (c : Col V) : Col V :=
  if c.comp = true ∧ n ∉ labels then g c.vals else c

/-- the name a column has afterwards: summary columns are numbered in the order of the list of
summaries -/
def newName (summaries : List String) (n : String) : String :=
  if n ∈ summaries then "Summary" ++ toString (summaries.idxOf n) else n

/-- a name which a summary column shall get is taken: by a column which is no summary, or by a
summary which is renamed later -/
def Taken (keys summaries : List String) : Prop :=
  ∃ k < summaries.length, "Summary" ++ toString k ∈ keys ∧ ∀ j ≤ k, summaries[j]? ≠ some ("Summary" ++ toString k)

/-- the second operand for one column: a number or an array -/
inductive Arg (V : Type)
  | one (v : V)
  | arr (xs : List V)
deriving DecidableEq

/-- an operand fits a column of `n` rows -/
def Arg.fits {V : Type} (n : Nat) : Arg V → Bool
  | .one _ => true
  | .arr xs => xs.length = n

/-- what the arithmetic with another container makes of the column `c`, whose counterpart there
is `o` -/
def paired {V : Type} (g : List V → Arg V → Col V) (labels : List String) (n : String) (c : Col V) (o : Option (Arg V)) : Col V :=
  if c.comp = true ∧ n ∉ labels then (o.map (g c.vals)).getD c else c

/-- the addresses of the arrays of the columns an operator changes, one for each column -/
def touched (labels : List String) (cols : List (String × Bool × Nat)) : List Nat :=
  (cols.filter fun e => e.2.1 && !labels.contains e.1).map fun e => e.2.2

/-- `g` applied `k` times -/
def times {V : Type} (g : List V → List V) : Nat → List V → List V
  | 0, xs => xs
  | k + 1, xs => times g k (g xs)

end Verif.Cols.Spec
