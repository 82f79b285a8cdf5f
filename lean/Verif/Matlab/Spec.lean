import Mathlib.Data.List.Forall2
/-! # What turning matlab columns into Categoricals should mean (C347 - C350) -/
namespace Verif.Matlab

abbrev Name := List Char
abbrev Text := List Char

/-- an item of the Struct: an array of indices, a Categorical (codes and categories), or anything else -/
inductive Val where
  | idx (codes : List Nat)
  | cat (codes : List Nat) (names : List Text)
  | other
deriving DecidableEq, Repr

abbrev Cols := List (Name × Val)

namespace Spec

/-- the text without the spaces at its end -/
def TrimOf (s t : Text) : Prop := ∃ n, s = t ++ List.replicate n ' ' ∧ t.getLast? ≠ some ' '

/-- the texts as categories: without the spaces at their end if that is asked for -/
def ShownAs (strip : Bool) (xtra xtra' : List (Name × List Text)) : Prop :=
  List.Forall₂ (fun kt kt' => kt'.1 = kt.1 ∧ if strip then List.Forall₂ TrimOf kt.2 kt'.2 else kt'.2 = kt.2) xtra xtra'

/-- the indices under a name -/
def Indices (cols : Cols) (n : Name) (codes : List Nat) : Prop := (n, Val.idx codes) ∈ cols

/-- with the prefix kept: a column of indices whose texts are given is a Categorical of them under the same name, all others are as before -/
def Kept (pre : Name) (xtra : List (Name × List Text)) (c c' : Name × Val) : Prop :=
  c'.1 = c.1 ∧
  ((∃ k names codes, (k, names) ∈ xtra ∧ c.1 = pre ++ k ∧ c.2 = .idx codes ∧ c'.2 = .cat codes names) ∨
   ((∀ k names codes, (k, names) ∈ xtra → c.1 = pre ++ k → c.2 ≠ .idx codes) ∧ c'.2 = c.2))

/-- the column gives way to a Categorical of its name -/
def Replaced (pre : Name) (xtra : List (Name × List Text)) (cols : Cols) (n : Name) : Prop :=
  ∃ names codes, (n, names) ∈ xtra ∧ Indices cols (pre ++ n) codes

/-- with the prefix dropped: a column of indices whose texts are given is a Categorical of them under the name of the texts, all others
are as before -/
def Dropped (pre : Name) (xtra : List (Name × List Text)) (c c' : Name × Val) : Prop :=
  (∃ k names codes, (k, names) ∈ xtra ∧ c.1 = pre ++ k ∧ c.2 = .idx codes ∧ c' = (k, .cat codes names)) ∨
  ((∀ k names codes, (k, names) ∈ xtra → c.1 = pre ++ k → c.2 ≠ .idx codes) ∧ c' = c)

end Spec
end Verif.Matlab
