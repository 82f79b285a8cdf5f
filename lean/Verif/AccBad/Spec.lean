import Verif.Accum.Spec
import Mathlib.Data.List.Forall2
/-! # What leaving rows and columns out of the totals of a cross table should mean (C351 - C355) -/
namespace Verif.AccBad
open Verif.Accum Verif.Items

/-- what is given for bad rows or columns: their numbers or their labels -/
inductive Slots where
  | nums (l : List Nat)
  | names (l : List Name)
deriving DecidableEq, Repr

namespace Spec

/-- the labels that are meant -/
def Means (a : Axis) : Option Slots → List Name → Prop
  | none, bad => bad = []
  | some (.nums l), bad => List.Forall₂ (fun i b => a.labels[i]? = some b) l bad
  | some (.names l), bad => bad = l ∧ ∀ b ∈ l, b ∈ a.labels

/-- a label that is not bad; what is filtered is not -/
def good (bad : List Name) (l : Option Name) : Bool :=
  match l with
  | none => true
  | some n => !bad.contains n

variable {V : Type}

/-- values in a row of the table but those in bad columns -/
def rowVals (rows cols : Axis) (data : List (Row V)) (sf : Bool) (badC : List Name) (r : Option Name) : List V :=
  (data.filter fun x => decide ((labels rows cols x).1 = r) && (shows sf (labels rows cols x).2 && good badC (labels rows cols x).2)).map
    Row.v

/-- values in a column of the table but those in bad rows -/
def colVals (rows cols : Axis) (data : List (Row V)) (sf : Bool) (badR : List Name) (c : Option Name) : List V :=
  (data.filter fun x => decide ((labels rows cols x).2 = c) && (shows sf (labels rows cols x).1 && good badR (labels rows cols x).1)).map
    Row.v

/-- values of the table but those in bad rows or columns -/
def allVals (rows cols : Axis) (data : List (Row V)) (sf : Bool) (badR badC : List Name) : List V :=
  (data.filter fun x => (shows sf (labels rows cols x).1 && good badR (labels rows cols x).1) &&
    (shows sf (labels rows cols x).2 && good badC (labels rows cols x).2)).map Row.v

end Spec
end Verif.AccBad
