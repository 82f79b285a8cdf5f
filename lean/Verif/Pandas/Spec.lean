import Verif.Arrow.Spec
import Mathlib.Data.Rat.Cast.Defs
/-!
# pandas columns: specification

What columns of pandas hold and show. Nothing here refers to the model.
-/
namespace Verif.Pandas
open Verif.NpOps

/-- an integer column of pandas: with a mask (`Int64` and so on) or a plain numpy array -/
inductive PInts where
  | nullable (sg : Bool) (w : Fin 4) (rows : List (Option Int))
  | plain (sg : Bool) (w : Fin 4) (vals : List Int)
deriving DecidableEq, Repr

/-- what the rows show -/
def PInts.shows : PInts → List (Option Int)
  | .nullable _ _ rows => rows
  | .plain _ _ vals => vals.map some

/-- a cell of an object column -/
inductive Obj where
  | none | nan
  | bool (b : Bool)
  | int (k : Int)
  | text (t : List Char)
deriving DecidableEq, Repr

/-- pandas shows nothing for None and NaN -/
def Obj.shows : Obj → Option Obj
  | .none => Option.none
  | .nan => Option.none
  | o => some o

/-- the text of a cell; how Python writes None and NaN -/
def Obj.written : Obj → List Char
  | .text t => t
  | .none => "None".toList
  | _ => "nan".toList

/-- the integer of a cell -/
def Obj.number : Obj → Option Rat
  | .int k => some (k : Rat)
  | _ => Option.none

/-- a Categorical column of pandas: every row has a position in the categories, or -1 -/
structure PCat (S : Type) where
  codes : List Int
  cats : List S
deriving DecidableEq, Repr

/-- what the rows show -/
def PCat.shows {S : Type} (p : PCat S) : List (Option S) := p.codes.map fun j => if j < 0 then none else p.cats[j.toNat]?

/-- what pandas guarantees of its Categoricals -/
def PCat.Valid {S : Type} (p : PCat S) : Prop := (∀ j ∈ p.codes, -1 ≤ j ∧ j < (p.cats.length : Int)) ∧ p.cats.Nodup

/-- what a Categorical of riptable shows, given its base index -/
def catShows {S : Type} (base : Nat) (codes : List Int) (cats : List S) : List (Option S) :=
  codes.map fun k => if k < (base : Int) then none else cats[(k - base).toNat]?

/-- a riptable Categorical with base index 1: the codes are 0 (filtered) or number a category -/
def OneBased {S : Type} (codes : List Int) (cats : List S) : Prop := ∀ k ∈ codes, 0 ≤ k ∧ k ≤ (cats.length : Int)

/-- conversion of integers to float64 is exact up to 2 ^ 53 -/
def Exact (round : Int → Rat) : Prop := ∀ k : Int, -2 ^ 53 ≤ k → k ≤ 2 ^ 53 → round k = (k : Rat)

/-- a column of timestamps or of time differences: nanoseconds per unit, and for every row a number of units or NaT -/
structure PTimes where
  factor : Int
  rows : List (Option Int)
deriving DecidableEq, Repr

/-- the nanoseconds that the rows show -/
def PTimes.shows (p : PTimes) : List (Option Int) := p.rows.map fun r => r.map fun x => x * p.factor

/-- a frame: the index and the columns, whose names may repeat -/
structure Frame (P : Type) where
  /-- it is 0, 1, 2, … without a name -/
  defaultIndex : Bool
  indexName : Option (List Char)
  index : P
  cols : List (List Char × P)

end Verif.Pandas
