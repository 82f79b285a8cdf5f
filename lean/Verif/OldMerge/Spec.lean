import Verif.Merge2.Spec
/-!
# Specification: the rows of `merge` (C105-C107)

`Verif.Merge2.IsMerged` says what the Dataset of a list of row pairs is (columns, names, indicator); here is which row pairs belong to
which merge. A row has the key `none` if a part of it is null.
-/
namespace Verif.OldMerge
open Verif.Merge Verif.Merge2

variable {K : Type} [DecidableEq K]

/-- the first row with the key -/
def first (keys : List (Option K)) (k : Option K) : Option Nat := (matching keys k).head?

/-- `how='left'`: every left row, in order, with the first right row that has its key -/
def leftRows (lk rk : List (Option K)) : List (Option Nat × Option Nat) :=
  (List.range lk.length).map fun (i : Nat) => (some i, first rk (lk.getD i none))

/-- `how='right'`: every right row, in order, with the first left row that has its key -/
def rightRows (lk rk : List (Option K)) : List (Option Nat × Option Nat) :=
  (List.range rk.length).map fun (i : Nat) => (first lk (rk.getD i none), some i)

/-- `how='inner'`: every left row that has a partner, in order, with the first right row that has its key -/
def innerRows (lk rk : List (Option K)) : List (Option Nat × Option Nat) := (leftRows lk rk).filter fun p => p.2.isSome

/-- `how='outer'`: one row for every key of either side, made of the first left and the first right row that have it -/
def IsOuter (lt rt : List K) (lk rk : List (Option K)) (rows : List (Option Nat × Option Nat)) (null : K → Bool) : Prop :=
  ∃ ks : List K, ks.Nodup ∧ (∀ k, k ∈ ks ↔ k ∈ lt ∨ k ∈ rt) ∧
    rows = ks.map fun k => if null k then (none, none) else (first lk (some k), first rk (some k))

end Verif.OldMerge
