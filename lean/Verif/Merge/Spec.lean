import Verif.Merge.Model

/-!
# What a join is

Keys are `Option K`; `none` is a null key, which equals nothing.  A join result
is a list of pairs (left row or nothing, right row or nothing).
-/
namespace Verif.Merge

section
variable {K : Type} [DecidableEq K]

/-- rows whose key is `k`, in row order; a null key matches no row -/
def matching (keys : List (Option K)) (k : Option K) : List Nat :=
  match k with
  | none => []
  | some k => (List.range keys.length).filter fun j => keys[j]? == some (some k)

/-- all pairs of left row `i` with its partners `js`; a row without partner is
kept with no partner -/
def padded (i : Nat) (js : List Nat) : List (Option Nat × Option Nat) :=
  if js = [] then [(some i, none)] else js.map fun j => (some i, some j)

/-- the partners that `keep` leaves: all, the first, or the last -/
def sel : Option Keep → List Nat → List Nat
  | none, js => js
  | some .first, js => js.head?.toList
  | some .last, js => js.getLast?.toList

/-- the rows that `keep` leaves on a side: one per distinct key (null counts as one
key): the first or the last row of that key -/
def keptRows (keys : List (Option K)) : Option Keep → List Nat
  | none => List.range keys.length
  | some .first => (List.range keys.length).filter fun i =>
      decide (∀ j, j < i → keys[j]? ≠ keys[i]?)
  | some .last => (List.range keys.length).filter fun i =>
      decide (∀ j, j < keys.length → i < j → keys[j]? ≠ keys[i]?)

def leftJoinSpec (lkeys rkeys : List (Option K)) : List (Option Nat × Option Nat) :=
  (List.range lkeys.length).flatMap fun i => padded i (matching rkeys (lkeys.getD i none))

def innerJoinSpec (lkeys rkeys : List (Option K)) : List (Option Nat × Option Nat) :=
  (List.range lkeys.length).flatMap fun i =>
    (matching rkeys (lkeys.getD i none)).map fun j => (some i, some j)

def rightJoinSpec (lkeys rkeys : List (Option K)) : List (Option Nat × Option Nat) :=
  (leftJoinSpec rkeys lkeys).map Prod.swap

/-- right rows without any left partner, in row order -/
def unmatchedRight (lkeys rkeys : List (Option K)) : List Nat :=
  (List.range rkeys.length).filter fun j => matching lkeys (rkeys.getD j none) = []

def outerJoinSpec (lkeys rkeys : List (Option K)) : List (Option Nat × Option Nat) :=
  leftJoinSpec lkeys rkeys ++ (unmatchedRight lkeys rkeys).map fun j => (none, some j)

end

/-- Contract of a grouping: the keys are distinct, the group number of a row is
the number of its key (0 for null), and every listed key occurs. -/
structure Grouping.WF {K : Type} (g : Grouping K) (keys : List (Option K)) : Prop where
  nodup : g.gbkeys.Nodup
  decode : keys = g.ikey.map fun c => if c = 0 then none else g.gbkeys[c - 1]?
  inRange : ∀ c ∈ g.ikey, c ≤ g.gbkeys.length
  used : ∀ c, 1 ≤ c → c ≤ g.gbkeys.length → c ∈ g.ikey

/-- Reference grouping: keys in order of first occurrence. -/
def Grouping.ofKeys {K : Type} [DecidableEq K] (keys : List (Option K)) : Grouping K :=
  let u := (keys.filterMap id).eraseDups
  { gbkeys := u
    ikey := keys.map fun o => match o with
      | none => 0
      | some k => u.idxOf k + 1 }

/-- Every schedule runs each iteration exactly once. -/
def Env.Fair (env : Env) : Prop := ∀ n, (env.sched n).Perm (List.range n)

end Verif.Merge
