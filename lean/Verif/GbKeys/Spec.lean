import Mathlib.Data.List.Forall2
/-!
# What a chain of group keys should give (C332 - C335)

A row of the unique keys is a key, or the bin of filtered rows.
-/
namespace Verif.GbKeys
/-- a row of the shown keys -/
inductive Row (K : Type) where
  | filtered
  | key (k : K)
deriving DecidableEq, Repr

/-- what can be asked of a chain -/
inductive Req where
  | keys (sort : Option Bool) (showFilter : Bool)
  | filtered
  | sortRows
  | unsort
  | copy
deriving DecidableEq, Repr

namespace Spec
variable {K : Type}

/-- what a user knows of the chain: whether keys are to be sorted, whether keys were given out sorted, whether the bin was asked for -/
structure Seen where
  display : Bool
  sorted : Bool
  bin : Bool
deriving DecidableEq, Repr

/-- after one more request; `pre`: the keys came in sorted order -/
def Seen.next (pre : Bool) (s : Seen) : Req → Seen
  | .keys so _ => ⟨so.getD s.display, s.sorted || (so.getD s.display && !pre), s.bin⟩
  | .filtered => ⟨s.display, s.sorted || (s.display && !pre), true⟩
  | .unsort => if pre || !s.sorted then { s with display := false } else s
  | .sortRows => s
  | .copy => s

/-- requests that do not sort a bin in, do not undo a sort, and do not copy what was sorted or binned -/
def Calm (pre : Bool) (s : Seen) : Req → Prop
  | .keys (some true) _ => pre = true ∨ s.sorted = true ∨ s.bin = false
  | .keys (some false) _ => s.sorted = false
  | .copy => s.sorted = false ∧ s.bin = false
  | _ => True

/-- a history of such requests, and what is known after it -/
def CalmAll (pre : Bool) : Seen → List Req → Seen → Prop
  | s, [], t => t = s
  | s, r :: l, t => Calm pre s r ∧ CalmAll pre (s.next pre r) l t

/-- the keys in the order asked for: sorted, or as they came -/
def Ordered (le : Row K → Row K → Prop) (sorted : Bool) (src ks : List K) : Prop :=
  if sorted then ks.Perm src ∧ ks.Pairwise fun a b => le (.key a) (.key b) else ks = src

/-- an index puts the rows in order -/
def Sorts (le : Row K → Row K → Prop) (idx : List Nat) (rows : List (Row K)) : Prop :=
  ∃ out : List (Row K), List.Forall₂ (fun i r => rows[i]? = some r) idx out ∧ out.Perm rows ∧ out.Pairwise le

/-- what is shown: the keys, with or without the filtered bin in front -/
def Shown (showFilter : Bool) (ks : List K) (rows : List (Row K)) : Prop :=
  rows = if showFilter then Row.filtered :: ks.map Row.key else ks.map Row.key
end Spec
end Verif.GbKeys
