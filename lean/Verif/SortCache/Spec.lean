import Verif.SortCache.Model
/-!
# What the row order of a Dataset should be
-/
namespace Verif.SortCache.Spec
open Verif.SortCache
variable {V C : Type}

/-- the order of the rows by the given columns, first column first; none when there are no columns -/
def orderOf (lib : Lib V C) (asc : Asc) : Option (List V) → Option (List Nat)
  | none => none
  | some [] => none
  | some cols => some (lib.lexsort cols.reverse asc)

/-- The row order computed afresh: sort the rows by the current contents of the sort columns, in the direction set.
No order when no sort is set or a sort column is missing. -/
def freshOrder (lib : Lib V C) (d : Ds V) : Option (List Nat) :=
  match d.sortlist with
  | none => none
  | some names => orderOf lib d.asc (names.eraseDups.mapM d.col?)

/-- every column contents that occurs in the history -/
def contents : List (Op V) → List V
  | [] => []
  | .put _ d :: os => d.cols.map (·.2) ++ contents os
  | _ :: os => contents os

/-- the checksum tells the given contents apart -/
def Distinct (lib : Lib V C) (S : List V) : Prop := ∀ a ∈ S, ∀ b ∈ S, lib.crc a = lib.crc b → a = b

/-- at every save, the Dataset saved has no sort -/
def SavesUnsorted [DecidableEq C] (lib : Lib V C) : World V C → List (Op V) → Prop
  | _, [] => True
  | w, o :: os => (∀ h, o = .save h → ∀ d, w.ds h = some d → d.sortlist = none) ∧ SavesUnsorted lib (step lib w o).1 os

/-! ## Sorted rows -/

/-- Row `i` may stand before row `j`: the first key on which they differ decides; `true` means ascending.
`val v i` is the rank of the value of column `v` in row `i`. -/
def lexLE (val : V → Nat → Int) : List (V × Bool) → Nat → Nat → Prop
  | [], _, _ => True
  | (v, up) :: ks, i, j =>
    (if up then val v i < val v j else val v j < val v i) ∨ (val v i = val v j ∧ lexLE val ks i j)

/-- the direction of each of `n` keys -/
def dirs (n : Nat) : Asc → List Bool
  | .bool b => List.replicate n b
  | .arr l => l
  | .list l => l

/-- Contract of `lexsort` on columns of `n` rows: the last key is the primary one; `ascending` is one direction for
all keys or one per key. -/
structure LexOK (lexsort : List V → Asc → List Nat) (size : V → Nat) (val : V → Nat → Int) : Prop where
  perm : ∀ (n : Nat) (ks : List V) (a : Asc), ks ≠ [] → (∀ k ∈ ks, size k = n) → (dirs ks.length a).length = ks.length →
    (lexsort ks a).Perm (List.range n)
  sorted : ∀ (n : Nat) (ks : List V) (a : Asc), ks ≠ [] → (∀ k ∈ ks, size k = n) → (dirs ks.length a).length = ks.length →
    (lexsort ks a).Pairwise (lexLE val (ks.zip (dirs ks.length a)).reverse)

/-- contract of numpy `v[idx]`: row `p` of the result is row `idx[p]` of `v` -/
structure TakeOK (take : V → List Nat → V) (size : V → Nat) (val : V → Nat → Int) : Prop where
  size : ∀ v idx, size (take v idx) = idx.length
  val : ∀ v idx (p i : Nat), idx[p]? = some i → val (take v idx) p = val v i

end Verif.SortCache.Spec
