import Verif.AsofDs.Model
import Verif.Merge2.Spec
import Verif.Asof.Grouped

/-!
# What an as-of merged Dataset is
-/
namespace Verif.AsofDs
open Verif.Merge Verif.Merge2 Verif.Asof Verif.Items

section
variable {V α : Type}

/-- `out` has the rows of the left Dataset, in order, and beside left row `i` the values of
right row `f i` (missing values if there is none). -/
structure IsAsof (inv : V) (a : AArgs V α) (f : Nat → Option Nat) (out : DS V) : Prop where
  /-- a key column with one name on both sides is the left one -/
  key : ∀ c, common a.keysL a.keysR c → out.cols.get c = some (a.left.col c)
  /-- each requested left column, unchanged, under its name -/
  left : ∀ c ∈ a.selL, ¬ common a.keysL a.keysR c →
    out.cols.get (outName a.keysL a.keysR a.selL a.selR (sufL a.suffixes) c) = some (a.left.col c)
  /-- each requested right column under its name -/
  right : ∀ c ∈ a.selR, ¬ common a.keysL a.keysR c →
    out.cols.get (outName a.keysL a.keysR a.selL a.selR (sufR a.suffixes) c) =
      some ((List.range a.left.nrows).map fun i => cell inv (a.right.col c) (f i))
  /-- the key that was matched -/
  matched : ∀ n, matchedName a.matched = some n →
    out.cols.get n = some ((List.range a.left.nrows).map fun i => cell inv (a.right.col a.rightOn) (f i))
  /-- nothing else -/
  only : ∀ n, n ∈ out.cols.keys ↔
    (common a.keysL a.keysR n ∨
      (∃ c ∈ a.selL, ¬ common a.keysL a.keysR c ∧
        n = outName a.keysL a.keysR a.selL a.selR (sufL a.suffixes) c) ∨
      (∃ c ∈ a.selR, ¬ common a.keysL a.keysR c ∧
        n = outName a.keysL a.keysR a.selL a.selR (sufR a.suffixes) c) ∨
      matchedName a.matched = some n)
  nodup : out.cols.keys.Nodup
  nrows : out.cols ≠ [] → out.nrows = a.left.nrows

/-- right row `j`, with key `y`, has the `by` key of left row `i`.  A row with a null in a `by`
column has no `by` key.  Without `by` columns all rows have the same key. -/
def Candidate (inv : V) (isnull : V → Bool) (a : AArgs V α) (rv : List α) (i j : Nat) (y : α) : Prop :=
  sameKey (rowKeys inv isnull a.left a.leftBy) (rowKeys inv isnull a.right a.rightBy) rv i j y

/-- the name of the matched column is not taken -/
def MatchedFree (a : AArgs V α) : Prop :=
  ∀ n, matchedName a.matched = some n → ¬ common a.keysL a.keysR n ∧
    (∀ c ∈ a.selL, ¬ common a.keysL a.keysR c →
      n ≠ outName a.keysL a.keysR a.selL a.selR (sufL a.suffixes) c) ∧
    (∀ c ∈ a.selR, ¬ common a.keysL a.keysR c →
      n ≠ outName a.keysL a.keysR a.selL a.selR (sufR a.suffixes) c)

/-- every column named in the arguments exists -/
structure Named (a : AArgs V α) : Prop where
  leftOn : a.leftOn ∈ a.left.cols.keys
  rightOn : a.rightOn ∈ a.right.cols.keys
  leftBy : ∀ c ∈ a.leftBy, c ∈ a.left.cols.keys
  rightBy : ∀ c ∈ a.rightBy, c ∈ a.right.cols.keys
  selL : ∀ c ∈ a.selL, c ∈ a.left.cols.keys
  selR : ∀ c ∈ a.selR, c ∈ a.right.cols.keys

/-- contract of what lies outside the model -/
structure AWorld.OK (x : AWorld V α) : Prop where
  grp : ∀ keys, (x.w.group keys).WF keys
  ord : ∀ l, (x.w.ord l).Perm l
  order : ∀ n, (x.order n).Perm (List.range n)

/-- valid `on` keys `lv`, `rv`, ascending inside every `by` key.  On the left also the rows with
a null `by` key have to be ascending. -/
structure Sorted (x : AWorld V α) (a : AArgs V α) [LE α] (lv rv : List α) : Prop where
  left : (a.left.col a.leftOn).map x.key = lv.map some
  right : (a.right.col a.rightOn).map x.key = rv.map some
  leftAsc : ∀ (i j : Nat) (p q : α), i ≤ j →
    (∀ c ∈ a.leftBy, (a.left.col c)[i]? = (a.left.col c)[j]?) → lv[i]? = some p → lv[j]? = some q → p ≤ q
  rightAsc : ∀ (i j : Nat) (p q : α), i ≤ j →
    (∀ c ∈ a.rightBy, (a.right.col c)[i]? = (a.right.col c)[j]?) → rv[i]? = some p → rv[j]? = some q → p ≤ q

end

/-! ## Tolerance -/

/-- the tolerance a caller asked for, as a number (time spans in nanoseconds) -/
def TolArg.asked : TolArg → Option Rat
  | .int z => some z
  | .rat q => some q
  | .span ns => some ns
  | .delta d s u => some ((d * 86400 + s) * 1000000000 + u * 1000 : Int)
  | _ => none

/-- a distance is admitted by the tolerance asked for -/
def TolArg.admits (t : TolArg) (d : Rat) : Prop :=
  match t with
  | .inf => True
  | _ => ∃ q, t.asked = some q ∧ d ≤ q

/-- a distance is admitted by a normalised tolerance -/
def TolVal.admits : TolVal → Rat → Prop
  | .int z, d => d ≤ z
  | .rat q, d => d ≤ q
  | .inf, _ => True

/-- the largest value of the `on` dtype -/
def OnType.top : OnType → Option Int
  | .int bits => some (2 ^ (bits - 1) - 1)
  | .uint bits => some (2 ^ bits - 1)
  | _ => none

end Verif.AsofDs
