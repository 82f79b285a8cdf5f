import Verif.Merge2.Model
import Verif.Merge.Spec

/-!
# What a merged Dataset is
-/
namespace Verif.Merge2
open Verif.Merge Verif.Items

/-- every column has one value per row and no name occurs twice -/
structure DS.WF {V : Type} (ds : DS V) : Prop where
  lens : ∀ p ∈ ds.cols, p.2.length = ds.nrows
  nodup : ds.cols.keys.Nodup

/-- a key column with the same name on both sides -/
def common (leftOn rightOn : List Name) (c : Name) : Prop := c ∈ leftOn ∧ c ∈ rightOn

instance (leftOn rightOn : List Name) (c : Name) : Decidable (common leftOn rightOn c) :=
  inferInstanceAs (Decidable (_ ∧ _))

/-- a requested column that is not a common key and is requested from both sides -/
def clashes (leftOn rightOn colsL colsR : List Name) (c : Name) : Prop :=
  c ∈ colsL ∧ c ∈ colsR ∧ ¬ common leftOn rightOn c

instance (leftOn rightOn colsL colsR : List Name) (c : Name) :
    Decidable (clashes leftOn rightOn colsL colsR c) := inferInstanceAs (Decidable (_ ∧ _ ∧ _))

/-- name in the result: suffixed iff it clashes -/
def outName (leftOn rightOn colsL colsR : List Name) (suffix : Option Name) (c : Name) : Name :=
  if clashes leftOn rightOn colsL colsR c then c ++ suffix.getD [] else c

/-- value of a column at a row of the result -/
def cell {V : Type} (inv : V) (col : List V) : Option Nat → V
  | none => inv
  | some i => col.getD i inv

/-- value of a common key column at a row of the result: the left row's value if there is a
left row, else the right row's -/
def keyCell {V : Type} (inv : V) (lcol rcol : List V) (p : Option Nat × Option Nat) : V :=
  match p.1 with
  | some i => lcol.getD i inv
  | none => cell inv rcol p.2

/-- the key of each row: the tuple of its key values, none if any of them is null -/
def rowKeys {V : Type} (inv : V) (isnull : V → Bool) (ds : DS V) (on : List Name) : List (Option (List V)) :=
  (List.range ds.nrows).map fun i =>
    let t := on.map fun c => (ds.col c).getD i inv
    if t.any isnull then none else some t

/-- the row pairs of a join -/
def joinRows {K : Type} [DecidableEq K] (how : How) (lk rk : List (Option K)) :
    List (Option Nat × Option Nat) :=
  match how with
  | .left => leftJoinSpec lk rk
  | .right => rightJoinSpec lk rk
  | .inner => innerJoinSpec lk rk
  | .outer => outerJoinSpec lk rk

/-- some non-null key occurs in two different rows -/
def RepeatedKey {K : Type} (keys : List (Option K)) : Prop :=
  ∃ (i j : Nat) (k : K), i < j ∧ keys[i]? = some (some k) ∧ keys[j]? = some (some k)

/-- does `validate` declare the left (right) keys unique -/
def needsUniqueLeft : Validate → Bool
  | .oneToOne | .oneToMany => true
  | _ => false

def needsUniqueRight : Validate → Bool
  | .oneToOne | .manyToOne => true
  | _ => false

/-- each left row once, with the first (last) right row that has its key -/
def lookupRows {K : Type} [DecidableEq K] (keep : Keep) (lk rk : List (Option K)) :
    List (Option Nat × Option Nat) :=
  (List.range lk.length).map fun i =>
    (some i, match keep with
      | .first => (matching rk (lk.getD i none)).head?
      | .last => (matching rk (lk.getD i none)).getLast?)

/-- `1`: row of the left only, `2`: right only, `3`: both -/
def sideCode (p : Option Nat × Option Nat) : Nat :=
  match p with
  | (some _, some _) => 3
  | (some _, none) => 1
  | (none, some _) => 2
  | (none, none) => 0

/-- `out` is the Dataset made of row pairs `rows`. -/
structure IsMerged {V : Type} (inv : V) (cat : Nat → V) (a : Args V) (rows : List (Option Nat × Option Nat))
    (out : DS V) : Prop where
  /-- common keys -/
  key : ∀ c, common a.leftOn a.rightOn c →
    out.cols.get c = some (rows.map (keyCell inv (a.left.col c) (a.right.col c)))
  /-- each requested left column under its name -/
  left : ∀ c ∈ a.selL, ¬ common a.leftOn a.rightOn c →
    out.cols.get (outName a.leftOn a.rightOn a.selL a.selR (sufL a.suffixes) c) =
      some (rows.map fun p => cell inv (a.left.col c) p.1)
  /-- each requested right column under its name -/
  right : ∀ c ∈ a.selR, ¬ common a.leftOn a.rightOn c →
    out.cols.get (outName a.leftOn a.rightOn a.selL a.selR (sufR a.suffixes) c) =
      some (rows.map fun p => cell inv (a.right.col c) p.2)
  /-- the indicator column -/
  ind : ∀ n, a.indicator.name = some n → out.cols.get n = some (rows.map fun p => cat (sideCode p))
  /-- nothing else -/
  only : ∀ n, n ∈ out.cols.keys ↔
    (common a.leftOn a.rightOn n ∨
      (∃ c ∈ a.selL, ¬ common a.leftOn a.rightOn c ∧
        n = outName a.leftOn a.rightOn a.selL a.selR (sufL a.suffixes) c) ∨
      (∃ c ∈ a.selR, ¬ common a.leftOn a.rightOn c ∧
        n = outName a.leftOn a.rightOn a.selL a.selR (sufR a.suffixes) c) ∨
      a.indicator.name = some n)
  nodup : out.cols.keys.Nodup
  nrows : out.cols ≠ [] → out.nrows = rows.length

/-- contract of what lies outside the model -/
structure World.OK {V : Type} (w : World V) : Prop where
  fair : w.env.Fair
  grp : ∀ keys, (w.group keys).WF keys
  ord : ∀ l, (w.ord l).Perm l

end Verif.Merge2
