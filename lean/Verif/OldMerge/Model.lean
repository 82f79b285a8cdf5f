import Verif.Merge2.Model
/-!
# Model of `merge`, `/repo/riptable/rt_merge.py` lines 2874-3226 and 268-378

Datasets, names and values as in `Verif/Merge2/Model.lean`. `isnull` says which key values `ismember` (C++) finds nowhere (it may be
never). Not modelled: the check that key columns have compatible types, hints of sizes, logging.
-/
namespace Verif.OldMerge
open Verif.Merge Verif.Merge2 Verif.Items

variable {V : Type} [DecidableEq V]

/-- what is outside: as for `merge2`, and `unique32` (C++), positions of the different keys -/
structure World (V : Type) extends Verif.Merge2.World V where
  unique32 : List (List V) → List Nat

/-- `ismember(ks, ref)` (C++): for every key the first place it is at -/
def found (isnull : V → Bool) (ks ref : List (List V)) : List (Option Nat) :=
  ks.map fun k => if tupleNull isnull k then none else ref.findIdx? fun x => decide (x = k)

/-- `_construct_index` (268-378): the keys of the rows of the result -/
def constructIndex (w : World V) (how : How) (lk rk : List (List V)) : List (List V) :=
  match how with
  | .left => lk
  | .right => rk
  | .outer => (w.unique32 (lk ++ rk)).filterMap fun (i : Nat) => (lk ++ rk)[i]?
  | .inner => ((lk.zip (found w.isnull lk rk)).filter fun e => e.2.isSome).map Prod.fst

/-- `p_left`, `p_right` (3120-3135); no index is all rows -/
def indices (w : World V) (how : How) (lk rk : List (List V)) : JoinIndices :=
  let idx := constructIndex w how lk rk
  ⟨if how = .left then none else some (found w.isnull idx lk), if how = .right then none else some (found w.isnull idx rk), none⟩

/-- a common key column (3154-3168); `left[field][p_left]` -/
def keyColumn (inv : V) (how : How) (j : JoinIndices) (lcol rcol : List V) : List V :=
  match how with
  | .inner => fetch inv lcol j.left
  | .left => lcol
  | .right => rcol
  | .outer =>
    let out := mbget inv lcol (j.left.getD [])
    let mask := List.zipWith (fun (a b : Option Nat) => a.isNone && b.isSome) (j.left.getD []) (j.right.getD [])
    List.zipWith (fun (m : Bool) (e : V × V) => if m then e.2 else e.1) mask (out.zip (mbget inv rcol (j.right.getD [])))

/-- `_suffixes` (3068): both empty is none -/
def normSuffixes : Suffixes → Suffixes
  | none => none
  | some (a, b) => if a.getD [] = [] ∧ b.getD [] = [] then none else some (a, b)

/-- `merge` (2989-3226) after `on` is replaced by `left_on` and `right_on` -/
def merge (w : World V) (a : Args V) : Except String (DS V) :=
  if !(present a.left a.leftOn && present a.left a.selL && present a.right a.rightOn
      && present a.right a.selR) then .error "ValueError: columns not present"
  else
    match colnameMapping w.ord a.leftOn a.rightOn (normSuffixes a.suffixes) a.selL a.selR with
    | .error e => .error e
    | .ok m =>
      if a.leftOn.length ≠ a.rightOn.length then .error "ValueError: left_on and right_on must have the same length"
      else if a.leftOn = [] then .error "ValueError: left_on and right_on must be non-empty"
      else
        let j := indices w a.how (keyTuples w.inv a.left a.leftOn) (keyTuples w.inv a.right a.rightOn)
        let out0 := m.inter.foldl (fun (o : Dict Name (List V)) c => o.set c (keyColumn w.inv a.how j (a.left.col c) (a.right.col c))) []
        match finish w.toWorld j a.left a.right m false a.indicator out0 with
        | .error e => .error e
        | .ok out => mkDataset out

end Verif.OldMerge
