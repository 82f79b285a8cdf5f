import Verif.AsofDs.Model
/-!
# Model of `merge_asof`, `/repo/riptable/rt_merge.py` lines 3572-4420, and `alignmk`, `rt_utils.py:503-587`

Datasets, names, arguments and the columns of the result as in `Verif/AsofDs/Model.lean` (lines 4233-4329 are the
same code as in `merge_asof2`).  All keys of the `on` columns are valid.  `MultiKeyAlign32` (C++) is a parameter; so
are `argsort` and `issorted`.  Distances are those of `dist`.  Not modelled: NaN in the `on` columns, conversion of key
columns to a common type, deprecated arguments, `copy`, `verbose`, warnings.
-/
namespace Verif.OldAsof
open Verif.Merge Verif.Merge2 Verif.Asof Verif.Items Verif.AsofDs

/-- what is outside: `ord`, `inv`, `isnull` as for `merge2` (null keys are found nowhere; there may be none) -/
structure OWorld (V α δ : Type) where
  ord : List Name → List Name
  inv : V
  isnull : V → Bool
  key : V → α
  issorted : List α → Bool
  argsort : List α → List Nat
  /-- `MultiKeyAlign32` with keys, times, `isForward`, `allow_exact_matches` -/
  align : List (Option (List V)) → List (Option (List V)) → List α → List α → Bool → Bool → List (Option Nat)
  /-- `abs(a - b)` -/
  dist : α → α → δ

/-- `action_on_unsorted` -/
inductive Action where
  | sort
  | raise
  deriving DecidableEq, Repr

section
variable {V α δ : Type}

/-- `fa[argsort_indices]` or `fa`, `rt_merge.py:4373-4377` -/
def optGather {β : Type} (l : List β) (o : Option (List Nat)) : List β :=
  match o with
  | none => l
  | some p => p.filterMap fun i => l[i]?

/-- keys of the rows as `MultiKeyAlign32` sees them -/
def alignKeys (x : OWorld V α δ) (ds : DS V) (by' : List Name) : List (Option (List V)) :=
  maskKeys (tupleNull x.isnull) true (keyTuples x.inv ds by')

/-- `pright[left_argsort_indices] = pright.copy()`, `:4414-4415` -/
def scatter (p : List (Option Nat)) (o : Option (List Nat)) : List (Option Nat) :=
  match o with
  | none => p
  | some la => (la.zip p).foldl (fun (out : List (Option Nat)) (e : Nat × Option Nat) => out.set e.1 e.2) p

/-- `right_argsort_indices[pright]`, `:4417-4418` -/
def backTo (p : List (Option Nat)) (o : Option (List Nat)) : List (Option Nat) :=
  match o with
  | none => p
  | some ra => p.map fun e => e.bind fun k => ra[k]?

/-- `_create_merge_fancy_indices`, `:4332-4420`, with `alignmk`, for one direction.  Without `by` columns the keys are
`np.ones`, here empty tuples. -/
def indices (x : OWorld V α δ) (a : AArgs V α) (fwd : Bool) (la ra : Option (List Nat)) : List (Option Nat) :=
  let lk := if a.leftBy = [] then alignKeys x a.left [] else optGather (alignKeys x a.left a.leftBy) la
  let rk := if a.leftBy = [] then alignKeys x a.right [] else optGather (alignKeys x a.right a.rightBy) ra
  let lt := optGather ((a.left.col a.leftOn).map x.key) la
  let rt := optGather ((a.right.col a.rightOn).map x.key) ra
  backTo (scatter (x.align lk rk lt rt fwd a.exact) la) ra

/-- one row of `f_forward_closer` and the `putmask`, `:4166-4206` -/
def closer [LT δ] [DecidableRel (fun a b : δ => a < b)] (x : OWorld V α δ) (rt : List α) (l : α) (b f : Option Nat) : Option Nat :=
  match b.bind (fun k => rt[k]?), f.bind (fun k => rt[k]?) with
  | _, none => b
  | none, some _ => f
  | some yb, some yf => if x.dist l yf < x.dist l yb then f else b

/-- `argsort_indices` of one side, `:4085-4116` -/
def sortSide (x : OWorld V α δ) (act : Action) (col : List α) : Except String (Option (List Nat)) :=
  if x.issorted col then .ok none
  else match act with
    | .raise => .error "ValueError: the column is not sorted"
    | .sort => .ok (some (x.argsort col))

/-- `:4085-4226` -/
def rightIndexOld [LT δ] [DecidableRel (fun a b : δ => a < b)] (x : OWorld V α δ) (act : Action) (a : AArgs V α) :
    Except String (List (Option Nat)) :=
  match sortSide x act ((a.left.col a.leftOn).map x.key), sortSide x act ((a.right.col a.rightOn).map x.key) with
  | .error e, _ => .error e
  | _, .error e => .error e
  | .ok la, .ok ra =>
    match a.dir with
    | .backward => .ok (indices x a false la ra)
    | .forward => .ok (indices x a true la ra)
    | .nearest =>
      .ok (List.zipWith (fun (l : α) (e : Option Nat × Option Nat) => closer x ((a.right.col a.rightOn).map x.key) l e.1 e.2)
          ((a.left.col a.leftOn).map x.key) ((indices x a false la ra).zip (indices x a true la ra)))

variable [DecidableEq V] [LinearOrder α]

/-- `merge_asof`, `:3960-4329`, after `on` and `by` are replaced by the names of each side.  `tol` is ignored
(`:4058-4061`). -/
def mergeAsof [LT δ] [DecidableRel (fun a b : δ => a < b)] (x : OWorld V α δ) (act : Action) (a : AArgs V α) : Except String (DS V) :=
  if !a.present then .error "ValueError: columns not present"
  else if a.leftBy.length ≠ a.rightBy.length then .error "ValueError: differing numbers of columns used as join-keys"
  else
    match colnameMapping x.ord a.keysL a.keysR a.suffixes a.selL a.selR with
    | .error e => .error e
    | .ok m =>
      match rightIndexOld x act a with
      | .error e => .error e
      | .ok fi =>
        match assembleAsof x.inv a m fi with
        | .error e => .error e
        | .ok out => mkDataset out

end
end Verif.OldAsof
