import Verif.CatNew.Model

/-!
`mbget` of a 2-dimensional array (`rt_utils.py:591-733`) and `str_replace` (`rt_utils.py:1055-1086`).

`rc.MBGet` (C++) of a 1-dimensional array is a definition: the value at the position, the default for positions that do not exist.
Whether negative positions count from the end is not in the Python source (the docstring of `mbget` says they do not exist, indexing by
`a[idx]` needs them), so it is the parameter `fromEnd`.  Fortran layout (`:615-625`) changes no value and is not modelled, nor are the
types of the values.
-/
namespace Verif.Take2

/-- numpy integers of 64 bits wrap around -/
def wrap64 (x : Int) : Int := Int.bmod x (2 ^ 64)

/-- the invalid int64 -/
def inv64 : Int := -(2 ^ 63)

/-- `rc.MBGet(values, [k], default)` (C++, documented at `rt_utils.py:631-703`) of one position -/
def mbget1 {V : Type} (fromEnd : Bool) (flat : List V) (dflt : V) (k : Int) : V :=
  if 0 ≤ k then (flat[k.toNat]?).getD dflt
  else if fromEnd && decide (0 ≤ k + flat.length) then (flat[(k + flat.length).toNat]?).getD dflt
  else dflt

/-- `np.where(idx.isna(), idx, idx * ncols)` of a FastArray, `idx * ncols` of an ndarray (`rt_utils.py:606-609`) -/
def scaled (fast : Bool) (ncols : Nat) (i : Int) : Int :=
  if fast && decide (i = inv64) then i else wrap64 (i * ncols)

/-- `np.repeat(idx, ncols)` (`rt_utils.py:610`) -/
def repeatEach (ncols : Nat) (idx : List Int) : List Int := idx.flatMap fun i => List.replicate ncols i

/-- `tile(arange(ncols), nrows)` (`rt_utils.py:611`) -/
def tiled (ncols nrows : Nat) : List Int := (List.replicate nrows ((List.range ncols).map fun (j : Nat) => (j : Int))).flatten

/-- `expanded_idx` (`rt_utils.py:604-611`) -/
def expandIdx (fast : Bool) (ncols : Nat) (idx : List Int) : List Int :=
  List.zipWith (fun a b => wrap64 (a + b)) (repeatEach ncols (idx.map (scaled fast ncols))) (tiled ncols idx.length)

/-- `result.reshape((nrows, ncols))` (`rt_utils.py:622`) -/
def reshape {V : Type} (nrows ncols : Nat) (l : List V) : List (List V) :=
  (List.range nrows).map fun r => (l.drop (r * ncols)).take ncols

/-- `_mbget_2dims` (`rt_utils.py:591-627`); the rows of `m` have `ncols` values, `inv` is the invalid value of their type, `idx` holds
the positions as int64 (`:603`), `fast` tells that it is a FastArray -/
def mbget2 {V : Type} (fromEnd fast : Bool) (inv : V) (m : List (List V)) (ncols : Nat) (idx : List Int) : List (List V) :=
  reshape idx.length ncols ((expandIdx fast ncols idx).map (mbget1 fromEnd m.flatten inv))

/-- `aValues` -/
inductive Arr (V : Type) where
  | one (vals : List V)
  | two (ncols : Nat) (rows : List (List V))
  | more

/-- results of `mbget` -/
inductive Out (V : Type) where
  | one (vals : List V)
  | two (rows : List (List V))
  | valueError
  deriving DecidableEq

/-- `mbget(aValues, aIndex, d)` (`rt_utils.py:722-733`); the checks of types before are not modelled -/
def mbget {V : Type} (fromEnd fast : Bool) (inv : V) (a : Arr V) (idx : List Int) (d : Option V) : Out V :=
  match a with
  | .one vals => .one (idx.map (mbget1 fromEnd vals (d.getD inv)))
  | .two ncols rows => .two (mbget2 fromEnd fast inv rows ncols idx)
  | .more => .valueError

/-! ## str_replace -/

open Verif.CatNew in
/-- `_expand_array` (`rt_categorical.py:6227-6244`) of the categories with base index 1; `filtered` is the prepended text -/
def expandCat {S : Type} (filtered : S) (codes : List Int) (cats : List S) : List S :=
  codes.map fun k => ((filtered :: cats)[k.toNat]?).getD filtered

open Verif.CatNew in
/-- `str_replace(arr, old, new, missing)` (`rt_utils.py:1055-1086`) of arrays of texts; both Categoricals have the defaults for the other
arguments. `new` is expected to have no text twice. -/
def strReplace {S : Type} [LinearOrder S] (filtered : S) (arr old new : List S) (missing : S) : Except Err (List S) :=
  if old.length = new.length then
    match newOfMembers arr old { invalid := some missing } with
    | .error e => .error e
    | .ok c =>
      match newOfCodes c.g.codes false new { invalid := some missing } with
      | .error e => .error e
      | .ok d => .ok (expandCat filtered d.g.codes new)
  else .error .valueError

end Verif.Take2
