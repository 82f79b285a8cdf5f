import Verif.Grp.Model
/-!
# `apply_reduce` with several results and with named outputs: model

The parts of `Grouping.apply_helper` (`rt_grouping.py:2521-2950`) that `Verif.Grp` leaves out: user functions that return a tuple,
a list or an array for a group (`:2764-2773`, `:2786-2806`), and a dict as `dtype`, which allocates named output arrays that
the user function fills (`:2681-2697`, `:2734-2748`, `:2868-2883`). The packing (`ifirst`, `ncount`, `iGroup`) is `Grp.pack`.
`showfilter` is off, so `base_bin` is 1. An entry `none` of an array that was allocated with `empty` is memory that was never
written; an outcome `none` is an exception.
-/
namespace Verif.ApplyOut
open Verif.Grp (pack valuesAt reverseShuffle)

variable {V R : Type}

/-- `v[first:last]` with `last = first + count` -/
def sliceOf {A : Type} (v : List A) (first count : Nat) : List A := (v.drop first).take count

/-- the loop of the reduce path when the first result is a tuple, a list or an array (`rt_grouping.py:2755-2788`): `return_arr` is
an array of objects, allocated with `rows` entries at the first result; an object array is filled with `None` by numpy.
`return_arr[i]` beyond the end is an IndexError. The results of `f` have another number of entries than one: tuples of one
entry are left out of the model, and so are user functions that raise. -/
def tupLoop (rows : Nat) (arr : List V) (f : List V → List R) :
    Nat → List (Nat × Nat) → Option (List (Option (List R))) → Option (Option (List (Option (List R))))
  | _, [], st => some st
  | i, b :: rest, st =>
    if 0 < b.2 then
      if i < (st.getD (List.replicate rows none)).length then
        tupLoop rows arr f (i + 1) rest (some ((st.getD (List.replicate rows none)).set i (some (f (sliceOf arr b.1 b.2)))))
      else none
    else tupLoop rows arr f (i + 1) rest st

/-- does an entry stack below a row of `k` entries: `np.vstack` refuses another number of entries, and `None`, which counts as
one entry -/
def below (k : Nat) : Option (List R) → Bool
  | some r => r.length == k
  | none => false

/-- the end of a column (`:2796-2806`), after `return_arr = return_arr[base_bin:]`: the first entry decides (`None` there is a
TypeError, no entry an IndexError), then `np.vstack` -/
def finish : List (Option (List R)) → Option (List (List R))
  | some r :: rest => if rest.all (below r.length) then some (r :: rest.filterMap id) else none
  | _ => none

/-- all columns (`:2700-2806`): `return_arr` is a local variable of the whole call, and on this path it keeps the object array of
the previous column without its first entry. `return_arr` still `None` after the loop is an AttributeError. -/
def tupCols (keys : List Nat) (n : Nat) (f : List V → List R) :
    Option (List (Option (List R))) → List (List V) → Option (List (List (List R)))
  | _, [] => some []
  | st, c :: cs =>
    match tupLoop (n + 1) (valuesAt c (pack keys n).iGroup) f 0 (List.zip (pack keys n).iFirst (pack keys n).nCount) st with
    | some (some a) =>
      match finish (a.drop 1) with
      | some m => (tupCols keys n f (some (a.drop 1)) cs).map (m :: ·)
      | none => none
    | _ => none

/-- `apply_reduce` with a user function that returns several values: a matrix for every column -/
def applyTuple (keys : List Nat) (n : Nat) (f : List V → List R) (cols : List (List V)) : Option (List (List (List R))) :=
  tupCols keys n f none cols

/-! ## Named outputs -/

/-- what the user function leaves in a slice of an output array -/
def writeAt {A : Type} (out : List A) (first : Nat) (new : List A) : List A :=
  out.take first ++ new ++ out.drop (first + new.length)

/-- the user function of this mode: it gets the slices of the inputs and the slices of the outputs with what is in them, and
changes the latter in place -/
abbrev OutFun (V R : Type) := List (List V) → List (List (Option R)) → Option (List (List (Option R)))

/-- the loops `for i in range(1, ifirst.shape[0])` (`:2738-2744`, `:2870-2879`): a step is the slice of the inputs and the slice of
the outputs, each as first position and number of entries -/
def outLoop (arrs : List (List V)) (f : OutFun V R) :
    List ((Nat × Nat) × (Nat × Nat)) → List (List (Option R)) → Option (List (List (Option R)))
  | [], outs => some outs
  | s :: rest, outs =>
    match f (arrs.map fun v => sliceOf v s.1.1 s.1.2) (outs.map fun v => sliceOf v s.2.1 s.2.2) with
    | none => none
    | some news => outLoop arrs f rest (List.zipWith (fun out new => writeAt out s.2.1 new) outs news)

/-- the slices of the groups 1, …, n in the packed inputs -/
def groupSlices (keys : List Nat) (n : Nat) : List (Nat × Nat) :=
  (List.zip (pack keys n).iFirst (pack keys n).nCount).drop 1

/-- `apply_reduce` with a tuple of arrays and a dict of `m` dtypes (`:2684-2688`, `:2734-2748`): one entry `i` of every output for
group `i` -/
def reduceOuts (keys : List Nat) (n m : Nat) (f : OutFun V R) (cols : List (List V)) : Option (List (List (Option R))) :=
  (outLoop (cols.map fun c => valuesAt c (pack keys n).iGroup) f
    (List.zipWith (fun b i => (b, (i, 1))) (groupSlices keys n) ((List.range n).map (· + 1)))
    (List.replicate m (List.replicate (n + 1) none))).map fun outs => outs.map (List.drop 1)

/-- `apply_nonreduce` with a tuple of arrays and a dict of `m` dtypes (`:2689-2693`, `:2868-2883`): the outputs are sliced like the
inputs, then put in the order of the rows -/
def nonreduceOuts (keys : List Nat) (n m : Nat) (f : OutFun V R) (cols : List (List V)) : Option (List (List (Option R))) :=
  match outLoop (cols.map fun c => valuesAt c (pack keys n).iGroup) f
    ((groupSlices keys n).map fun b => (b, b)) (List.replicate m (List.replicate (pack keys n).iGroup.length none)) with
  | none => none
  | some outs => outs.mapM fun o => (reverseShuffle (pack keys n).iGroup).mapM fun i => o[i]?

/-- the same on a dataset that was grouped, with the tuple holding constant arrays (`tups == 2`, `:2677-2680`, `:2716-2717`): the user
function is called for every column of the dataset, the outputs are allocated once for the whole call (`:2681-2695`), and the
result has their names (`:2746-2748`) -/
def reduceOutsCols (keys : List Nat) (n : Nat) (f : OutFun V R) (consts : List (List V)) :
    List (List V) → List (List (Option R)) → Option (List (List (Option R)))
  | [], outs => some (outs.map (List.drop 1))
  | c :: cs, outs =>
    match outLoop ((c :: consts).map fun c => valuesAt c (pack keys n).iGroup) f
      (List.zipWith (fun b i => (b, (i, 1))) (groupSlices keys n) ((List.range n).map (· + 1))) outs with
    | none => none
    | some outs => reduceOutsCols keys n f consts cs outs

/-- one array that is not in a tuple (`:2719-2722`): `tuple(arr)` is a tuple of scalars, and a scalar cannot be sliced
(`invalid index to scalar variable`); `none` is that exception. With no rows the tuple is empty and the user function is called
without input. -/
def scalarSlices (arr : List V) : Option (List (List V)) := arr.mapM fun _ => none

/-- `apply_reduce` with one array and a dict as `dtype` -/
def reduceOutsSingle (keys : List Nat) (n m : Nat) (f : OutFun V R) (col : List V) : Option (List (List (Option R))) :=
  if n = 0 then some (List.replicate m [])
  else match scalarSlices (valuesAt col (pack keys n).iGroup) with
    | none => none
    | some _ => reduceOuts keys n m f []

end Verif.ApplyOut
