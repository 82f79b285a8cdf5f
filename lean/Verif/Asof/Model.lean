import Verif.Merge.Model
import Verif.Basic
import Mathlib.Order.Defs.LinearOrder

/-!
# Model of the as-of join kernels in `riptable/rt_merge_asof.py`

Keys are `Option α`: `none` is a float NaN, which compares false with everything.
For integer and date columns every key is `some`.  Subtraction is an arbitrary
operation of `α` (no law is assumed unless a theorem says so), which covers
rounded float subtraction; machine wrap-around is covered only in that sense.
A fancy index entry is `Option Nat`, `none` being the integer invalid.

The loops never read the output array, so a loop is modelled by the list of cell
writes it performs, in order.
-/
namespace Verif.Asof
open Verif.Merge (applyWrites Grouping ismember)

section
variable {α : Type} [LinearOrder α]

/-- `<=` on keys -/
def kle : Option α → Option α → Bool
  | some a, some b => decide (a ≤ b)
  | _, _ => false

/-- `<` on keys -/
def klt : Option α → Option α → Bool
  | some a, some b => decide (a < b)
  | _, _ => false

/-- `rt_merge_asof.py:60-75` `_less_than_comparison`: strict when exact matches are
not allowed. -/
def lessThan (exact : Bool) (x y : Option α) : Bool := if exact then kle x y else klt x y

/-- `rt_merge_asof.py:78-94` `_greater_than_comparison` -/
def greaterThan (exact : Bool) (x y : Option α) : Bool := if exact then kle y x else klt y x

/-- Loop state: cursors, previously seen keys, cell writes so far, flags
`needle_first_unsorted_idx`, `haystack_first_unsorted_idx`. -/
structure St (α : Type) where
  i : Nat
  h : Nat
  np : Option α
  hp : Option α
  w : List (Nat × Option Nat)
  nbad : Option Nat
  hbad : Option Nat

/-- The arguments of a kernel run over one group (the whole columns when ungrouped).
`nIdx`/`hIdx` give the row of the `i`-th element of the group: the identity in
`_merge_asof_backward`/`_forward`, `igroup[offset + i]` in the grouped kernels, which
are otherwise the same text. -/
structure Run (α : Type) where
  exact : Bool
  /-- `tol needle hay`: `equality_tolerance is None or equality_tolerance >= distance` -/
  tol : Option α → Option α → Bool
  nlen : Nat
  hlen : Nat
  nIdx : Nat → Nat
  hIdx : Nat → Nat
  nkey : List (Option α)
  hkey : List (Option α)

/-- `needles_2nd_key[needle_curr_idx]` -/
def Run.N (r : Run α) (i : Nat) : Option α := r.nkey.getD (r.nIdx i) none
/-- `haystack_2nd_key[haystack_curr_idx]` -/
def Run.H (r : Run α) (i : Nat) : Option α := r.hkey.getD (r.hIdx i) none

/-- One iteration of the loop of `_merge_asof_backward`, `rt_merge_asof.py:160-231`
(grouped: `:337-410`). -/
def bwdStep (r : Run α) (s : St α) : St α :=
  let n := r.N s.i
  let y := r.H s.h
  if !kle s.np n then { s with np := n, hp := y, nbad := some (r.nIdx s.i), i := r.nlen }
  else if !kle s.hp y then { s with np := n, hp := y, hbad := some (r.hIdx s.h), h := r.hlen }
  else if lessThan r.exact y n then
    if s.h + 1 < r.hlen && lessThan r.exact (r.H (s.h + 1)) n then
      { s with np := n, hp := y, h := s.h + 1 }
    else
      { s with np := n, hp := y, i := s.i + 1
               w := s.w ++ [(r.nIdx s.i, if r.tol n y then some (r.hIdx s.h) else none)] }
  else if s.h < 1 then
    { s with np := n, hp := y, i := s.i + 1, w := s.w ++ [(r.nIdx s.i, none)] }
  else { s with np := n, hp := y, h := s.h + 1 }

/-- The `while` loop, `rt_merge_asof.py:159`.  Every iteration advances a cursor, so
`nlen + hlen` iterations are enough (`bwdLoop_exit`). -/
def bwdLoop (r : Run α) : Nat → St α → St α
  | 0, s => s
  | fuel + 1, s => if s.i < r.nlen ∧ s.h < r.hlen then bwdLoop r fuel (bwdStep r s) else s

/-- `rt_merge_asof.py:97-237` `_merge_asof_backward`, and one iteration of
`_merge_asof_grouped_backward` (`:316-418`): initial state, loop, tail assignment.
`loN`, `loH` are `get_min_valid` of the two key types.  The tail writes a position,
not a row, in the grouped kernel as well. -/
def bwdKernel (r : Run α) (loN loH : α) : St α :=
  let s := bwdLoop r (r.nlen + r.hlen) ⟨0, 0, some loN, some loH, [], none, none⟩
  if s.i < r.nlen then
    { s with w := s.w ++ (List.range' s.i (r.nlen - s.i)).map fun t =>
        (r.nIdx t, if r.hlen > 0 then some (r.hlen - 1) else none) }
  else s

/-- One iteration of the loop of `_merge_asof_forward`, `rt_merge_asof.py:484-555`
(grouped: `:661-734`).  The cursors are stored plus one: `i = i_needle + 1`,
`h = i_haystack + 1`, so that `-1` is `0`. -/
def fwdStep (r : Run α) (s : St α) : St α :=
  let n := r.N (s.i - 1)
  let y := r.H (s.h - 1)
  if !kle n s.np then { s with np := n, hp := y, nbad := some (r.nIdx (s.i - 1)), i := 0 }
  else if !kle y s.hp then { s with np := n, hp := y, hbad := some (r.hIdx (s.h - 1)), h := 0 }
  else if greaterThan r.exact y n then
    if s.h - 1 > 0 && greaterThan r.exact (r.H (s.h - 1 - 1)) n then
      { s with np := n, hp := y, h := s.h - 1 }
    else
      { s with np := n, hp := y, i := s.i - 1
               w := s.w ++ [(r.nIdx (s.i - 1), if r.tol n y then some (r.hIdx (s.h - 1)) else none)] }
  else if s.h - 1 + 1 = r.hlen then
    { s with np := n, hp := y, i := s.i - 1, w := s.w ++ [(r.nIdx (s.i - 1), none)] }
  else { s with np := n, hp := y, h := s.h - 1 }

/-- The `while` loop, `rt_merge_asof.py:483`. -/
def fwdLoop (r : Run α) : Nat → St α → St α
  | 0, s => s
  | fuel + 1, s => if 0 < s.i ∧ 0 < s.h then fwdLoop r fuel (fwdStep r s) else s

/-- `rt_merge_asof.py:420-561` `_merge_asof_forward`, and one iteration of
`_merge_asof_grouped_forward` (`:640-742`).  `hiN`, `hiH` are `get_max_valid`.  The
tail slice is `[:i_needle]`. -/
def fwdKernel (r : Run α) (hiN hiH : α) : St α :=
  let s := fwdLoop r (r.nlen + r.hlen) ⟨r.nlen, r.hlen, some hiN, some hiH, [], none, none⟩
  if 0 < s.i then
    { s with w := s.w ++ (List.range (s.i - 1)).map fun t =>
        (r.nIdx t, if r.hlen > 0 then some 0 else none) }
  else s

/-! ## Tolerance and direction -/

/-- `equality_tolerance is None or equality_tolerance >= (needle - hay)`,
`rt_merge_asof.py:215` -/
def tolBwd [Sub α] (t : Option α) (n y : Option α) : Bool :=
  match t with
  | none => true
  | some t => match n, y with
    | some n, some y => decide (n - y ≤ t)
    | _, _ => false

/-- `equality_tolerance is None or equality_tolerance >= (hay - needle)`,
`rt_merge_asof.py:539` -/
def tolFwd [Sub α] (t : Option α) (n y : Option α) : Bool :=
  match t with
  | none => true
  | some t => match n, y with
    | some n, some y => decide (y - n ≤ t)
    | _, _ => false

/-- `rt_merge_asof.py:745-801` `_merge_asof_combine_into_nearest`; every iteration
writes its own cell. -/
def combine [Sub α] (hkey nkey : List (Option α)) (b f : List (Option Nat)) : List (Option Nat) :=
  (List.range nkey.length).map fun i =>
    match b.getD i none, f.getD i none with
    | none, x => x
    | some jb, none => some jb
    | some jb, some jf =>
      match nkey.getD i none, hkey.getD jb none, hkey.getD jf none with
      | some n, some yb, some yf => if n - yb ≤ yf - n then some jb else some jf
      | _, _, _ => some jf

/-- the `direction` argument -/
inductive Dir where
  | backward | forward | nearest
  deriving DecidableEq, Repr

/-- `get_min_valid`/`get_max_valid` of the key types of the two sides. -/
structure Bounds (α : Type) where
  loN : α
  loH : α
  hiN : α
  hiH : α

/-- `rt_merge_asof.py:950-953`, `:1137-1140`: raise if a flag is set, right side first. -/
def checkFlags (hbad nbad : Bool) (out : List (Option Nat)) : Except String (List (Option Nat)) :=
  if hbad then .error "ValueError: right not sorted"
  else if nbad then .error "ValueError: left not sorted"
  else .ok out

/-- the arguments of the ungrouped kernels -/
def flatRun (exact : Bool) (tol : Option α → Option α → Bool) (left right : List (Option α)) : Run α :=
  ⟨exact, tol, left.length, right.length, id, id, left, right⟩

/-- `rt_merge_asof.py:812-956` `_create_merge_asof_fancy_indices` -/
def asofIndices [Sub α] (b : Bounds α) (tol : Option α) (exact : Bool) (dir : Dir)
    (left right : List (Option α)) : Except String (List (Option Nat)) :=
  let out := List.replicate left.length (none : Option Nat)
  let kb := bwdKernel (flatRun exact (tolBwd tol) left right) b.loN b.loH
  let kf := fwdKernel (flatRun exact (tolFwd tol) left right) b.hiN b.hiH
  match dir with
  | .backward => checkFlags kb.hbad.isSome kb.nbad.isSome (applyWrites out kb.w)
  | .forward => checkFlags kf.hbad.isSome kf.nbad.isSome (applyWrites out kf.w)
  | .nearest =>
    checkFlags (kb.hbad.isSome || kf.hbad.isSome) (kb.nbad.isSome || kf.nbad.isSome)
      (combine right left (applyWrites out kb.w) (applyWrites out kf.w))

/-! ## Grouped kernels -/

section
variable {K : Type}

/-- the kernel arguments of one iteration of the grouped kernels,
`rt_merge_asof.py:299-317`, `:338-339` -/
def groupRun (exact : Bool) (tol : Option α → Option α → Bool) (L R : Grouping K)
    (left right : List (Option α)) (g h : Nat) : Run α :=
  ⟨exact, tol, L.ncountgroup.getD (g + 1) 0, R.ncountgroup.getD (h + 1) 0,
    fun i => L.igroup.getD (L.ifirstgroup.getD (g + 1) 0 + i) 0,
    fun i => R.igroup.getD (R.ifirstgroup.getD (h + 1) 0 + i) 0, left, right⟩

/-- the state with only writes (`rt_merge_asof.py:305-313`: key absent on the right) -/
def absentGroup (L : Grouping K) (g : Nat) (s : St α) : St α :=
  { s with w := ((L.igroup.drop (L.ifirstgroup.getD (g + 1) 0)).take
      (L.ncountgroup.getD (g + 1) 0)).map fun p => (p, none) }

/-- Iteration `g` of `_merge_asof_grouped_backward`, `rt_merge_asof.py:296-418`. -/
def bwdGroup (b : Bounds α) (exact : Bool) (tol : Option α → Option α → Bool) (L R : Grouping K)
    (left right : List (Option α)) (map : List (Option Nat)) (g : Nat) : St α :=
  match map.getD g none with
  | none => absentGroup L g ⟨0, 0, none, none, [], none, none⟩
  | some h => bwdKernel (groupRun exact tol L R left right g h) b.loN b.loH

/-- Iteration `g` of `_merge_asof_grouped_forward`, `rt_merge_asof.py:620-742`. -/
def fwdGroup (b : Bounds α) (exact : Bool) (tol : Option α → Option α → Bool) (L R : Grouping K)
    (left right : List (Option α)) (map : List (Option Nat)) (g : Nat) : St α :=
  match map.getD g none with
  | none => absentGroup L g ⟨0, 0, none, none, [], none, none⟩
  | some h => fwdKernel (groupRun exact tol L R left right g h) b.hiN b.hiH

/-- `rt_merge_asof.py:959-1143` `_create_merge_asof_grouped_fancy_indices`.  `order`
gives the order in which the iterations of the `prange` loops run.  Each flag
array has a cell per group; only whether any is set matters. -/
def asofGrouped [Sub α] [DecidableEq K] (order : List Nat) (b : Bounds α) (tol : Option α) (exact : Bool)
    (dir : Dir) (L R : Grouping K) (left right : List (Option α)) :
    Except String (List (Option Nat)) :=
  let map := ismember L.gbkeys R.gbkeys
  let out := List.replicate L.ikey.length (none : Option Nat)
  let kb := order.map (bwdGroup b exact (tolBwd tol) L R left right map)
  let kf := order.map (fwdGroup b exact (tolFwd tol) L R left right map)
  let hb (k : List (St α)) := k.any fun s => s.hbad.isSome
  let nb (k : List (St α)) := k.any fun s => s.nbad.isSome
  match dir with
  | .backward => checkFlags (hb kb) (nb kb) (applyWrites out (kb.flatMap St.w))
  | .forward => checkFlags (hb kf) (nb kf) (applyWrites out (kf.flatMap St.w))
  | .nearest =>
    checkFlags (hb kb || hb kf) (nb kb || nb kf)
      (combine right left (applyWrites out (kb.flatMap St.w)) (applyWrites out (kf.flatMap St.w)))

end
end
end Verif.Asof
