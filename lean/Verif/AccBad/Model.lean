import Verif.AccBad.Spec
import Verif.Accum.Model
/-!
# Bad rows and columns of `Accum2`, `riptable/rt_accum2.py` (C351 - C355)

597-656 (`_calc_badslots`), 661-762 (`_calc_multipass`), 766-915 (`_calc_onepass`), 918-996 (`_stack_dataset`); the cells, their matrix
and its totals are those of `Verif/Accum`.

Simplifications: numbers are not negative; a boolean mask is the numbers where it is true (it raises with `showfilter`); labels are texts
(numbers given for an axis of numbers are taken as the numbers of its rows); the filter is part of the data (`Row.pass`).
-/
namespace Verif.AccBad
open Verif.Accum Verif.Items
variable {V : Type}

/-- the totals below, at the right and in the corner -/
structure Margins (V : Type) where
  totalsX : List V
  totalsY : List V
  total : V
deriving DecidableEq, Repr

def position (labels : List Name) (n : Name) : Option Nat := labels.findIdx? fun l => l == n

/-- 618-627: `_calc_badslots(wantfancy=True)`: numbers of the rows or columns; `none`: a label is not there, which raises when the
mask is indexed with the invalid index -/
def fancy (a : Axis) : Slots → Option (List Nat)
  | .nums l => some l
  | .names l => l.mapM (position a.labels)

/-- 849-864: the mask after `boolmask[numbers] = False`; `none`: out of range -/
def maskOf (n shift : Nat) (bad : List Nat) : Option (List Bool) :=
  if bad.all (fun i => i + shift < n) then some ((List.range n).map fun i => !(bad.contains (i - shift) && decide (shift ≤ i))) else none

/-- the mask of an axis; all true if nothing is bad (840-841) -/
def axisMask (a : Axis) (n shift : Nat) : Option Slots → Option (List Bool)
  | none => maskOf n shift []
  | some s => (fancy a s).bind (maskOf n shift)

/-- `l[mask]` -/
def keep {α : Type} : List Bool → List α → List α
  | b :: bs, x :: xs => if b then x :: keep bs xs else keep bs xs
  | _, _ => []

/-- `old[mask] = new` -/
def put {α : Type} : List Bool → List α → List α → List α
  | true :: bs, _ :: os, n :: ns => n :: put bs os ns
  | false :: bs, o :: os, ns => o :: put bs os ns
  | _, os, _ => os

/-- 831-892: the totals with bad rows and columns, in the order of the codes -/
def dirty (func : List V → V) (im : List (List V)) (t : List V × List V) (maskY maskX : List Bool) : Margins V :=
  let im2 := (keep maskY im).map (keep maskX)
  let new := apply2d func im2 (maskX.filter fun b => b).length true
  ⟨put maskX t.1 new.1, put maskY t.2 new.2, func im2.flatten⟩

/-- 894-904 -/
def display (rows cols : Axis) (sf : Bool) (m : Margins V) : Margins V :=
  ⟨if cols.sortGb then gather m.totalsX (sortIdx cols sf) else m.totalsX,
   if rows.sortGb then gather m.totalsY (sortIdx rows sf) else m.totalsY, m.total⟩

/-- `_calc_onepass`: the totals of functions computed from the cells -/
def onepass (func : List V → V) (rows cols : Axis) (arr : List V) (sf : Bool) (badR badC : Option Slots) : Option (Margins V) :=
  let im := makeImatrix rows cols arr sf
  let t := apply2d func im (if sf then cols.n + 1 else cols.n) sf
  if badR.isNone && badC.isNone then some (display rows cols sf ⟨t.1, t.2, func t.2⟩)
  else
    match axisMask rows t.2.length (if sf then 1 else 0) badR, axisMask cols t.1.length (if sf then 1 else 0) badC with
    | some maskY, some maskX => some (display rows cols sf (dirty func (if sf then im else im.drop 1) t maskY maskX))
    | _, _ => none

/-- the table of a function computed from the cells -/
def accumOne (agg func : List V → V) (rows cols : Axis) (data : List (Row V)) (sf : Bool) (badR badC : Option Slots) :
    Option (Margins V) :=
  onepass func rows cols (calculate agg rows cols data) sf badR badC

/-! ## Totals from the data -/

/-- `cat._fa`: the codes of base index 0 begin with 0 -/
def raw (a : Axis) (k : Nat) : Nat := if a.base0 then k - 1 else k

/-- 629-651: `_calc_badslots(wantfancy=False)` without the filter: the row of data is not in a bad slot -/
def notBad (a : Axis) (k : Nat) : Option Slots → Bool
  | none => true
  | some (.nums [i]) => raw a k != i + 1
  | some (.nums l) => !(l.map (· + 1)).contains (raw a k)
  | some (.names l) => !(match a.label k with | none => false | some n => l.contains n)

/-- `_calc_multipass` with `badcalc`: the totals of functions computed from the data -/
def multipass (agg func : List V → V) (rows cols : Axis) (data : List (Row V)) (sf : Bool) (badR badC : Option Slots) : Margins V :=
  let filterX := fun x : Row V => x.pass && notBad cols x.c badC
  let filterY := fun x : Row V => x.pass && notBad rows x.r badR
  ⟨accum1 agg cols Row.c (data.map fun x => { x with pass := filterY x }) sf,
   accum1 agg rows Row.r (data.map fun x => { x with pass := filterX x }) sf,
   func ((data.filter fun x => filterX x && filterY x).map Row.v)⟩

/-! ## What happens to the argument -/

/-- the numbers of bad rows as a list or as an array -/
inductive Arg where
  | list (l : List Nat)
  | array (l : List Nat)
deriving DecidableEq, Repr

def Arg.nums : Arg → List Nat
  | .list l => l
  | .array l => l

/-- `np.atleast_1d(badslots)` is the array itself, and a new array for a list: `+= 1` changes the first -/
def Arg.addOne : Arg → Arg
  | .list l => .list l
  | .array l => .array (l.map (· + 1))

/-- one column of data (801, 854, 979-986): the numbers `_calc_onepass` leaves out, those noted in the result, and the argument
afterwards -/
def oneColumn (sf : Bool) (arg : Arg) : List Nat × List Nat × Arg :=
  let arg1 := if sf then arg.addOne else arg
  let arg2 := if sf then arg1.addOne else arg1
  (arg.nums, if sf then arg1.nums.map (· + 1) else arg1.nums, arg2)

/-- several columns of data, one after the other (`_finish_calculate_all`): numbers left out and noted for each, the argument afterwards -/
def columns (sf : Bool) : Nat → Arg → List (List Nat × List Nat) × Arg
  | 0, arg => ([], arg)
  | k + 1, arg =>
    let o := oneColumn sf arg
    let rest := columns sf k o.2.2
    ((o.1, o.2.1) :: rest.1, rest.2)
end Verif.AccBad
