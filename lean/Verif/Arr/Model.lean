import Verif.Basic
import Verif.Dup.Model
import Verif.Arr.Spec
import Mathlib.Data.List.Sort
import Mathlib.Data.List.Dedup

/-!
# Model: functions of FastArray written in Python

Models `/repo/riptable/rt_fastarray.py` lines 1897-1961 (`duplicated`), 3934-3996 (`nunique`),
4046-4319 (`shift`, `_internal_self_compare`, `differs`, `transitions`, `diff`), 4354-4411
(`replacena`).

Simplifications, for all definitions below:
* arrays have one dimension; an array is the list of its entries, a new array made by `empty` or
  `empty_like` has arbitrary contents `junk` of the right length;
* the comparisons and the subtraction of the C++ library are parameters on entries;
* `fancy=True` (the positions of the True entries) is left out.
-/
namespace Verif.Arr

variable {V W : Type}

/-- Exceptions: `ValueError`. -/
inductive Err
  | value
deriving DecidableEq

/-- `xs[:k]` -/
def lo (xs : List V) (k : Int) : List V := if 0 ≤ k then xs.take k.toNat else xs.take ((xs.length : Int) + k).toNat

/-- `xs[k:]` -/
def hi (xs : List V) (k : Int) : List V := if 0 ≤ k then xs.drop k.toNat else xs.drop ((xs.length : Int) + k).toNat

/-- `xs[:k] = ys`; numpy raises if the lengths differ (one entry, which numpy would repeat, left out) -/
def putLo (xs : List V) (k : Int) (ys : List V) : Except Err (List V) :=
  if ys.length = (lo xs k).length then .ok (ys ++ hi xs k) else .error .value

/-- `xs[k:] = ys` -/
def putHi (xs : List V) (k : Int) (ys : List V) : Except Err (List V) :=
  if ys.length = (hi xs k).length then .ok (lo xs k ++ ys) else .error .value

/-- `xs[:k] = v` -/
def fillLo (xs : List V) (k : Int) (v : V) : List V := (lo xs k).map (fun _ => v) ++ hi xs k

/-- `xs[k:] = v` -/
def fillHi (xs : List V) (k : Int) (v : V) : List V := lo xs k ++ (hi xs k).map fun _ => v

/-- a function of two arrays, entry by entry, one entry against many repeated (numpy) -/
def ufunc (f : V → V → W) (a b : List V) : Except Err (List W) :=
  if a.length = b.length then .ok (List.zipWith f a b)
  else match a, b with
    | [x], _ => .ok (b.map fun y => f x y)
    | _, [y] => .ok (a.map fun x => f x y)
    | _, _ => .error .value

/-- `shift` (4097-4125) -/
def shift (inv : V) (p : Int) (xs junk : List V) : Except Err (List V) :=
  if p = 0 then .ok xs
  else if xs.length ≤ p.natAbs then .ok (junk.map fun _ => inv)
  else if 0 < p then putHi (fillLo junk p inv) p (lo xs (-p))
  else do
    let t ← putLo junk p (hi xs (-p))
    pure (fillHi t p inv)

/-- `_internal_self_compare` (4128-4150) with the comparison `cmp` -/
def selfCompare (cmp : V → V → Bool) (p : Int) (xs : List V) (junk : List Bool) : Except Err (List Bool) :=
  if p = 0 then .error .value
  else if 0 < p then do
    let bs ← ufunc cmp (hi xs p) (lo xs (-p))
    let r ← putHi junk p bs
    pure (fillLo r p false)
  else do
    let bs ← ufunc cmp (lo xs p) (hi xs (-p))
    let r ← putLo junk p bs
    pure (fillHi r p false)

/-- `transitions` of numbers (4248): `CMP_NE` -/
def transitions (ne : V → V → Bool) (p : Int) (xs : List V) (junk : List Bool) : Except Err (List Bool) :=
  selfCompare ne p xs junk

/-- `differs` of numbers (4217): `CMP_EQ` -/
def differs (eq : V → V → Bool) (p : Int) (xs : List V) (junk : List Bool) : Except Err (List Bool) :=
  selfCompare eq p xs junk

/-- `transitions` and `differs` of strings and other dtypes above 13 (4212-4216, 4243-4247) -/
def textTransitions (ne : V → V → Bool) (inv : V) (p : Int) (xs junk : List V) : Except Err (List Bool) := do
  let s ← shift inv p xs junk
  ufunc ne xs s

/-- `differs` of strings (4212-4216): the same line as in `transitions` -/
def textDiffers (ne : V → V → Bool) (inv : V) (p : Int) (xs junk : List V) : Except Err (List Bool) := do
  let s ← shift inv p xs junk
  ufunc ne xs s

/-- `diff` (4303-4319): `np.subtract(…, out=temp[…])` -/
def diff (sub : V → V → V) (inv : V) (p : Int) (xs junk : List V) : Except Err (List V) :=
  if xs.length ≤ p.natAbs then .ok (junk.map fun _ => inv)
  else if 0 < p then do
    let ds ← ufunc sub (hi xs p) (lo xs (-p))
    putHi (fillLo junk p inv) p ds
  else do
    let ds ← ufunc sub (lo xs p) (hi xs (-p))
    putLo (fillHi junk p inv) p ds

/-- `replacena` (4405-4411): the array itself afterwards, and the returned array -/
def replacena (isna : V → Bool) (value : V) (inplace : Bool) (xs : List V) : List V × Option (List V) :=
  let inst := if xs.any isna then xs.map fun x => if isna x then value else x else xs
  if inplace then (inst, none) else (xs, some inst)

/-- which end of the sorted different entries `nunique` looks at (3984-3995) -/
inductive Side
  | first
  | last
deriving DecidableEq

/-- `un[0]` or `un[count - 1]` -/
def atSide (side : Side) (un : List V) : Option V := match side with
  | .first => un.head?
  | .last => un.getLast?

/-- `nunique` (3979-3996): `un` are the different entries in ascending order (NaN, if there is one,
last and once); signed integers, bytes, strings and bools look at the first one, unsigned integers
and floats at the last one -/
def nunique [LinearOrder V] (side : Side) (isInv : V → Bool) (xs : List V) : Nat :=
  let un := xs.dedup.insertionSort (· ≤ ·)
  if (atSide side un).any isInv then un.length - 1 else un.length

/-- which repeated entries are kept -/
inductive Keep
  | first
  | last
  | no
deriving DecidableEq

/-- `ncountgroup[1:]` -/
def counts (keys : List Nat) (n : Nat) : List Nat := (List.range n).map fun (g : Nat) => (Verif.Grp.rowsOf keys (g + 1)).length

/-- `ifirstkey` -/
def firsts (keys : List Nat) (n : Nat) : List Nat := (List.range n).filterMap fun (g : Nat) => Verif.Dup.firstOf keys (g + 1)

/-- `result[positions] = False` -/
def unset (r : List Bool) (ps : List Nat) : List Bool := ps.foldl (fun a p => a.set p false) r

/-- `duplicated` (1940-1961); `group` numbers the entries (`Grouping`, C++) -/
def duplicated (group : List V → List Nat × Nat) (keep : Keep) (xs : List V) : List Bool :=
  let arr := if keep = .last then xs.reverse else xs
  let g := group arr
  let ones := List.replicate arr.length true
  match keep with
  | .no => unset ones (((firsts g.1 g.2).zip (counts g.1 g.2)).filterMap fun (e : Nat × Nat) => if e.2 = 1 then some e.1 else none)
  | .first => unset ones (firsts g.1 g.2)
  | .last => (unset ones (firsts g.1 g.2)).reverse

end Verif.Arr
