import Mathlib.Data.List.Lex
import Mathlib.Data.Char
import Mathlib.Data.List.Sort
import Mathlib.Data.List.Dedup
/-!
# Model of Categoricals with one string key (`riptable/rt_categorical.py`)

A Categorical holds integer codes and *two* lists of labels: `Categories._list`, which the category edits and the label
lookups use, and the unique list of the `Grouping` object, which `c[i]` and `expand_array` use.  At first both are the
same array object; every edit that makes a new array rebinds `_list` only.

Modelled: `category_add`, `category_remove`, `category_replace`, `c[rows] = label`, `c[label] = label`,
`c[i]`, comparison with a label, `expand_array`, `expand_dict`, `from_category`.
Not modelled here: multi-key Categoricals, numeric categories, conversion between bytes and unicode
(`match_str_to_category`, `:640-683`), assignment of other Categoricals.
-/
namespace Verif.Cat

/-- a category label; the order is that of code points, as in numpy -/
abbrev Label := List Char

structure Cat where
  /-- base index, 0 or 1; with base 1 the code 0 means filtered, with base 0 the code -1 is what `category_remove` writes -/
  base : Nat
  /-- number of bits of the codes -/
  bits : Nat
  /-- `_fa`, the codes -/
  fa : List Int
  /-- `Categories._list` -/
  list : List Label
  /-- item width of the array `_list` -/
  width : Nat
  /-- `grouping.uniquelist[0]` -/
  uniq : List Label
  /-- the two are the same array object -/
  shared : Bool
  /-- `Categories._sorted` -/
  sorted : Bool
  /-- `Categories._auto_add_categories` -/
  autoAdd : Bool
  /-- `Categorical._locked` -/
  locked : Bool
deriving DecidableEq

/-- the Categorical after an operation and the exception it raised, if any -/
abbrev Res := Cat × Option String

/-- value of an integer stored in a signed array of `bits` bits (numpy wraps around silently) -/
def store (bits : Nat) (x : Int) : Int := Int.bmod x (2 ^ bits)

/-- numpy `a[k]`: negative `k` counts from the end; `none` is an IndexError -/
def npGet {α : Type} (a : List α) (k : Int) : Option α :=
  if 0 ≤ k then a[k.toNat]? else if 0 ≤ (a.length : Int) + k then a[((a.length : Int) + k).toNat]? else none

/-- `np.searchsorted(a, s)`, left side, for a sorted array: the number of leading items smaller than `s` (the binary search
of numpy finds the same position in a sorted array) -/
def searchLeft (a : List Label) (s : Label) : Nat := (a.takeWhile fun x => decide (x < s)).length

/-- `bool_to_fancy(a == s)[0]`, the length of `a` when there is none (`:774-780`) -/
def firstEq : List Label → Label → Nat
  | [], _ => 0
  | x :: xs, s => if x = s then 0 else firstEq xs s + 1

/-- `Categories.get_category_index` (`rt_categorical.py:743-785`), *doubled*, since the result may be half-integral: `2 * code`
for a match, `2 * code - 1` for "between two categories" -/
def categoryIndex2 (c : Cat) (s : Label) : Int :=
  if c.sorted then
    let i := searchLeft c.list s
    (if c.list[i]? = none ∨ c.list[i]? = some s then 2 * (i : Int) else 2 * (i : Int) - 1) + 2 * c.base
  else 2 * (firstEq c.list s : Int) + 2 * c.base

/-- `Categories.get_category_match_index` (`:788-807`) of one label: `isinstance(str_idx, int) and str_idx < len + base` -/
def matchIndex (c : Cat) (s : Label) : Option Int :=
  let i2 := categoryIndex2 c s
  if i2 % 2 = 0 ∧ i2 / 2 < (c.list.length : Int) + c.base then some (i2 / 2) else none

/-- `Categorical.from_category` (`:4511-4516`): `len(self._categories_wrap)` is the number of uniques of the grouping -/
def fromCategory (c : Cat) (s : Label) : Option Int :=
  let i2 := categoryIndex2 c s
  if i2 = 2 * ((c.uniq.length : Int) + c.base) ∨ i2 % 2 = 1 then none else some (i2 / 2)

/-- `Categorical.category_add` (`:3868-3878`), `_array_edit(how="add")` (`:1129-1138`) -/
def categoryAdd (c : Cat) (value : Label) : Res :=
  if c.locked then (c, some "ValueError: locked")
  else match matchIndex c value with
    | none => ({ c with list := c.list ++ [value], width := max c.width value.length, shared := false, sorted := false }, none)
    | some _ => (c, some "ValueError: already found")

/-- `Categorical.category_remove` (`:3881-3898`), `_array_edit(how="remove")` (`:1140-1150`) -/
def categoryRemove (c : Cat) (value : Label) : Res :=
  if c.locked then (c, some "ValueError: locked")
  else match matchIndex c value with
    | none => (c, some "ValueError: not found")
    | some code =>
      let idx := (code - c.base).toNat
      let list := c.list.take idx ++ c.list.drop (idx + 1)
      let inv : Int := if c.base ≥ 1 then 0 else -1
      let fa1 := c.fa.map fun k => if k = code then inv else k
      let fa2 := fa1.map fun k => if k > code then k - 1 else k
      ({ c with list := list, fa := fa2, shared := false }, none)

/-- `Categorical.category_replace` (`:3901-3912`), `_array_edit(how="replace")` (`:1152-1171`).  The assignment
`self._list[replace_idx] = new_value` writes into an array of fixed item width. -/
def categoryReplace (c : Cat) (value new : Label) : Res :=
  if c.locked then (c, some "ValueError: locked")
  else match matchIndex c value with
    | none => (c, some "ValueError: not found")
    | some code =>
      match matchIndex c new with
      | some code2 => ({ c with fa := c.fa.map fun k => if k = code then code2 else k }, none)
      | none =>
        let idx := (code - c.base).toNat
        ({ c with
            list := c.list.set idx (new.take c.width)
            uniq := if c.shared then c.uniq.set idx (new.take c.width) else c.uniq
            sorted := false }, none)

/-- `unique(all_together)` of rt_numpy: the distinct items in order -/
def sortedUnique (l : List Label) : List Label := l.dedup.insertionSort (· ≤ ·)

/-- `unique(all_together, return_inverse=True)[1]` -/
def inverse (l : List Label) : List Int := l.map fun x => (firstEq (sortedUnique l) x : Int)

/-- `Categories._possibly_add_categories` (`:596-637`) of one label: the new Categorical, the inverse if a category was added -/
def possiblyAdd (c : Cat) (value : Label) : Except String (Cat × Option (List Int)) :=
  if value ∈ c.list then .ok (c, none)
  else if c.autoAdd then
    let all := c.list ++ [value]
    .ok ({ c with list := sortedUnique all, width := max c.width value.length, shared := false, sorted := true }, some (inverse all))
  else .error "ValueError: auto_add_categories is False"

/-- left side of an assignment: row positions (negative ones count from the end) or a label -/
inductive Idx where
  | rows (is : List Int)
  | label (l : Label)
deriving DecidableEq

/-- position of row `i` in an array of length `n` -/
def rowPos (n : Nat) (i : Int) : Option Nat :=
  if 0 ≤ i then (if i.toNat < n then some i.toNat else none)
  else if 0 ≤ (n : Int) + i then some ((n : Int) + i).toNat else none

/-- `super().__setitem__(index, value)`; the positions are checked before anything is written -/
def writeRows (fa : List Int) (ps : List Nat) (v : Int) : List Int := ps.foldl (fun a p => a.set p v) fa

/-- last part of `Categorical.__setitem__` (`:4378-4392`) -/
def assign (c : Cat) (index : Idx) (code : Int) : Res :=
  match index with
  | .rows is =>
    match is.mapM (rowPos c.fa.length) with
    | none => (c, some "IndexError")
    | some ps => ({ c with fa := writeRows c.fa ps (store c.bits code) }, none)
  | .label l =>
    match fromCategory c l with
    | none => (c, some "ValueError: not found in uniques")
    | some k => ({ c with fa := c.fa.map fun x => if x = k then store c.bits code else x }, none)

/-- `Categorical.__setitem__` with a label on the right side (`:4327-4348`, `:4378-4392`) -/
def setLabel (c : Cat) (index : Idx) (value : Label) : Res :=
  if c.locked then (c, some "IndexError: locked")
  else match possiblyAdd c value with
    | .error e => (c, some e)
    | .ok (c1, none) =>
      match matchIndex c1 value with
      | none => (c1, some "IndexError: list index out of range")
      | some code => assign c1 index code
    | .ok (c1, some fix) =>
      match c1.fa.mapM fun k => npGet fix (k - c1.base) with
      | none => (c1, some "IndexError")
      | some fa =>
        let c2 := { c1 with fa := fa.map fun x => store c1.bits (x + c1.base) }
        match matchIndex c2 value with
        | none => (c2, some "IndexError: list index out of range")
        | some code => assign c2 index code

/-- what `c[i]` gives for a code: a label, the filtered name, or `"!<code>"` -/
inductive Item where
  | label (l : Label)
  | filtered
  | bad (code : Int)
deriving DecidableEq

/-- `Categorical._getsingleitem` (`:4609-4655`); `unique_count` is the number of uniques of the grouping -/
def itemOf (c : Cat) (k : Int) : Item :=
  let idx := k - c.base
  if idx < 0 ∨ idx ≥ c.uniq.length then (if c.base = 1 ∧ k = 0 then .filtered else .bad k)
  else match c.uniq[idx.toNat]? with
    | some l => .label l
    | none => .bad k

def items (c : Cat) : List Item := c.fa.map (itemOf c)

/-- `_prepend_invalid(arr)[index]` (`:6170-6245`): the filtered name is item 0 -/
def expandWith (arr : List Label) (index : List Int) : Option (List (Option Label)) :=
  index.mapM fun k => npGet (none :: arr.map some) k

/-- `Categorical.expand_array` (`:6110-6131`) -/
def expandArray (c : Cat) : Option (List (Option Label)) :=
  expandWith c.uniq (if c.base = 0 then c.fa.map (· + 1) else c.fa)

/-- `Categorical.expand_dict` (`:6160-6166`): the codes are used as they are -/
def expandDict (c : Cat) : Option (List (Option Label)) := expandWith c.list c.fa

/-- `c == label`, `c != label`, `c < label`, … (`_categorical_compare_check`, `:4704-4821`): the codes are compared with the
(possibly half-integral) index of the label -/
def compareLabel (c : Cat) (cmp : Int → Int → Bool) (s : Label) : List Bool :=
  c.fa.map fun k => cmp (2 * k) (categoryIndex2 c s)

end Verif.Cat
