import Verif.Cat.Model
import Verif.Cat.Mapping
import Verif.CatOps.Spec
import Verif.Arr.Model
/-!
# Model: operations of Categoricals

Models `/repo/riptable/rt_categorical.py` lines 4704-4821 (`_categorical_compare_check` with several values), 4318-4326
(`__setitem__` of a Categorical), 3965-4098 (`map`), 3047-3175 (`one_hot_encode`), 3254-3309 (`set_valid`), 3336-3350 (`shift_cat`),
5426-5483 (`as_singlekey`), 6594-6651 (`categorical_merge_dict`), and `/repo/riptable/rt_grouping.py` lines 2049-2201 (`regroup`).

Simplifications, for all definitions below: labels are values of one type (no conversion between bytes and unicode), codes are
unbounded integers, warnings are left out.
-/
namespace Verif.CatOps
open Verif.Cat

variable {L W : Type}

/-- Exceptions: `ValueError`, `TypeError`, `IndexError`. -/
inductive Err
  | value
  | type
  | index
deriving DecidableEq

/-! ## comparing with several values -/

/-- `mask_ori` of the masks: entry by entry, is one of them True -/
def maskOr (n : Nat) (ms : List (List Bool)) : List Bool := (List.range n).map fun (i : Nat) => ms.any fun m => m[i]? == some true

/-- `c == [label, …]`, `c != [label, …]`, … (`_categorical_compare_check` 4776-4791): the comparisons with the labels are joined by
"or" -/
def compareList (c : Cat) (cmp : Int → Int → Bool) (ls : List Label) : Except Err (List Bool) :=
  if ls = [] then .error .value
  else .ok (maskOr c.fa.length (ls.map fun (s : Label) => compareLabel c cmp s))

/-- `c == numbers` for as many numbers as rows (4799-4800, `CompareCheckHelper` 6682-6735): row by row, in `categories()`, which has
the sentinel in front with base index 1. `none`: outside of the array, which numba does not notice. -/
def compareArray (sentinel : W) (cmp : W → W → Bool) (c : C W) (ys : List W) : List (Option Bool) :=
  List.zipWith (fun (k : Int) (y : W) => (npGet (if c.base = 1 then sentinel :: c.labels else c.labels) k).map fun x => cmp x y) c.codes ys

/-! ## assigning a Categorical -/

/-- numpy `fa[ps] = vals`: one value is repeated, otherwise there have to be as many values as rows -/
def putRows (fa : List Int) (ps : List Nat) (vals : List Int) : Except Err (List Int) :=
  if vals.length = ps.length then .ok ((ps.zip vals).foldl (fun a e => a.set e.1 e.2) fa)
  else match vals with
    | [v] => .ok (ps.foldl (fun a p => a.set p v) fa)
    | _ => .error .value

/-- `categories_equal` (6376-6435) of two Categoricals: as many categories, same checksum -/
def categoriesEqual (crc : List L → Nat) (a b : C L) : Bool := decide (a.labels.length = b.labels.length ∧ crc a.labels = crc b.labels)

/-- `c[ps] = d` for a Categorical `d` (4318-4326); `filtered` is what `expand_array` has for filtered rows, `toInt` the conversion
of a label to an integer (`none`: ValueError). If the categories differ the rows of the Categorical itself are written. -/
def setCat (crc : List L → Nat) (toInt : L → Option Int) (filtered : L) (c d : C L) (ps : List Nat) : Except Err (C L) :=
  if categoriesEqual crc c d then (putRows c.codes ps d.codes).map fun fa => { c with codes := fa }
  else match c.rows.mapM fun (r : Option L) => toInt (r.getD filtered) with
    | none => .error .value
    | some vals => (putRows c.codes ps vals).map fun fa => { c with codes := fa }

/-! ## map -/

/-- what `expand_array` has in a row: the category, or `filtered` -/
def expand (filtered : L) (c : C L) : List L := c.rows.map fun r => r.getD filtered

/-- 1-based position of a value, 0 if it is missing (`ismember(…, base_index=1)`) -/
def position [DecidableEq L] (keys : List L) (x : L) : Nat := if x ∈ keys then keys.idxOf x + 1 else 0

/-- what the functions that depend on the dtype of the new values give: the filtered value of `expand_array` ("Filtered" or the
sentinel), the default of `invalid` ("Inv" or the sentinel; none for bools and others) -/
structure Defaults (W : Type) where
  filtered : W
  invalid : Option W

/-- `map` with a dictionary (4054-4074, 4094-4098) -/
def mapDict [DecidableEq L] (filtered : L) (df : Defaults W) (c : C L) (mapper : List (L × W)) (invalid : Option W) : Except Err (List W) :=
  let oldcats := mapper.map Prod.fst
  let newcats := mapper.map Prod.snd
  let catidx := c.labels.map fun (l : L) => position oldcats l
  if catidx.any fun i => decide (i = 0) then
    let instance_ := (expand filtered c).map fun (l : L) => (position oldcats l : Int)
    match invalid.or df.invalid with
    | none => .error .type
    | some inv => .ok (expand inv ⟨1, instance_, newcats⟩)
  else .ok (expand df.filtered ⟨c.base, c.codes, catidx.filterMap fun i => newcats[i - 1]?⟩)

/-- `map` with an array (4077-4086, 4094-4098) -/
def mapArray (df : Defaults W) (c : C L) (mapper : List W) (invalid : Option W) : Except Err (List W) :=
  if mapper.length ≠ c.labels.length then .error .value
  else if c.base = 1 then
    match invalid.or df.invalid with
    | none => .error .type
    | some inv => .ok (expand inv ⟨c.base, c.codes, mapper⟩)
  else .ok (expand df.filtered ⟨c.base, c.codes, mapper⟩)

/-! ## one-hot encoding -/

/-- `one_hot_encode()` for a single key (3140-3165) -/
def oneHot (c : C L) : List L × List (List Bool) :=
  (c.labels, (List.range c.labels.length).map fun (j : Nat) => c.codes.map fun (k : Int) => decide (k = (j : Int) + c.base))

/-! ## shifting -/

/-- `shift_cat` (3349-3350) and `shift` (4101): the code 0 is shifted in -/
def shiftCat (p : Int) (c : C L) (junk : List Int) : Except Verif.Arr.Err (C L) :=
  (Verif.Arr.shift 0 p c.codes junk).map fun fa => { c with codes := fa }

/-! ## one key instead of several -/

/-- `as_singlekey` of several keys (5476-5479): the categories are the keys joined by the separator; with base index 0 the codes are
taken for codes with base index 1 (5479 does not pass the base index) -/
def asSinglekey (join : L → W) (c : C L) : C W := ⟨1, c.codes, c.labels.map join⟩

/-! ## regroup -/

/-- `argsort` -/
def argsort (l : List Nat) : List Nat := (List.range l.length).insertionSort fun a b => l[a]?.getD 0 ≤ l[b]?.getD 0

/-- `issorted` -/
def issorted (l : List Nat) : Bool := decide (l.Pairwise (· ≤ ·))

/-- `a[idx]` for positions inside -/
def take {A : Type} (a : List A) (idx : List Nat) : List A := idx.filterMap fun i => a[i]?

/-- what `combine_accum1_filter` returns -/
structure Combined where
  iKey : List Nat
  iFirst : List Nat
  n : Nat
deriving DecidableEq

/-- the Grouping made by `regroup` -/
structure Regrouped (L : Type) where
  iKey : List Nat
  iFirst : List Nat
  labels : List L
deriving DecidableEq

/-- `ifirstkey[argsort(order)]`, unless the order is sorted already (2155-2159, 2164-2168, 2177-2181) -/
def reorder (iFirst order : List Nat) : List Nat := if issorted order then iFirst else take iFirst (argsort order)

/-- `regroup` (2141-2191) of the 1-based keys `keys` with categories `labels`, `cb` the result of `combine_accum1_filter` and
`hasFilter` whether a filter was given -/
def regroup (keys : List Nat) (labels : List L) (cb : Combined) (hasFilter : Bool) : Regrouped L :=
  let sortkey := take keys cb.iFirst
  if labels.length = cb.n then
    if !hasFilter && cb.iKey.all (fun k => decide (0 < k)) then
      ⟨cb.iKey.map fun (k : Nat) => sortkey[k - 1]?.getD 0, reorder cb.iFirst sortkey, labels⟩
    else
      let remap := 0 :: sortkey
      ⟨cb.iKey.map fun (k : Nat) => remap[k]?.getD 0, reorder cb.iFirst sortkey, labels⟩
  else
    let rank := (argsort (argsort sortkey)).map (· + 1)
    let remap := 0 :: rank
    ⟨cb.iKey.map fun (k : Nat) => remap[k]?.getD 0, reorder cb.iFirst rank,
      take labels ((sortkey.map (· - 1)).insertionSort (· ≤ ·))⟩

/-- `set_valid(filter)` of a Categorical without mapping (3301-3306; `regroup` 2141-2147: with base index 0 the keys are the codes
plus 1): the result has base index 1 -/
def setValid (c : C L) (cb : Combined) (hasFilter : Bool) : C L :=
  let r := regroup (c.codes.map fun (k : Int) => (k + (1 - (c.base : Int))).toNat) c.labels cb hasFilter
  ⟨1, r.iKey.map fun (k : Nat) => (k : Int), r.labels⟩

/-! ## category_make_unique -/

/-- `_from_maybe_non_unique_labels` (3915-3939): `uc` is the Categorical made of the categories themselves. `none`: IndexError. -/
def makeUnique (c uc : C L) : Option (C L) :=
  if c.labels.length = uc.labels.length then some c
  else if 0 < c.base then
    (c.codes.mapM fun (k : Int) => npGet uc.codes (k - c.base)).map fun pointer =>
      ⟨c.base, List.zipWith (fun (k p : Int) => if k = 0 then 0 else p) c.codes pointer, uc.labels⟩
  else (c.codes.mapM fun (k : Int) => npGet uc.codes k).map fun pointer => ⟨c.base, pointer, uc.labels⟩

/-! ## mappings -/

/-- `set_valid` of a Categorical with a mapping (3272-3298): the codes of the Categorical itself afterwards, the codes of the result,
its mapping; `inv` is the invalid code -/
def setValidEnum [DecidableEq L] (inv : Int) (filteredName : L) (codes : List Int) (mapping : List (Int × L)) (filter : Option (List Bool)) :
    List Int × List Int × List (Int × L) :=
  let ikey := filter.elim codes fun f => List.zipWith (fun (k : Int) (b : Bool) => if b then k else inv) codes f
  let newdict := mapping.filter fun (e : Int × L) => decide (e.1 ∈ ikey)
  let newdict := if filter.isSome then newdict.filter (fun (e : Int × L) => decide (e.1 ≠ inv)) ++ [(inv, filteredName)] else newdict
  (ikey, ikey, newdict)

/-- the two dictionaries of a Categorical with a mapping: label to code, code to label -/
structure Dicts (L : Type) where
  str2int : List (L × Int)
  int2str : List (Int × L)

/-- the two checks of `categorical_merge_dict` (6613-6636): no label has two codes, no code has two labels -/
def mergeSafe [DecidableEq L] (ms : List (Dicts L)) : Bool :=
  (ms.all fun a => a.str2int.all fun e => ms.all fun b => decide (b.str2int.lookup e.1 = none ∨ b.str2int.lookup e.1 = a.str2int.lookup e.1)) &&
  (ms.all fun a => a.int2str.all fun e => ms.all fun b => decide (b.int2str.lookup e.1 = none ∨ b.int2str.lookup e.1 = a.int2str.lookup e.1))

/-- the merged mapping of labels to codes (6639-6647): for every label the code in the first mapping that has it. The labels are those
of a `set`; here each is taken once, in some order. -/
def mergeDict [DecidableEq L] (ms : List (Dicts L)) : Except Err (List (L × Int)) :=
  if mergeSafe ms then
    .ok ((ms.flatMap fun m => m.str2int.map Prod.fst).dedup.filterMap fun (s : L) =>
      (ms.findSome? fun m => m.str2int.lookup s).map fun i => (s, i))
  else .error .value

end Verif.CatOps
