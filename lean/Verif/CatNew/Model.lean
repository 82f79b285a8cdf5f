import Mathlib.Data.List.Sort
import Verif.Idx.Model
import Verif.CatNew.Spec
/-!
# Making, indexing and copying Categoricals: model

`Categorical.__new__` (`rt_categorical.py:1623-2110`), `Categories.from_grouping` (`:400-428`), `Grouping.__init__`
(`rt_grouping.py:631-988`), `Grouping._from_categories` (`:565-628`), `Grouping.possibly_recast` (`:1009-1043`), indexing
(`rt_categorical.py:4519-4661`, `rt_grouping.py:1110-1247`), `Categorical.copy` (`rt_categorical.py:3185-3252`), `isnan`,
`from_category`, `from_bin` and comparisons with a label. Several keys and one key are the same model: the categories are a
dictionary of columns, with one column for one key.

Not modelled: Categoricals with a mapping (C30), values from Matlab, objects, conversions between bytes and unicode, NaN among
the values, the caches of `Grouping` (C51), names of Categoricals, `sort_gb`, `unicode`.
-/
namespace Verif.CatNew
open Verif.Idx (Idx)

abbrev Name := List Char

inductive Err where
  | valueError | typeError | indexError | notImplemented
deriving DecidableEq, Repr

/-- an ordered dictionary of key columns -/
abbrev Cols (S : Type) := List (Name × List S)

/-- `d[k] = v` -/
def put {S : Type} (d : Cols S) (k : Name) (v : List S) : Cols S :=
  if k ∈ d.map (·.1) then d.map fun kv => if kv.1 = k then (k, v) else kv else d ++ [(k, v)]

/-! ## integer types -/

/-- `int_dtype_from_len` (`rt_enum.py:666-679`), in bits -/
def lenBits (n : Nat) : Nat := if n < 100 then 8 else if n < 30000 then 16 else if n < 2000000000 then 32 else 64

/-- storing in a signed integer of `bits` bits (numpy wraps around silently) -/
def store (bits : Nat) (x : Int) : Int := Int.bmod x (2 ^ bits)

/-- the type `possibly_recast` chooses (`rt_grouping.py:1029-1041`); `req` is the requested signed type -/
def recastBits (count : Nat) (req : Option Nat) : Nat :=
  match req with
  | none => lenBits count
  | some r => if lenBits count ≤ r then r else lenBits count

/-- `Grouping.possibly_recast` (`rt_grouping.py:1009-1043`) -/
def recast (count : Nat) (req : Option Nat) (codes : List Int) : List Int := codes.map (store (recastBits count req))

/-! ## the library -/

/-- item `i` of every key column -/
def rowAt {S : Type} (d : Cols S) (i : Nat) : List S := d.filterMap fun kv => kv.2[i]?

/-- `col[ix]` for positions in range -/
def pickAt {S : Type} (col : List S) (ix : List Nat) : List S := ix.filterMap fun i => col[i]?

/-- a row takes part in the grouping -/
def kept (filter : Option (List Bool)) (i : Nat) : Bool :=
  match filter with
  | none => true
  | some f => f.getD i false

section
variable {S : Type} [LinearOrder S]

/-- `iFirstKey` of `rc.MultiKeyGroupBy32` (C++, documented at `rt_numpy.py:1978-2063`): the first row of every group -/
def hashFirst (d : Cols S) (n : Nat) (filter : Option (List Bool)) : List Nat :=
  (List.range n).filter fun i => kept filter i && (List.range i).all fun j => !(kept filter j && decide (rowAt d j = rowAt d i))

/-- `iKey` of a grouping whose groups have the first rows `first`: 1-based number of the group, 0 for rows that are filtered out -/
def keysFor (d : Cols S) (n : Nat) (filter : Option (List Bool)) (first : List Nat) : List Int :=
  (List.range n).map fun i => if kept filter i then ((first.map (rowAt d)).idxOf (rowAt d i) : Int) + 1 else 0

/-- `lexsort(keys)` of arrays of length `n` (C++; as numpy): stable, the *last* array is the primary key -/
def lexsort (keys : List (List S)) (n : Nat) : List Nat :=
  (List.range n).insertionSort fun i j => keysOf keys.reverse i ≤ keysOf keys.reverse j

/-- `iFirstKey` of `groupbylex` (`rt_numpy.py:2158-2250`): the first rows of the groups in the order of the keys. The arrays are
handed to `LexSort32` in reverse order (`:2181`), `rc.GroupFromLexSort` is C++. -/
def lexFirst (d : Cols S) (n : Nat) (filter : Option (List Bool)) : List Nat :=
  (lexsort (d.map (·.2)).reverse n).filter fun i => i ∈ hashFirst d n filter

/-- second result of `ismember(a, b, base_index=1)`: position in `b` plus 1, 0 if missing -/
def ismember1 (a b : List Int) : List Int := a.map fun x => if x ∈ b then (b.idxOf x : Int) + 1 else 0

/-! ## Grouping -/

structure Grouping (S : Type) where
  base : Nat
  /-- `catinstance` -/
  codes : List Int
  /-- `uniquedict` -/
  uniq : Cols S
  /-- `unique_count` -/
  count : Nat
  /-- `Ordered` -/
  ordered : Bool

/-- `data_as_dict` (`rt_grouping.py:722-746`) of arrays with names; `name_def` is None for what is modelled here -/
def keyName (d : Cols S) (idx : Nat) (name : Option Name) : Name :=
  let nm := name.getD ("key_".toList ++ Nat.toDigits 10 idx)
  if nm ∈ d.map (·.1) then "key_c".toList ++ Nat.toDigits 10 idx else nm

def dataAsDict : Nat → Cols S → List (Option Name × List S) → Cols S
  | _, d, [] => d
  | idx, d, a :: arrs => dataAsDict (idx + 1) (put d (keyName d idx a.1) a.2) arrs

/-- `_make_isortrows` (`rt_grouping.py:2204-2210`) -/
def isortrows (uniq : Cols S) (n : Nat) : List Nat := lexsort (uniq.map (·.2)).reverse n

/-- `for k, v in unique_dict.items(): unique_dict[k] = v[ix]` -/
def takeAll (d : Cols S) (ix : List Nat) : Cols S := d.map fun kv => (kv.1, pickAt kv.2 ix)

/-- the keys after sorting the uniques (`rt_grouping.py:953-956`) -/
def sortedKeys (base : Nat) (tempikey : List Int) (sortidx : List Nat) : List Int :=
  if base = 0 then ismember1 (tempikey.map (· - 1)) (sortidx.map fun (i : Nat) => (i : Int))
  else ismember1 tempikey (sortidx.map fun (i : Nat) => (i : Int) + 1)

/-- `_catinstance` of base 0, the recast `_iKey` of base 1 (`rt_grouping.py:965-969`, `:984-985`) -/
def finalCodes (base count : Nat) (req : Option Nat) (tempikey : List Int) : List Int :=
  if base = 0 then tempikey.map (· - 1) else recast count req tempikey

/-- `Grouping(..., categorical=True)` of key columns (`rt_grouping.py:790-985`); `d` has columns of length `n` -/
def groupingOf (d : Cols S) (n : Nat) (filter : Option (List Bool)) (base : Nat) (ordered lex : Bool) (req : Option Nat) : Grouping S :=
  if lex then
    let first := lexFirst d n filter
    { base := base, codes := finalCodes base first.length req (keysFor d n filter first), uniq := takeAll d first,
      count := first.length, ordered := true }
  else
    let first := hashFirst d n filter
    let tempikey := keysFor d n filter first
    let uniq := takeAll d first
    if ordered then
      let sortidx := isortrows uniq first.length
      { base := base, codes := finalCodes base first.length req (sortedKeys base tempikey sortidx), uniq := takeAll uniq sortidx,
        count := first.length, ordered := true }
    else { base := base, codes := finalCodes base first.length req tempikey, uniq := uniq, count := first.length, ordered := false }

/-- `rc.CombineFilter` (C++, `rt_numpy.py:1489-1508`): 0 where the filter is False -/
def combineFilter (codes : List Int) : Option (List Bool) → List Int
  | none => codes
  | some f => List.zipWith (fun (k : Int) (b : Bool) => if b then k else 0) codes f

/-- `issorted(cats)` -/
def issorted (cats : List S) : Bool := decide (cats.Pairwise (· ≤ ·))

/-- name of the single key column of given categories -/
def key0 : Name := "key_0".toList

/-- min / max check of `_from_categories` (`rt_grouping.py:611-620`) -/
def outside (base n : Nat) (codes : List Int) : Bool := codes.any fun k => decide (k < 0) || decide ((n : Int) + base ≤ k)

/-- `if dtype is not None: … possibly_recast` (`rt_grouping.py:873-885`, `:984-985`), both base indices -/
def recastIfAsked (count : Nat) (req : Option Nat) (codes : List Int) : List Int :=
  match req with
  | none => codes
  | some r => recast count (some r) codes

/-- unsigned codes are recast first (`rt_grouping.py:596-597`) -/
def flipUnsigned (unsigned : Bool) (n : Nat) (req : Option Nat) (codes : List Int) : List Int :=
  if unsigned then recast n req codes else codes

/-- `Grouping(codes, categories)` with integer codes (`rt_grouping.py:565-628`, `:868-885`); `ordered` is the keyword -/
def groupingOfCodes (codes : List Int) (unsigned : Bool) (cats : List S) (filter : Option (List Bool)) (base : Nat) (req : Option Nat)
    (ordered : Bool) : Except Err (Grouping S) :=
  let ikey := flipUnsigned unsigned cats.length req codes
  if outside base cats.length ikey then .error .valueError
  else .ok { base := base, codes := recastIfAsked cats.length req (combineFilter ikey filter), uniq := [(key0, cats)],
             count := cats.length, ordered := if ikey.isEmpty then ordered else issorted cats }

/-- second result of `ismember(values, cats, base_index=base)`: for base 0 missing values get the invalid integer, of which only the
sign matters here -/
def memberCodes (base : Nat) (vals cats : List S) : List Int :=
  vals.map fun v => if v ∈ cats then (cats.idxOf v : Int) + base else if base = 0 then -128 else 0

/-- `Grouping(values, categories)` with values that are no integers (`rt_grouping.py:599-605`, `:868-885`) -/
def groupingOfMembers (vals cats : List S) (filter : Option (List Bool)) (base : Nat) (req : Option Nat) : Grouping S :=
  { base := base, codes := recastIfAsked cats.length req (combineFilter (memberCodes base vals cats) filter), uniq := [(key0, cats)],
    count := cats.length, ordered := issorted cats }

/-! ## Categorical -/

/-- a Categorical with its `Categories` and `Grouping` -/
structure C (S : Type) where
  g : Grouping S
  /-- `Categories._sorted` -/
  sorted : Bool
  /-- `Categorical._ordered` -/
  ordered : Option Bool := none
  /-- `Categories._invalid_category` -/
  invalid : Option S := none
  /-- `Categories._filtered_name` -/
  filteredName : Name := "Filtered".toList
  autoAdd : Bool := false

/-- `Categorical(grouping, invalid=invalid)` (`rt_categorical.py:1725-1731`, `:2069-2092`, `Categories.from_grouping` `:400-428`);
`_ordered` is the keyword, which is not given -/
def ofGrouping (g : Grouping S) (invalid : Option S) (autoAdd : Bool) : C S :=
  { g := g, sorted := g.ordered, invalid := invalid, autoAdd := autoAdd }

/-- keywords -/
structure Opts (S : Type) where
  base : Option Nat := none
  filter : Option (List Bool) := none
  ordered : Option Bool := none
  lex : Option Bool := none
  /-- requested signed integer type, in bits -/
  dtype : Option Nat := none
  invalid : Option S := none

/-- `ordered` when it is not given: True for one key (`rt_categorical.py:1908-1909`), `lex` for several (`:1874-1878`) -/
def orderedOr (o : Opts S) (single : Bool) : Bool :=
  match o.ordered with
  | some b => b
  | none => if single then true else o.lex.getD false

/-- the filter has one entry per row (otherwise `rc.MultiKeyGroupBy32` raises) -/
def filterFits (filter : Option (List Bool)) (n : Nat) : Bool :=
  match filter with
  | none => true
  | some f => f.length == n

/-- `Categorical(array)` and `Categorical([array, …])` (`rt_categorical.py:1650-1653`, `:1680-1692`, `:1866-1895`, `:1900-1933`). The
arrays are given with their names. Of a single array the name is not used for the key column here (it is the name of the
Categorical). -/
def newOfArrays (arrs : List (Option Name × List S)) (o : Opts S) : Except Err (C S) :=
  match arrs with
  | [] => .error .valueError
  | [a] =>
    if o.base = some 0 ∧ o.filter ≠ none then .error .valueError
    else if filterFits o.filter a.2.length = false then .error .valueError
    else .ok (ofGrouping (groupingOf (dataAsDict 0 [] [a]) a.2.length o.filter (o.base.getD 1) (orderedOr o true) (o.lex.getD false) o.dtype)
      o.invalid false)
  | a :: rest =>
    if o.base = some 0 ∧ o.filter ≠ none then .error .valueError
    else if rest.any (fun b => b.2.length != a.2.length) then .error .valueError
    else if filterFits o.filter a.2.length = false then .error .valueError
    else .ok (ofGrouping (groupingOf (dataAsDict 0 [] (a :: rest)) a.2.length o.filter (o.base.getD 1) (orderedOr o false)
      (o.lex.getD false) o.dtype) none false)

/-- `Categorical(codes, categories)` with an integer array and a list (`rt_categorical.py:1964-2017`) -/
def newOfCodes (codes : List Int) (unsigned : Bool) (cats : List S) (o : Opts S) : Except Err (C S) :=
  if o.base = some 0 ∧ o.filter ≠ none then .error .valueError
  else if o.lex = some true then .error .typeError
  else if cats = [] then .error .valueError
  else if filterFits o.filter codes.length = false then .error .valueError
  else match groupingOfCodes codes unsigned cats o.filter (o.base.getD 1) o.dtype false with
    | .error e => .error e
    | .ok g => .ok (ofGrouping g o.invalid false)

/-- the checks of `rt_categorical.py:2032-2053`; `min([])` raises ValueError, too -/
def unknown (base count : Nat) (filter : Option (List Bool)) (codes : List Int) : Bool :=
  if base = 0 then codes.isEmpty || codes.any fun k => decide (k < 0) || decide ((count : Int) - 1 < k)
  else filter.isNone && codes.any fun k => decide (k = 0)

/-- `Categorical(values, categories)` with values that are no integers (`rt_categorical.py:2019-2059`) -/
def newOfMembers (vals cats : List S) (o : Opts S) : Except Err (C S) :=
  if o.base = some 0 ∧ o.filter ≠ none then .error .valueError
  else if o.lex = some true then .error .typeError
  else if cats = [] then .error .valueError
  else if filterFits o.filter vals.length = false then .error .valueError
  else
    let g := groupingOfMembers vals cats o.filter (o.base.getD 1) o.dtype
    if unknown (o.base.getD 1) g.count o.filter g.codes then .error .valueError
    else .ok (ofGrouping g o.invalid false)

/-- the codes of a pandas Categorical, one higher (`rt_categorical.py:1838-1842`); without `dtype` the sum is calculated in the type for
the number of categories, otherwise in the type of the codes, in `bits` -/
def pandasCodes (codes : List Int) (bits n : Nat) (dtype : Option Nat) : List Int :=
  match dtype with
  | none => codes.map fun k => store (lenBits n) (k + 1)
  | some _ => codes.map fun k => store bits (k + 1)

/-- `Categorical(pandas Categorical)` (`rt_categorical.py:1829-1855`): codes -1 … number of categories - 1 in a signed type of `bits`
bits -/
def newOfPandas (codes : List Int) (bits : Nat) (cats : List S) (ordered : Bool) (o : Opts S) : Except Err (C S) :=
  if o.base.getD 1 ≠ 1 then .error .valueError
  else if filterFits o.filter codes.length = false then .error .valueError
  else match groupingOfCodes (pandasCodes codes bits cats.length o.dtype) false cats o.filter 1 o.dtype ordered with
    | .error e => .error e
    | .ok g => .ok (ofGrouping g o.invalid false)

/-! ## reading -/

/-- `_getsingleitem` after the code has been read (`rt_categorical.py:4626-4655`) -/
def itemOf (g : Grouping S) (k : Int) : Row S :=
  let idx := k - g.base
  if idx < 0 ∨ (g.count : Int) ≤ idx then (if g.base = 1 ∧ k = 0 then .filtered else .bad k)
  else .label (rowAt g.uniq idx.toNat)

/-- `c[i]` (`rt_categorical.py:4580-4582`); `none` is an IndexError -/
def getItem (c : C S) (i : Int) : Option (Row S) :=
  (Verif.Idx.pos c.g.codes.length i).bind fun p => (c.g.codes[p]?).map (itemOf c.g)

/-- `category_dict` read row by row -/
def catRows (c : C S) : List (List S) := (List.range c.g.count).map (rowAt c.g.uniq)

/-- how the rows of a Categorical are selected -/
inductive Sel where
  | slice (start stop : Option Int) (step : Int)
  | mask (m : List Bool)
  /-- a list or an array of integers -/
  | ints (ks : List Int)
deriving DecidableEq, Repr

/-- indexing of one integer array; integer arrays go to `_MBGET`, for base 1 with 0 for positions out of range
(`rt_grouping.py:1219-1239`), for base 0 with the invalid integer of the type -/
def Sel.idx : Sel → Idx
  | .slice a b s => .slice a b s
  | .mask m => .mask m
  | .ints ks => .mbints ks

def fillCode (base : Nat) : Int := if base = 1 then 0 else -128

/-- `Grouping.__getitem__` (`rt_grouping.py:1165-1247`, `newgroupfrominstance` `:1147-1163`) -/
def selectG (g : Grouping S) (s : Sel) : Except Verif.Idx.Err (Grouping S) :=
  match Verif.Idx.take (fillCode g.base) g.codes s.idx with
  | .error e => .error e
  | .ok codes => .ok { g with codes := codes }

/-- `c[rows]` (`rt_categorical.py:4583-4609`): the Categorical is made of the new grouping; of the old `Categories` only the filtered
name is passed on (`:2090-2092`) -/
def select (c : C S) (s : Sel) : Except Verif.Idx.Err (C S) :=
  match selectG c.g s with
  | .error e => .error e
  | .ok g => .ok { ofGrouping g none false with filteredName := c.filteredName }

/-- `Categorical.copy` without filter (`rt_categorical.py:3223-3252`). `Categories._copy` (`:466-497`) makes a `Categories` without
`_grouping` and with the default invalid category, so that `__new__` makes a new grouping (`:1740-1765`) without passing the base
index or `ordered`; `auto_add` is the keyword, which is not given (`:2085-2086`). -/
def copy (c : C S) : C S :=
  { g := { base := 1, codes := c.g.codes, uniq := c.g.uniq, count := c.g.count, ordered := false }
    sorted := c.sorted, ordered := c.ordered, invalid := none, filteredName := c.filteredName, autoAdd := false }

/-! ## looking up categories -/

/-- `np.searchsorted(a, s)` of a sorted array -/
def searchLeft (a : List S) (s : S) : Nat := (a.takeWhile fun x => decide (x < s)).length

/-- first column of the categories, `_first_list` -/
def firstCol (c : C S) : List S := match c.g.uniq with
  | [] => []
  | kv :: _ => kv.2

/-- `Categories.get_category_index` (`rt_categorical.py:743-785`) of one key, *doubled*, since the result may be half-integral -/
def index2 (c : C S) (s : S) : Int :=
  if c.sorted then
    let i := searchLeft (firstCol c) s
    (if (firstCol c)[i]? = none ∨ (firstCol c)[i]? = some s then 2 * (i : Int) else 2 * (i : Int) - 1) + 2 * c.g.base
  else 2 * ((firstCol c).idxOf s : Int) + 2 * c.g.base

/-- `Categorical.from_category` (`rt_categorical.py:4511-4516`) of one key; `none` is a ValueError -/
def fromCategory (c : C S) (s : S) : Option Int :=
  let i2 := index2 c s
  if i2 = 2 * ((c.g.count : Int) + c.g.base) ∨ i2 % 2 ≠ 0 then none else some (i2 / 2)

/-- `Categories.get_multikey_index` (`rt_categorical.py:684-741`): first position where all columns match, else -2, plus the base index -/
def multiIndex (c : C S) (key : List S) : Except Err Int :=
  if key.length ≠ c.g.uniq.length then .error .valueError
  else match (List.range c.g.count).find? fun j => decide (rowAt c.g.uniq j = key) with
    | some j => .ok ((j : Int) + c.g.base)
    | none => .ok (-2 + (c.g.base : Int))

/-- `from_category` of a tuple (`rt_categorical.py:4511-4516`, `:748-749`) -/
def fromCategoryTuple (c : C S) (key : List S) : Except Err Int :=
  match multiIndex c key with
  | .error e => .error e
  | .ok b => if b = (c.g.count : Int) + c.g.base then .error .valueError else .ok b

/-- `Categorical.from_bin` (`rt_categorical.py:4438-4460`): `category_array[bin - base_index]`, or the tuple of the items of all columns -/
def fromBin (c : C S) (bin : Int) : Except Err (List S) :=
  if bin < c.g.base then .error .valueError
  else if (bin - c.g.base).toNat < c.g.count then .ok (rowAt c.g.uniq (bin - c.g.base).toNat) else .error .indexError

/-- `Categorical.isnan` (`rt_categorical.py:2137-2157`, `:2225`): the rows with the code of the invalid category -/
def isnan (c : C S) : List Bool :=
  match c.invalid.bind (fromCategory c) with
  | none => c.g.codes.map fun _ => false
  | some k => c.g.codes.map fun x => decide (x = k)

/-- `Categorical.isnotnan` (`rt_categorical.py:2288`) -/
def isnotnan (c : C S) : List Bool :=
  match c.invalid.bind (fromCategory c) with
  | none => c.g.codes.map fun _ => true
  | some k => c.g.codes.map fun x => decide (x ≠ k)

/-- argument of `invalid_set` -/
inductive InvArg (S : Type) where
  | str (s : S)
  | bytes (s : S)
  | other

/-- `Categorical.invalid_set` (`rt_categorical.py:2942-2946`): the result of `inv.decode()` is not used -/
def invalidSet (c : C S) : InvArg S → Except Err (C S)
  | .str s => .ok { c with invalid := some s }
  | .bytes _ => .error .typeError
  | .other => .error .typeError

/-- comparison operators -/
inductive Cmp where
  | eq | ne | lt | le | gt | ge
deriving DecidableEq, Repr

def Cmp.run (op : Cmp) (x y : Int) : Bool :=
  match op with
  | .eq => decide (x = y)
  | .ne => decide (x ≠ y)
  | .lt => decide (x < y)
  | .le => decide (x ≤ y)
  | .gt => decide (y < x)
  | .ge => decide (y ≤ x)

/-- `c < label` … (`_categorical_compare_check`, `rt_categorical.py:4720-4738`, `:4820-4821`) of a string label; a Categorical that is
tagged as not ordered is refused -/
def compare (c : C S) (op : Cmp) (s : S) : Except Err (List Bool) :=
  if op ≠ .eq ∧ op ≠ .ne ∧ c.ordered = some false then .error .valueError
  else .ok (c.g.codes.map fun k => op.run (2 * k) (index2 c s))

end
end Verif.CatNew
