import Verif.NpOps.Spec
import Verif.CatNew.Model
import Verif.CatOps.Model
import Verif.Cat.Stack
/-!
# Functions of arrays: model

`/repo/riptable/rt_numpy.py` (`min_scalar_type` 222-276, `get_common_dtype` 321-429, `unique` 755-986, `cat2keys` 1601-1763, `where`
2917-3140, `mask_or` and the other mask functions 5502-5610), `/repo/riptable/rt_fastarray.py` (`logical_find_common_type` 265-353,
`count` 2537-2592, `map_old` and `map` 4003-4043), `/repo/riptable/rt_utils.py` (`sample` 1090-1135).

Not modelled: strings as numbers, arrays of more dimensions, float16 arrays, missing numbers, complex numbers.
-/
namespace Verif.NpOps

inductive Err where
  | valueError | typeError | indexError | attributeError
deriving DecidableEq, Repr

/-! ## types -/

/-- the narrowest width for which `p` holds -/
def narrowest (p : Fin 4 → Bool) : Option (Fin 4) := (List.finRange 4).find? p

/-- `np.min_scalar_type` of an integer: unsigned for numbers from 0, signed for negative numbers, `object` beyond 64 bits -/
def npMinInt (z : Int) : Ty :=
  if 0 ≤ z then
    match narrowest fun w => decide (z ≤ 2 ^ bitsOf w - 1) with
    | some w => .int false w
    | none => .obj
  else
    match narrowest fun w => decide (-2 ^ (bitsOf w - 1) ≤ z) with
    | some w => .int true w
    | none => .obj

/-- `np.min_scalar_type` of a float: only the size counts, not the precision -/
def npMinFloat (q : Rat) : Ty :=
  if -65000 < q ∧ q < 65000 then .f16 else if -34 * 10 ^ 37 < q ∧ q < 34 * 10 ^ 37 then .f32 else .f64

/-- `min_scalar_type` (`rt_numpy.py:267-276`) of an integer -/
def minScalarType (val : Int) (promoteInvalid preferSigned : Bool) : Ty :=
  let v1 := if promoteInvalid then (if 0 ≤ val then val + 1 else val - 1) else val
  let v2 := if preferSigned ∧ 0 ≤ v1 then (if v1 ≠ 0 then -v1 else -1) else v1
  npMinInt v2

/-- `dtype.num` of the integer types (Linux) and of float64 -/
def tyNum : Ty → Nat
  | .int s w => 2 * w.val + (if s then 1 else 2)
  | .f32 => 11
  | .f64 => 12
  | .f16 => 23
  | .obj => 17

/-- `logical_find_common_type` (`rt_fastarray.py:320-353`) of an integer array and an integer scalar -/
def logicalCommon (signed : Bool) (w : Fin 4) (val : Int) : Ty :=
  let final : Ty :=
    if signed = false then
      if val ≤ 255 then .int false 0 else if val ≤ 65535 then .int false 1 else if val ≤ 2 ^ 32 - 1 then .int false 2
      else if val ≤ 2 ^ 64 - 1 then .int false 3 else .f64
    else
      if -128 ≤ val ∧ val ≤ 127 then .int true 0 else if -32768 ≤ val ∧ val ≤ 32767 then .int true 1
      else if -2 ^ 31 ≤ val ∧ val ≤ 2 ^ 31 - 1 then .int true 2 else if -2 ^ 63 ≤ val ∧ val ≤ 2 ^ 63 - 1 then .int true 3 else .f64
  if tyNum (.int signed w) < tyNum final then final else .int signed w

/-- `np.result_type` of two types: two integer types -/
def promoteInt (s1 : Bool) (w1 : Fin 4) (s2 : Bool) (w2 : Fin 4) : Ty :=
  if s1 = s2 then .int s1 (max w1 w2)
  else
    let sw := if s1 then w1 else w2
    let uw := if s1 then w2 else w1
    if uw < sw then .int true sw else if h : uw.val + 1 < 4 then .int true ⟨uw.val + 1, h⟩ else .f64

/-- an integer type with a float type -/
def promoteFloat (w : Fin 4) : Ty → Ty
  | .f16 => if w.val = 0 then .f16 else if w.val = 1 then .f32 else .f64
  | .f32 => if w.val ≤ 1 then .f32 else .f64
  | t => t

/-- `np.result_type` -/
def promote : Ty → Ty → Ty
  | .obj, _ => .obj
  | _, .obj => .obj
  | .int s1 w1, .int s2 w2 => promoteInt s1 w1 s2 w2
  | .int _ w, t => promoteFloat w t
  | t, .int _ w => promoteFloat w t
  | .f64, _ => .f64
  | _, .f64 => .f64
  | .f32, _ => .f32
  | _, .f32 => .f32
  | .f16, .f16 => .f16

/-! ## where -/

/-- `x` or `y` of `where`: a Python number, or an array with its type -/
inductive Arg where
  | pyInt (z : Int)
  | pyFloat (q : Rat)
  | arr (t : Ty) (vs : List Rat)

/-- `get_dtype` (`rt_numpy.py:317`) -/
def Arg.ty : Arg → Ty
  | .pyInt z => minScalarType z false false
  | .pyFloat q => npMinFloat q
  | .arr t _ => t

/-- `get_common_dtype` (`rt_numpy.py:360-374`) of numbers -/
def commonType (x y : Arg) : Ty := if x.ty ≠ y.ty then promote x.ty y.ty else x.ty

/-- the values, converted; a single value stands for all rows -/
def Arg.map (f : Rat → Rat) : Arg → Sum Rat (List Rat)
  | .pyInt z => .inl (f z)
  | .pyFloat q => .inl (f q)
  | .arr _ [v] => .inl (f v)
  | .arr _ vs => .inr (vs.map f)

/-- an array is stretched to `n` rows -/
def stretch (n : Nat) : Sum Rat (List Rat) → Except Err (List Rat)
  | .inl v => .ok (List.replicate n v)
  | .inr vs => if vs.length = n then .ok vs else .error .valueError

/-- `[xv if c else yv for …]` -/
def choose {V : Type} : List Int → List V → List V → List V
  | c :: cs, x :: xs, y :: ys => (if c ≠ 0 then x else y) :: choose cs xs ys
  | _, _, _ => []

def Arg.size : Arg → Option Nat
  | .arr _ vs => some vs.length
  | _ => none

/-- `np.where(condition, x, y)` of one dimension (`delegate_to_numpy`, `rt_numpy.py:3043-3049`). Numbers keep their values: the types
for which it is called are float16 (Python floats with 8-bit integers: numpy takes float64) and `object`. -/
def npWhere (f : Rat → Rat) (cond : List Int) (x y : Arg) : Except Err (List Rat) :=
  if x.size = some 0 ∨ y.size = some 0 then .error .valueError
  else
    let n := max cond.length (max (x.size.getD 1) (y.size.getD 1))
    if cond.length ≠ 1 ∧ cond.length ≠ n then .error .valueError
    else do
      let xs ← stretch n (x.map f)
      let ys ← stretch n (y.map f)
      pure (choose (if cond.length = n then cond else List.replicate n (cond.headD 0)) xs ys)

/-- `where(condition, x, y)` of arrays and numbers (`rt_numpy.py:3043-3140`); `rnd t` is the conversion to the type `t`. The condition is an array
of integers or bools (0 is False). `rc.Where` (C++) is taken to choose row by row, and to give up (None) for lengths that differ. -/
def whereNum (rnd : Ty → Rat → Rat) (cond : List Int) (x y : Arg) : Except Err (List Rat) :=
  let t := commonType x y
  if cond.length = 1 then npWhere (if t = .f16 ∨ t = .obj then id else rnd t) cond x y
  else if cond.length = 0 then .ok []
  else if t = .f16 ∨ t = .obj then npWhere id cond x y
  else
    match stretch cond.length (x.map (rnd t)), stretch cond.length (y.map (rnd t)) with
    | .ok xs, .ok ys => .ok (choose cond xs ys)
    | _, _ => npWhere (rnd t) cond x y

/-- `z._fa[: len(x)]` and `z._fa[len(x) :]` chosen row by row -/
def chooseHalves (cond : List Int) (n : Nat) (codes : List Int) : List Int := choose cond (codes.take n) (codes.drop n)

/-- `where(condition, x, y)` of two Categoricals without mapping and of the same length as the condition (`rt_numpy.py:3024-3027`):
stacked (`Categorical.hstack`, C27), then `Categorical(codes, categories)` with the default base index 1. `none`: an exception. -/
def whereCat {L : Type} [DecidableEq L] (crc : List L → Nat) (g : List L → Cat.Grp) (base : Nat) (cond : List Int) (x y : Cat.Part L) (buf : List Int) :
    Option (List Int × List L) :=
  (Cat.hstackCats crc g base [x, y] buf).map fun z => (chooseHalves cond x.codes.length z.1, z.2)

/-- two Categoricals with the same mapping (codes to labels, in this order): `_categories` is the list of labels -/
def whereEnum {L : Type} (cond : List Int) (mapping : List (Int × L)) (x y : List Int) : List Int × List L :=
  (chooseHalves cond x.length (x ++ y), mapping.map (·.2))

/-! ## unique -/

/-- what `unique` returns -/
structure Uniq (K : Type) where
  un : List K
  index : List Nat
  inverse : List Int
  counts : List Nat

section
open Verif.CatNew
variable {S : Type} [LinearOrder S]

/-- `ifirstkey`: the first row of every group -/
def firstOfCodes (codes : List Int) (count : Nat) : List Nat := (List.range count).map fun (g : Nat) => codes.idxOf ((g : Int) + 1)

/-- `ncountgroup[1:]` -/
def countsOfCodes (codes : List Int) (count : Nat) : List Nat := (List.range count).map fun (g : Nat) => codes.count ((g : Int) + 1)

/-- the results read from a grouping with 1-based keys `ikey` (`rt_numpy.py:943-986`) -/
def readOff (g : Grouping S) (ikey : List Int) : Uniq (List S) where
  un := (List.range g.count).map (rowAt g.uniq)
  index := firstOfCodes ikey g.count
  inverse := if g.base = 1 then ikey.map (· - 1) else ikey
  counts := countsOfCodes ikey g.count

/-- `Grouping.ikey` (`rt_grouping.py:1517-1539`) -/
def ikey (g : Grouping S) : List Int := if g.base = 0 then g.codes.map (· + 1) else g.codes

/-- `unique` of arrays (`rt_numpy.py:926-986`) -/
def uniqueArrays (arrs : List (Option Name × List S)) (sorted lex : Bool) (filter : Option (List Bool)) : Except CatNew.Err (Uniq (List S)) :=
  if lex = true ∨ sorted = false then
    (newOfArrays arrs { ordered := some false, lex := some lex, filter := filter }).map fun c => readOff c.g (ikey c.g)
  else (newOfArrays arrs { ordered := some sorted, lex := some lex, filter := filter }).map fun c => readOff c.g (ikey c.g)

/-- `unique` of a Categorical without mapping that has not been changed since it was made (`g.isdirty` is False), without filter
(`rt_numpy.py:915-923`, `:943-986`) -/
def uniqueCat (c : C S) : Except Err (Uniq (List S)) :=
  if c.g.uniq.length ≠ 1 then .error .attributeError else .ok (readOff c.g (ikey c.g))
end

/-- the keyword `dtype` of `unique` -/
inductive DtypeArg where
  | none
  | str (s : List Char)
  | other
deriving DecidableEq

/-- `NumpyCharTypes.AllInteger` (`rt_enum.py:583`) -/
def allInteger : List Char := "bBhHiIlLqQpP".toList

/-- `dtype not in NumpyCharTypes.AllInteger` (`rt_numpy.py:889-891`): the dtype that is used -/
def checkDtype : DtypeArg → Except Err (Option (List Char))
  | .none => .ok none
  | .str s => .ok (if s <:+: allInteger then some s else none)
  | .other => .error .typeError

/-- an argument of `unique` that is not an array: a list of values or of lists -/
inductive ListArg (S : Type) where
  | values (l : List S)
  | lists (l : List (List S))

/-- the arrays that are made of it (`rt_numpy.py:927-933`) -/
def listArrays {S : Type} : ListArg S → Except Err (List (Option CatNew.Name × List S))
  | .values [] => .error .indexError
  | .values l => .ok [(none, l)]
  | .lists [] => .error .indexError
  | .lists l => .ok (l.map fun v => (none, v))

/-! ## map, count, sample -/

/-- second and first result of `ismember`: the position of the first equal item -/
def memberAt {K : Type} [DecidableEq K] (keys : List K) (x : K) : Option Nat := if x ∈ keys then some (keys.idxOf x) else none

/-- `FastArray.map` (`rt_fastarray.py:4038-4043`); `inv` is the invalid value of the type of the values -/
def mapDict {K V : Type} [DecidableEq K] (inv : V) (xs : List K) (d : List (K × V)) : List V :=
  let replace := d.map (·.2)
  let found := xs.map (memberAt (d.map (·.1)))
  let out := xs.map fun _ => inv
  List.zipWith (fun o (f : Option Nat) => match f with | some j => replace.getD j o | none => o) out found

/-- `outArray[self == k] = v` -/
def assignWhere {K : Type} [DecidableEq K] (self out : List K) (kv : K × K) : List K :=
  List.zipWith (fun s o => if s = kv.1 then kv.2 else o) self out

/-- `FastArray.map_old` (`rt_fastarray.py:4018-4021`) -/
def mapOld {K : Type} [DecidableEq K] (xs : List K) (d : List (K × K)) : List K := d.foldl (assignWhere xs) xs

/-- an ordered dictionary made of pairs: `{a: x, b: y}` -/
def pairDict {A : Type} (a : List Char × A) (b : List Char × A) : List (List Char × A) :=
  if a.1 = b.1 then [(a.1, b.2)] else [a, b]

/-- `FastArray.count` (`rt_fastarray.py:2586-2592`): the columns of the Dataset, given the different values and their numbers -/
def countDs {A : Type} (name : Option (List Char)) (un counts : A) : List (List Char × A) :=
  pairDict (name.getD "Unique".toList, un) ("Count".toList, counts)

/-- the rows that `sample` chooses from (`rt_utils.py:1115-1125`): all, those of a mask, or the given row numbers -/
inductive SampleFilter where
  | none
  | mask (m : List Bool)
  | rows (r : List Int)

/-- `M` of `sample` -/
def samplePool (n : Nat) : SampleFilter → Except Err (List Int)
  | .none => .ok ((List.range n).map fun (i : Nat) => (i : Int))
  | .mask m => if m.length ≠ n then .error .valueError else .ok (((List.range n).filter fun i => m.getD i false).map fun (i : Nat) => (i : Int))
  | .rows r => .ok r

/-- `sample` (`rt_utils.py:1115-1135`): the row numbers used. `pick M k` is `prng.choice(M, k, replace=False)`. -/
def sampleRows (pick : List Int → Nat → List Int) (n : Nat) (N : Nat) (f : SampleFilter) : Except Err (List Int) :=
  (samplePool n f).map fun m => (pick m (min N m.length)).insertionSort (· ≤ ·)

/-! ## masks -/

inductive MaskOp where
  | and | or | xor | andnot
deriving DecidableEq, Repr

/-- the operation of the C++ ledger on two bools (`tests/test_fastarray_bn.py:52-57` for `andnot`) -/
def MaskOp.run : MaskOp → Bool → Bool → Bool
  | .and, a, b => a && b
  | .or, a, b => a || b
  | .xor, a, b => a ^^ b
  | .andnot, a, b => a && !b

/-- an argument of a mask function: a bool, or the array at a place in memory -/
inductive MArg where
  | lit (b : Bool)
  | ref (r : Nat)
deriving DecidableEq

/-- memory: an array at every place in use -/
abbrev Mem := List (List Bool)

/-- the array of an argument, for results of `n` rows -/
def MArg.val (m : Mem) (n : Nat) : MArg → Option (List Bool)
  | .lit b => some (List.replicate n b)
  | .ref r => (m[r]?).bind fun a => if a.length = n then some a else none

/-- the number of rows: that of the first array -/
def rowsOfArgs (m : Mem) : List MArg → Option Nat
  | [] => none
  | .lit _ :: l => rowsOfArgs m l
  | .ref r :: _ => (m[r]?).map List.length

/-- `func((result, v, result), funcNum, 0)` for the arguments from the second or third on: `res` is the place of the result -/
def maskLoop (op : MaskOp) (n : Nat) (res : Nat) : Mem → List MArg → Except Err Mem
  | m, [] => .ok m
  | m, v :: vs =>
    match (MArg.ref res).val m n, v.val m n with
    | some a, some b => maskLoop op n res (m.set res (List.zipWith op.run a b)) vs
    | _, _ => .error .valueError

/-- `_mask_op` (`rt_numpy.py:5553-5610`): the memory afterwards and the result. One of the first two arguments is an array when there are
two or more (otherwise an exception, of a kind that depends on C++). -/
def maskOp (op : MaskOp) (inplace : Bool) (m : Mem) (args : List MArg) : Except Err (Mem × MArg) :=
  match args with
  | [] => .error .valueError
  | [a] => .ok (m, a)
  | a :: b :: rest =>
    match rowsOfArgs m [a, b] with
    | none => .error .typeError
    | some n =>
      if inplace then
        match a with
        | .lit _ => .error .typeError
        | .ref r => (maskLoop op n r m (b :: rest)).map fun m' => (m', .ref r)
      else
        match a.val m n, b.val m n with
        | some x, some y => (maskLoop op n m.length (m ++ [List.zipWith op.run x y]) rest).map fun m' => (m', .ref m.length)
        | _, _ => .error .valueError

/-! ## cat2keys -/

/-- a dictionary of key columns: names and categories -/
abbrev KeyCols (S : Type) := List (List Char × List S)

/-- `k` with a number, the first that is free (`rt_numpy.py:1745-1753`); `fuel` bounds the search -/
def freeName (used : List (List Char)) (orig : List Char) : Nat → Nat → List Char → List Char
  | 0, _, k => k
  | fuel + 1, counter, k => if k ∈ used then freeName used orig fuel (counter + 1) (orig ++ Nat.toDigits 10 counter) else k

/-- `v.tile(m)` and `v.repeat(m)` -/
def tile {A : Type} (m : Nat) (v : List A) : List A := (List.replicate m v).flatten
def repeatEach {A : Type} (m : Nat) (v : List A) : List A := v.flatMap fun x => List.replicate m x

/-- the columns of the second key are added (`rt_numpy.py:1743-1754`) -/
def addCols {S : Type} (numrows : Nat) : KeyCols S → KeyCols S → KeyCols S
  | gd, [] => gd
  | gd, kv :: rest => addCols numrows (gd ++ [(freeName (gd.map (·.1)) kv.1 (gd.length + 1) 1 kv.1, repeatEach numrows kv.2)]) rest

/-- one key: its 1-based codes (0: filtered) and its categories; `count` is `unique_count` -/
structure Key (S : Type) where
  codes : List Nat
  cats : KeyCols S
  count : Nat

/-- the codes without invalid rows (`rt_numpy.py:1714-1717`) -/
def pairCodes (numrows : Nat) (row col : List Nat) : List Int := List.zipWith (fun (r c : Nat) => ((c : Int) - 1) * (numrows : Int) + (r : Int)) row col

/-- the filter has True in row `i`, or there is none -/
def passesAt (filter : Option (List Bool)) (i : Nat) : Bool :=
  match filter with
  | none => true
  | some f => f.getD i false

/-- `combine2keys` (C++ `rc.CombineAccum2Filter`, documented at `rt_numpy.py:1574-1595`): layout of `(unique_count1 + 1) * (unique_count2 + 1)`
bins, filtered rows in bin 0 -/
def combine2 (numrows : Nat) (row col : List Nat) (filter : Option (List Bool)) : List Int :=
  (List.range row.length).map fun (i : Nat) =>
    if passesAt filter i then ((col.getD i 0 : Int)) * (numrows + 1) + (row.getD i 0 : Int) else 0

/-- `onedict` (`rt_grouping.py:3247-3269`): one array of texts, "Inv" first if asked for; several keys are joined by "_" -/
def oneDict (invalid : Bool) (count : Nat) (cats : KeyCols (List Char)) : List Char × List (List Char) :=
  let name := "_".toList.intercalate (cats.map (·.1))
  let col (v : List (List Char)) := if invalid then "Inv".toList :: v else v
  (name, (List.range (count + if invalid then 1 else 0)).map fun (i : Nat) => "_".toList.intercalate (cats.map fun kv => (col kv.2).getD i []))

/-- the Categorical made by `cat2keys`: 1-based codes and key columns -/
structure Pair (S : Type) where
  codes : List Int
  cats : KeyCols S

/-- `cat2keys(key1, key2)` with `fuse=False` when no row is filtered (`rt_numpy.py:1711-1717`, `:1740-1755`) -/
def cat2keys {S : Type} (k1 k2 : Key S) : Pair S where
  codes := pairCodes k1.count k1.codes k2.codes
  cats := addCols k1.count (k1.cats.map fun kv => (kv.1, tile k2.count kv.2)) k2.cats

/-- the two fused key columns (`rt_numpy.py:1724-1736`) -/
def fusedCols (invalid : Bool) (k1 k2 : Key (List Char)) : KeyCols (List Char) :=
  let r := oneDict invalid k1.count k1.cats
  let c := oneDict invalid k2.count k2.cats
  let extra := if invalid then 1 else 0
  [(r.1, tile (k2.count + extra) r.2), (if r.1 = c.1 then c.1 ++ "1".toList else c.1, repeatEach (k1.count + extra) c.2)]

/-- `cat2keys(key1, key2, invalid=…, fuse=True or invalid rows)` of text categories (`rt_numpy.py:1706-1736`) -/
def cat2keysFused (invalid : Bool) (filter : Option (List Bool)) (k1 k2 : Key (List Char)) : Pair (List Char) :=
  let inv := invalid || k1.codes.contains 0 || k2.codes.contains 0
  { codes := if inv then (combine2 k1.count k1.codes k2.codes filter).map (· + 1) else pairCodes k1.count k1.codes k2.codes
    cats := fusedCols inv k1 k2 }

end Verif.NpOps
