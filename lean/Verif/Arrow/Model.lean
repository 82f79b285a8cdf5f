import Verif.Arrow.Spec
import Verif.NpOps.Model
import Verif.Cat.Mapping
import Verif.Tz.Model
/-!
# Arrow arrays: model

`/repo/riptable/rt_fastarray.py` (`from_arrow` 5622-5682, `_from_arrow` 5684-5904, `to_arrow` 5906-6030),
`/repo/riptable/rt_categorical.py` (`isfiltered` 2463-2487, `_from_arrow` 5485-5706, `to_arrow` 5708-5981),
`/repo/riptable/rt_datetime.py` (Date 2593-2711, DateTimeNano 6315-6455, TimeSpan 7325-7437), `/repo/riptable/rt_dataset.py`
(`from_arrow` 3253-3307, `to_arrow` 3309-3362).

pyarrow is not in the repository. Its functions are replaced by what they are documented to do: `fill_null`, `cast` (which raises if a
number does not fit), `min_max`, `filter`, `DictionaryArray.from_arrays` (which raises for indices outside of the dictionary), `buffers`
(which does not know of slices). An Arrow array is the list of its rows, a ChunkedArray the list of its chunks; an array is one chunk.

Not modelled: `type=`, `writable` (which changes what is copied, not the result), arrays of more dimensions.
-/
namespace Verif.Arrow
open Verif.NpOps

inductive Err where
  | valueError | typeError | runtimeError | notImplemented | arrowInvalid | unicodeError
deriving DecidableEq, Repr

/-! ## numbers -/

/-- an integer array -/
structure IntArr where
  sg : Bool
  w : Fin 4
  vals : List Int
deriving DecidableEq, Repr

/-- `to_arrow` of integers (`rt_fastarray.py:5954-5965`): the invalid values are masked -/
def toArrowInt (a : IntArr) : List (Option Int) := a.vals.map fun v => if v = missing a.sg a.w then none else some v

/-- `arr.fill_null(x)` and conversion to numpy -/
def fillNull {A : Type} (x : A) (rows : List (Option A)) : List A := rows.map fun r => r.getD x

/-- the values that are not null -/
def present {A : Type} (rows : List (Option A)) : List A := rows.filterMap id

/-- `_from_arrow` of one integer array (`rt_fastarray.py:5756-5816`) -/
def fromArrowOne (zeroCopy widen sg : Bool) (w : Fin 4) (rows : List (Option Int)) : Except Err IntArr :=
  if zeroCopy = true ∧ none ∈ rows then .error .valueError
  else if (present rows).min? = some (missing sg w) ∨ (present rows).max? = some (missing sg w) then
    if zeroCopy then .error .valueError
    else if w = 3 then .error .valueError
    else if widen = false then .error .valueError
    else match minScalarType (missing sg w) true false with
      | .int sg' w' => .ok ⟨sg', w', fillNull (missing sg w) rows⟩
      | _ => .error .typeError
  else .ok ⟨sg, w, fillNull (missing sg w) rows⟩

/-- `hstack` of integer arrays that are all signed or all unsigned: the widest type, invalid values stay invalid -/
def hstackInts (sg : Bool) (as : List IntArr) : IntArr :=
  let w := (as.map fun a => a.w).foldl max 0
  ⟨sg, w, as.flatMap fun a => a.vals.map fun v => if v = missing a.sg a.w then missing sg w else v⟩

/-- `from_arrow` of integers (`rt_fastarray.py:5731-5753`): chunks without nulls are converted one by one, others together -/
def fromArrowInt (zeroCopy widen sg : Bool) (w : Fin 4) (chunks : List (List (Option Int))) : Except Err IntArr :=
  if 1 < chunks.length then
    if zeroCopy then .error .valueError
    else if none ∉ chunks.flatten then (chunks.mapM (fromArrowOne zeroCopy widen sg w)).map (hstackInts sg)
    else fromArrowOne zeroCopy widen sg w chunks.flatten
  else fromArrowOne zeroCopy widen sg w chunks.flatten

/-- `to_arrow` of floats and booleans (`rt_fastarray.py:5967-5986`): NaN is a value -/
def toArrowPlain {F : Type} (vals : List F) : List (Option F) := vals.map some

/-- `from_arrow` of floats (`:5731-5759`, `:5818-5825`): `to_numpy` gives NaN for null. Whether chunks are converted one by one makes no
difference here. -/
def fromArrowFloat {F : Type} (nan : F) (zeroCopy : Bool) (chunks : List (List (Option F))) : Except Err (List F) :=
  if zeroCopy && (decide (1 < chunks.length) || chunks.flatten.any fun r => r.isNone) then .error .valueError else .ok (fillNull nan chunks.flatten)

/-- `from_arrow` of booleans (`:5827-5840`); booleans are packed in Arrow arrays, so they are never converted without a copy -/
def fromArrowBool (zeroCopy : Bool) (chunks : List (List (Option Bool))) : Except Err (List Bool) :=
  if zeroCopy then .error .valueError else if none ∈ chunks.flatten then .error .valueError else .ok (fillNull false chunks.flatten)

/-! ## text -/

/-- an array of bytes or of Unicode characters -/
structure TextArr where
  unicode : Bool
  vals : List (List Char)
deriving DecidableEq, Repr

/-- all characters are ASCII -/
def asciiB (t : List Char) : Bool := t.all fun c => decide (c.toNat < 128)

/-- numpy drops the NUL characters at the end of an item -/
def stripNul (t : List Char) : List Char := (t.reverse.dropWhile fun c => c == Char.ofNat 0).reverse

/-- `to_arrow` of text (`rt_fastarray.py:5988-6027`); bytes are decoded as ASCII by `np.array(…, dtype="U")` -/
def toArrowText (emptyToNull : Bool) (a : TextArr) : Except Err (List (Option (List Char))) :=
  if a.unicode = false ∧ a.vals.any (fun t => !asciiB t) = true then .error .unicodeError
  else .ok (a.vals.map fun t => if emptyToNull = true ∧ t = [] then none else some t)

/-- `_from_arrow` of one text array (`:5842-5875`) -/
def fromTextOne (rows : List (Option (List Char))) : TextArr :=
  ⟨!((present rows).all asciiB), (fillNull [] rows).map stripNul⟩

/-- `from_arrow` of text: `hstack` of bytes and Unicode is Unicode -/
def fromArrowText (zeroCopy : Bool) (chunks : List (List (Option (List Char)))) : Except Err TextArr :=
  if zeroCopy then .error .valueError
  else if 1 < chunks.length ∧ none ∉ chunks.flatten then
    .ok ⟨(chunks.map fromTextOne).any (·.unicode), (chunks.map fromTextOne).flatMap (·.vals)⟩
  else .ok (fromTextOne chunks.flatten)

/-- an Arrow array of fixed-size binary items: the data buffer, from which item on (a slice shares the buffer) and how many items, and
which of them are not null -/
structure Fixed where
  width : Nat
  buffer : List Char
  offset : Nat
  valid : List Bool
deriving DecidableEq, Repr

/-- item `i` of a buffer -/
def itemAt (width : Nat) (buffer : List Char) (i : Nat) : List Char := (buffer.drop (i * width)).take width

/-- `np.frombuffer(buffer, dtype="S<width>")` -/
def fromBuffer (width : Nat) (buffer : List Char) : List (List Char) :=
  (List.range (buffer.length / width)).map fun i => stripNul (itemAt width buffer i)

/-- `arr.fill_null(b"\x00" * width)`: a new array -/
def fillFixed (f : Fixed) : Fixed :=
  { f with
    buffer := (List.range f.valid.length).flatMap fun i =>
      if f.valid[i]? = some true then itemAt f.width f.buffer (f.offset + i) else List.replicate f.width (Char.ofNat 0)
    offset := 0
    valid := f.valid.map fun _ => true }

/-- `_from_arrow` of fixed-size binary items (`rt_fastarray.py:5877-5899`) -/
def fromArrowFixed (zeroCopy : Bool) (f : Fixed) : Except Err (List (List Char)) :=
  if zeroCopy = true ∧ false ∈ f.valid then .error .valueError
  else
    let f := if false ∈ f.valid then fillFixed f else f
    if f.width = 0 ∨ ¬ f.buffer.length % f.width = 0 then .error .valueError else .ok (fromBuffer f.width f.buffer)

/-- `to_arrow(preserve_fixed_bytes=True)` (`:5988-6004`): the bytes of the array, padded with NUL -/
def toArrowFixed (emptyToNull : Bool) (width : Nat) (vals : List (List Char)) : Fixed :=
  ⟨width, vals.flatMap fun t => t ++ List.replicate (width - t.length) (Char.ofNat 0), 0,
    vals.map fun t => !(emptyToNull && t.isEmpty)⟩

/-! ## Categoricals -/

section
variable {S : Type} [LinearOrder S]

/-- an Arrow dictionary array -/
structure Dict (S : Type) where
  sg : Bool
  w : Fin 4
  indices : List (Option Int)
  values : List S
deriving DecidableEq, Repr

/-- numbers stored in a signed integer type -/
def wrap (w : Fin 4) (x : Int) : Int := Int.bmod x (2 ^ bitsOf w)

/-- the next larger type; there is none after 64 bits (`np.dtype("i16")` raises TypeError) -/
def wider (w : Fin 4) : Except Err (Fin 4) := if h : w.val + 1 < 4 then .ok ⟨w.val + 1, h⟩ else .error .typeError

/-- the codes (`rt_categorical.py:5557-5610`): indices plus 1 in a signed type -/
def dictCodes (count : Nat) (ix : IntArr) : Except Err (List Int) :=
  if ix.sg = false then
    if greatest true ix.w ≤ (count : Int) - 1 then (wider ix.w).map fun w => ix.vals.map fun v => wrap w (v + 1)
    else .ok (ix.vals.map fun v => wrap ix.w (wrap ix.w v + 1))
  else if (count : Int) - 1 = greatest true ix.w then (wider ix.w).map fun w => ix.vals.map fun v => wrap w (v + 1)
  else .ok (ix.vals.map fun v => wrap ix.w (v + 1))

/-- `indices[invalid_mask] = 0` -/
def zeroAt (codes : List Int) : Option (List Bool) → List Int
  | none => codes
  | some m => List.zipWith (fun (k : Int) (b : Bool) => if b then 0 else k) codes m

/-- the mask of the nulls (`:5554-5555`), read off the invalid values of the indices -/
def nullMask (indices : List (Option Int)) (ix : IntArr) : Option (List Bool) :=
  if none ∈ indices then some (ix.vals.map fun v => decide (v = missing ix.sg ix.w)) else none

/-- `Categorical._from_arrow` of one dictionary array with one column of categories (`rt_categorical.py:5548-5615`, `:5693-5706`). The
Categorical is made by `Grouping(codes, categories, filter=…)` (`CatNew.groupingOfCodes`). `cv` is the conversion of the dictionary by
`FastArray.from_arrow`. -/
def fromDictOne (cv : List S → Except Err (List S)) (d : Dict S) : Except Err (Cat.Part S) :=
  match fromArrowInt false true d.sg d.w [d.indices] with
  | .error e => .error e
  | .ok ix =>
    match dictCodes d.values.length ix with
    | .error e => .error e
    | .ok codes =>
      match cv d.values with
      | .error e => .error e
      | .ok cats =>
        match CatNew.groupingOfCodes (zeroAt codes (nullMask d.indices ix)) false cats ((nullMask d.indices ix).map fun m => m.map (!·)) 1 none false with
        | .error _ => .error .valueError
        | .ok g => .ok ⟨g.codes, cats⟩

/-- `Categorical._from_arrow` (`:5522-5540`): chunks are converted one by one and stacked; `hstack([])` raises ValueError, and so does
everything that stacking Categoricals raises -/
def fromDict (cv : List S → Except Err (List S)) (crc : List S → Nat) (g : List S → Cat.Grp) (zeroCopy : Bool) (chunks : List (Dict S))
    (buf : List Int) : Except Err (Cat.Part S) :=
  if zeroCopy then .error .valueError
  else match chunks with
    | [] => .error .valueError
    | [d] => fromDictOne cv d
    | ds => match ds.mapM (fromDictOne cv) with
      | .error e => .error e
      | .ok parts => match Cat.hstackCats crc g 1 parts buf with
        | none => .error .valueError
        | some r => .ok ⟨r.1, r.2⟩

/-- a Categorical with one column of categories: base index and width of its codes -/
structure ACat (S : Type) where
  base : Nat
  w : Fin 4
  codes : List Int
  labels : List S
deriving DecidableEq, Repr

/-- `isfiltered` (`rt_categorical.py:2481-2487`) -/
def isFiltered (c : ACat S) : List Bool := if c.base = 1 then c.codes.map fun k => decide (k = 0) else c.codes.map fun _ => false

/-- `grouping.ikey` (`rt_grouping.py:1518-1541`): the codes, one greater for base index 0 -/
def ikeyOf (c : ACat S) : List Int := if c.base = 0 then c.codes.map (· + 1) else c.codes

/-- the indices (`rt_categorical.py:5750-5777`) -/
def arrowIndices (c : ACat S) : List (Option Int) :=
  let mask := isFiltered c
  let ix := if c.base ≠ 0 then (ikeyOf c).map fun k => k - (c.base : Int) else ikeyOf c
  List.zipWith (fun (k : Int) (b : Bool) => if b then none else some k) ix mask

/-- `Categorical.to_arrow` with one column of categories (`:5740-5789`). `cv` is the conversion of the categories. -/
def toDict (cv : List S → Except Err (List S)) (c : ACat S) : Except Err (Dict S) :=
  match cv c.labels with
  | .error e => .error e
  | .ok values =>
    if (arrowIndices c).all fun j => j.all fun k => decide (0 ≤ k ∧ k < (values.length : Int)) then
      .ok ⟨true, c.w, arrowIndices c, values⟩
    else .error .arrowInvalid

/-- the kinds of key columns that `to_arrow` of a Categorical with several keys distinguishes (`:5909-5927`) -/
inductive KeyKind where
  | text | bool | number | other
deriving DecidableEq, Repr

/-- `to_arrow` with several keys (`:5902-5978`): whether it succeeds -/
def toArrowMulti (kinds : List KeyKind) : Except Err (List KeyKind) :=
  if .number ∈ kinds then .error .notImplemented else .ok kinds

/-- `from_arrow` of a dictionary of structs with `n` fields that are not `name` and `val` (`:5676-5691`): a list of several arrays is no
list of categories (`rt_categorical.py:1979-1983`) -/
def fromArrowMulti (fields : List KeyKind) : Except Err (List KeyKind) :=
  if fields.length = 1 then .ok fields else .error .typeError
end

/-! ## Categoricals with a mapping -/

/-- codes of an integer type and the names of codes, in the order of the mapping. Simplified: the codes of the mapping have the type of
the codes of the rows. -/
structure Mapped where
  sg : Bool
  w : Fin 4
  codes : List Int
  mapping : List (List Char × Int)
deriving DecidableEq, Repr

/-- the Arrow dictionary array of a mapping: rows and pairs of name and code -/
structure MappedArr where
  rows : List (Option Nat)
  dict : List (Option (List Char) × Option Int)
deriving DecidableEq, Repr

/-- the mapping without the invalid code (`rt_categorical.py:5811-5815`) -/
def keptPairs (m : Mapped) : List (List Char × Int) := m.mapping.filter fun e => decide (e.2 ≠ missing m.sg m.w)

/-- the codes that have no name, each once, ascending (`:5831-5834`) -/
def unnamed (m : Mapped) : List Int :=
  ((m.codes.filter fun k => decide (k ∉ (keptPairs m).map (·.2))).dedup).insertionSort (· ≤ ·)

/-- all pairs (`:5841-5845`) -/
def allPairs (m : Mapped) : List (List Char × Int) := keptPairs m ++ (unnamed m).map fun k => ([], k)

/-- the rows that are null (`:5811-5816`) -/
def rowIsNull (m : Mapped) (k : Int) : Bool := decide (missing m.sg m.w ∈ m.mapping.map (·.2)) && decide (k = missing m.sg m.w)

/-- the position of a code (`:5827`, `:5837`, `:5861-5862`) -/
def pairIndex (m : Mapped) (k : Int) : Nat :=
  if k ∈ (keptPairs m).map (·.2) then ((keptPairs m).map (·.2)).idxOf k else (keptPairs m).length + (unnamed m).idxOf k

/-- `to_arrow` (`:5791-5900`): the arrays of names and codes are converted by `FastArray.to_arrow` -/
def toMapped (m : Mapped) : MappedArr where
  rows := m.codes.map fun k => if rowIsNull m k then none else some (pairIndex m k)
  dict := (allPairs m).map fun e => (if e.1 = [] then none else some e.1, if e.2 = missing m.sg m.w then none else some e.2)

/-- `issorted(ismember(x, x)[1])` -/
def sortedMembers {A : Type} [DecidableEq A] (x : List A) : Bool := decide ((x.map fun a => x.idxOf a).Pairwise (· ≤ ·))

/-- the pairs that are different (`Categorical([names, codes])`), in the order of their first rows -/
def diffPairs (names : List (List Char)) (codes : List Int) : List (List Char × Int) := (names.zip codes).eraseDups

/-- `from_arrow` (`:5618-5674`): codes of the rows and mapping. A filter is refused by `Grouping` (`rt_grouping.py:784-785`). -/
def fromMapped (sg : Bool) (w : Fin 4) (a : MappedArr) : Except Err (List Int × Cat.Mapping) :=
  match fromArrowInt false true sg w [a.dict.map (·.2)] with
  | .error e => .error e
  | .ok codes =>
    let names := (fromTextOne (a.dict.map (·.1))).vals
    let pairs := diffPairs names codes.vals
    if sortedMembers (pairs.map (·.2)) = false then .error .runtimeError
    else if sortedMembers (pairs.map (·.1)) = false then .error .runtimeError
    else if none ∈ a.rows then .error .typeError
    else .ok (a.rows.filterMap fun j => j.bind fun (k : Nat) => codes.vals[k]?, Cat.buildDicts pairs)

/-! ## dates and times -/

/-- chunks are converted one by one and stacked (`rt_datetime.py:2622-2637`, `:6349-6366`, `:7366-7381`); `hstack([])` raises ValueError -/
def byChunk {A B : Type} (f : List A → Except Err (List B)) (chunks : List (List A)) : Except Err (List B) :=
  if chunks = [] then .error .valueError else (chunks.mapM f).map List.flatten

/-- `isnan` of dates and times (`:1531`, `:5357`): `isnanorzero` -/
def nanOrZero (inv x : Int) : Bool := decide (x = inv) || decide (x = 0)

/-- `Date.to_arrow` (`:2675-2711`) and the rows of `DateTimeNano.to_arrow` (`:6416-6455`) -/
def toArrowDate (inv : Int) (vals : List Int) : List (Option Int) := vals.map fun x => if nanOrZero inv x then none else some x

/-- milliseconds in a day -/
def msPerDay : Int := 86400000

/-- `Date._from_arrow` of one array (`:2639-2673`); `ms` for date64 arrays, which are cast to days first -/
def fromDateOne (zeroCopy ms : Bool) (rows : List (Option Int)) : Except Err (List Int) :=
  let days := if ms then rows.map fun r => r.map fun x => Int.tdiv x msPerDay else rows
  if none ∉ days then .ok (fillNull 0 days)
  else if zeroCopy then .error .runtimeError
  else .ok (fillNull (least true 2) days)

def fromArrowDate (zeroCopy ms : Bool) (chunks : List (List (Option Int))) : Except Err (List Int) := byChunk (fromDateOne zeroCopy ms) chunks

/-- a DateTimeNano: nanoseconds since 1970 in UTC, and its time zone object -/
structure Dtn where
  vals : List Int
  tz : Tz.TimeZone

/-- the time zone of an Arrow timestamp array: none, one that riptable does not know, or one that it knows -/
inductive ArrowZone where
  | naive
  | unknown
  | known (z : Tz.Zone)
deriving DecidableEq

/-- `DateTimeNano.to_arrow` (`:6439-6455`): the time zone is that of `from_tz` -/
def toArrowDtn (d : Dtn) : Tz.Zone × List (Option Int) := (d.tz.fromTz, toArrowDate (least true 3) d.vals)

/-- `arr.cast(pa.timestamp("ns"))`, `factor` nanoseconds per unit; raises if a number does not fit -/
def castNanos (factor : Int) (rows : List (Option Int)) : Except Err (List (Option Int)) :=
  if rows.all fun r => r.all fun x => decide (least true 3 ≤ x * factor ∧ x * factor ≤ greatest true 3) then
    .ok (rows.map fun r => r.map fun x => x * factor)
  else .error .arrowInvalid

/-- int64 arithmetic of numpy, in which the invalid integer is a number like any other -/
def toUtcWrap (tz : Tz.TimeZone) (x : Int) : Int := wrap 3 (tz.toUtc x)

/-- `DateTimeNano(int64_array, from_tz=…)` (`rt_datetime.py:4439-4564`): the numbers are taken as wall clock times of `from_tz`; `to_tz` is
New York -/
def newDtn (vals : List Int) (z : Tz.Zone) : Dtn := ⟨vals.map (toUtcWrap (Tz.TimeZone.init z .nyc)), Tz.TimeZone.init z .nyc⟩

/-- the nanoseconds of one array (`:6368-6414`) before `DateTimeNano` is called -/
def fromDtnOne (zeroCopy : Bool) (factor : Int) (rows : List (Option Int)) : Except Err (List Int) :=
  match castNanos factor rows with
  | .error e => .error e
  | .ok ns =>
    if none ∉ ns then .ok (fillNull 0 ns)
    else if zeroCopy then .error .runtimeError
    else .ok (fillNull (least true 3) ns)

/-- `DateTimeNano._from_arrow` (`:6334-6414`); the chunks are stacked after the conversion, which makes no difference for equal zones -/
def fromArrowDtn (zeroCopy : Bool) (factor : Int) (zone : ArrowZone) (chunks : List (List (Option Int))) : Except Err Dtn :=
  if zeroCopy = true ∧ factor ≠ 1 then .error .valueError
  else match zone with
    | .naive => .error .valueError
    | .unknown => .error .valueError
    | .known z => (byChunk (fromDtnOne zeroCopy factor) chunks).map fun vals => newDtn vals z

/-- `TimeSpan.to_arrow` (`rt_datetime.py:7402-7437`): nanoseconds (a fraction, `none` for NaN) are cut to integers -/
def toArrowSpan (vals : List (Option Rat)) : List (Option Int) := vals.map fun r => r.map fun q => Int.tdiv q.num q.den

/-- one array (`:7383-7392`): `cast(pa.float64())` raises for integers beyond 2 ^ 53 -/
def fromSpanOne (rows : List (Option Int)) : Except Err (List (Option Rat)) :=
  if rows.all fun r => r.all fun x => decide (-2 ^ 53 ≤ x ∧ x ≤ 2 ^ 53) then .ok (rows.map fun r => r.map fun (x : Int) => (x : Rat))
  else .error .arrowInvalid

/-- `TimeSpan._from_arrow` (`:7348-7392`) -/
def fromArrowSpan (zeroCopy : Bool) (factor : Int) (chunks : List (List (Option Int))) : Except Err (List (Option Rat)) :=
  if zeroCopy then .error .valueError
  else match chunks.mapM (castNanos factor) with
    | .error e => .error e
    | .ok ns => byChunk fromSpanOne ns

/-! ## Datasets -/

/-- `d[k] = v` -/
def putCol {A : Type} (d : List (List Char × A)) (k : List Char) (v : A) : List (List Char × A) :=
  if k ∈ d.map (·.1) then d.map fun e => if e.1 = k then (k, v) else e else d ++ [(k, v)]

/-- `Dataset.to_arrow` (`rt_dataset.py:3343-3362`): any exception of a column is a RuntimeError -/
def toTable {A P : Type} (conv : A → Except Err P) : List (List Char × A) → Except Err (List (List Char × P))
  | [] => .ok []
  | (k, a) :: rest =>
    match conv a with
    | .error _ => .error .runtimeError
    | .ok p => (toTable conv rest).map fun r => (k, p) :: r

/-- the loop of `Dataset.from_arrow` (`:3294-3305`) -/
def tableLoop {A P : Type} (conv : P → Except Err A) : List (List Char × A) → List (List Char × P) → Except Err (List (List Char × A))
  | d, [] => .ok d
  | d, (k, p) :: rest =>
    match conv p with
    | .error e => .error e
    | .ok a => tableLoop conv (putCol d k a) rest

/-- `Dataset.from_arrow` (`:3294-3307`) -/
def fromTable {A P : Type} (conv : P → Except Err A) (tbl : List (List Char × P)) : Except Err (List (List Char × A)) := tableLoop conv [] tbl

end Verif.Arrow
