import Verif.Arrow.Model
import Verif.Pandas.Spec
/-!
# pandas columns: model

`/repo/riptable/Utils/pandas_utils.py` (`pandas_series_to_riptable` 99-173, `fastarray_to_pandas_series` 176-234) and
`/repo/riptable/rt_dataset.py` (`to_pandas` 3139-3180, `from_pandas` 3207-3251, `_init_from_dict` 643-672).

pandas and numpy are not in the repository. Their functions are replaced by what they are documented to do: `IntegerArray(vals, mask)`,
`fillna`, `Categorical.from_codes` (raises for codes below -1 or beyond the categories, and for repeated categories),
`np.asarray(series, dtype="S")` (`str` of every cell; raises UnicodeEncodeError for other characters than ASCII), `np.asarray(series,
dtype="i8")` (the numbers of units, NaT is the least integer), `reset_index`.

Not modelled: `unicode=False`, names of series, nullable booleans and floats, extension types of pandas, multi-level indices, Categoricals
with a mapping or with several keys (`as_singlekey`, C29), bytes among the categories that are no ASCII.
-/
namespace Verif.Pandas
open Verif.NpOps hiding Err
open Verif.Arrow

/-! ## numbers -/

/-- integers (`pandas_utils.py:216-231`): the mask is True for the invalid integer of the type -/
def toPandasInt (useNullable : Bool) (a : IntArr) : PInts :=
  if useNullable then .nullable a.sg a.w (a.vals.map fun v => if v = missing a.sg a.w then none else some v) else .plain a.sg a.w a.vals

/-- integers (`:129-143`, `:172-173`) -/
def fromPandasInt : PInts → IntArr
  | .nullable sg w rows => ⟨sg, w, rows.map fun r => r.getD (missing sg w)⟩
  | .plain sg w vals => ⟨sg, w, vals⟩

/-! ## text and objects -/

/-- `astype("U")` of bytes and `pd.Series` (`:228-231`) -/
def toPandasText (a : TextArr) : Except Err (List Obj) :=
  if a.unicode = false ∧ a.vals.any (fun t => !asciiB t) = true then .error .unicodeError else .ok (a.vals.map .text)

/-- `isinstance(x, (int, float, np.number))`; a bool is an int -/
def isNumber : Obj → Bool
  | .none => false
  | .nan => true
  | .bool _ => true
  | .int _ => true
  | .text _ => false

/-- `series.notnull()` -/
def notNull : Obj → Bool
  | .none => false
  | .nan => false
  | _ => true

/-- `float(x)`; `parse` reads numbers from text -/
def toFloat (round : Int → Rat) (parse : List Char → Option Rat) : Obj → Option (Option Rat)
  | .none => some none
  | .nan => some none
  | .bool b => some (some (if b then 1 else 0))
  | .int k => some (some (round k))
  | .text t => (parse t).map some

/-- `str(x)` -/
def str : Obj → List Char
  | .none => "None".toList
  | .nan => "nan".toList
  | .bool b => if b then "True".toList else "False".toList
  | .int k => if k < 0 then '-' :: Nat.toDigits 10 k.natAbs else Nat.toDigits 10 k.natAbs
  | .text t => t

/-- what an object column becomes: floats (`none` is NaN) or text -/
inductive FromObj where
  | floats (vals : List (Option Rat))
  | text (a : TextArr)
deriving DecidableEq, Repr

/-- the first element that is not null, NaN if there is none (`:157-159`) -/
def firstElement (rows : List Obj) : Obj := (rows.find? notNull).getD .nan

/-- `np.asarray(series, dtype="f8")` -/
def asFloats (round : Int → Rat) (parse : List Char → Option Rat) (rows : List Obj) : Except Err FromObj :=
  if rows.all fun o => (toFloat round parse o).isSome then .ok (.floats (rows.filterMap (toFloat round parse))) else .error .valueError

/-- `np.asarray(series, dtype="S")`, Unicode if that raises (`:165-168`) -/
def asText (rows : List Obj) : FromObj :=
  .text ⟨!((rows.map str).all asciiB), (rows.map str).map stripNul⟩

/-- object columns (`:155-171`) -/
def fromPandasObj (round : Int → Rat) (parse : List Char → Option Rat) (rows : List Obj) : Except Err FromObj :=
  if 0 < rows.length then
    if isNumber (firstElement rows) then asFloats round parse rows else .ok (asText rows)
  else .ok (asText rows)

/-! ## Categoricals -/

section
variable {S : Type} [LinearOrder S]

/-- `pd.Categorical.from_codes` -/
def fromCodes (codes : List Int) (cats : List S) : Except Err (PCat S) :=
  if codes.any fun j => decide (j < -1) || decide ((cats.length : Int) ≤ j) then .error .valueError
  else if cats.Nodup then .ok ⟨codes, cats⟩ else .error .valueError

/-- Categoricals with one column of categories (`:187-208`) -/
def toPandasCat (c : ACat S) : Except Err (PCat S) := fromCodes (c.codes.map fun k => k - (c.base : Int)) c.labels

/-- the integer type of the codes of pandas (`coerce_indexer_dtype`), in bits -/
def pandasBits (n : Nat) : Nat := if n < 127 then 8 else if n < 32767 then 16 else if n < 2147483647 then 32 else 64

/-- `codes + 1` in the integer type of the codes (`:128`) -/
def codesPlusOne (p : PCat S) : List Int := p.codes.map fun k => CatNew.store (pandasBits p.cats.length) (k + 1)

/-- `Categorical(codes + 1, categories=categories)` (`:112-128`; `rt_categorical.py:1986-2017`): the categories are an array, base index
1; a Categorical is given by base index, codes and categories -/
def fromPandasCat (p : PCat S) : Except Err (Nat × List Int × List S) :=
  match CatNew.groupingOfCodes (codesPlusOne p) false p.cats none 1 none false with
  | .error _ => .error .valueError
  | .ok g => .ok (g.base, g.codes, p.cats)
end

/-! ## times -/

/-- DateTimeNano (`:209-212`): the least integer is NaT; the zone is `to_tz` -/
def toPandasDtn (d : Dtn) : Tz.Zone × PTimes := (d.tz.toTz, ⟨1, d.vals.map fun x => if x = least true 3 then none else some x⟩)

/-- the zone of a column of timestamps: none, one that riptable does not know, or one that it knows -/
abbrev PZone := ArrowZone

/-- timestamps (`:144-149`): the numbers of units are taken as nanoseconds in UTC; `tz` is the argument. `DateTimeNano.__new__`
(`rt_datetime.py:4439-4564`) -/
def fromPandasDtn (tz : Tz.Zone) (zone : PZone) (p : PTimes) : Except Err Dtn :=
  match zone with
  | .naive => .ok ⟨p.rows.map fun r => toUtcWrap (Tz.TimeZone.init .utc tz) (r.getD (least true 3)), Tz.TimeZone.init .utc tz⟩
  | .unknown => .error .valueError
  | .known z => .ok ⟨p.rows.map fun r => toUtcWrap (Tz.TimeZone.init .utc z) (r.getD (least true 3)), Tz.TimeZone.init .utc z⟩

/-- TimeSpan (`:213-214`): nanoseconds (a fraction, `none` for NaN) are cut to integers -/
def toPandasSpan (vals : List (Option Rat)) : PTimes := ⟨1, vals.map fun r => r.map fun q => Int.tdiv q.num q.den⟩

/-- time differences (`:150-154`): the numbers of units, as float64; what equals the number of NaT becomes NaN -/
def fromPandasSpan (round : Int → Rat) (p : PTimes) : List (Option Rat) :=
  p.rows.map fun r => if round (r.getD (least true 3)) = ((least true 3 : Int) : Rat) then none else some (round (r.getD (least true 3)))

/-- Date (`:216-227`): an int32 array like any other -/
def toPandasDate (useNullable : Bool) (days : List Int) : PInts := toPandasInt useNullable ⟨true, 2, days⟩

/-! ## Datasets -/

/-- the Dataset made of a dictionary (`rt_dataset.py:643-672`, `rt_struct.py:307-329`) raises if a name starts with `_`; `none` stands for
the first character of an empty name (IndexError) -/
def makeDs {A : Type} (d : List (List Char × A)) : Except Err (List (List Char × A)) :=
  if d.any fun e => decide (e.1.head? = some '_' ∨ e.1.head? = none) then .error .valueError else .ok d

/-- `Dataset.to_pandas` (`rt_dataset.py:3175-3180`) -/
def toFrame {A P : Type} (conv : A → Except Err P) (index : P) : List (List Char × A) → Except Err (Frame P)
  | [] => .ok ⟨true, none, index, []⟩
  | (k, a) :: rest =>
    match conv a with
    | .error e => .error e
    | .ok p => (toFrame conv index rest).map fun f => { f with cols := (k, p) :: f.cols }

/-- the name of the index as a column -/
def indexColumn {P : Type} (f : Frame P) : List Char :=
  f.indexName.getD (if "index".toList ∈ f.cols.map (·.1) then "level_0".toList else "index".toList)

/-- `df.reset_index()` raises ValueError if there is a column of that name -/
def resetIndex {P : Type} (f : Frame P) : Except Err (List (List Char × P)) :=
  if indexColumn f ∈ f.cols.map (·.1) then .error .valueError else .ok ((indexColumn f, f.index) :: f.cols)

/-- `preserve_index=None` (`:3239-3244`) -/
def preserves {P : Type} (preserve : Option Bool) (f : Frame P) : Bool := preserve.getD (!f.defaultIndex)

/-- the columns that are converted (`:3245-3246`) -/
def frameCols {P : Type} (preserve : Option Bool) (f : Frame P) : Except Err (List (List Char × P)) :=
  if preserves preserve f then resetIndex f else .ok f.cols

/-- `Dataset.from_pandas` (`:3239-3251`) -/
def fromFrame {A P : Type} (conv : P → Except Err A) (preserve : Option Bool) (f : Frame P) : Except Err (List (List Char × A)) :=
  match frameCols preserve f with
  | .error e => .error e
  | .ok cols => match tableLoop conv [] cols with
    | .error e => .error e
    | .ok d => makeDs d

end Verif.Pandas
