/-!
# Arguments, names and columns of group-by operations: specification

Small notions used in the statements; nothing here refers to the model.
-/
namespace Verif.GbCalc

/-- a column or array name, as a list of characters -/
abbrev Name := List Char

/-- what a column holds, as far as group-by operations care -/
inductive Kind
  | number
  | span
  | date
  | category
  | text
deriving DecidableEq, Repr

/-- an array: its identity (Python `id`), what it holds, and its values -/
structure Col (V : Type) where
  ident : Nat
  kind : Kind
  vals : List V
deriving DecidableEq, Repr

/-- the value stored under a name in an ordered dictionary -/
def at? {A : Type} (t : List (Name × A)) (k : Name) : Option A := (t.find? fun p => decide (p.1 = k)).map Prod.snd

/-- the names of an ordered dictionary -/
def names {A : Type} (t : List (Name × A)) : List Name := t.map Prod.fst

/-- how often a name is given -/
def times (l : List Name) (n : Name) : Nat := (l.filter fun x => decide (x = n)).length

/-- no name given to several arrays is another such name followed by digits -/
def NoDigitClash (l : List Name) : Prop :=
  ∀ n ∈ l, ∀ m ∈ l, 2 ≤ times l n → 2 ≤ times l m → ∀ ds : List Char, ds ≠ [] → (∀ c ∈ ds, c.isDigit = true) → m ≠ n ++ ds

/-- the names the arrays are known by: their own, or `col_` and the position for an array without a name -/
def given (l : List (Option Name)) : List Name := l.mapIdx fun i n => n.getD ("col_".toList ++ Nat.toDigits 10 i)

/-- `col_idx`: a text or a list of names -/
inductive Sel
  | text (s : Name)
  | list (l : List Name)

/-- the documented meaning of `col_idx`: the column of that name, or the columns in the list -/
def Sel.Picks : Sel → Name → Prop
  | .text s, k => k = s
  | .list l, k => k ∈ l

/-- row `r` of `out` is row `rows[r]` of `col` -/
def RowsFrom {V : Type} (rows : List Nat) (col out : List V) : Prop :=
  out.length = rows.length ∧ ∀ r i : Nat, rows[r]? = some i → out[r]? = col[i]?

/-- `out` is `col` in the order the groups are shown in (`none`: as they are) -/
def Shown {V : Type} (isort : Option (List Nat)) (col out : List V) : Prop :=
  match isort with
  | none => out = col
  | some rows => RowsFrom rows col out

/-- which operations accept dates, categories and texts (`rt_enum.py:536-565`), as documented by the warnings they give -/
def accepts (f : Name) : Kind → Bool
  | .number | .span => true
  | .text => decide (f ∈ ["first".toList, "nth".toList, "last".toList, "shift".toList])
  | .category =>
    decide (f ∈ ["first".toList, "nth".toList, "last".toList, "shift".toList, "median".toList, "mode".toList])
  | .date =>
    decide (f ∈ ["first".toList, "nth".toList, "last".toList, "mean".toList, "min".toList, "max".toList, "nanmean".toList,
      "nanmin".toList, "nanmax".toList, "median".toList, "quantile".toList, "mode".toList, "diff".toList, "shift".toList])

/-- the operations `agg` may name (`rt_groupbyops.py:45-67`) -/
def aggNames : List Name :=
  ["count", "cumsum", "cummin", "cummax", "first", "last", "max", "mean", "median", "min", "nanmax", "nanmean", "nanmedian",
    "nanmin", "nanstd", "nansum", "nanvar", "nth", "std", "sum", "var"].map String.toList

/-- what `agg` is told: the name of an operation or a function (its `__name__`) -/
inductive Item
  | text (s : Name)
  | func (s : Name)

/-- the operation meant; numpy calls its minimum and maximum `amin` and `amax` -/
def Item.op : Item → Name
  | .text s => s
  | .func s => if s = "amin".toList then "min".toList else if s = "amax".toList then "max".toList else s

/-- `agg` is asked for operation `f` of column `k` -/
def Asked (spec : List (Name × List Item)) (f k : Name) : Prop := ∃ items, (k, items) ∈ spec ∧ ∃ it ∈ items, it.op = f

end Verif.GbCalc
