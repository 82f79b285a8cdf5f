import Verif.Dup.Spec
/-!
# Reshaping tables: specification

A table is a list of named columns of the same length. `cell t c i` is the value of column `c` in row `i`. Nothing here refers to the
model.
-/
namespace Verif.Shape
export Verif.Dup (cell Rect contents)

/-- the columns that become values: those named, each once, or all, without the identifying ones -/
def valueCols (names ids : List String) : Option (List String) → List String
  | none => names.filter fun c => decide (c ∉ ids)
  | some vs => (vs.filter fun c => decide (c ∉ ids)).eraseDups

/-- `t'` is the long form of the table `t` with `n` rows: it has the columns `ids`, a column of column names and a column of values;
row `k * n + i` is about row `i` of `t` and the `k`-th of the columns `vals`. `str` makes an item out of a name. -/
structure IsLong {V : Type} (str : String → V) (t : List (String × List V)) (n : Nat) (ids vals : List String) (varName valueName : String)
    (t' : List (String × List V)) : Prop where
  names : t'.map Prod.fst = ids ++ [varName, valueName]
  rect : Rect t' (vals.length * n)
  id : ∀ (k i : Nat) (v c : String), vals[k]? = some v → i < n → c ∈ ids → cell t' c (k * n + i) = cell t c i
  var : ∀ (k i : Nat) (v : String), vals[k]? = some v → i < n → cell t' varName (k * n + i) = some (str v)
  val : ∀ (k i : Nat) (v : String), vals[k]? = some v → i < n → cell t' valueName (k * n + i) = cell t v i

/-- the rows of the long table whose value is not to be trimmed, ascending -/
def goodRows {V : Type} (bad : V → Bool) (m : List (String × List V)) (valueName : String) (rows : Nat) : List Nat :=
  (List.range rows).filter fun i => match cell m valueName i with
    | some x => !bad x
    | none => false

/-- The contract of `Dataset.cat(cols).grouping` (`rt_dataset.py:6082`, `Categorical`, `Grouping`; C++ hashing): row `i` has code
`x + 1` when it holds what is number `x` of the list `uniq` of different contents, code 0 when it is not in any group. -/
structure Coded {K : Type} (rows : List K) (codes : List Nat) (uniq : List K) : Prop where
  len : codes.length = rows.length
  code : ∀ (i x : Nat), codes[i]? = some (x + 1) → ∃ k, rows[i]? = some k ∧ uniq[x]? = some k
  nodup : uniq.Nodup

/-- the groups of the rows of `t` by what they hold in the columns `cols`: `uniq` is the table of the `m` different contents -/
structure Grouped {V : Type} (t : List (String × List V)) (n : Nat) (cols : List String) (codes : List Nat) (uniq : List (String × List V))
    (m : Nat) : Prop where
  names : uniq.map Prod.fst = cols
  rect : Rect uniq m
  coded : Coded (contents t cols n) codes (contents uniq cols m)

/-- the name of a column for the values `key` of the key columns: their texts joined with `_` -/
def joined {V : Type} (uname : V → String) (key : List (Option V)) : String :=
  "_".intercalate (key.map fun o => match o with
    | some x => uname x
    | none => "")

/-- every row is in a group -/
def Full (codes : List Nat) : Prop := 0 ∉ codes

/-- every group has a row -/
def Used (codes : List Nat) (m : Nat) : Prop := ∀ (x : Nat), x < m → x + 1 ∈ codes

/-- row `i` takes part -/
def Kept (n : Nat) (filter : Option (List Bool)) (i : Nat) : Prop :=
  i < n ∧ match filter with
    | none => True
    | some m => m[i]? = some true

/-- row `i` holds `k` in the columns `cols` -/
def Holds {V : Type} (t : List (String × List V)) (cols : List String) (i : Nat) (k : List (Option V)) : Prop :=
  cols.map (fun c => cell t c i) = k

/-- `t'` is the wide form of column `v` of `t`: one row for each of the contents `rowKeys` of the columns `labels`, then one column for
each of the contents `colKeys` of the columns `columns`, named by `name`; the cell is the value in the row of `t` that holds both, or
invalid. -/
structure IsWide {V : Type} (inv : V) (t : List (String × List V)) (n : Nat) (labels columns : List String) (filter : Option (List Bool))
    (rowKeys colKeys : List (List (Option V))) (name : List (Option V) → String) (v : String) (t' : List (String × List V)) : Prop where
  names : t'.map Prod.fst = labels ++ colKeys.map name
  rect : Rect t' rowKeys.length
  label : ∀ (r : Nat) (k : List (Option V)), rowKeys[r]? = some k → Holds t' labels r k
  value : ∀ (r c i : Nat) (k kc : List (Option V)), rowKeys[r]? = some k → colKeys[c]? = some kc → Kept n filter i → Holds t labels i k →
    Holds t columns i kc → cell t' (name kc) r = cell t v i
  empty : ∀ (r c : Nat) (k kc : List (Option V)), rowKeys[r]? = some k → colKeys[c]? = some kc →
    (¬ ∃ i, Kept n filter i ∧ Holds t labels i k ∧ Holds t columns i kc) → cell t' (name kc) r = some inv

/-- no two rows that take part hold the same in the label columns and the same in the other key columns -/
def Single {V : Type} (t : List (String × List V)) (n : Nat) (labels columns : List String) (filter : Option (List Bool)) : Prop :=
  ∀ (i j : Nat), Kept n filter i → Kept n filter j → labels.map (fun c => cell t c i) = labels.map (fun c => cell t c j) →
    columns.map (fun c => cell t c i) = columns.map (fun c => cell t c j) → i = j

end Verif.Shape
