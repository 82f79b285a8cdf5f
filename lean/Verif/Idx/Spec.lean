import Verif.Dup.Spec
/-!
# Selecting rows and columns of a table: specification

A table is a list of named columns of the same length `n`. Nothing here refers to the model.
-/
namespace Verif.Idx
export Verif.Dup (cell Rect)

/-- the row meant by the integer `k`: negative numbers count from the end -/
def meant (n : Nat) (k : Int) : Option Nat :=
  if 0 ≤ k ∧ k < n then some k.toNat else if k < 0 ∧ 0 ≤ (n : Int) + k then some ((n : Int) + k).toNat else none

/-- the rows where a mask is True, ascending -/
def trueRows (m : List Bool) : List Nat := (List.range m.length).filter fun i => m[i]? == some true

/-- a bound of a slice, given as `x`, as a position between `lo` and `hi` -/
def bound (n : Nat) (lo hi : Int) (dflt : Int) : Option Int → Int
  | none => dflt
  | some x => max lo (min hi (if x < 0 then x + n else x))

/-- `L` is what Python takes from `n` rows for `start:stop:step`: for a positive step the rows from `start` up to but not including
`stop` at distances that are multiples of the step, ascending; for a negative step from `start` down to but not including `stop`,
descending. Missing bounds are the ends. -/
def IsSlice (n : Nat) (start stop : Option Int) (step : Int) (L : List Nat) : Prop :=
  if 0 < step then
    let a := bound n 0 n 0 start
    let b := bound n 0 n n stop
    L.Pairwise (· < ·) ∧ ∀ (i : Nat), i ∈ L ↔ a ≤ i ∧ (i : Int) < b ∧ step ∣ (i : Int) - a
  else
    let a := bound n (-1) ((n : Int) - 1) ((n : Int) - 1) start
    let b := bound n (-1) ((n : Int) - 1) (-1) stop
    step ≠ 0 ∧ L.Pairwise (· > ·) ∧ ∀ (i : Nat), i ∈ L ↔ b < i ∧ (i : Int) ≤ a ∧ step ∣ a - (i : Int)

/-! ## what can be asked for -/

inductive RowArg (V : Type) where
  | int (k : Int)
  | slice (start stop : Option Int) (step : Option Int)
  | boolList (m : List Bool)
  | boolArr (m : List Bool)
  | intList (ks : List Int)
  | intArr (ks : List Int)
  /-- strings, or tuples of them, to be looked up in the label columns -/
  | labels (ks : List (List V))

inductive ColArg where
  | name (c : String)
  | int (k : Int)
  | slice (start stop : Option Int) (step : Option Int)
  | names (cs : List String)
  | ints (ks : List Int)
  | bools (m : List Bool)
deriving DecidableEq, Repr

/-- the rows a row argument asks for; an entry `none` asks for a row of invalid values -/
def RowsMeant {V : Type} (t : List (String × List V)) (n : Nat) (labels : List String) : RowArg V → List (Option Nat) → Prop
  | .int k, L => ∃ i, meant n k = some i ∧ L = [some i]
  | .slice a b s, L => ∃ R, IsSlice n a b (s.getD 1) R ∧ L = R.map some
  | .boolList m, L | .boolArr m, L => m.length = n ∧ L = (trueRows m).map some
  | .intList ks, L => L = ks.map (meant n) ∧ none ∉ L
  | .intArr ks, L => L = ks.map (meant n)
  | .labels ks, L => ∃ R : List Nat, R.Pairwise (· < ·) ∧ L = R.map some ∧ ∀ (i : Nat), i ∈ R ↔ i < n ∧
      ∃ key ∈ ks, ∀ (j : Nat) (x : V), key[j]? = some x → ∃ c, labels[j]? = some c ∧ cell t c i = some x

/-- the columns a column argument asks for, among `names` -/
def ColsMeant (names : List String) : ColArg → List String → Prop
  | .name c, cs => cs = [c]
  | .int k, cs => ∃ i c, meant names.length k = some i ∧ names[i]? = some c ∧ cs = [c]
  | .slice a b s, cs => ∃ R, IsSlice names.length a b (s.getD 1) R ∧ cs.map some = R.map fun i => names[i]?
  | .names l, cs => cs = l
  | .ints ks, cs => cs.map some = ks.map fun k => (meant names.length k).bind fun i => names[i]?
  | .bools m, cs => m.length = names.length ∧ cs.map some = (trueRows m).map fun i => names[i]?

/-- the rows of `ds[col]` are all -/
def RowsMeantIn {V : Type} (t : List (String × List V)) (n : Nat) (labels : List String) : Option (RowArg V) → List (Option Nat) → Prop
  | none, L => L = (List.range n).map some
  | some r, L => RowsMeant t n labels r L

/-- empty lists are refused; keys must have one part for every label column -/
def Accepted {V : Type} (names labels : List String) : Option (RowArg V) → Prop
  | some (.boolList m) => m ≠ []
  | some (.intList ks) => ks ≠ []
  | some (.labels ks) => ks ≠ [] ∧ labels ≠ [] ∧ (∀ key ∈ ks, key.length = labels.length) ∧ ∀ c ∈ labels, c ∈ names
  | _ => True

/-- a list is asked for rather than one column -/
def Several : ColArg → Prop
  | .name _ | .int _ => False
  | .names cs => cs ≠ []
  | .ints ks => ks ≠ []
  | .bools m => m ≠ []
  | .slice _ _ _ => True

/-- empty lists of columns are refused -/
def NonEmpty : ColArg → Prop
  | .names cs => cs ≠ []
  | .ints ks => ks ≠ []
  | .bools m => m ≠ []
  | _ => True

/-- position `k` is the last one where `l` holds `a` -/
def LastAt {A : Type} (l : List A) (k : Nat) (a : A) : Prop := l[k]? = some a ∧ ∀ (k' : Nat), k < k' → l[k']? ≠ some a

/-- `l` holds, item by item, what column `c` of `t` holds in the rows `L` -/
def Reads {V : Type} (inv : V) (t : List (String × List V)) (L : List (Option Nat)) (c : String) (l : List V) : Prop :=
  ∀ (k : Nat), l[k]? = (L[k]?).bind fun (o : Option Nat) => match o with
    | some i => cell t c i
    | none => some inv

/-- column `c` of `t'` holds, row by row, what column `c` of `t` holds in the rows `L`; an entry `none` of `L` asks for an invalid
value -/
def ColFrom {V : Type} (inv : V) (t t' : List (String × List V)) (L : List (Option Nat)) (c : String) : Prop :=
  ∀ (k : Nat), cell t' c k = (L[k]?).bind fun (o : Option Nat) => match o with
    | some i => cell t c i
    | none => some inv

end Verif.Idx
