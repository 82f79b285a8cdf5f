import Mathlib.Data.Rat.Defs
import Mathlib.Algebra.Order.Ring.Rat
import Mathlib.Algebra.Field.Rat
import Mathlib.Data.List.Lex
/-!
# Functions of arrays: specification

Numbers and the types that hold them, choice row by row, different values, masks, pairs of keys. Nothing here refers to the model.
-/
namespace Verif.NpOps

/-! ## types of numbers -/

/-- a type of numbers: integers of 8 · 2 ^ `w` bits, floating point numbers, Python objects -/
inductive Ty where
  | int (signed : Bool) (w : Fin 4)
  | f16 | f32 | f64 | obj
deriving DecidableEq, Repr

/-- the number of bits of an integer type -/
def bitsOf (w : Fin 4) : Nat := 8 * 2 ^ w.val

/-- least and greatest number of an integer type -/
def least (signed : Bool) (w : Fin 4) : Int := if signed then -2 ^ (bitsOf w - 1) else 0
def greatest (signed : Bool) (w : Fin 4) : Int := if signed then 2 ^ (bitsOf w - 1) - 1 else 2 ^ bitsOf w - 1

/-- the missing value of an integer type -/
def missing (signed : Bool) (w : Fin 4) : Int := if signed then least true w else greatest false w

/-- `m * 2 ^ e` with at most `p` bits -/
def IsFloat (p : Nat) (emin emax : Int) (q : Rat) : Prop :=
  ∃ m e : Int, |m| < 2 ^ p ∧ emin ≤ e ∧ e ≤ emax ∧ q = (m : Rat) * (2 : Rat) ^ e

/-- the type can hold the number -/
def Holds : Ty → Rat → Prop
  | .int s w, q => ∃ z : Int, q = z ∧ least s w ≤ z ∧ z ≤ greatest s w
  | .f16, q => IsFloat 11 (-24) 5 q
  | .f32, q => IsFloat 24 (-149) 104 q
  | .f64, q => IsFloat 53 (-1074) 971 q
  | .obj, _ => True

/-! ## rows -/

/-- rows come from `x` where the condition is not 0 and from `y` elsewhere -/
def Chosen {V : Type} (cond : List Int) (x y : Nat → Option V) (r : List V) : Prop :=
  r.length = cond.length ∧ ∀ (i : Nat) (c : Int), cond[i]? = some c → r[i]? = if c ≠ 0 then x i else y i

/-- `row i` is one of the rows `< n` that take part, `rows` lists those that do -/
def TakesPart (filter : Option (List Bool)) (n i : Nat) : Prop := i < n ∧ ∀ f, filter = some f → f[i]? = some true

/-- the different rows, each once -/
structure Different {K : Type} (row : Nat → K) (filter : Option (List Bool)) (n : Nat) (un : List K) : Prop where
  once : un.Nodup
  all : ∀ k, k ∈ un ↔ ∃ i, TakesPart filter n i ∧ row i = k

/-- `first` has the first row of every value of `un` -/
def FirstRows {K : Type} (row : Nat → K) (filter : Option (List Bool)) (n : Nat) (un : List K) (first : List Nat) : Prop :=
  first.length = un.length ∧ ∀ (g : Nat) (k : K), un[g]? = some k →
    ∃ i, first[g]? = some i ∧ TakesPart filter n i ∧ row i = k ∧ ∀ j < i, TakesPart filter n j → row j ≠ k

/-- `inv` has the position in `un` of every row that takes part, -1 for the others -/
def Positions {K : Type} (row : Nat → K) (filter : Option (List Bool)) (n : Nat) (un : List K) (inv : List Int) : Prop :=
  inv.length = n ∧ ∀ i < n, (TakesPart filter n i → ∃ g : Nat, inv[i]? = some (g : Int) ∧ un[g]? = some (row i)) ∧
    (¬ TakesPart filter n i → inv[i]? = some (-1))

/-- `cnt` has the number of rows of every value of `un` -/
def Counted {K : Type} (row : Nat → K) (filter : Option (List Bool)) (n : Nat) (un : List K) (cnt : List Nat) : Prop :=
  cnt.length = un.length ∧ ∀ (g : Nat) (k : K), un[g]? = some k →
    ∃ rows : List Nat, rows.Nodup ∧ (∀ i, i ∈ rows ↔ TakesPart filter n i ∧ row i = k) ∧ cnt[g]? = some rows.length

/-! ## masks -/

/-- the mask `r` has in every row the result of `f` on the entries of the masks in that row -/
def RowByRow (f : List Bool → Bool) (masks : List (Nat → Bool)) (n : Nat) (r : List Bool) : Prop :=
  r.length = n ∧ ∀ i < n, r[i]? = some (f (masks.map fun m => m i))

def allTrue (l : List Bool) : Bool := l.all id
def anyTrue (l : List Bool) : Bool := l.any id
/-- an odd number of them is True -/
def oddTrue (l : List Bool) : Bool := (l.count true) % 2 == 1
/-- the first is True and no other is -/
def onlyFirst : List Bool → Bool
  | [] => false
  | a :: l => a && !(l.any id)

end Verif.NpOps
