import Verif.NpOps.Spec
/-!
# Arrow arrays: specification

An Arrow array has in every row a value or null. Nothing here refers to the model.
-/
namespace Verif.Arrow
open Verif.NpOps

/-- what an integer array shows: the missing value of its type is no value -/
def shown (signed : Bool) (w : Fin 4) (vals : List Int) : List (Option Int) :=
  vals.map fun v => if v = missing signed w then none else some v

/-- the integer type can hold the numbers -/
def Fits (signed : Bool) (w : Fin 4) (rows : List (Option Int)) : Prop :=
  ∀ v, some v ∈ rows → least signed w ≤ v ∧ v ≤ greatest signed w

/-- a text without the NUL characters at its end -/
def withoutNuls (t : List Char) : List Char := (t.reverse.dropWhile fun c => c == Char.ofNat 0).reverse

/-- characters of ASCII -/
def Ascii (t : List Char) : Prop := ∀ c ∈ t, c.toNat < 128

/-- what an Arrow array of numbers of days or nanoseconds shows as dates or times: nothing for null; riptable has no date or time 0
and none for the least integer -/
def dateShown (least : Int) (x : Int) : Option Int := if x = 0 ∨ x = least then none else some x

/-- an Arrow dictionary array: every row shows the dictionary value of its index -/
def dictRows {S : Type} (dict : List S) (indices : List (Option Int)) : List (Option S) := indices.map fun j => j.bind fun (k : Int) => dict[k.toNat]?

end Verif.Arrow
