/-!
# `Struct.equals`: specification

The values are shared with the model; nothing else here refers to it.
-/
namespace Verif.StructEq

mutual
/-- Values in a Struct: an array (kind of its elements, bytes of an element, the elements as bit patterns), a number, NaN, a text, a Struct. -/
inductive Val where
  | arr (kind width : Nat) (elems : List Nat)
  | num (n : Int)
  | nan
  | text (s : String)
  | struct (f : Fields)
/-- The keys of a Struct in order. -/
inductive Fields where
  | nil
  | cons (k : String) (v : Val) (rest : Fields)
end

mutual
/-- No number in the Struct, however deep, is NaN (arrays may hold NaN). -/
def Val.NoNan : Val → Prop
  | .nan => False
  | .struct f => f.NoNan
  | _ => True
def Fields.NoNan : Fields → Prop
  | .nil => True
  | .cons _ v r => v.NoNan ∧ r.NoNan
end

mutual
/-- Arrays under the same key have elements of the same kind and width, and these are bit patterns of that width. -/
def Val.Kinds : Val → Val → Prop
  | .arr k w e, .arr k' w' e' => k = k' ∧ w = w' ∧ 0 < w ∧ (∀ x ∈ e, x < 256 ^ w) ∧ ∀ x ∈ e', x < 256 ^ w'
  | .struct f, .struct g => f.Kinds g
  | _, _ => True
def Fields.Kinds : Fields → Fields → Prop
  | .cons _ v r, .cons _ v' r' => v.Kinds v' ∧ r.Kinds r'
  | _, _ => True
end

/-- What stands under a key on both sides can be compared: not a Struct on one side and a number or text on the other. -/
def Val.isStruct : Val → Bool
  | .struct _ => true
  | _ => false

def Val.isArr : Val → Bool
  | .arr .. => true
  | _ => false

mutual
/-- Under the same key there is never a Struct on one side and a number or text on the other. -/
def Val.Fits : Val → Val → Prop
  | .struct f, .struct g => f.Fits g
  | a, b => (a.isStruct → b.isArr) ∧ (b.isStruct → a.isArr)
def Fields.Fits : Fields → Fields → Prop
  | .cons _ v r, .cons _ v' r' => v.Fits v' ∧ r.Fits r'
  | _, _ => True
end

/-- A bit pattern of a double that is NaN. -/
def IsNan (x : Nat) : Prop := 0x7FF0000000000000 < x % 2 ^ 63

instance (x : Nat) : Decidable (IsNan x) := inferInstanceAs (Decidable (_ < _))

end Verif.StructEq
