import Verif.StructEq.Spec
/-!
# Model of `Struct.equals` (`rt_struct.py:3848-3907`)

The checksum `rc.CalculateCRC` (C++) is a parameter on the bytes of an array. Arrays are contiguous; a Struct has no tuples, lists or other objects.
-/
namespace Verif.StructEq

inductive Err where
  | attribute
  | type
deriving DecidableEq, Repr

/-- The memory of an element, lowest byte first. -/
def leBytes : Nat → Nat → List Nat
  | 0, _ => []
  | w + 1, x => x % 256 :: leBytes w (x / 256)

/-- The memory of an array. -/
def bytes (w : Nat) (e : List Nat) : List Nat := e.flatMap (leBytes w)

/-- `_ncols`. -/
def Fields.length : Fields → Nat
  | .nil => 0
  | .cons _ _ r => r.length + 1

/-- `v1 == v2` for numbers and texts (`:3894`). -/
def scalarEq : Val → Val → Bool
  | .num a, .num b => a == b
  | .text a, .text b => a == b
  | _, _ => false

mutual
/-- One column (`:3883-3903`). `v1.equals` of a number is an AttributeError, `==` of a Struct and a number a TypeError (`:911`). -/
def Val.eq {C : Type} [DecidableEq C] (crc : List Nat → C) : Val → Val → Except Err Bool
  | .arr _ w e, .arr _ w' e' => .ok (crc (bytes w' e') == crc (bytes w e))
  | .arr .., _ => .ok false
  | _, .arr .. => .ok false
  | .struct f, .struct g => if f.length ≠ g.length then .ok false else f.eq crc g
  | _, .struct _ => .error .attribute
  | .struct _, _ => .error .type
  | a, b => .ok (scalarEq a b)
/-- The loop (`:3879-3907`). -/
def Fields.eq {C : Type} [DecidableEq C] (crc : List Nat → C) : Fields → Fields → Except Err Bool
  | .cons c1 v1 r1, .cons c2 v2 r2 =>
    if c1 = c2 then
      match v1.eq crc v2 with
      | .error e => .error e
      | .ok false => .ok false
      | .ok true => r1.eq crc r2
    else .ok false
  | _, _ => .ok true
end

/-- `Struct.equals` (`:3848-3907`). -/
def equals {C : Type} [DecidableEq C] (crc : List Nat → C) (f g : Fields) : Except Err Bool :=
  if f.length ≠ g.length then .ok false else f.eq crc g

mutual
/-- The memory of all arrays in a Struct. -/
def Val.mem : Val → List (List Nat)
  | .arr _ w e => [bytes w e]
  | .struct f => f.mem
  | _ => []
def Fields.mem : Fields → List (List Nat)
  | .nil => []
  | .cons _ v r => v.mem ++ r.mem
end

end Verif.StructEq
