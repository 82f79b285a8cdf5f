import Verif.StructCmp.Model
/-!
# Comparisons of numbers, contents of Structs (C273, C274)
-/
namespace Verif.StructCmp

/-- What the comparisons mean for numbers. -/
def Rel : Op → Int → Int → Prop
  | .eq, a, b => a = b
  | .ne, a, b => a ≠ b
  | .lt, a, b => a < b
  | .le, a, b => a ≤ b
  | .gt, a, b => b < a
  | .ge, a, b => b ≤ a

mutual
/-- No key twice anywhere inside. -/
def DistinctVal : Val → Prop
  | .struct fs _ => fs.keys.Nodup ∧ DistinctFields fs
  | _ => True
/-- The same for the values at the keys. -/
def DistinctFields : Fields → Prop
  | .nil => True
  | .cons _ v rest => DistinctVal v ∧ DistinctFields rest
end

mutual
/-- Whether there is an empty array inside. -/
def hasEmpty : Val → Bool
  | .arr xs => xs.isEmpty
  | .struct fs _ => hasEmptyF fs
  | _ => false
/-- The same for the values at the keys. -/
def hasEmptyF : Fields → Bool
  | .nil => false
  | .cons _ v rest => hasEmpty v || hasEmptyF rest
end

end Verif.StructCmp
