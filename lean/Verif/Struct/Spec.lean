import Verif.Struct.Model

/-! # What a user expects of a `Struct` -/
namespace Verif.Struct
open Verif.Items
variable {V : Type}

/-- `keys()` -/
def names (s : St V) : List Name := s.items.keys
/-- the value found under a name -/
def value (s : St V) (n : Name) : Option V := (s.items.get n).map Item.val
/-- the name a column gets by a rename dictionary -/
def newName (d : Dict Name Name) (n : Name) : Name := (d.get n).getD n

/-- the operations that may be called on a locked struct without being stopped -/
def unchecked : Op V → Bool
  | .colSetValue .. | .addPrefix .. | .addSuffix .. | .strReplace .. | .setTagged .. | .removeTagged ..
  | .setColAttr .. | .sortView .. | .unlock => true
  | _ => false

/-- No name is given to a column that collides with the class (an attribute assignment
to `shape`, say); `col_set_value` only replaces; replacements keep the names distinct
and are not applied to a sorted struct. -/
def Legal (cls : Cls) (s : St V) : Op V → Prop
  | .setAttr n _ => cls.prop n = false ∧ cls.keyword n = false
  | .colSetValue n _ => n ∈ names s
  | .addPrefix p => ∀ n ∈ names s, validName cls (p ++ n) = true
  | .addSuffix p => ∀ n ∈ names s, validName cls (n ++ p) = true
  | .strReplace r => ((names s).map r).Nodup ∧ (∀ n ∈ names s, validName cls (r n) = true) ∧ s.sortlist = none
  | _ => True

/-- every operation of the history is legal when it is executed -/
def LegalRun (cls : Cls) (s : St V) : List (Op V) → Prop
  | [] => True
  | op :: ops => Legal cls s op ∧ LegalRun cls (step cls s op).1 ops

end Verif.Struct
