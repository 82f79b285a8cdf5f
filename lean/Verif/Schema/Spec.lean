/-!
# What applying a schema should mean (C337 - C340)

Data objects are trees of Structs and arrays; schemas are trees of descriptions.
-/
namespace Verif.Schema

mutual
/-- a Struct (with its identity and class), an array (with its class and dtype), or something else -/
inductive Obj where
  | struct (id : Nat) (cls : String) (items : Items)
  | array (id : Nat) (cls dtype : String)
  | other (cls : String)
/-- the named elements of a Struct, in order -/
inductive Items where
  | nil
  | cons (name : String) (o : Obj) (rest : Items)
end

mutual
/-- what is said of an object; without contents nothing is said of its elements -/
inductive Sch where
  | mk (type descr : Option String) (contents : Fields)
inductive Fields where
  | nil
  | cons (name : String) (s : Sch) (rest : Fields)
end

/-- a deviation of an object from its schema -/
inductive Dev where
  | type (found wanted : String)
  | extra (name : String)
  | missing (name : String)
deriving DecidableEq, Repr

def Sch.type : Sch → Option String
  | .mk t _ _ => t
def Sch.descr : Sch → Option String
  | .mk _ d _ => d
def Sch.contents : Sch → Fields
  | .mk _ _ c => c

namespace Spec

/-- an element of a Struct -/
inductive InItems : String → Obj → Items → Prop where
  | here (n : String) (o : Obj) (r : Items) : InItems n o (.cons n o r)
  | there (n n' : String) (o o' : Obj) (r : Items) (h : InItems n o r) : InItems n o (.cons n' o' r)

/-- a schema of an element -/
inductive InFields : String → Sch → Fields → Prop where
  | here (n : String) (s : Sch) (r : Fields) : InFields n s (.cons n s r)
  | there (n n' : String) (s s' : Sch) (r : Fields) (h : InFields n s r) : InFields n s (.cons n' s' r)

/-- the name that a type is compared with: the class of a Struct, the dtype of an array -/
def TypeName : Obj → String → Prop
  | .struct _ cls _, t => t = cls
  | .array _ _ dtype, t => t = dtype
  | .other _, _ => False

/-- the object under a path deviates from its schema -/
inductive Deviates : Obj → Sch → List String → Dev → Prop where
  | type (o : Obj) (s : Sch) (found wanted : String) (hf : TypeName o found) (hw : s.type = some wanted) (he : wanted ≠ "")
      (hne : found ≠ wanted) : Deviates o s [] (.type found wanted)
  | extra (i : Nat) (c : String) (items : Items) (s : Sch) (n : String) (o : Obj) (hc : s.contents ≠ .nil) (hi : InItems n o items)
      (hno : ∀ s', ¬ InFields n s' s.contents) : Deviates (.struct i c items) s [] (.extra n)
  | missing (i : Nat) (c : String) (items : Items) (s s' : Sch) (n : String) (hs : InFields n s' s.contents)
      (hno : ∀ o, ¬ InItems n o items) : Deviates (.struct i c items) s [] (.missing n)
  | deeper (i : Nat) (c : String) (items : Items) (s s' : Sch) (n : String) (o : Obj) (p : List String) (d : Dev) (hi : InItems n o items)
      (hs : InFields n s' s.contents) (h : Deviates o s' p d) : Deviates (.struct i c items) s (n :: p) d

/-- the object and the schema under a path -/
inductive At : Obj → Sch → List String → Obj → Sch → Prop where
  | here (o : Obj) (s : Sch) : At o s [] o s
  | deeper (i : Nat) (c : String) (items : Items) (s s' : Sch) (n : String) (o : Obj) (p : List String) (o' : Obj) (s'' : Sch)
      (hi : InItems n o items) (hs : InFields n s' s.contents) (h : At o s' p o' s'') : At (.struct i c items) s (n :: p) o' s''

/-- the identity of an object that can be described -/
def Identity : Obj → Nat → Prop
  | .struct id _ _, i => i = id
  | .array id _ _, i => i = id
  | .other _, _ => False

mutual
/-- names are different everywhere in the schema, and every element has something said of it -/
def Proper : Sch → Prop
  | .mk _ _ c => ProperFields c
def ProperFields : Fields → Prop
  | .nil => True
  | .cons n s r => Proper s ∧ (∀ s', ¬ InFields n s' r) ∧ s ≠ .mk none none .nil ∧ ProperFields r
end

mutual
/-- names are different everywhere in the object -/
def Named : Obj → Prop
  | .struct _ _ items => NamedItems items
  | .array _ _ _ => True
  | .other _ => True
def NamedItems : Items → Prop
  | .nil => True
  | .cons n o r => Named o ∧ (∀ o', ¬ InItems n o' r) ∧ NamedItems r
end

/-- no array is said to have contents -/
def Fits (o : Obj) (s : Sch) : Prop := ∀ p i c dt s', At o s p (.array i c dt) s' → s'.contents = .nil

end Spec
end Verif.Schema
