import Verif.Schema.Spec
/-!
# Applying a schema (C337 - C340)

`riptable/rt_meta.py`: 205-279 (`apply_schema`), 282-302 (`_type_str`), 305-345 (`info`: the description is read from the object).

Simplifications: the nested dictionary of deviations is the list of its entries with their paths (a nested dictionary is there when it has
entries); an element named like one of the three keys of deviations ("Extra Column", ...) is not modelled; of what is said of an object the
type, the description and the contents are modelled, the steward and the detail are like the description; the `Doc` is left out.
`schema.get` of a text that is empty and of one that is not there are the same for the type (`if stype`).
-/
namespace Verif.Schema

/-- `_type_str` (282-302) -/
def typeStr : Obj → String
  | .struct _ cls _ => cls
  | .array _ _ dtype => dtype
  | .other cls => cls

/-- `obj.keys()` -/
def Items.names : Items → List String
  | .nil => []
  | .cons n _ r => n :: r.names

/-- `schema_contents.keys()` -/
def Fields.names : Fields → List String
  | .nil => []
  | .cons n _ r => n :: r.names

/-- `schema_contents.get(key)` -/
def Fields.get : Fields → String → Option Sch
  | .nil, _ => none
  | .cons n s r, k => if k = n then some s else r.get k

/-- `if schema_contents` -/
def Fields.isEmpty : Fields → Bool
  | .nil => true
  | .cons _ _ _ => false

/-- `if elem_schema`: a dictionary without entries is false -/
def Sch.given : Sch → Bool
  | .mk none none .nil => false
  | _ => true

/-- the type (262-264) -/
def typeDev (o : Obj) (s : Sch) : List (List String × Dev) :=
  match s.type with
  | none => []
  | some t => if t ≠ "" ∧ typeStr o ≠ t then [([], .type (typeStr o) t)] else []

/-- the names missing in the object (274-276): each overwrites the one before -/
def lastMissing (names : List String) : List String → Option String
  | [] => none
  | k :: ks => match lastMissing names ks with
    | some m => some m
    | none => if names.contains k then none else some k

mutual
/-- `apply_schema` (254-279); `none`: an array with contents has no `keys` -/
def apply : Obj → Sch → Option (List (List String × Dev))
  | .other _, _ => some []
  | .array i c dt, s => if s.contents.isEmpty then some (typeDev (.array i c dt) s) else none
  | .struct i c items, s =>
    if s.contents.isEmpty then some (typeDev (.struct i c items) s)
    else match applyItems items s.contents with
      | none => none
      | some (r, extra) => some (typeDev (.struct i c items) s ++ r ++ (extra.toList.map fun k => ([], .extra k)) ++
          ((lastMissing items.names s.contents.names).toList.map fun k => ([], .missing k)))
/-- the loop over the elements (267-273): what is found below, and the last extra name -/
def applyItems : Items → Fields → Option (List (List String × Dev) × Option String)
  | .nil, _ => some ([], none)
  | .cons k o rest, f =>
    match f.get k with
    | none => (applyItems rest f).map fun r => (r.1, r.2.or (some k))
    | some s' =>
      if s'.given then
        match apply o s' with
        | none => none
        | some l => (applyItems rest f).map fun r => (l.map (fun e => (k :: e.1, e.2)) ++ r.1, r.2)
      else (applyItems rest f).map fun r => (r.1, r.2.or (some k))
end

/-- `NO_DESCRIPTION` -/
def noDescription : String := "<no description>"

/-- what is written as the description of an object (259) -/
def descrOf (s : Sch) : String := s.descr.getD noDescription

mutual
/-- the descriptions `apply_schema` writes (255-272), one after the other -/
def writes : Obj → Sch → List (Nat × String)
  | .other _, _ => []
  | .array i _ _, s => [(i, descrOf s)]
  | .struct i _ items, s => (i, descrOf s) :: writesItems items s.contents
def writesItems : Items → Fields → List (Nat × String)
  | .nil, _ => []
  | .cons k o rest, f =>
    match f.get k with
    | none => writesItems rest f
    | some s' => if s'.given then writes o s' ++ writesItems rest f else writesItems rest f
end

/-- the description of an object afterwards (`info`, 326-329): the last that was written -/
def described (ws : List (Nat × String)) (i : Nat) : Option String := (ws.reverse.find? fun w => w.1 = i).map Prod.snd
end Verif.Schema
