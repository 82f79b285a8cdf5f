import Verif.StructTree.Spec
import Verif.Items.Model
/-!
# Nested Structs (C311 - C313)

`riptable/rt_struct.py`: 5328-5366 (`key_search`), 1779-1832 (`make_categoricals`), 1835-1879 (`make_struct_from_categories`) with
354-374 (`_init_from_dict`), 307-329 (`_validate_names`), 2621-2638 (names changed by `col_set_value`).

Simplifications: a search of a pattern is a predicate on texts; making a Categorical of texts is a parameter (`mk`, with the codes
from 1); containers are not locked and no container is held twice; the names that may not be used are a parameter.
-/
namespace Verif.StructTree
open Verif.Items (Dict)

def Fields.keys : Fields → List String
  | .nil => []
  | .cons k _ r => k :: r.keys

mutual
/-- 5356-5366 for the items of a Struct, in the order of the loop: the second part of the result -/
def nested (m : String → Bool) (path : String) : Fields → List String
  | .nil => []
  | .cons k v r => inVal m (path ++ k ++ ".") v ++ nested m path r
/-- the call for an item that is a Struct (5362-5365); a Dataset is not searched further (5358) -/
def inVal (m : String → Bool) (path : String) : Val → List String
  | .struct g => (g.keys.filter m).map (path ++ ·) ++ nested m path g
  | .dataset g => (g.keys.filter m).map (path ++ ·)
  | _ => []
end

/-- `key_search` (5352-5366) of a Struct -/
def keySearch (m : String → Bool) (recursive : Bool) (path : String) (f : Fields) : List String :=
  (f.keys.filter m).map (path ++ ·) ++ if recursive then nested m path f else []

/-- 5352-5355: `re ignore` is the search of the pattern, ignoring letter case or not -/
def keySearchCase (re : Bool → String → Bool) (caseSensitive recursive : Bool) (path : String) (f : Fields) : List String :=
  keySearch (if caseSensitive then re false else re true) recursive path f

/-! ## make_categoricals -/

mutual
/-- 1825-1832 for all columns -/
def convertAll (mk : List String → List String × List Nat) : Fields → Fields
  | .nil => .nil
  | .cons k v r => .cons k (convertVal mk v) (convertAll mk r)
/-- 1828-1832 -/
def convertVal (mk : List String → List String × List Nat) : Val → Val
  | .struct g => .struct (convertAll mk g)
  | .dataset g => .dataset (convertAll mk g)
  | .text l => .cat [(mk l).1] (mk l).2
  | v => v
end

/-- one column replaced in place -/
def Fields.update (f : Fields) (k : String) (g : Val → Val) : Fields :=
  match f with
  | .nil => .nil
  | .cons k' v r => if k' = k then .cons k' (g v) r else .cons k' v (r.update k g)

/-- 1825-1832 for a list of columns: the Struct afterwards, and whether all went well; `self[colname]` raises for a name that is no item -/
def convertList (mk : List String → List String × List Nat) : List String → Fields → Fields × Bool
  | [], f => (f, true)
  | c :: cs, f => if c ∈ f.keys then convertList mk cs (f.update c (convertVal mk)) else (f, false)

/-- `make_categoricals` (1808-1832); `attr` are the other attributes of the object: methods and properties (1821) -/
def makeCategoricals (mk : List String → List String × List Nat) (attr : List String) (f : Fields) :
    Option (List String) → Fields × Bool
  | none => (convertAll mk f, true)
  | some cs => if cs.all (fun c => decide (c ∈ f.keys) || decide (c ∈ attr)) then convertList mk cs f else (f, false)

/-! ## make_struct_from_categories -/

/-- `str.capitalize` -/
def capitalize (n : List Char) : List Char :=
  match n with
  | [] => []
  | c :: cs => c.toUpper :: cs.map Char.toLower

/-- 2621-2638: the name under which an item is kept; `bad` are the names that may not be used -/
def keptName (bad : List (List Char)) (n : List Char) : List Char :=
  match n with
  | [] => []
  | c :: cs => if c :: cs ∈ bad ∧ c.isLower then capitalize (c :: cs) else c :: cs

/-- 1869-1876: the Categoricals among the columns, by their new names; `category_array` of several key columns raises and the
exception is dropped (1875-1876) -/
def catsOf (plen : Nat) : List (List Char × Val) → Dict (List Char) (List String)
  | l => l.foldl (fun d e =>
      match e.2 with
      | .cat [c] _ => d.set (e.1.drop plen) c
      | _ => d) []

/-- the Struct of a dictionary (354-374): a name with underscore is refused (307-329), an empty one raises in `k[0]` (366) -/
def structOf (bad : List (List Char)) (d : Dict (List Char) (List String)) : Except String (Dict (List Char) (List String)) :=
  if d.any (fun e => ['_'].isPrefixOf e.1) then .error "ValueError: Invalid column names passed" else
  if d.any (fun e => e.1.isEmpty) then .error "IndexError: string index out of range" else
  .ok (d.foldl (fun s e => s.set (keptName bad e.1) e.2) [])

/-- `make_struct_from_categories` (1859-1879) -/
def structFromCategories (bad : List (List Char)) (cols : List (List Char × Val)) (prefix_ : Option (List Char)) (keep : Bool) :
    Except String (Dict (List Char) (List String)) :=
  match prefix_ with
  | none => structOf bad (catsOf 0 cols)
  | some p =>
    structOf bad (catsOf (if keep then 0 else p.length) (cols.filter fun e => p.isPrefixOf e.1))

end Verif.StructTree
