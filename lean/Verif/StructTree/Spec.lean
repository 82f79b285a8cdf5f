/-! # Nested Structs: values and what is expected (C311 - C313) -/
namespace Verif.StructTree

mutual
/-- an item: a Struct or Dataset, an array of texts, a Categorical (its key columns and codes, from 1), or anything else -/
inductive Val where
  | struct (f : Fields)
  | dataset (f : Fields)
  | text (l : List String)
  | cat (keys : List (List String)) (codes : List Nat)
  | other (n : Nat)
inductive Fields where
  | nil
  | cons (k : String) (v : Val) (r : Fields)
end

/-- item `v` under key `k` -/
inductive Has : Fields → String → Val → Prop
  | here (k : String) (v : Val) (r : Fields) : Has (.cons k v r) k v
  | later (k k' : String) (v v' : Val) (r : Fields) : Has r k v → Has (.cons k' v' r) k v

/-- the keys to a nested item: Structs may hold Structs and Datasets, which hold items -/
inductive HasPath : Fields → List String → Prop
  | last (f : Fields) (k : String) (v : Val) : Has f k v → HasPath f [k]
  | struct (f g : Fields) (k : String) (p : List String) : Has f k (.struct g) → HasPath g p → HasPath f (k :: p)
  | dataset (f g : Fields) (k k' : String) (v : Val) : Has f k (.dataset g) → Has g k' v → HasPath f [k, k']

/-- item `v` at the end of a path -/
inductive ItemAt : Fields → List String → Val → Prop
  | last (f : Fields) (k : String) (v : Val) : Has f k v → ItemAt f [k] v
  | struct (f g : Fields) (k : String) (p : List String) (v : Val) : Has f k (.struct g) → ItemAt g p v → ItemAt f (k :: p) v
  | dataset (f g : Fields) (k : String) (p : List String) (v : Val) : Has f k (.dataset g) → ItemAt g p v → ItemAt f (k :: p) v

/-- a Struct or a Dataset -/
def Container (v : Val) : Prop := (∃ g, v = .struct g) ∨ ∃ g, v = .dataset g

/-- a path as it is written -/
def written (prefix_ : String) : List String → String
  | [] => prefix_
  | [k] => prefix_ ++ k
  | k :: p => written (prefix_ ++ k ++ ".") p

/-- what an item shows: a Categorical with one key column shows the texts of its codes -/
def shows : Val → Option (List (Option String))
  | .text l => some (l.map some)
  | .cat [c] codes => some (codes.map fun k => if k = 0 then none else c[k - 1]?)
  | _ => none

end Verif.StructTree
