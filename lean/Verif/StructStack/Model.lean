import Verif.StructStack.Spec
import Verif.Items.Model
/-!
# Model of stacking Structs: `Struct.hstack` / `concat_structs` (`rt_struct.py:1534-1578`, `_hstack_struct` of `rt_hstack.py:273-385`)

`stackT` is what `hstack` does with objects of one riptable class (`Categorical.hstack`, `Dataset.hstack`, `Struct.hstack`, ...); class names differ
from `Array`. `hstack` of plain arrays is numpy's: it joins arrays of one dimension, and puts arrays of two dimensions side by side. Warnings are
left out.
-/
namespace Verif.StructStack
open Verif.Items (Dict)

inductive Err where
  | type
  | value
deriving DecidableEq, Repr

variable {V T : Type}

/-- `np.isscalar(item)`: made an array (`:318-319`; `FastArray` of a single value has one element, `rt_fastarray.py:801-806`). -/
def asItem : Item V T → Item V T
  | .scalar x => .arr1 [x]
  | i => i

/-- `dname` (`:321-330`). -/
def kindOf : Item V T → Option String
  | .typed cls _ => some cls
  | .other => none
  | _ => some "Array"

abbrev Groups (V T : Type) := Dict String (Dict String (List (Item V T)))

/-- `alldicts[dname][key].append(item)` (`:343-347`). -/
def addItem (g : Groups V T) (cls key : String) (i : Item V T) : Groups V T :=
  Dict.set g cls (Dict.set ((Dict.get g cls).getD []) key (((Dict.get ((Dict.get g cls).getD []) key).getD []) ++ [i]))

/-- The loop over the items of all Structs (`:306-347`). -/
def collect : Groups V T → List (String × Item V T) → Except Err (Groups V T)
  | g, [] => .ok g
  | g, (k, i) :: r =>
    match kindOf (asItem i) with
    | none => .error .type
    | some cls => collect (addItem g cls k (asItem i)) r

/-- `all_keys.setdefault` (`:309`). -/
def addKey (ks : List String) (k : String) : List String := if k ∈ ks then ks else ks ++ [k]

def dimOf : Item V T → Nat
  | .arr2 .. => 2
  | _ => 1

def rowsOf : Item V T → Nat × List (List V)
  | .arr2 n r => (n, r)
  | _ => (0, [])

def valuesOf : Item V T → List V
  | .arr1 v => v
  | _ => []

/-- `np.vstack` on arrays of two dimensions: the numbers of columns agree. -/
def vstack (l : List (Item V T)) : Option (Item V T) :=
  match l with
  | [] => none
  | i :: r => if r.all (fun (j : Item V T) => (rowsOf j).1 == (rowsOf i).1) then some (.arr2 (rowsOf i).1 ((l.map fun (j : Item V T) => (rowsOf j).2).flatten)) else none

/-- `np.hstack` on arrays of two dimensions: side by side, the numbers of rows agree. -/
def sideBySide (l : List (Item V T)) : Option (Item V T) :=
  match l with
  | [] => none
  | i :: r =>
    if r.all (fun (j : Item V T) => (rowsOf j).2.length == (rowsOf i).2.length) then
      some (.arr2 ((l.map fun (j : Item V T) => (rowsOf j).1).sum)
        (r.foldl (fun (acc : List (List V)) (j : Item V T) => List.zipWith (· ++ ·) acc (rowsOf j).2) (rowsOf i).2))
    else none

/-- The first pass over `alldicts['Array']` (`:353-371`), one name: check the dimensions and stack. -/
def stackArrays (l : List (Item V T)) : Except Err (Item V T) :=
  if l.all (fun (i : Item V T) => dimOf i == 1) then .ok (.arr1 (l.map valuesOf).flatten)
  else if l.all (fun (i : Item V T) => dimOf i == 2) then
    match vstack l with
    | some i => .ok i
    | none => .error .type
  else .error .value

def contentOf : Item V T → Option T
  | .typed _ x => some x
  | _ => none

/-- `hstack` (`rt_numpy.py:5614-5656`) of the items of one class. -/
def hstack (stackT : String → List T → Option T) (cls : String) (l : List (Item V T)) : Except Err (Item V T) :=
  if cls = "Array" then
    if l.all (fun (i : Item V T) => dimOf i == 1) then .ok (.arr1 (l.map valuesOf).flatten)
    else
      match sideBySide l with
      | some i => .ok i
      | none => .error .value
  else
    match stackT cls (l.filterMap contentOf) with
    | some y => .ok (.typed cls y)
    | none => .error .value

/-- One pass: `final_dict[name] = f(items)` for all names. -/
def pass (f : List (Item V T) → Except Err (Item V T)) : Dict String (Item V T) → Dict String (List (Item V T)) → Except Err (Dict String (Item V T))
  | fin, [] => .ok fin
  | fin, (k, l) :: r =>
    match f l with
    | .error e => .error e
    | .ok i => pass f (Dict.set fin k i) r

/-- The second pass over all classes, `Array` included (`:373-378`). -/
def passes (stackT : String → List T → Option T) : Dict String (Item V T) → Groups V T → Except Err (Dict String (Item V T))
  | fin, [] => .ok fin
  | fin, (cls, d) :: r =>
    match pass (hstack stackT cls) fin d with
    | .error e => .error e
    | .ok fin => passes stackT fin r

def frontBody (t acc : Dict String (Item V T)) (cn : String) : Dict String (Item V T) :=
  match Dict.get t cn with
  | some v => Dict.set acc cn v
  | none => acc

/-- `col_move_to_front` (`rt_itemcontainer.py:443-488`). -/
def moveFront (t : Dict String (Item V T)) (names : List String) : Except Err (Dict String (Item V T)) :=
  if names.length > t.length then .error .value
  else .ok (t.foldl (fun (acc : Dict String (Item V T)) (e : String × Item V T) => if Dict.has acc e.1 then acc else Dict.set acc e.1 e.2)
    (names.foldl (frontBody t) []))

/-- `hstack_any` on Structs (`rt_hstack.py:233-236`) and `_hstack_struct` (`:273-385`). -/
def stack (stackT : String → List T → Option T) (structs : List (Fields V T)) : Except Err (Fields V T) :=
  match structs with
  | [] => .error .value
  | [s] => .ok s
  | s :: rest =>
    match collect [] (s :: rest).flatten with
    | .error e => .error e
    | .ok g =>
      match pass stackArrays [] ((Dict.get g "Array").getD []) with
      | .error e => .error e
      | .ok fin =>
        match passes stackT fin g with
        | .error e => .error e
        | .ok fin => moveFront fin (((s :: rest).flatten.map Prod.fst).foldl addKey (s.map Prod.fst))

end Verif.StructStack
