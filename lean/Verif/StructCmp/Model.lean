/-!
# Model of comparing Structs (`rt_struct.py:873-934`, `__bool__` and `all` at `rt_struct.py:3981-4062`)

The values of a Struct are Python ints and floats (floats with integer values only), texts, `None`, arrays of integers, and Structs.
Each field list carries the attributes of the class beside the keys (`hasattr`/`getattr` see both). What an array says to a value it
has no comparison for (text, `None`, a Struct, an array of another length) is numpy's and a parameter `other`.
-/
namespace Verif.StructCmp

mutual
/-- A value stored in a Struct. `struct fields attrs`: `attrs` are the non-item attributes that `getattr` finds. -/
inductive Val where
  | int (n : Int)
  | flt (n : Int)
  | text (s : String)
  | none
  | arr (xs : List Int)
  | struct (fields attrs : Fields)
/-- Keys with values, in order. -/
inductive Fields where
  | nil
  | cons (key : String) (v : Val) (rest : Fields)
end

/-- The keys in order (`Struct.__iter__`, `rt_struct.py:959-960`). -/
def Fields.keys : Fields → List String
  | .nil => []
  | .cons k _ rest => k :: rest.keys

/-- The value at a key. -/
def Fields.get : Fields → String → Option Val
  | .nil, _ => Option.none
  | .cons k v rest, name => if k = name then some v else rest.get name

/-- `hasattr(lhs, name)` and `getattr(lhs, name)` (`rt_struct.py:566-580`, `:888-890`). Names of attributes of the own class are not
valid keys (`rt_struct.py:215-304`), so the order of the two does not matter. -/
def attr (fields attrs : Fields) (name : String) : Option Val :=
  match fields.get name with
  | some v => some v
  | Option.none => attrs.get name

/-- The comparisons. -/
inductive Op where
  | eq | ne | lt | le | gt | ge
deriving DecidableEq, Repr

/-- A comparison from "less" and "equal". -/
def Op.on : Op → Bool → Bool → Bool
  | .eq, _, e => e
  | .ne, _, e => !e
  | .lt, l, _ => l
  | .le, l, e => l || e
  | .gt, l, e => !(l || e)
  | .ge, l, _ => !l

/-- A comparison of two numbers. -/
def Op.num (op : Op) (a b : Int) : Bool := op.on (decide (a < b)) (decide (a = b))

/-- What a comparison method returns. -/
inductive Res where
  | bool (b : Bool)
  | arr (bs : List Bool)
  | flags (fs : List (String × Bool))
  | notImplemented
  | raises
deriving DecidableEq, Repr

/-- How a comparison of Structs fails. -/
inductive Err where
  | notImplemented
  | raised
deriving DecidableEq, Repr

/-- `bool(res)`, or `res.all()` where that fails (`rt_struct.py:893-904`): an empty array is False (numpy before 2.2), an array of one
element is that element, a longer one and a Struct cannot be cast. -/
def truth : Res → Except Err Bool
  | .bool b => .ok b
  | .arr [] => .ok false
  | .arr [b] => .ok b
  | .arr bs => .ok (bs.all id)
  | .flags fs => .ok (fs.all fun p => p.2)
  | .notImplemented => .error .notImplemented
  | .raises => .error .raised

/-- Keys of the other Struct that are not in the result yet, all False (`rt_struct.py:908-910`). -/
def missing (keys : List String) (rest : List String) : List (String × Bool) :=
  (rest.filter fun k => !keys.contains k).map fun k => (k, false)

mutual
/-- `getattr(self_val, func_name)(lhs_val)` (`rt_struct.py:891-892`). -/
def cmpVal (other : Op → Val → Val → Res) (op : Op) : Val → Val → Res
  | .int a, w => match w with
    | .int b => .bool (op.num a b)
    | _ => .notImplemented
  | .flt a, w => match w with
    | .int b => .bool (op.num a b)
    | .flt b => .bool (op.num a b)
    | _ => .notImplemented
  | .text s, w => match w with
    | .text t => .bool (op.on (decide (s < t)) (decide (s = t)))
    | _ => .notImplemented
  | .none, w => match w, op with
    | .none, .eq => .bool true
    | .none, .ne => .bool false
    | _, _ => .notImplemented
  | .arr xs, w => match w with
    | .int b => .arr (xs.map fun x => op.num x b)
    | .flt b => .arr (xs.map fun x => op.num x b)
    | .arr ys =>
      if xs.length = ys.length then .arr (List.zipWith op.num xs ys)
      else match xs, ys with
        | [x], ys => .arr (ys.map fun y => op.num x y)
        | xs, [y] => .arr (xs.map fun x => op.num x y)
        | xs, ys => other op (.arr xs) (.arr ys)
    | w => other op (.arr xs) w
  | .struct fs _, w => match w with
    | .struct gs gas =>
      match cmpFields other op fs gs gas with
      | .ok flags => .flags (flags ++ missing (flags.map fun p => p.1) gs.keys)
      | .error .notImplemented => .raises
      | .error .raised => .raises
    | _ => .raises

/-- The loop over the keys of `self` (`rt_struct.py:887-907`). -/
def cmpFields (other : Op → Val → Val → Res) (op : Op) : Fields → Fields → Fields → Except Err (List (String × Bool))
  | .nil, _, _ => .ok []
  | .cons k v rest, gs, gas =>
    match attr gs gas k with
    | Option.none =>
      match cmpFields other op rest gs gas with
      | .ok flags => .ok ((k, false) :: flags)
      | .error e => .error e
    | some w =>
      match truth (cmpVal other op v w) with
      | .error e => .error e
      | .ok b =>
        match cmpFields other op rest gs gas with
        | .ok flags => .ok ((k, b) :: flags)
        | .error e => .error e
end

/-- `_struct_compare_check` (`rt_struct.py:873-913`) for two Structs: the flags by key. -/
def compare (other : Op → Val → Val → Res) (op : Op) (fs gs gas : Fields) : Except Err (List (String × Bool)) :=
  match cmpFields other op fs gs gas with
  | .ok flags => .ok (flags ++ missing (flags.map fun p => p.1) gs.keys)
  | .error e => .error e

end Verif.StructCmp
