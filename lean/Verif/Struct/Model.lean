import Verif.Items.Model
import Mathlib.Data.List.Sort
import Mathlib.Data.List.Dedup

/-!
# Model of the column operations of `riptable/rt_struct.py`

On top of the item container.  A state carries the container, the separately kept
column count `_ncols`, the lock and the list of columns the rows are sorted by.  An
operation may raise after changing the state, so it returns the new state and an
optional exception.

Column values are opaque and never `None`; checks that depend on the kind of value
(`_check_addtype`) are not modelled.
-/
namespace Verif.Struct
open Verif.Items

/-- What the class contributes to name lookup: callable attributes, other attributes
(`shape`, `doc`, …), Python keywords. -/
structure Cls where
  method : Name → Bool
  prop : Name → Bool
  keyword : Name → Bool

/-- an attribute of the class -/
def Cls.attr (cls : Cls) (n : Name) : Bool := cls.method n || cls.prop n

structure St (V : Type) where
  heap : Heap
  items : Container V
  /-- `_ncols` -/
  ncols : Int
  locked : Bool
  /-- `_col_sortlist` -/
  sortlist : Option (List Name)

/-- result of a call: the state afterwards and the exception, if one was raised -/
abbrev Res (V : Type) := St V × Option String

section
variable {V : Type}

/-- a new empty `Struct` -/
def init : St V := ⟨[], [], 0, false, none⟩

/-- `name.startswith("_")` -/
def underscore (n : Name) : Bool := n.head? == some '_'

/-- `rt_struct.py:215-269` `is_valid_colname` and `:272-304` `get_restricted_names`,
with the default settings `AllNames = False`, `AllowAnyName = True` -/
def validName (cls : Cls) (n : Name) : Bool :=
  !n.isEmpty && !underscore n && !(cls.keyword n || cls.attr n)

/-- `str.capitalize`, for ASCII -/
def capitalize : Name → Name
  | [] => []
  | ch :: s => ch.toUpper :: s.map Char.toLower

/-- `:473-479` `_update_sort` -/
def updateSort (s : St V) (n : Name) : St V :=
  match s.sortlist with
  | none => s
  | some l => if n ∈ l then { s with sortlist := none } else s

/-- the name under which `col_set_value` stores (`:2621-2637`) -/
def storedName (cls : Cls) (n : Name) : Name :=
  if !validName cls n && (n.head?.map Char.isLower).getD false then capitalize n else n

/-- `:2605-2652` `col_set_value`.  An invalid name in lower case is capitalised, with a
warning (the code sets the value twice under the new name, once by the recursive
call, which is the same as once). -/
def colSetValue (cls : Cls) (s : St V) (n : Name) (v : V) : Res V :=
  if n.isEmpty then (s, some "IndexError")
  else
    let n' := storedName cls n
    (updateSort { s with items := itemSetValue s.items n' v } n', none)

/-- `:437-446` `_replaceitem` -/
def replaceItem (cls : Cls) (s : St V) (n : Name) (v : V) : Res V := colSetValue cls (updateSort s n) n v

/-- `:449-454` `_addnewitem` -/
def addNewItem (cls : Cls) (s : St V) (n : Name) (v : V) : Res V :=
  match colSetValue cls s n v with
  | (s', none) => ({ s' with ncols := s'.ncols + 1 }, none)
  | r => r

/-- `:520-563` `__setattr__`.  Names with a leading underscore are plain object
attributes (the model has no operation that assigns `_ncols` and the like). -/
def setAttr (cls : Cls) (s : St V) (n : Name) (v : V) : Res V :=
  if underscore n then (s, none)
  else if s.locked then (s, some "AttributeError: locked")
  else if s.items.has n then replaceItem cls s n v
  else if cls.method n then (s, none)
  else if !cls.prop n then addNewItem cls s n v
  else replaceItem cls s n v

/-- `:457-470` `_deleteitem` (`_nrows` is not modelled) -/
def deleteItem (s : St V) (n : Name) : Res V :=
  if s.items.has n then
    (updateSort { s with items := s.items.del n, ncols := s.ncols - 1 } n, none)
  else (s, some "IndexError: unknown column")

/-- `:507-513` `__delattr__` -/
def delAttr (s : St V) (n : Name) : Res V :=
  if s.locked then (s, some "AttributeError: locked") else deleteItem s n

/-- loop body, `:3638-3639` -/
def removeItems : St V → List Name → Res V
  | s, [] => (s, none)
  | s, n :: l =>
    match deleteItem s n with
    | (s', none) => removeItems s' l
    | r => r

/-- `:3512-3639` `col_remove(items)` for a list of names, with `on_missing` "raise" or
not; `_aggregate_column_matches` (`:2785-2806`) drops missing and repeated names -/
def colRemove (s : St V) (l : List Name) (raiseMissing : Bool) : Res V :=
  if s.locked then (s, some "AttributeError: locked")
  else if raiseMissing && l.any (fun n => !s.items.has n) then (s, some "IndexError: unknown column")
  else removeItems s ((l.filter fun n => s.items.has n).reverse.dedup.reverse)

/-- `:3421-3498` `col_rename` -/
def colRename (cls : Cls) (s : St V) (o n : Name) : Res V :=
  if o = n then (s, none)
  else if s.locked then (s, some "AttributeError: locked")
  else if !validName cls n then (s, some "ValueError: invalid name")
  else match itemRename s.items o n with
    | .error e => (s, some e)
    | .ok c =>
      ({ s with items := c, sortlist := s.sortlist.map fun l => l.map fun k => if k = o then n else k }, none)

/-- `:3158-3198` `col_move_to_front` -/
def colMoveToFront (s : St V) (l : List Name) : Res V :=
  if s.locked then (s, some "AttributeError: locked")
  else match itemMoveToFront s.items l with
    | .error e => (s, some e)
    | .ok c => ({ s with items := c }, none)

/-- `:3201-3242` `col_move_to_back` -/
def colMoveToBack (s : St V) (l : List Name) : Res V :=
  if s.locked then (s, some "AttributeError: locked")
  else match itemMoveToBack s.items l with
    | .error e => (s, some e)
    | .ok c => ({ s with items := c }, none)

/-- `:3341-3378` `col_add_prefix` -/
def colAddPrefix (s : St V) (p : Name) : Res V :=
  ({ s with items := itemAddPrefix s.items p, sortlist := s.sortlist.map fun l => l.map (p ++ ·) }, none)

/-- `:3381-3418` `col_add_suffix` -/
def colAddSuffix (s : St V) (p : Name) : Res V :=
  ({ s with items := itemAddSuffix s.items p, sortlist := s.sortlist.map fun l => l.map (· ++ p) }, none)

/-- The loop `for i, name in self._col_sortlist` of `:3792-3795`, which unpacks the
*names*: it raises unless every name has two characters, and raises when the second
character changes under the replacement. -/
def unpackLoop (r : Name → Name) : List Name → Option String
  | [] => none
  | [_, b] :: l => if r [b] ≠ [b] then some "TypeError" else unpackLoop r l
  | _ :: _ => some "ValueError: unpack"

/-- `:3732-3795` `col_str_replace` -/
def colStrReplace (s : St V) (r : Name → Name) : Res V :=
  match itemStrReplace s.items r with
  | .error e => (s, some e)
  | .ok c =>
    let s' := { s with items := c }
    let replaced := s.items.keys.any fun k => decide (r k ≠ k)
    match s.sortlist with
    | some l => if replaced then (s', unpackLoop r l) else (s', none)
    | none => (s', none)

/-! ## Swaps and simultaneous renames -/

/-- `getattr(self, k)` for a column; for a class attribute of that name the code would
get the attribute, here an error -/
def getAttr (cls : Cls) (s : St V) (k : Name) : Except String V :=
  if cls.attr k then .error "class attribute"
  else match s.items.get k with
    | some it => .ok it.val
    | none => .error "AttributeError"

/-- loop body of `:3129-3130` -/
def swapAssign (cls : Cls) (temp : Dict Name V) : St V → List (Name × Name) → Res V
  | s, [] => (s, none)
  | s, (k1, k2) :: l =>
    match temp.get k2 with
    | none => (s, some "KeyError")
    | some v =>
      match setAttr cls s k1 v with
      | (s', none) => swapAssign cls temp s' l
      | r => r

/-- `:3084-3130` `col_swap` for two lists.  (The first two tests of the code only
apply to non-lists.) -/
def colSwap (cls : Cls) (s : St V) (frm tgt : List Name) : Res V :=
  if s.locked then (s, some "AttributeError: locked")
  else if frm = tgt then (s, none)
  else if ¬ (frm.length = tgt.length ∧ tgt.length = frm.dedup.length ∧ (∀ k ∈ frm, k ∈ tgt) ∧ ∀ k ∈ tgt, k ∈ frm) then
    (s, some "ValueError: not a permutation")
  else match frm.mapM (fun k => (getAttr cls s k).map fun v => (k, v)) with
    | .error e => (s, some e)
    | .ok temp => swapAssign cls temp s (tgt.zip frm)

/-- `:3328-3338` `_get_seq`: follow the renames from `frm`.  `fuel` bounds the loop; the
dictionary grows in each round, so `d.length + 1` rounds are enough. -/
def getSeq (d : Dict Name Name) (protected_ : List Name) : Nat → Dict Name Name → Name →
    Except String (Dict Name Name × Bool)
  | 0, _, _ => .error "out of fuel"
  | fuel + 1, seqd, frm =>
    if seqd.has frm then .ok (seqd, true)
    else match d.get frm with
      | none => .error "KeyError"
      | some t =>
        let seqd := seqd ++ [(frm, t)]
        if t ∉ protected_ then .ok (seqd, false) else getSeq d protected_ fuel seqd t

/-- state of the first loop of `_safe_reordering_of_renames` -/
structure Plan where
  seen : List Name
  swaps : List (List Name × List Name)
  transitions : List (Dict Name Name)

/-- loop body, `:3304-3315` -/
def planBody (d : Dict Name Name) (protected_ : List Name) (p : Plan) (e : Name × Name) : Except String Plan :=
  if e.1 ∈ p.seen then .ok p
  else if e.1 ∉ protected_ then .ok { p with seen := p.seen ++ [e.1] }
  else match getSeq d protected_ (d.length + 1) [] e.1 with
    | .error m => .error m
    | .ok (seqd, true) =>
      .ok { p with swaps := p.swaps ++ [(seqd.keys, seqd.map Prod.snd)], seen := p.seen ++ seqd.keys }
    | .ok (seqd, false) => .ok { p with transitions := p.transitions ++ [seqd] }

/-- `list.sort(key=len, reverse=True)`, stable -/
def sortByLength (l : List (Dict Name Name)) : List (Dict Name Name) :=
  l.insertionSort fun a b => a.length ≥ b.length

/-- loop body, `:3317-3323` -/
def transBody (acc : List Name × Dict Name Name) (t : Dict Name Name) : List Name × Dict Name Name :=
  if t.keys.any (fun k => k ∈ acc.1) then acc
  else (acc.1 ++ t.keys.reverse, acc.2 ++ t.reverse)

/-- `:3296-3326` `_safe_reordering_of_renames` -/
def safeReordering (d : Dict Name Name) (protected_ : List Name) :
    Except String (Dict Name Name × List (List Name × List Name)) :=
  match d.foldlM (planBody d protected_) ⟨[], [], []⟩ with
  | .error e => .error e
  | .ok p =>
    let r := (sortByLength p.transitions).foldl transBody (p.seen, [])
    if r.1.dedup.length ≠ d.length then .error "ValueError: extant column names" else .ok (r.2, p.swaps)

/-- loop `:3288-3289` -/
def renameAll (cls : Cls) : St V → Dict Name Name → Res V
  | s, [] => (s, none)
  | s, (o, n) :: l =>
    match colRename cls s o n with
    | (s', none) => renameAll cls s' l
    | r => r

/-- loop `:3290-3291` -/
def swapAll (cls : Cls) : St V → List (List Name × List Name) → Res V
  | s, [] => (s, none)
  | s, (a, b) :: l =>
    match colSwap cls s a b with
    | (s', none) => swapAll cls s' l
    | r => r

/-- `:3245-3293` `col_map` for a dictionary -/
def colMap (cls : Cls) (s : St V) (d : Dict Name Name) : Res V :=
  if s.locked then (s, some "AttributeError: locked")
  else if (d.map Prod.snd).dedup.length < d.keys.dedup.length then (s, some "ValueError: multiple")
  else
    match (if (d.map Prod.snd).any (fun n => s.items.has n) then safeReordering d s.items.keys else .ok (d, [])) with
    | .error e => (s, some e)
    | .ok (renames, swaps) =>
      match renameAll cls s renames with
      | (s', none) => swapAll cls s' swaps
      | r => r

/-! ## All operations -/

inductive Op (V : Type) where
  | setAttr (n : Name) (v : V)
  | delAttr (n : Name)
  | colSetValue (n : Name) (v : V)
  | colRemove (l : List Name) (raiseMissing : Bool)
  | colRename (o n : Name)
  | moveFront (l : List Name)
  | moveBack (l : List Name)
  | addPrefix (p : Name)
  | addSuffix (p : Name)
  | strReplace (r : Name → Name)
  | colSwap (frm tgt : List Name)
  | colMap (d : Dict Name Name)
  | setTagged (tag : Name) (l : List Name)
  | removeTagged (tag : Name)
  | setColAttr (k a : Name) (v : Nat)
  | sortView (l : List Name)
  | lock
  | unlock

/-- one call.  Labels: `rt_struct.py:2938-2956`, `:3063-3081`; attributes `:2681-2700`;
`sort_view`: `rt_dataset.py:4035-4136` (unknown columns raise); lock `:496-504`. -/
def step (cls : Cls) (s : St V) : Op V → Res V
  | .setAttr n v => setAttr cls s n v
  | .delAttr n => delAttr s n
  | .colSetValue n v => colSetValue cls s n v
  | .colRemove l m => colRemove s l m
  | .colRename o n => colRename cls s o n
  | .moveFront l => colMoveToFront s l
  | .moveBack l => colMoveToBack s l
  | .addPrefix p => colAddPrefix s p
  | .addSuffix p => colAddSuffix s p
  | .strReplace r => colStrReplace s r
  | .colSwap a b => colSwap cls s a b
  | .colMap d => colMap cls s d
  | .setTagged t l => let r := taggedSetNames (s.heap, s.items) l t; ({ s with heap := r.1, items := r.2 }, none)
  | .removeTagged t => ({ s with heap := taggedRemove s.heap s.items t }, none)
  | .setColAttr k a v =>
    match itemSetAttribute (s.heap, s.items) k a v with
    | .ok r => ({ s with heap := r.1, items := r.2 }, none)
    | .error e => (s, some e)
  | .sortView l =>
    if l.all (fun n => s.items.has n) then ({ s with sortlist := some l }, none) else (s, some "ValueError: sort key")
  | .lock => ({ s with locked := true }, none)
  | .unlock => ({ s with locked := false }, none)

/-- state after a history -/
def run (cls : Cls) (s : St V) (ops : List (Op V)) : St V := ops.foldl (fun s op => (step cls s op).1) s

end
end Verif.Struct
