/-!
# Model of `riptable/rt_itemcontainer.py`

A Python `dict` is an association list in insertion order.  Names are lists of
characters.  The container maps a name to a two-element list `[value, attribute object]`;
the attribute objects are mutable and may be shared between containers, so they
live in a heap.  The two-element lists themselves are never shared between containers
(`copy` copies them, `:197`, `:200`) and are stored by value.
-/
namespace Verif.Items

/-! ## Python dictionaries -/

/-- association list in insertion order -/
abbrev Dict (κ V : Type) := List (κ × V)

namespace Dict
variable {κ V : Type} [DecidableEq κ]

/-- `d.get(k)` -/
def get (d : Dict κ V) (k : κ) : Option V := (d.find? fun e => e.1 = k).map Prod.snd
/-- `k in d` -/
def has (d : Dict κ V) (k : κ) : Bool := d.any fun e => e.1 = k
/-- `list(d.keys())` -/
def keys (d : Dict κ V) : List κ := d.map Prod.fst
/-- `d[k] = v`: keeps the position of an existing key, otherwise appends -/
def set (d : Dict κ V) (k : κ) (v : V) : Dict κ V :=
  if has d k then d.map fun e => if e.1 = k then (k, v) else e else d ++ [(k, v)]
/-- `del d[k]` for an existing key -/
def del (d : Dict κ V) (k : κ) : Dict κ V := d.filter fun e => e.1 ≠ k

end Dict

/-- a column or attribute name -/
abbrev Name := List Char

/-- `ItemAttribute`, `rt_itemcontainer.py:20-58`: attribute name to value.  Values are
natural numbers here (positions for labels; other values are opaque). -/
abbrev Attr := Dict Name Nat

/-- all attribute objects, addressed by position -/
abbrev Heap := List Attr

/-- the two-element list `[value, attribute object or None]` -/
structure Item (V : Type) where
  val : V
  attr : Option Nat
  deriving DecidableEq, Repr

/-- `ItemContainer._items` -/
abbrev Container (V : Type) := Dict Name (Item V)

section
variable {V : Type}

/-! ## Values -/

/-- `:304-309` `item_set_value` -/
def itemSetValue (c : Container V) (k : Name) (v : V) : Container V :=
  match c.get k with
  | some it => c.set k { it with val := v }
  | none => c.set k ⟨v, none⟩

/-- `:266-267` `item_delete` -/
def itemDelete (c : Container V) (k : Name) : Except String (Container V) :=
  if c.has k then .ok (c.del k) else .error "KeyError"

/-- The loop `self._items.clear(); for k, v in newdict.items(): self._items[f(k)] = v`
of `:430-438`, `:517-519`, `:530-532`, `:571-573`. -/
def rebuild (f : Name → Name) (c : Container V) : Container V :=
  c.foldl (fun acc e => acc.set (f e.1) e.2) []

/-- `:409-440` `item_rename` -/
def itemRename (c : Container V) (old new : Name) : Except String (Container V) :=
  if old = new then .ok c
  else if !c.has old then .error "ValueError: no such column"
  else if c.has new then .error "ValueError: name exists"
  else .ok (rebuild (fun k => if k = old then new else k) c)

/-! ## Order -/

/-- `:443-466` `_get_move_cols` for a list of names -/
def getMoveCols (c : Container V) (cols : List Name) : Except String (List Name) :=
  if cols.length > c.length then .error "ValueError: too many items" else .ok cols

/-- loop body, `:480-484` -/
def frontBody (c acc : Container V) (cn : Name) : Container V :=
  match c.get cn with
  | some it => acc.set cn it
  | none => acc

/-- loop body, `:502-506` -/
def backBody (acc : Container V) (cn : Name) : Container V :=
  match acc.get cn with
  | some it => (acc.del cn).set cn it
  | none => acc

/-- `:469-488` `item_move_to_front`; warnings are not modelled -/
def itemMoveToFront (c : Container V) (cols : List Name) : Except String (Container V) :=
  match getMoveCols c cols with
  | .error e => .error e
  | .ok cols =>
    let fr := cols.foldl (frontBody c) []
    .ok (c.foldl (fun acc e => if acc.has e.1 then acc else acc.set e.1 e.2) fr)

/-- `:491-506` `item_move_to_back` -/
def itemMoveToBack (c : Container V) (cols : List Name) : Except String (Container V) :=
  match getMoveCols c cols with
  | .error e => .error e
  | .ok cols => .ok (cols.foldl backBody c)

/-! ## Bulk renames -/

/-- `:509-519` `item_add_prefix` -/
def itemAddPrefix (c : Container V) (p : Name) : Container V := rebuild (fun k => p ++ k) c
/-- `:522-532` `item_add_suffix` -/
def itemAddSuffix (c : Container V) (p : Name) : Container V := rebuild (fun k => k ++ p) c

/-- `:547-576` `item_str_replace`; `r` is `fun item => item.replace(old, new, maxr)`.
Only names that change are compared with the existing names. -/
def itemStrReplace (c : Container V) (r : Name → Name) : Except String (Container V) :=
  if c.keys.any fun k => decide (r k ≠ k) && c.has (r k) then .error "ValueError: item existed"
  else if c.keys.any fun k => decide (r k ≠ k) then .ok (rebuild r c)
  else .ok c

/-- Python's `s.replace(old, new)` for non-empty `old`; the fuel is `s.length + 1`. -/
def pyReplaceGo (old new : Name) : Nat → Name → Name
  | 0, s => s
  | _ + 1, [] => []
  | fuel + 1, ch :: s =>
    if old.isPrefixOf (ch :: s) then new ++ pyReplaceGo old new fuel ((ch :: s).drop old.length)
    else ch :: pyReplaceGo old new fuel s

/-- `str.replace` -/
def pyReplace (old new s : Name) : Name := pyReplaceGo old new (s.length + 1) s

/-! ## Attributes -/

/-- the attribute object of a column -/
def attrOf (h : Heap) (it : Item V) : Option Attr := it.attr.bind fun a => h[a]?

/-- `:316-333` `item_get_attribute` with default `None` -/
def itemGetAttribute (h : Heap) (c : Container V) (k a : Name) : Option Nat :=
  (c.get k).bind fun it => (attrOf h it).bind fun at' => at'.get a

/-- `:336-341` `_set_attribute` applied to the item of column `k` -/
def setAttribute (s : Heap × Container V) (k : Name) (it : Item V) (a : Name) (v : Nat) : Heap × Container V :=
  match it.attr with
  | none => (s.1 ++ [[(a, v)]], s.2.set k { it with attr := some s.1.length })
  | some p => (s.1.modify p (fun o => o.set a v), s.2.set k it)

/-- `:344-366` `item_set_attribute` -/
def itemSetAttribute (s : Heap × Container V) (k a : Name) (v : Nat) : Except String (Heap × Container V) :=
  match s.2.get k with
  | some it => .ok (setAttribute s k it a v)
  | none => .error "KeyError"

/-! ## Tagged columns: labels and summaries -/

/-- `ATTRIBUTE_LABEL`, `:13` -/
def tagLabel : Name := "Label".toList
/-- `ATTRIBUTE_SUMMARY`, `:14` -/
def tagSummary : Name := "Right".toList

/-- loop body, `:643-647` -/
def removeBody (tag : Name) (h : Heap) (e : Name × Item V) : Heap :=
  match e.2.attr with
  | none => h
  | some p => h.modify p (fun o => o.del tag)

/-- `:639-647` `_tagged_remove`: deletes the tag from every attribute object -/
def taggedRemove (h : Heap) (c : Container V) (tag : Name) : Heap :=
  c.foldl (removeBody tag) h

/-- loop body, `:635-637` -/
def tagBody (tag : Name) (s : Heap × Container V) (e : Name × Nat) : Heap × Container V :=
  match s.2.get e.1 with
  | some it => setAttribute s e.1 it tag e.2
  | none => s

/-- `:627-637` `_tagged_set_names` -/
def taggedSetNames (s : Heap × Container V) (names : List Name) (tag : Name) : Heap × Container V :=
  names.zipIdx.foldl (tagBody tag) (taggedRemove s.1 s.2 tag, s.2)

/-- loop body, `:670-677` -/
def maxBody (h : Heap) (tag : Name) (acc : Int × Dict Nat Name) (e : Name × Item V) : Int × Dict Nat Name :=
  match (attrOf h e.2).bind fun o => o.get tag with
  | some v => (if (v : Int) > acc.1 then (v : Int) else acc.1, acc.2.set v e.1)
  | none => acc

/-- `:664-678` `_tagged_get_dict_max` -/
def taggedGetDictMax (h : Heap) (c : Container V) (tag : Name) : Int × Dict Nat Name :=
  c.foldl (maxBody h tag) (-1, [])

/-- `:615-625` `_tagged_get_names` -/
def taggedGetNames (h : Heap) (c : Container V) (tag : Name) : List Name :=
  let (mx, d) := taggedGetDictMax h c tag
  if mx ≥ 0 then (List.range (mx + 1).toNat).filterMap d.get else []

/-- `:649-662` `_tagged_as_dict`; `None` when empty -/
def taggedAsDict (h : Heap) (c : Container V) (tag : Name) : Option (Dict Name V) :=
  let d := (taggedGetNames h c tag).foldl (fun (acc : Dict Name V) n =>
    match c.get n with
    | some it => acc.set n it.val
    | none => acc) []
  if d.length > 0 then some d else none

/-! ## Operation histories -/

/-- the operations on one container -/
inductive Op (V : Type) where
  | setValue (k : Name) (v : V)
  | delete (k : Name)
  | rename (old new : Name)
  | moveFront (cols : List Name)
  | moveBack (cols : List Name)
  | addPrefix (p : Name)
  | addSuffix (p : Name)
  | strReplace (r : Name → Name)
  | setAttr (k a : Name) (v : Nat)
  | setTagged (tag : Name) (names : List Name)
  | removeTagged (tag : Name)

/-- one operation; an exception leaves the state unchanged -/
def step (s : Heap × Container V) : Op V → Except String (Heap × Container V)
  | .setValue k v => .ok (s.1, itemSetValue s.2 k v)
  | .delete k => (itemDelete s.2 k).map (s.1, ·)
  | .rename o n => (itemRename s.2 o n).map (s.1, ·)
  | .moveFront cols => (itemMoveToFront s.2 cols).map (s.1, ·)
  | .moveBack cols => (itemMoveToBack s.2 cols).map (s.1, ·)
  | .addPrefix p => .ok (s.1, itemAddPrefix s.2 p)
  | .addSuffix p => .ok (s.1, itemAddSuffix s.2 p)
  | .strReplace r => (itemStrReplace s.2 r).map (s.1, ·)
  | .setAttr k a v => itemSetAttribute s k a v
  | .setTagged tag names => .ok (taggedSetNames s names tag)
  | .removeTagged tag => .ok (taggedRemove s.1 s.2 tag, s.2)

/-- state after the operation, whether or not it raised -/
def exec (s : Heap × Container V) (op : Op V) : Heap × Container V :=
  match step s op with
  | .ok s' => s'
  | .error _ => s

/-! ## Copies -/

/-- loop body, `:199-200` -/
def copyBody (c acc : Container V) (k : Name) : Except String (Container V) :=
  match c.get k with
  | some it => .ok (acc.set k it)
  | none => .error "KeyError"

/-- `:187-201` `copy`: new two-element lists, same attribute objects -/
def copy (c : Container V) : Option (List Name) → Except String (Container V)
  | none => .ok c
  | some cols => cols.foldlM (copyBody c) []

/-- Python's `a in b` for strings -/
def isInfix (a b : Name) : Bool := (List.range (b.length + 1)).any fun i => a.isPrefixOf (b.drop i)

/-- the attribute names skipped by `ItemAttribute.copy`: `:35-47`, where
`k not in "copy"` is a substring test -/
def excluded (a : Name) : Bool := "_".toList.isPrefixOf a || isInfix a "copy".toList

/-- `:49-58` `ItemAttribute.copy`; attribute values are immutable here -/
def copyAttr (o : Attr) : Attr := o.filter fun e => !excluded e.1

/-- loop body of `rt_dataset.py:790-797` -/
def deepBody (h : Heap) (s : Heap × Container V) (e : Name × Item V) : Heap × Container V :=
  match attrOf h e.2 with
  | none => (s.1, s.2 ++ [e])
  | some o => (s.1 ++ [copyAttr o], s.2 ++ [(e.1, { e.2 with attr := some s.1.length })])

/-- the loop of `rt_dataset.py:790-797` `_as_itemcontainer(deep=True)`: every attribute
object is copied (the values are copied as well, which is not visible here) -/
def deepen (h : Heap) (c : Container V) : Heap × Container V :=
  c.foldl (deepBody h) (h, [])

/-- `rt_dataset.py:735-799` `Dataset._copy` for `rows=None` (and, for the columns and
attributes, with `rows` a mask and `deep=False`): copy the container, then
`ds.label_set_names(self.label_get_names())` (`:722`). -/
def datasetCopy (h : Heap) (c : Container V) (deep : Bool) (cols : Option (List Name)) :
    Except String (Heap × Container V) :=
  match copy c cols with
  | .error e => .error e
  | .ok c' =>
    let s := if deep then deepen h c' else (h, c')
    .ok (taggedSetNames s (taggedGetNames s.1 c tagLabel) tagLabel)

end
end Verif.Items
