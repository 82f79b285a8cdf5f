import Verif.Items.Model
import Verif.Foot.Spec

/-!
# Model of the footers of a Dataset

`riptable/rt_dataset.py:5373-5689`, with `rt_itemcontainer.py:317-363` (attributes of an item),
`rt_dataset.py:701-732`, `764-800` (copies) and `4112-4128` (`sort_copy`).

The footer values are kept, column by column, in a dictionary that is the `Footer` attribute of
the column's attribute object.  Attribute objects are mutable and shared by shallow copies, so
they are in a heap.  Other attributes of the object (labels, summaries) are modelled in
`Verif/Items` and left out here: the object *is* its `Footer` attribute.  The arrays are left
out: no footer call looks at them.  A footer value that is Python's `None` is left out.
-/
namespace Verif.Foot
open Verif.Items (Dict)
open Spec (Op)

/-- exceptions -/
inductive Err
  | index
  | key
  | attribute
  deriving DecidableEq, Repr

/-- the attribute objects; each holds its `Footer` dictionary if it has one -/
abbrev Heap (V : Type) := List (Option (Dict String V))

/-- a Dataset: for each column the address of its attribute object, if any; the keys of
`_footers`, if that attribute exists (its values are all `None`, `:5678`) -/
structure Ds where
  cols : Dict String (Option Nat)
  footers : Option (List String)
  deriving DecidableEq, Repr

variable {V : Type}

/-- address of the attribute object of a column -/
def attrOf (d : Ds) (c : String) : Option Nat := (d.cols.get c).join

/-- the `Footer` dictionary stored in an attribute object -/
def footerOf (h : Heap V) (p : Nat) : Option (Dict String V) := (h[p]?).join

/-- `col_get_attribute(c, "Footer")`, `rt_itemcontainer.py:317-333`: `None` for an unknown
column, a column without attribute object, or one without this attribute -/
def colFooter (h : Heap V) (d : Ds) (c : String) : Option (Dict String V) :=
  (attrOf d c).bind (footerOf h)

/-- `col_set_attribute(c, "Footer", cd)`, `rt_itemcontainer.py:336-363`: makes the attribute
object when there is none.  (The `KeyError` for an unknown column cannot be reached from
`footer_set_values`, which has checked the columns.) -/
def putFooter (h : Heap V) (d : Ds) (c : String) (cd : Dict String V) : Heap V × Ds :=
  match attrOf d c with
  | some p => (h.set p (some cd), d)
  | none => (h ++ [some cd], { d with cols := d.cols.set c (some h.length) })

/-- one turn of the loop `:5680-5689`.  The dictionary found is changed in place. -/
def setOne (label : String) (s : Heap V × Ds) (e : String × V) : Heap V × Ds :=
  match colFooter s.1 s.2 e.1 with
  | none => putFooter s.1 s.2 e.1 [(label, e.2)]
  | some cd => putFooter s.1 s.2 e.1 (cd.set label e.2)

/-- `_footers[label] = None`, `:5674-5678` -/
def addLabel (d : Ds) (label : String) : Ds :=
  { d with footers := some (let fs := d.footers.getD []; if label ∈ fs then fs else fs ++ [label]) }

/-- `_ensure_atomic`, `rt_struct.py:3501-3509` -/
def known (d : Ds) (cs : List String) : Bool := cs.all fun c => d.cols.has c

/-- `footer_set_values`, `:5613-5689`, for a string label and a dictionary -/
def setValues (h : Heap V) (d : Ds) (label : String) (es : List (String × V)) :
    (Heap V × Ds) × Option Err :=
  if known d (es.map Prod.fst) then (es.foldl (setOne label) (h, addLabel d label), none)
  else ((h, d), some .index)

/-- `_footers_exist`, `:5373-5393`, on the keys of `_footers`; `none` after the warning -/
def exist (fs : List String) : Option (List String) → Option (List String)
  | none => some fs
  | some ls => match ls.filter (fun l => l ∈ fs) with
    | [] => none
    | l :: r => some (l :: r)

/-- the inner loop `:5489-5490` over one column: `coldict.pop(label, None)` -/
def popAll (labels : List String) (h : Heap V) (d : Ds) (c : String) : Heap V :=
  match attrOf d c with
  | none => h
  | some p => match footerOf h p with
    | none => h
    | some cd => h.set p (some (labels.foldl Dict.del cd))

/-- `:5494-5495`: `del self.footers[label]` one after another; `false` for the `KeyError` -/
def delLabels : List String → List String → List String × Bool
  | fs, [] => (fs, true)
  | fs, l :: ls => if l ∈ fs then delLabels (fs.erase l) ls else (fs, false)

/-- `:5498-5499`: `_footers` is removed when it is empty -/
def keepFooters (fs : List String) : Option (List String) := if fs = [] then none else some fs

/-- `:5493-5499` -/
def dropLabels (h : Heap V) (d : Ds) (labels fs : List String) : (Heap V × Ds) × Option Err :=
  match delLabels fs labels with
  | (fs', true) => ((h, { d with footers := keepFooters fs' }), none)
  | (fs', false) => ((h, { d with footers := some fs' }), some .key)

/-- `footer_remove`, `:5396-5499`; a single label or column is a list of one -/
def remove (h : Heap V) (d : Ds) (labels columns : Option (List String)) :
    (Heap V × Ds) × Option Err :=
  match d.footers with
  | none => ((h, d), none)
  | some fs => match exist fs labels with
    | none => ((h, d), none)
    | some ls => match columns with
      | none => dropLabels (d.cols.keys.foldl (fun h c => popAll ls h d c) h) d ls fs
      | some cs =>
        if known d cs then ((cs.foldl (fun h c => popAll ls h d c) h, d), none)
        else ((h, d), some .index)

/-- `{fname: [] for fname in labels}` then one value per column, `:5546-5555` -/
def footRow (h : Heap V) (d : Ds) (columns : List String) (fill : V) (l : String) :
    String × List V :=
  (l, columns.map fun c => ((colFooter h d c).bind fun cd => cd.get l).getD fill)

/-- `footer_get_values`, `:5502-5556`.  A label named twice is one key of the answer. -/
def getValues (h : Heap V) (d : Ds) (labels columns : Option (List String)) (fill : V) :
    Dict String (List V) :=
  match d.footers with
  | none => []
  | some fs => match exist fs labels with
    | none => []
    | some ls => ls.eraseDups.map (footRow h d (columns.getD d.cols.keys) fill)

/-- `:5608-5609`: `if v is not None: d[colname] = v` -/
def putIf (acc : Dict String V) (c : String) : Option V → Dict String V
  | none => acc
  | some v => acc.set c v

/-- the loop `:5602-5609` for one label -/
def footDict (h : Heap V) (d : Ds) (columns : List String) (l : String) :
    String × Dict String V :=
  (l, columns.foldl (fun acc c => putIf acc c ((colFooter h d c).bind fun cd => cd.get l)) [])

/-- `footer_get_dict`, `:5559-5610` -/
def getDict (h : Heap V) (d : Ds) (labels columns : Option (List String)) :
    Dict String (Dict String V) :=
  match d.footers with
  | none => []
  | some fs => match exist fs labels with
    | none => []
    | some ls => ls.eraseDups.map (footDict h d (columns.getD d.cols.keys))

/-- `ds[c] = array`: an existing column keeps its attribute object, a new one has none,
`rt_itemcontainer.py:304-309` -/
def addCol (d : Ds) (c : String) : Ds :=
  if d.cols.has c then d else { d with cols := d.cols.set c none }

/-- `del ds[c]` -/
def delCol (h : Heap V) (d : Ds) (c : String) : (Heap V × Ds) × Option Err :=
  if d.cols.has c then ((h, { d with cols := d.cols.del c }), none) else ((h, d), some .index)

/-- one call -/
def step (s : Heap V × Ds) : Op V → (Heap V × Ds) × Option Err
  | .set l es => setValues s.1 s.2 l es
  | .remove ls cs => remove s.1 s.2 ls cs
  | .addCol c => ((s.1, addCol s.2 c), none)
  | .delCol c => delCol s.1 s.2 c

/-- a history of calls on one Dataset; exceptions are caught and the history goes on -/
def run (s : Heap V × Ds) (os : List (Op V)) : Heap V × Ds :=
  os.foldl (fun s o => (step s o).1) s

/-! ## Copies -/

/-- A row slice, a column selection or a shallow copy: `_as_itemcontainer` `:778-787` copies the
two-element lists, which keep the same attribute objects; `_copy_attributes` `:726-730` copies
`_footers`.  `cols` are existing columns. -/
def slice (d : Ds) (cols : List String) : Ds :=
  { cols := cols.map fun c => (c, attrOf d c), footers := d.footers }

/-- one column of a deep copy, `:796-797`: `ItemAttribute.copy` copies the dictionary -/
def copyAttr (s : Heap V × Dict String (Option Nat)) (e : String × Option Nat) :
    Heap V × Dict String (Option Nat) :=
  match e.2 with
  | none => (s.1, s.2 ++ [(e.1, none)])
  | some p => (s.1 ++ [footerOf s.1 p], s.2 ++ [(e.1, some s.1.length)])

/-- `copy(deep=True)` -/
def deepCopy (h : Heap V) (d : Ds) : Heap V × Ds :=
  let s := d.cols.foldl copyAttr (h, [])
  (s.1, { cols := s.2, footers := d.footers })

/-- `sort_copy`, `:4112-4128`: a new Dataset from the arrays alone; then `item.copy()` on each
value of `_footers`, which are `None` -/
def sortCopy (d : Ds) : Except Err Ds :=
  match d.footers with
  | none => .ok { cols := d.cols.map fun e => (e.1, none), footers := none }
  | some [] => .ok { cols := d.cols.map fun e => (e.1, none), footers := some [] }
  | some (_ :: _) => .error .attribute

end Verif.Foot
