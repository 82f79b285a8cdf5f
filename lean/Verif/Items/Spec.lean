import Verif.Items.Model
import Mathlib.Data.List.Dedup

/-!
# What a container is, to its user

An ordered list of columns with a name, a value and attributes, and for each kind of
tag (labels, summaries) an ordered list of tagged columns.  No heap, no positions.
-/
namespace Verif.Items

/-- the tags with their own operations -/
def isTag (a : Name) : Bool := a == tagLabel || a == tagSummary

structure ACol (V : Type) where
  name : Name
  val : V
  attrs : Name → Option Nat

structure Abs (V : Type) where
  cols : List (ACol V)
  tagged : Name → List Name

namespace Abs
variable {V : Type}

def names (a : Abs V) : List Name := a.cols.map ACol.name
def hasCol (a : Abs V) (k : Name) : Prop := k ∈ a.names
instance (a : Abs V) (k : Name) : Decidable (a.hasCol k) := inferInstanceAs (Decidable (k ∈ _))

/-- rename every column and every tagged name -/
def mapNames (f : Name → Name) (a : Abs V) : Abs V :=
  ⟨a.cols.map fun c => { c with name := f c.name }, fun t => (a.tagged t).map f⟩

/-- the column of that name -/
def col (a : Abs V) (k : Name) : Option (ACol V) := a.cols.find? fun c => c.name = k

/-- Effect of an operation; `none` = it raises. -/
def step (a : Abs V) : Op V → Option (Abs V)
  | .setValue k v => some
      { a with cols := if a.hasCol k then a.cols.map fun c => if c.name = k then { c with val := v } else c
                       else a.cols ++ [⟨k, v, fun _ => none⟩] }
  | .delete k =>
    if a.hasCol k then some ⟨a.cols.filter fun c => c.name ≠ k, fun t => (a.tagged t).filter (· ≠ k)⟩ else none
  | .rename o n =>
    if o = n then some a
    else if a.hasCol o ∧ ¬ a.hasCol n then some (a.mapNames fun k => if k = o then n else k) else none
  | .moveFront l =>
    if l.length ≤ a.cols.length then
      some { a with cols := l.reverse.dedup.reverse.filterMap a.col ++ a.cols.filter fun c => c.name ∉ l }
    else none
  | .moveBack l =>
    if l.length ≤ a.cols.length then
      some { a with cols := (a.cols.filter fun c => c.name ∉ l) ++ l.dedup.filterMap a.col }
    else none
  | .addPrefix p => some (a.mapNames (p ++ ·))
  | .addSuffix p => some (a.mapNames (· ++ p))
  | .strReplace r =>
    if ∃ k ∈ a.names, r k ≠ k ∧ r k ∈ a.names then none else some (a.mapNames r)
  | .setAttr k x v =>
    if a.hasCol k then
      some { a with cols := a.cols.map fun c =>
        if c.name = k then { c with attrs := fun y => if y = x then some v else c.attrs y } else c }
    else none
  | .setTagged tag l =>
    some { a with tagged := fun t => if t = tag then (l.filter fun k => k ∈ a.names).dedup else a.tagged t }
  | .removeTagged tag => some { a with tagged := fun t => if t = tag then [] else a.tagged t }

/-- state after the operation, whether or not it raised -/
def exec (a : Abs V) (op : Op V) : Abs V := (a.step op).getD a

/-- The operation is one a user would call: tags are set through the tag functions
only, and a string replacement does not map two columns to one name. -/
def Legal (a : Abs V) : Op V → Prop
  | .setAttr _ x _ => isTag x = false
  | .setTagged t _ => isTag t = true
  | .removeTagged t => isTag t = true
  | .strReplace r => (a.names.map r).Nodup
  | _ => True

/-- every operation of the history is legal when it is executed -/
def LegalRun (a : Abs V) : List (Op V) → Prop
  | [] => True
  | op :: ops => a.Legal op ∧ LegalRun (a.exec op) ops

/-- effect of a history -/
def run (a : Abs V) (ops : List (Op V)) : Abs V := ops.foldl exec a

end Abs

/-- What can be read from a container: the columns in order with value and (non-tag)
attributes, and the tagged columns as `label_get_names`/`summary_get_names` report
them. -/
def observe {V : Type} (h : Heap) (c : Container V) : Abs V :=
  ⟨c.map fun e => ⟨e.1, e.2.val, fun x => if isTag x then none else itemGetAttribute h c e.1 x⟩,
    fun t => if isTag t then taggedGetNames h c t else []⟩

end Verif.Items
