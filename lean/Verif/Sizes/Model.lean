import Verif.Sizes.Spec
/-!
# The sizes of a Struct (C340 - C343)

`riptable/rt_struct.py`: 5183-5310 (`Struct.total_sizes`); `riptable/rt_categorical.py`: 2597-2605 (`Categorical._total_size`).

Simplifications: identities of arrays and of Structs are kept apart (`seen_objects` holds both, and no object is both); the loop over
`base` is done beforehand, so an array comes with the memory it is a view of; an array over memory that has no `base` raises AttributeError
at once, here this is noted and the loop goes on, as only the result counts; the stack of pending Structs has its top in front.
-/
namespace Verif.Sizes

/-- `_total_size` (2601-2605) -/
def catBytes (n : Nat) (cats : List (Nat × Nat)) : Nat := cats.foldl (fun t c => t + c.2) n

structure St where
  pending : List Nat
  structs : List Nat
  arrays : List Nat
  physical : Nat
  logical : Nat
  raised : Bool
deriving DecidableEq, Repr

/-- data of a size: counted for the logical size always, for the physical size when the memory is new (5244-5253, 5262-5282, 5284-5299) -/
def count (st : St) (base n : Nat) : St :=
  if st.arrays.contains base then { st with logical := st.logical + n }
  else { st with arrays := base :: st.arrays, physical := st.physical + n, logical := st.logical + n }

/-- one item (5240-5327) -/
def visit (st : St) : Item → St
  | .array b n => count st b n
  | .cat b n cats => count st b (catBytes n cats)
  | .sub s => if st.structs.contains s then st else { st with structs := s :: st.structs, pending := s :: st.pending }
  | .int => { st with physical := st.physical + 4, logical := st.logical + 4 }
  | .foreign => { st with raised := true }
  | .other => st

/-- the loop (5238-5240); `none`: it has not ended after so many Structs -/
def run (h : Heap) : Nat → St → Option St
  | 0, st => match st.pending with
    | [] => some st
    | _ :: _ => none
  | k + 1, st => match st.pending with
    | [] => some st
    | s :: rest => run h k ((h.getD s []).foldl visit { st with pending := rest })

/-- 5217-5235 -/
def init (root : Nat) : St := ⟨[root], [], [], 0, 0, false⟩

inductive Res where
  | sizes (physical logical : Nat)
  | attributeError
  | running
deriving DecidableEq, Repr

/-- `total_sizes`, after at most so many Structs -/
def totalSizes (h : Heap) (root steps : Nat) : Res :=
  match run h steps (init root) with
  | none => .running
  | some st => if st.raised then .attributeError else .sizes st.physical st.logical
end Verif.Sizes
