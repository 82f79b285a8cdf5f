import Verif.DsNew.Spec
import Verif.DsOps.Assign
/-!
# Making a Dataset of a dictionary (C344 - C346)

`riptable/rt_dataset.py`: 344-383 (`_init_columns_as_dict`), 510-536 (`_possibly_convert`), 643-672 (`_init_from_dict`), 674-688
(`_check_add_dimensions`); `riptable/rt_struct.py`: 307-329 (`_validate_names`), 394-407 (`_superadditem`), 2621-2651 (`col_set_value`),
251-269 (`is_valid_colname`).

Simplifications: the flags AllNames and WarnOnInvalidNames are False and AllowAnyName is True, as they are unless changed; names are texts;
columns have one dimension; `ok` says whether the array can be converted (see `Verif.DsOps`). While columns are added `_nrows` is None, so
arrays of one row are not repeated (rt_dataset.py:487).
-/
namespace Verif.DsNew
open Verif.DsOps (Ds setCol)
variable {V : Type}

/-- what is known about names: whether they begin with an underscore, whether they are valid, whether they begin with a small letter, and
how they are capitalised -/
structure Names where
  under : String → Bool
  valid : String → Bool
  lower : String → Bool
  cap : String → String

inductive Err where
  | value | index | type | rows
deriving Repr, DecidableEq

/-- the name `col_set_value` uses (2621-2638) -/
def setName (nm : Names) (n : String) : String :=
  if nm.valid n then n else if nm.lower n then nm.cap n else n

/-- `_possibly_convert` (510-536) -/
def convert (ok : List V → Bool) : Given V → Option (List V)
  | .array xs => if ok xs then some xs else none
  | .list xs => if ok xs then some xs else none
  | .tuple _ => none
  | .scalar x => if ok [x] then some [x] else none
  | .set => none

/-- the loop (656-662); `colname[0]` of an empty name raises IndexError -/
def addAll (nm : Names) (ok : List V → Bool) : List (String × Given V) → List (String × List V) → Except Err (List (String × List V))
  | [], cols => .ok cols
  | (n, v) :: rest, cols =>
    if n = "" then .error .index
    else match convert ok v with
      | none => .error .type
      | some xs => addAll nm ok rest (setCol (setName nm n) xs cols)

/-- the check at the end (664-669) -/
def checkRows : Option Nat → List (String × List V) → Except Err (Option Nat)
  | n, [] => .ok n
  | none, c :: cs => checkRows (some c.2.length) cs
  | some n, c :: cs => if n = c.2.length then checkRows (some n) cs else .error .rows

/-- `Dataset(dictionary)` (643-669) -/
def create (nm : Names) (ok : List V → Bool) (entries : List (String × Given V)) : Except Err (Ds V) :=
  if entries.any (fun e => nm.under e.1) then .error .value
  else match addAll nm ok entries [] with
    | .error e => .error e
    | .ok cols => match checkRows none cols with
      | .error e => .error e
      | .ok n => .ok ⟨n, cols⟩

/-- the same given to an assignment (`ds[name] = value`, see `Verif.DsOps`): tuples are like lists there -/
def toValue : Given V → Verif.DsOps.Value V
  | .array xs => .array xs
  | .list xs => .seq xs
  | .tuple xs => .seq xs
  | .scalar x => .scalar x
  | .set => .set

/-- assigning the columns one after the other to an empty Dataset; `none`: one of them raises -/
def assignAll (ok : List V → Bool) : List (String × Given V) → Ds V → Option (Ds V)
  | [], d => some d
  | e :: rest, d =>
    match (Verif.DsOps.assign ok d e.1 (toValue e.2)).2 with
    | some _ => none
    | none => assignAll ok rest (Verif.DsOps.assign ok d e.1 (toValue e.2)).1
end Verif.DsNew
