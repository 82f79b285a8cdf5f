import Verif.Tz.Model
/-!
# Model of pickling arrays (`rt_fastarray.py:844-874`, `:249-253`, `:775-832`; `rt_datetime.py:644-650`, `:1166-1198`, `:2551-2571`,
`:2878-2897`, `:4986-5060`, `:7274-7322`)

`pickle` calls `__reduce__`, writes the function and its arguments (arrays among them in the same way), and calls the function with the arguments read.
`rc.CompressDecompressArrays` (C++) is a pair of parameters. Numbers are integers with the name of their type, whatever they stand for (float64 of a TimeSpan).
Simplified: one dimension; Categoricals and other containers are not modelled.
-/
namespace Verif.Pickle
open Verif.Tz (Zone TimeZone)

inductive NT where
  | int32 | int64 | float64
  | other (k : Nat)
deriving DecidableEq, Repr

/-- type and elements of an array -/
inductive Data where
  | num (t : NT) (l : List Int)
  | bytes (l : List (List Char))
  | uni (l : List (List Char))
deriving DecidableEq, Repr

def Data.length : Data → Nat
  | .num _ l => l.length
  | .bytes l => l.length
  | .uni l => l.length

inductive Cls where
  | date | dateSpan | timeSpan | nano
deriving DecidableEq, Repr

/-- An array: a FastArray, or one of the classes of dates and times. `extra` are further attributes. -/
inductive Arr where
  | fast (d : Data) (name : Option String)
  | dated (c : Cls) (t : NT) (l : List Int) (name : Option String) (display : Nat) (tz : TimeZone) (extra : List String)

/-- `instance_vars` (`rt_datetime.py:1179-1181`, `:5000`, `:7285`) and the name; the zone is only there for DateTimeNano. -/
structure Meta where
  name : String
  display : Nat
  toTz : Zone

/-- What is written: compressed bytes, the numpy array, or a FastArray with the data about a class. -/
inductive Pickled (B : Type) where
  | compressed (b : B)
  | raw (d : Data)
  | dated (c : Cls) (arr : Pickled B) (m : Meta)

/-- `__reduce__` of a FastArray (`rt_fastarray.py:862-874`); `on` is `CompressPickle`. -/
def reduceFast {B : Type} (comp : Data → B) (on : Bool) (d : Data) : Pickled B :=
  if on && decide (d.length > 0) then .compressed (comp d) else .raw d

/-- `__reduce__` (`:844-874`); without a name it is "unknown" (`:854-857`), `self.view(FastArray)` is an argument (`:860`). -/
def reduce {B : Type} (comp : Data → B) (on : Bool) : Arr → Pickled B
  | .fast d _ => reduceFast comp on d
  | .dated c t l name display tz _ => .dated c (reduceFast comp on (.num t l)) ⟨name.getD "unknown", display, tz.toTz⟩

/-- `FastArray.__new__` of a numpy array (`:775-832`): unicode becomes bytes if it can (`:797-801`). -/
def newFast : Data → Data
  | .uni l => if l.all (fun s => s.all fun ch => ch.val < 128) then .bytes l else .uni l
  | d => d

/-- The type the constructors convert to (`rt_datetime.py:1322`, `:2751`, `:4541`, `:7170`). -/
def Cls.dtype : Cls → NT
  | .date => .int32
  | .dateSpan => .int32
  | .timeSpan => .float64
  | .nano => .int64

/-- `_load_from_sds_meta_data`: the constructor, then the attributes. Date and DateSpan take all of `MetaDefault` for attributes
(`:2563-2567`, `:2888-2892`); a DateTimeNano is made from GMT (`:5052`). The name is not used. -/
def rebuild (c : Cls) (l : List Int) (m : Meta) : Arr :=
  match c with
  | .date => .dated .date (Cls.dtype .date) l none m.display (TimeZone.init .utc .utc) ["name", "typeid", "version", "instance_vars"]
  | .dateSpan => .dated .dateSpan (Cls.dtype .dateSpan) l none m.display (TimeZone.init .utc .utc) ["name", "typeid", "version", "instance_vars"]
  | .timeSpan => .dated .timeSpan (Cls.dtype .timeSpan) l none m.display (TimeZone.init .utc .utc) []
  | .nano =>
    let tz := TimeZone.init .gmt m.toTz
    .dated .nano (Cls.dtype .nano) (l.map tz.toUtc) none m.display tz []

/-- Reading: the function is called with the arguments read before. Texts in place of numbers (`none`) are not modelled. -/
def load {B : Type} (dec : B → Data) : Pickled B → Option Arr
  | .compressed b => some (.fast (dec b) none)
  | .raw d => some (.fast (newFast d) none)
  | .dated c arr m =>
    match load dec arr with
    | some (.fast (.num _ l) _) => some (rebuild c l m)
    | _ => none

/-- `pickle.loads(pickle.dumps(a))` -/
def roundTrip {B : Type} (comp : Data → B) (dec : B → Data) (on : Bool) (a : Arr) : Option Arr := load dec (reduce comp on a)

end Verif.Pickle
