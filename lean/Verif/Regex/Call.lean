import Verif.Items.Dict
import Verif.Regex.Spec
/-!
# Calls of the decorated string functions (C304)

`riptable/rt_str.py`: 93-113 (`_handle_apply_unique`), which decorates `regex_match` (906), `regex_replace` (962) and `extract` (1029).

The wrapper binds its arguments, which are without `self`, to the signature that begins with `self`, so every positional argument
lands one parameter too early.  `Signature.bind_partial`, `BoundArguments.apply_defaults`, `.args` and `.kwargs` are those of
Python's `inspect` for parameters that can be given by position and by keyword (the only ones here).

Simplification: values are of any type with a truth value.
-/
namespace Verif.Regex
open Verif.Items
variable {V : Type}

deriving instance DecidableEq for Except

/-- the values of `arguments` after `bind_partial` and `apply_defaults`, in the order of the parameters -/
def boundOf : List (Param V) → List V → Dict String V → List (String × Option V)
  | [], _, _ => []
  | p :: ps, v :: vs, kw => (p.name, some v) :: boundOf ps vs kw
  | p :: ps, [], kw => (p.name, (kw.get p.name).or p.default) :: boundOf ps [] kw

/-- `bind_partial` with its TypeErrors -/
def bindPartial (ps : List (Param V)) (pos : List V) (kw : Dict String V) : Except String (List (String × Option V)) :=
  if ps.length < pos.length then .error "TypeError: too many positional arguments" else
  if (ps.take pos.length).any (fun p => kw.has p.name) then .error "TypeError: multiple values" else
  if kw.any (fun e => !(ps.any fun p => decide (p.name = e.1))) then .error "TypeError: unexpected keyword" else
  .ok (boundOf ps pos kw)

/-- `BoundArguments.args`: up to the first parameter without a value -/
def argsOf (b : List (String × Option V)) : List V := (b.takeWhile (·.2.isSome)).filterMap (·.2)

/-- `BoundArguments.kwargs`: what comes after the first parameter without a value -/
def kwargsOf (b : List (String × Option V)) : Dict String V :=
  (b.dropWhile (·.2.isSome)).filterMap fun e => e.2.map fun v => (e.1, v)

/-- a call of a function: every parameter needs a value -/
def call (ps : List (Param V)) (pos : List V) (kw : Dict String V) : Except String (List (String × V)) :=
  match bindPartial ps pos kw with
  | .error e => .error e
  | .ok b =>
    if b.all (·.2.isSome) then .ok (b.filterMap fun e => e.2.map fun v => (e.1, v)) else .error "TypeError: missing argument"

/-- `wrapper` (100-111): whether the function is applied to the unique values, and the values its parameters (after `self`) get -/
def wrapper (truthy : V → Bool) (no : V) (ps : List (Param V)) (pos : List V) (kw : Dict String V) :
    Except String (Bool × List (String × V)) :=
  match bindPartial (⟨"self", none⟩ :: ps) pos kw with
  | .error e => .error e
  | .ok b =>
    match (kwargsOf b).get "apply_unique" with
    | none => .error "KeyError: apply_unique"
    | some u =>
      if truthy u then
        match call ps (argsOf b) ((kwargsOf b).set "apply_unique" no) with
        | .error e => .error e
        | .ok vals => .ok (true, vals)
      else
        match call ps pos kw with
        | .error e => .error e
        | .ok vals => .ok (false, vals)

end Verif.Regex
