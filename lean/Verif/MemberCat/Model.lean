import Mathlib.Data.List.Dedup
import Mathlib.Data.List.Basic

/-!
`ismember` with a Categorical (`rt_numpy.py:1266-1305`) and `_possibly_match_categoricals` (`rt_numpy.py:989-1079`).

Labels of one type `T`: of several keys the tuple.  Conversions between types of labels, NaN labels and `ismember` of plain arrays are the
subject of `Verif/Member`; here they compare by equality.  `rc.IsMemberCategoricalFixup` (C++) is a definition by the comments at
`:1295-1301`.  The shortcut for empty arguments (`:1262-1265`) is modelled.
-/
namespace Verif.MemberCat

inductive Err where
  | typeError | valueError
  deriving DecidableEq

deriving instance DecidableEq for Except

/-- `category_mode` of Categoricals that hold an array of categories -/
inductive Mode where
  | string | numeric | multi (nkeys : Nat)
  deriving DecidableEq

/-- a Categorical: codes and categories, or codes and a mapping (modes Dictionary and IntEnum; `enum` tells which) -/
inductive Cat (T : Type) where
  | arr (mode : Mode) (base : Nat) (codes : List Int) (cats : List T)
  | mapped (enum : Bool) (codes : List Int) (mapping : List (Int × T))

/-- an argument of `ismember` -/
inductive Arg (T : Type) where
  | cat (c : Cat T)
  /-- an array of texts -/
  | strs (l : List T)
  /-- an array of numbers -/
  | nums (l : List T)

section
variable {T : Type} [DecidableEq T]

/-- second result of `ismember` for one value: the first place -/
def firstAt {A : Type} [DecidableEq A] (l : List A) (x : A) : Option Nat := if x ∈ l then some (l.idxOf x) else none

/-- the different values in the order in which they occur -/
def uniqFirst (l : List T) : List T := l.reverse.dedup.reverse

/-- `Categorical(b, ordered=False)` of an array (`rt_numpy.py:1061`, `:1067`, `:1070`; the numeric ones are ordered, which changes the
numbering only) -/
def ofArray (m : Mode) (l : List T) : Cat T :=
  .arr m 1 (l.map fun v => ((uniqFirst l).idxOf v : Int) + 1) (uniqFirst l)

/-- `rc.IsMemberCategoricalFixup(a, b, on_unique, …)` (C++, `rt_numpy.py:1295-1304`): the category of the row of `a`, the category of `b`
with this label, the first row of `b` with this category -/
def fixupOne (b : List Int) (onUnique : List (Option Nat)) (abase bbase : Nat) (k : Int) : Option Nat :=
  if k < abase then none
  else match onUnique[(k - abase).toNat]? with
    | some (some u) => firstAt b ((u : Int) + bbase)
    | _ => none

/-- both Categoricals have arrays of categories (`rt_numpy.py:1285-1305`) -/
def matchArr (abase bbase : Nat) (acodes bcodes : List Int) (acats bcats : List T) : List (Option Nat) :=
  acodes.map (fixupOne bcodes (acats.map (firstAt bcats)) abase bbase)

/-- `dict.get(code, None)` -/
def lookup (m : List (Int × T)) (k : Int) : Option T := (m.find? fun e => decide (e.1 = k)).map Prod.snd

/-- no code has different labels in the two mappings (`rt_numpy.py:1026-1032`) -/
def agree (am bm : List (Int × T)) : Bool :=
  am.all fun e => match lookup bm e.1 with
    | some v => decide (v = e.2)
    | none => true

/-- two Categoricals -/
def matchCats (a b : Cat T) : Except Err (List (Option Nat)) :=
  match a, b with
  | .arr ma ba ca la, .arr mb bb cb lb =>
    match ma, mb with
    | .multi n, .multi m => if n ≠ m then .error .valueError else .ok (matchArr ba bb ca cb la lb)
    | .string, .string => .ok (matchArr ba bb ca cb la lb)
    | .numeric, .numeric => .ok (matchArr ba bb ca cb la lb)
    | _, _ => .error .typeError
  | .mapped ea ca ma, .mapped eb cb mb =>
    if ea ≠ eb then .error .typeError
    else if agree ma mb then .ok (ca.map (firstAt cb)) else .error .valueError
  | _, _ => .error .typeError

/-- the array as a Categorical of the mode of the other argument (`rt_numpy.py:1050-1077`) -/
def asCat (c : Cat T) (x : Arg T) : Except Err (Cat T) :=
  match x, c with
  | .cat d, _ => .ok d
  | .strs l, .arr .string _ _ _ => .ok (ofArray .string l)
  | .nums l, .arr .numeric _ _ _ => .ok (ofArray .numeric l)
  | _, _ => .error .typeError

/-- number of rows -/
def Arg.len : Arg T → Nat
  | .cat (.arr _ _ codes _) => codes.length
  | .cat (.mapped _ codes _) => codes.length
  | .strs l => l.length
  | .nums l => l.length

/-- `ismember(a, b)` where at least one argument is a Categorical (`rt_numpy.py:1259-1305`); two plain arrays are not modelled here -/
def ismember (a b : Arg T) : Except Err (List (Option Nat)) :=
  if a.len = 0 ∨ b.len = 0 then .ok (List.replicate a.len none)
  else match a, b with
    | .cat ca, b =>
      match asCat ca b with
      | .error e => .error e
      | .ok cb => matchCats ca cb
    | a, .cat cb =>
      match asCat cb a with
      | .error e => .error e
      | .ok ca => matchCats ca cb
    | _, _ => .error .typeError

/-- the label that a row shows: none if it is filtered -/
def labelOf (base : Nat) (cats : List T) (k : Int) : Option T := if k < base then none else cats[(k - base).toNat]?

/-- the labels of an argument; codes without an entry in the mapping show no label -/
def Arg.labels : Arg T → List (Option T)
  | .cat (.arr _ base codes cats) => codes.map (labelOf base cats)
  | .cat (.mapped _ codes mapping) => codes.map (lookup mapping)
  | .strs l => l.map some
  | .nums l => l.map some

end

end Verif.MemberCat
