import Mathlib.Data.List.Basic
import Mathlib.Data.List.Infix
import Mathlib.Data.List.DropRight
/-!
# What the string functions should do, on plain lists of characters

`decode` is how numpy reads a fixed-width field: the characters without the 0s at the end.
-/
namespace Verif.Str.Spec

/-- a field without its padding -/
def decode (field : List Nat) : List Nat := field.rdropWhile (· == 0)

/-- the field holds an ordinary string: no NUL inside -/
def Clean (field : List Nat) : Prop := 0 ∉ decode field

/-- Python `str.upper` on an ASCII character, other characters unchanged -/
def upChar (c : Nat) : Nat := if 'a'.toNat ≤ c ∧ c ≤ 'z'.toNat then c - 'a'.toNat + 'A'.toNat else c
/-- Python `str.lower` on an ASCII character, other characters unchanged -/
def lowChar (c : Nat) : Nat := if 'A'.toNat ≤ c ∧ c ≤ 'Z'.toNat then c - 'A'.toNat + 'a'.toNat else c

/-- `r = s.find(t)`: the least position where `t` starts in `s`, -1 if there is none -/
def IsFind (s t : List Nat) (r : Int) : Prop :=
  (r = -1 ∧ ¬ t <:+: s) ∨
  ∃ j : Nat, r = j ∧ t <+: s.drop j ∧ ∀ k < j, ¬ t <+: s.drop k

/-- `r` is the first position of a character of `s` that is in `t`, -1 if there is none -/
def IsFindAny (s t : List Nat) (r : Int) : Prop :=
  (r = -1 ∧ ∀ c ∈ s, c ∉ t) ∨
  ∃ (j : Nat) (c : Nat), r = j ∧ s[j]? = some c ∧ c ∈ t ∧ ∀ k < j, ∀ d, s[k]? = some d → d ∉ t

/-- Python `s.replace(old, new)` for nonempty `old`: scan from the left; where `old` starts, emit `new` and skip
`old`, elsewhere copy one character.  `skip` counts the characters of `old` still to be skipped. -/
def replaceFrom (old new : List Nat) : Nat → List Nat → List Nat
  | _, [] => []
  | skip + 1, _ :: s => replaceFrom old new skip s
  | 0, c :: s =>
    if old <+: c :: s then new ++ replaceFrom old new (old.length - 1) s else c :: replaceFrom old new 0 s

def pyReplace (old new s : List Nat) : List Nat := replaceFrom old new 0 s

/-- a slice bound of Python brought into `0..n` -/
def adjust (n : Nat) (x : Int) : Nat := if x < 0 then (x + n).toNat else min x.toNat n

/-- Python `s[i:j]` -/
def pySlice (s : List Nat) (i j : Int) : List Nat := (s.take (adjust s.length j)).drop (adjust s.length i)

end Verif.Str.Spec
