/-!
# Calls, groups and labels (C304 - C307)

Nothing here depends on the model.
-/
namespace Verif.Regex

/-- a parameter of a function and its default value if it has one -/
structure Param (V : Type) where
  name : String
  default : Option V
deriving DecidableEq, Repr

/-- a cell of a result: a text, or None -/
inductive Cell where
  | text (s : String)
  | none
deriving DecidableEq, Repr

/-- what a search for a pattern with groups finds in a text: for every group the text it took, or nothing if the group took
no part; `none` if the pattern is not found -/
abbrev Found := Option (List (Option String))

namespace Spec
variable {V : Type}

/-- the value a parameter has in a call: given by position, by keyword, or the default -/
inductive Value (pos : List V) (kw : List (String × V)) (i : Nat) (p : Param V) : V → Prop where
  | position (v : V) (h : pos[i]? = some v) : Value pos kw i p v
  | keyword (v : V) (h : pos.length ≤ i) (hm : (p.name, v) ∈ kw) : Value pos kw i p v
  | default (v : V) (h : pos.length ≤ i) (hm : ∀ w, (p.name, w) ∉ kw) (hd : p.default = some v) : Value pos kw i p v

/-- a call that Python accepts: not too many values by position, keywords are names of parameters that are given once,
and every parameter has its value in `vals` -/
structure Accepts (ps : List (Param V)) (pos : List V) (kw : List (String × V)) (vals : List (String × V)) : Prop where
  few : pos.length ≤ ps.length
  once : (kw.map Prod.fst).Nodup
  known : ∀ k ∈ kw.map Prod.fst, ∃ (i : Nat) (p : Param V), ps[i]? = some p ∧ p.name = k ∧ pos.length ≤ i
  names : vals.map Prod.fst = ps.map Param.name
  value : ∀ (i : Nat) (p : Param V), ps[i]? = some p → ∃ v, vals[i]? = some (p.name, v) ∧ Value pos kw i p v

/-- a signature as it is used here: different names without "self", exactly the first `req` parameters have no default, and a parameter
with a default is `apply_unique` -/
structure Sig (req : Nat) (ps : List (Param V)) : Prop where
  names : (ps.map Param.name).Nodup
  self : "self" ∉ ps.map Param.name
  required : ∀ (i : Nat) (p : Param V), ps[i]? = some p → (p.default = none ↔ i < req)
  flag : ∃ p ∈ ps, p.name = "apply_unique" ∧ p.default ≠ none

/-- the same values with another one for `apply_unique` -/
def withFlag (no : V) (vals : List (String × V)) : List (String × V) :=
  vals.map fun e => if e.1 = "apply_unique" then ("apply_unique", no) else e

/-- the documented cell of group number `j` for a text: what the group took, otherwise the fill value -/
inductive GroupCell (fillna : String) (j : Nat) : Found → Cell → Prop where
  | took (gs : List (Option String)) (s : String) (h : gs[j]? = some (some s)) : GroupCell fillna j (some gs) (.text s)
  | unused (gs : List (Option String)) (h : gs[j]? = some Option.none) : GroupCell fillna j (some gs) (.text fillna)
  | noMatch : GroupCell fillna j Option.none (.text fillna)

/-- what is there in fact: None where the pattern is found and the group took no part -/
inductive GroupCell' (fillna : String) (j : Nat) : Found → Cell → Prop where
  | took (gs : List (Option String)) (s : String) (h : gs[j]? = some (some s)) : GroupCell' fillna j (some gs) (.text s)
  | unused (gs : List (Option String)) (h : gs[j]? = some Option.none) : GroupCell' fillna j (some gs) .none
  | noMatch : GroupCell' fillna j Option.none (.text fillna)

/-- unique texts and, for every text, where it is among them -/
structure Unique (strs : List String) (u : List String × List Nat) : Prop where
  length : u.2.length = strs.length
  place : ∀ (i : Nat) (s : String), strs[i]? = some s → ∃ k, u.2[i]? = some k ∧ u.1[k]? = some s
  used : ∀ s ∈ u.1, s ∈ strs

/-- the names of columns without `names`: the name of the group, otherwise its number from 0 after "group_" -/
def DefaultNames (groups : Nat) (named : List (String × Nat)) (ns : List String) : Prop :=
  ns.length = groups ∧ ∀ (j : Nat) (n : String), ns[j]? = some n →
    (n, j + 1) ∈ named ∨ (∀ m, (m, j + 1) ∉ named) ∧ n = "group_" ++ toString j

/-- a text occurs in another -/
def Occurs (a x : String) : Prop := ∃ l r : List Char, x.toList = l ++ (a.toList ++ r)

end Spec
end Verif.Regex
