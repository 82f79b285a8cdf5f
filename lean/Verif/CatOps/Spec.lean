import Verif.Cat.Spec
/-!
# Specification: what comparisons, assignments, mappings and filters of Categoricals mean (C95-C104)

A Categorical means the list of the labels of its rows (`Verif.Cat.label?`), `none` for a filtered row.
-/
namespace Verif.CatOps

/-- a Categorical with an array of categories: base index, codes, categories -/
structure C (L : Type) where
  base : Nat
  codes : List Int
  labels : List L
deriving DecidableEq

/-- the labels of the rows -/
def C.rows {L : Type} (c : C L) : List (Option L) := c.codes.map (Verif.Cat.label? c.base c.labels)

/-- as constructed: different categories, codes of categories, or 0 with base index 1 -/
structure C.WF {L : Type} (c : C L) : Prop where
  base : c.base ≤ 1
  nodup : c.labels.Nodup
  lo : ∀ k ∈ c.codes, 0 ≤ k
  hi : ∀ k ∈ c.codes, k < (c.base : Int) + c.labels.length

/-- `after` is `before` with the rows `ps` replaced, in order, by `vals` (rows are given once) -/
def Replaced {A : Type} (before after : List A) (ps : List Nat) (vals : List A) : Prop :=
  after.length = before.length ∧ (∀ i, i ∉ ps → after[i]? = before[i]?) ∧
    ∀ k : Nat, k < ps.length → ∃ p, ps[k]? = some p ∧ after[p]? = vals[k]?

/-- the rows where the filter is True keep their label -/
def Kept {L : Type} (filter : List Bool) (rows : List (Option L)) (after : List (Option L)) : Prop :=
  after.length = rows.length ∧ ∀ (i : Nat) (r : Option L), rows[i]? = some r → after[i]? = some (if filter[i]? = some true then r else none)

/-- the value of a dictionary at a key -/
def value? {L W : Type} [DecidableEq L] (mapper : List (L × W)) (x : L) : Option W := (mapper.find? fun e => decide (e.1 = x)).map Prod.snd

end Verif.CatOps
