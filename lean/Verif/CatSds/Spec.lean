/-!
# What a Categorical shows (C296 - C298)

A row of a Categorical has a code.  With key columns, the code counts categories from the base; with a mapping, the
code has a label.  Nothing here depends on the model.
-/
namespace Verif.CatSds.Spec
variable {V : Type}

/-- what one row shows: the values of the key columns, a text in place of a category, or the code itself -/
inductive Cell (V : Type) where
  | labels (vs : List V)
  | text (s : String)
  | code (k : Int)
deriving DecidableEq, Repr

/-- a row with code `k` of a Categorical with key columns `cols`, counting from `base`, shows `cell` -/
inductive ShowsKeys (cols : List (List V)) (base : Nat) (filtered : String) (k : Int) : Cell V → Prop where
  /-- the values of category number `n` -/
  | category (n : Nat) (vs : List V) (hn : k = base + n) (hlen : vs.length = cols.length)
      (hvs : ∀ (j : Nat) (col : List V), cols[j]? = some col → ∃ v, col[n]? = some v ∧ vs[j]? = some v) :
      ShowsKeys cols base filtered k (.labels vs)
  /-- a filtered row -/
  | filtered (hb : base = 1) (hk : k = 0) : ShowsKeys cols base filtered k (.text filtered)
  /-- no such category -/
  | outside (hk : k < base ∨ ∀ col ∈ cols, (base : Int) + col.length ≤ k) (hf : ¬ (base = 1 ∧ k = 0)) :
      ShowsKeys cols base filtered k (.code k)

/-- no later entry of the mapping has the label `l`: the entry at position `p` is the last one with it -/
def LastWith (m : List (Int × String)) (p : Nat) (l : String) : Prop :=
  (∃ c, m[p]? = some (c, l)) ∧ ∀ (q : Nat) (c : Int), p < q → m[q]? ≠ some (c, l)

end Verif.CatSds.Spec
