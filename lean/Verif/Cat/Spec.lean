import Verif.Cat.Model
/-!
# Specification of Categoricals: lists of labels

`rows c` is what the codes mean under the category array: a label, or `none` for a filtered row.
-/
namespace Verif.Cat

/-- label with code `k` in the category array `labels` -/
def label? {L : Type} (base : Nat) (labels : List L) (k : Int) : Option L :=
  if k < base then none else labels[(k - base).toNat]?

/-- labels of the rows -/
def rows (c : Cat) : List (Option Label) := c.fa.map (label? c.base c.list)

/-- A Categorical as it is constructed: distinct categories, codes of categories or of filtered rows, the `sorted` flag only
for sorted categories, and labels that fit into the category array. -/
structure WF (c : Cat) : Prop where
  base : c.base ≤ 1
  nodup : c.list.Nodup
  srt : c.sorted = true → c.list.Pairwise (· < ·)
  lo : ∀ k ∈ c.fa, (c.base : Int) - 1 ≤ k
  hi : ∀ k ∈ c.fa, k < c.base + c.list.length
  wid : ∀ l ∈ c.list, l.length ≤ c.width

/-- category edits -/
inductive Edit where
  | add (v : Label)
  | remove (v : Label)
  | replace (v w : Label)
deriving DecidableEq

def step (c : Cat) : Edit → Res
  | .add v => categoryAdd c v
  | .remove v => categoryRemove c v
  | .replace v w => categoryReplace c v w

def run (c : Cat) : List Edit → Cat
  | [] => c
  | e :: es => run (step c e).1 es

/-- relabel `v` as `r'` -/
def relabel (v : Label) (r' : Option Label) (r : Option Label) : Option Label := if r = some v then r' else r

/-- what an edit should do to the categories and the rows; `none` is an exception -/
def editSpec (labels : List Label) (rs : List (Option Label)) : Edit → Option (List Label × List (Option Label))
  | .add v => if v ∈ labels then none else some (labels ++ [v], rs)
  | .remove v => if v ∈ labels then some (labels.filter (· ≠ v), rs.map (relabel v none)) else none
  | .replace v w =>
    if v ∈ labels then
      some (if w ∈ labels then labels else labels.map fun x => if x = v then w else x, rs.map (relabel v (some w)))
    else none

/-- the same for a history; exceptions change nothing -/
def editsSpec (labels : List Label) (rs : List (Option Label)) : List Edit → List Label × List (Option Label)
  | [] => (labels, rs)
  | e :: es =>
    match editSpec labels rs e with
    | some (l', r') => editsSpec l' r' es
    | none => editsSpec labels rs es

/-- a replacement label fits into the category array (other edits always do) -/
def Fits (c : Cat) : Edit → Prop
  | .replace _ w => w.length ≤ c.width
  | _ => True

def AllFit : Cat → List Edit → Prop
  | _, [] => True
  | c, e :: es => Fits c e ∧ AllFit (step c e).1 es

end Verif.Cat
