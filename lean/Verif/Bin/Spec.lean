import Verif.Bin.Model

/-! # What `quantile`, `cut` and `qcut` are for -/
namespace Verif.Bin

/-- ascending, `-inf` first, `inf` and then NaN last -/
def leSort : Fl → Fl → Prop
  | _, .nan => True
  | .nan, _ => False
  | .ninf, _ => True
  | _, .pinf => True
  | .fin a, .fin b => a ≤ b
  | _, _ => False

/-- contract of `lexsort` of one column: all row numbers, in the order of their values -/
def IsLexsort (x : List Fl) (ls : List Nat) : Prop :=
  ls.Perm (List.range x.length) ∧
  ls.Pairwise fun (i j : Nat) => ∀ a b, x[i]? = some a → x[j]? = some b → leSort a b

/-- `y` is the `p`-quantile of the numbers `l`: sort them, go to position `p * (n - 1)`, and
interpolate between the two neighbours if that is not a whole number. -/
def IsQuantile (l : List Rat) (p y : Rat) : Prop :=
  ∃ s : List Rat, s.Perm l ∧ s.Pairwise (· ≤ ·) ∧ ∃ (k : Nat) (a : Rat), s[k]? = some a ∧
    (k : Rat) ≤ p * ((l.length : Rat) - 1) ∧ p * ((l.length : Rat) - 1) < k + 1 ∧
    ((p * ((l.length : Rat) - 1) = k ∧ y = a) ∨
     ∃ b, s[k + 1]? = some b ∧ y = a + (b - a) * (p * ((l.length : Rat) - 1) - k))

/-- `v` lies in bin number `c` (from 1): above the lower edge (or on it, for the first bin) and
not above the upper edge -/
def InBin (edges : List Fl) (v : Fl) (c : Nat) : Prop :=
  1 ≤ c ∧ ∃ lo hi, edges[c - 1]? = some lo ∧ edges[c]? = some hi ∧ v.le hi = true ∧
    (lo.lt v = true ∨ (c = 1 ∧ lo = v))

/-- `v` is NaN, below the first or above the last edge -/
def Outside (edges : List Fl) (v : Fl) : Prop :=
  v = .nan ∨ (∃ e, edges.head? = some e ∧ v.lt e = true) ∨ (∃ e, edges.getLast? = some e ∧ e.lt v = true)

/-- edges in ascending order without NaN -/
def Ascending (edges : List Fl) : Prop := edges.Pairwise fun a b => a.le b = true

/-- row `i` passes the filter -/
def Passes (filter : Option (List Bool)) (i : Nat) : Prop :=
  ∀ f, filter = some f → f[i]? = some true

/-- the label a code stands for (base index 1, 0 is filtered) -/
def labelOf {L : Type} (r : Cut L) (c : Nat) : Option (Label L) :=
  match r.labels with
  | none => none
  | some ls => if c = 0 then none else ls[c - 1]?

/-- the label that bin `c` should have -/
def binLabel {L : Type} (rnd : Nat → Fl → Fl) (edges : List Fl) (precision : Nat) : Labels L → Nat → Option (Label L)
  | .none, _ => none
  | .given l, c => (l[c - 1]?).map .given
  | .auto, c =>
    match edges[c - 1]?, edges[c]? with
    | some a, some b => some (.between (rnd (inferPrecision rnd precision edges) a) (rnd (inferPrecision rnd precision edges) b))
    | _, _ => none

end Verif.Bin
