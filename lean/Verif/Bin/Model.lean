import Verif.Basic
import Verif.Cat.Model
import Mathlib.Data.Rat.Floor
import Mathlib.Data.List.Dedup

/-!
# Model of `quantile`, `cut` and `qcut`, `riptable/rt_bin.py`

Values are exact rationals, the two infinities and NaN.  `lexsort` and the three `rc.` functions
are C++.  `NanInfCountFromSort` is the count of the special values; `BinsToCutsBSearch` is
modelled as documented in the docstring of `cut` (`rt_bin.py:452-531`); for `BinsToCutsSorted`
see `cutSorted`.  Integer columns (with their own sentinel) are not modelled.
-/
namespace Verif.Bin

/-- a float -/
inductive Fl where
  | ninf
  | fin (q : Rat)
  | pinf
  | nan
  deriving DecidableEq

/-- `<=` of floats -/
def Fl.le : Fl → Fl → Bool
  | .nan, _ => false
  | _, .nan => false
  | .ninf, _ => true
  | _, .pinf => true
  | .fin a, .fin b => decide (a ≤ b)
  | _, _ => false

/-- `<` of floats -/
def Fl.lt : Fl → Fl → Bool
  | .nan, _ => false
  | _, .nan => false
  | a, b => !(b.le a)

/-! ## `:17-136` `quantile` -/

/-- the `interpolation_method` argument -/
inductive Method where
  | fraction | lower | higher | other
  deriving DecidableEq, Repr

/-- `:64-68` counts of NaN, `inf`, `-inf` -/
def nanCount (x : List Fl) : Nat := x.countP (· = .nan)
def infCount (x : List Fl) : Nat := x.countP (· = .pinf)
def ninfCount (x : List Fl) : Nat := x.countP (· = .ninf)

/-- `:75`, `:79` number of finite values -/
def dataLen (x : List Fl) : Nat := x.length - (nanCount x + infCount x + ninfCount x)

/-- `:74-83`: the part of the sorted index that points to finite values -/
def window (x : List Fl) (lsort : List Nat) : List Nat :=
  if ninfCount x + nanCount x + infCount x > 0 then
    (lsort.take (x.length - (nanCount x + infCount x))).drop (ninfCount x)
  else lsort

/-- `:98-100` `_val` of an integer -/
def val (x : List Fl) (win : List Nat) (k : Int) : Except String Fl :=
  match Verif.Cat.npGet win k with
  | none => .error "IndexError"
  | some i =>
    match x[i]? with
    | none => .error "IndexError"
    | some v => .ok v

/-- `:102-104` `_interpolate`; anything but finite values gives NaN (only used on finite ones) -/
def interp : Fl → Fl → Rat → Fl
  | .fin a, .fin b, f => .fin (a + (b - a) * f)
  | _, _, _ => .nan

/-- `int(idx)`: towards zero -/
def trunc (q : Rat) : Int := if 0 ≤ q then q.floor else -((-q).floor)

/-- `:106-125` `_get_score`.  `np.floor` and `np.ceil` return floats, which are no index. -/
def score (m : Method) (x : List Fl) (lsort : List Nat) (p : Rat) : Except String Fl :=
  if dataLen x = 0 then .ok .nan
  else
    let idx := p * ((dataLen x : Rat) - 1)
    let win := window x lsort
    if idx - idx.floor = 0 then val x win (trunc idx)
    else
      match m with
      | .fraction =>
        match val x win (trunc idx) with
        | .error e => .error e
        | .ok a =>
          match val x win (trunc idx + 1) with
          | .error e => .error e
          | .ok b => .ok (interp a b (idx - idx.floor))
      | .lower => .error "IndexError"
      | .higher => .error "IndexError"
      | .other => .error "ValueError"

/-- `:127-136` for a list of fractions -/
def quantile (m : Method) (x : List Fl) (lsort : List Nat) (q : List Rat) : Except String (List Fl) :=
  q.mapM (score m x lsort)

/-! ## Binning -/

/-- `rc.BinsToCutsBSearch`, `rt_bin.py:372` (C++), as documented.  `right`: bins are
right-closed, the first one closed on both sides, everything else is in bin 0.  Otherwise bins
are right-closed as well, and values past the last edge get the number of edges. -/
def cutSearch (right : Bool) (edges : List Fl) (v : Fl) : Nat :=
  let below := edges.countP fun e => e.lt v
  if right then
    match edges.head?, edges.getLast? with
    | some a, some b => if a.le v && v.le b then max 1 below else 0
    | _, _ => 0
  else below

/-- the `labels` argument after `True` is replaced by `None` -/
inductive Labels (L : Type) where
  /-- made from the edges -/
  | auto
  /-- `labels=False` -/
  | none
  | given (l : List L)

/-- a label: `Clipped`, one that was passed in, or made of two (rounded) edges, `:311` -/
inductive Label (L : Type) where
  | clipped
  | given (l : L)
  | between (a b : Fl)
  deriving DecidableEq

/-- `:279-285` `_infer_precision`: the first precision that keeps the edges apart -/
def inferPrecision (rnd : Nat → Fl → Fl) (base : Nat) (edges : List Fl) : Nat :=
  ((List.range' base (20 - base)).find? fun p => decide (((edges.map (rnd p)).dedup).length = edges.length)).getD base

/-- `:290-323` `_format_labels`; `rnd` is `_round_frac` -/
def formatLabels {L : Type} (rnd : Nat → Fl → Fl) (edges : List Fl) (precision : Nat) (clipped : Bool) :
    List (Label L) :=
  let breaks := edges.map (rnd (inferPrecision rnd precision edges))
  (if clipped then [.clipped] else []) ++ (breaks.zip breaks.tail).map fun p => .between p.1 p.2

/-- `rt.unique` of edges in ascending order -/
def uniqueEdges (edges : List Fl) : List Fl := edges.dedup

/-- `:346-358`: `len(unique_bins) < len(bins) != 2` is a chained comparison -/
def checkEdges (edges : List Fl) (drop : Bool) : Except String (List Fl) :=
  if (uniqueEdges edges).length < edges.length ∧ edges.length ≠ 2 then
    if drop then .ok (uniqueEdges edges) else .error "ValueError: Bin edges must be unique"
  else .ok edges

/-- `:379-408`: the labels; `clipped` is `lsort is not None` -/
def makeLabels {L : Type} (rnd : Nat → Fl → Fl) (edges : List Fl) (precision : Nat) (clipped : Bool) :
    Labels L → Except String (Option (List (Label L)))
  | .none => .ok Option.none
  | .auto => .ok (some (formatLabels rnd edges precision clipped))
  | .given l =>
    if l.length ≠ edges.length - 1 then .error "ValueError: Bin labels must be one fewer than the number of bin edges"
    else .ok (some ((if clipped then [.clipped] else []) ++ l.map .given))

/-- what `cut` and `qcut` return: bin numbers, edges and labels (base index 1; none if
`labels=False`) -/
structure Cut (L : Type) where
  codes : List Nat
  edges : List Fl
  labels : Option (List (Label L))
  deriving DecidableEq

/-- `where(filter, x, nan)`: a shorter filter shortens the result, as documented `:482-488` -/
def applyFilter (x : List Fl) : Option (List Bool) → List Fl
  | none => x
  | some f => List.zipWith (fun v b => if b then v else .nan) x f

/-- `np.linspace(mn, mx, k + 1)` -/
def linspace (mn mx : Rat) (k : Nat) : List Fl :=
  (List.range (k + 1)).map fun (i : Nat) => .fin (mn + (i : Rat) * ((mx - mn) / k))

/-- `:653-655`: end points for a constant column -/
def widen (m : Rat) (up : Bool) : Rat :=
  let t := if m ≠ 0 then |m| / 1000 else 1 / 1000
  if up then m + t else m - t

/-- finite values -/
def finites (x : List Fl) : List Rat := x.filterMap fun v => match v with | .fin q => some q | _ => none

/-- `nanmin`, `nanmax` of a nonempty list -/
def minR (l : List Rat) : Option Rat := l.foldl (fun m v => match m with | none => some v | some a => some (min a v)) none
def maxR (l : List Rat) : Option Rat := l.foldl (fun m v => match m with | none => some v | some a => some (max a v)) none

/-- the `bins` argument of `cut` -/
inductive Bins where
  | count (k : Int)
  | edges (l : List Fl)

/-- `:633-665`.  With a count: infinite values or no finite value make the edges NaN, which is
not modelled (an error here). -/
def cutEdges (x : List Fl) : Bins → Except String (List Fl)
  | .edges l =>
    if (l.zip l.tail).any fun p => p.2.lt p.1 then .error "ValueError: bins must increase monotonically."
    else .ok l
  | .count k =>
    if k < 1 then .error "ValueError: `bins` should be a positive integer."
    else if x.length = 0 then .error "ValueError: Cannot cut empty array"
    else if infCount x + ninfCount x > 0 then .error "not modelled"
    else
      match minR (finites x), maxR (finites x) with
      | some mn, some mx =>
        if mn = mx then .ok (linspace (widen mn false) (widen mx true) k.toNat)
        else .ok (linspace mn mx k.toNat)
      | _, _ => .error "not modelled"

/-- `:412-686` `cut` -/
def cut {L : Type} (rnd : Nat → Fl → Fl) (x : List Fl) (bins : Bins) (labels : Labels L) (right : Bool)
    (precision : Nat) (filter : Option (List Bool)) (drop : Bool) : Except String (Cut L) :=
  let x := applyFilter x filter
  match cutEdges x bins with
  | .error e => .error e
  | .ok edges =>
    match checkEdges edges drop with
    | .error e => .error e
    | .ok edges =>
      match makeLabels rnd edges precision false labels with
      | .error e => .error e
      | .ok ls => .ok ⟨x.map (cutSearch right edges), edges, ls⟩

/-- `rc.BinsToCutsSorted`, `:366` (C++): as the examples of `qcut` (`:208-219`) show, bins are
numbered from 2 and 1 stands for values outside.  What it gives for NaN and infinities is left to
`special`. -/
def cutSorted (special : Fl → Nat) (edges : List Fl) (v : Fl) : Nat :=
  match v with
  | .fin _ => cutSearch true edges v + 1
  | _ => special v

/-- the `q` argument of `qcut` -/
inductive Quants where
  | count (k : Nat)
  | fracs (l : List Rat)

/-- `:236-240` -/
def fractions : Quants → List Rat
  | .count k => (List.range (k + 1)).map fun (i : Nat) => (i : Rat) / k
  | .fracs l => l

/-- `:155-261` `qcut` -/
def qcut {L : Type} (rnd : Nat → Fl → Fl) (special : Fl → Nat) (lex : List Fl → List Nat) (x : List Fl)
    (q : Quants) (labels : Labels L) (precision : Nat) (filter : Option (List Bool)) (drop : Bool) :
    Except String (Cut L) :=
  let x := applyFilter x filter
  match quantile .fraction x (lex x) (fractions q) with
  | .error e => .error e
  | .ok edges =>
    match checkEdges edges drop with
    | .error e => .error e
    | .ok edges =>
      match makeLabels rnd edges precision true labels with
      | .error e => .error e
      | .ok ls => .ok ⟨x.map (cutSorted special edges), edges, ls⟩

end Verif.Bin
