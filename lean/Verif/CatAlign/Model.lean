import Verif.Cat.Stack
/-!
# Categoricals with common categories, and keys of two sides (C308, C309)

`riptable/rt_categorical.py`: 6376-6435 (`categories_equal`), 6439-6477 (`align`); `riptable/rt_hstack.py`: 629-651 (the check of the
base index in `_hstack_categorical`); `riptable/rt_utils.py`: 430-499 (`normalize_keys`).  Stacking is that of `Verif.Cat.Stack`.

Simplifications: Categoricals with array categories (a label is the tuple of the keys); converting codes or values to a common data type keeps
them; a Categorical made from an array is a parameter (`mk`) with its contract; arguments of `normalize_keys` that are not lists of
columns (one array, a dictionary, scalars) become such lists first (457-477) and are not modelled.
-/
namespace Verif.CatAlign
open Verif.Cat
variable {L : Type} [DecidableEq L]

structure C (L : Type) where
  base : Nat
  part : Part L

/-- `categories_equal` (6404-6435): one number of categories and one checksum; the base index is not looked at -/
def categoriesEqual (crc : List L → Nat) : List (C L) → Bool
  | [] => false
  | c :: cs => cs.all fun d => decide (c.part.labels.length = d.part.labels.length) && decide (crc c.part.labels = crc d.part.labels)

/-- 629-651: all of one base index -/
def oneBase : List (C L) → Bool
  | [] => false
  | c :: cs => cs.all fun d => decide (c.base = d.base)

/-- `align` (6465-6477); `buf` is uninitialised memory -/
def align (crc : List L → Nat) (g : List L → Grp) (buf : List Int) (cats : List (C L)) : Except String (List (C L)) :=
  if categoriesEqual crc cats then .ok cats else
  if !oneBase cats then .error "TypeError: different values of the 'base index' attribute" else
  match cats with
  | [] => .error "IndexError"
  | c :: _ =>
    match hstackCats crc g c.base (cats.map C.part) buf with
    | none => .error "hstack"
    | some (codes, labels) =>
      .ok ((slices codes 0 (cumsum 0 (cats.map fun c => c.part.codes.length))).map fun s => ⟨c.base, ⟨s, labels⟩⟩)

/-- a key column of one side -/
inductive Col (L : Type) where
  | arr (vals : List L)
  | cat (c : C L)

/-- what is compared in the end: values, or codes -/
inductive NKey (L : Type) where
  | vals (l : List L)
  | codes (l : List Int)

/-- `if not isinstance(c, cls): c = cls(c)` (6406-6407) -/
def Col.toCat (mk : List L → C L) : Col L → C L
  | .arr v => mk v
  | .cat c => c

/-- one pass of the loop 486-497 -/
def normalizePair (crc : List L → Nat) (g : List L → Grp) (mk : List L → C L) (buf : List Int) (a b : Col L) :
    Except String (NKey L × NKey L) :=
  match a, b with
  | .arr x, .arr y => .ok (.vals x, .vals y)
  | a, b =>
    match align crc g buf [a.toCat mk, b.toCat mk] with
    | .error e => .error e
    | .ok [c, d] => .ok (.codes c.part.codes, .codes d.part.codes)
    | .ok _ => .error "ValueError: unpack"

/-- `normalize_keys` (482-499): `zip` of the columns of both sides; `buf t` is the uninitialised memory of column `t` -/
def normalizeKeys (crc : List L → Nat) (g : List L → Grp) (mk : List L → C L) :
    List (List Int) → List (Col L) → List (Col L) → Except String (List (NKey L × NKey L))
  | buf :: bufs, a :: as, b :: bs =>
    match normalizePair crc g mk buf a b with
    | .error e => .error e
    | .ok p =>
      match normalizeKeys crc g mk bufs as bs with
      | .error e => .error e
      | .ok ps => .ok (p :: ps)
  | _, _, _ => .ok []

/-- the comparison of row `i` of one side with row `j` of the other in one column -/
def NKey.eqAt : NKey L → NKey L → Nat → Nat → Prop
  | .vals x, .vals y, i, j => x[i]? = y[j]?
  | .codes x, .codes y, i, j => x[i]? = y[j]?
  | _, _, _, _ => False

/-! ## specification -/

/-- what a column shows in row `i`: `none` outside, `some none` for a filtered row -/
def Col.shows : Col L → Nat → Option (Option L)
  | .arr v, i => v[i]?.map some
  | .cat c, i => c.part.codes[i]?.map (label? c.base c.part.labels)

/-- contract of a Categorical made from an array -/
structure MkOK (mk : List L → C L) : Prop where
  base : ∀ v, (mk v).base = 1
  wf : ∀ v, (mk v).part.WF 1
  rows : ∀ v, (mk v).part.rows 1 = v.map some

end Verif.CatAlign
