import Verif.Items.Dict
/-!
# Model of `/repo/riptable/rt_pdataset.py`: a Dataset in partitions

A Dataset is the list of its rows, with the names of its columns where they matter.
`concat_rows` of Datasets with the same columns is the concatenation of their rows
(`Verif/Hstack` is about the columns).  Not modelled: loading of files, display, `pgroupby`.
-/
namespace Verif.PDs
open Verif.Items (Name Dict)

/-- the cached Categorical: codes, `none` where nothing was written, and categories -/
structure PCat where
  codes : List (Option Nat)
  labels : List Name
  deriving DecidableEq, Repr

/-- `PDataset`: `_all_items`, `_pcutoffs`, `_pnames`, `_pcat` -/
structure PDS (R : Type) where
  cols : List Name
  rows : List R
  cutoffs : List Nat
  pnames : Dict Name Nat
  pcat : Option PCat
  deriving DecidableEq, Repr

variable {R : Type}

/-! ## Names of partitions -/

/-- `_auto_pnames`, `rt_pdataset.py:281-285` -/
def autoNames (n : Nat) : List Name := (List.range n).map fun i => 'p' :: Nat.toDigits 10 i

/-- `char >= 48 and char <= 58`, `rt_pdataset.py:183` -/
def digitLike (c : Char) : Bool := decide (48 ≤ c.toNat) && decide (c.toNat ≤ 58)

/-- `numbastring` of the reversed names, `rt_pdataset.py:154-157`: rows of the same width,
filled up with zeros -/
def padded (fs : List Name) : List Name :=
  let w := (fs.map List.length).foldl max 1
  fs.map fun f => f.reverse ++ List.replicate (w - f.length) (Char.ofNat 0)

/-- `match_mask`, `rt_pdataset.py:160-166`: where some row differs from the first -/
def diffMask (r0 : Name) (rs : List Name) : List Bool :=
  (List.range r0.length).map fun j => rs.any fun r => r[j]? != r0[j]?

/-- `rt_pdataset.py:168-172`, `:174-177`: `i` after `for i in range(from, len): if m[i] == b: break`,
where `i` is `dflt` before -/
def scan (m : List Bool) (b : Bool) (start dflt : Nat) : Nat :=
  if m.length ≤ start then dflt
  else ((List.range' start (m.length - start)).find? fun i => m[i]? == some b).getD (m.length - 1)

/-- `rt_pdataset.py:180-186` -/
def extendDown (r0 : Name) : Nat → Nat
  | 0 => 0
  | s + 1 => if (r0[s]?.map digitLike).getD false then extendDown r0 s else s + 1

/-- `rt_pdataset.py:189-194` -/
def extendUp (r0 : Name) (e : Nat) : Nat := e + ((r0.drop e).takeWhile digitLike).length

/-- `rt_pdataset.py:203-206`: the bytes as a string (zeros at the end cut off), reversed back -/
def cut (s e : Nat) (r : Name) : Name :=
  (((r.drop s).take (e - s)).reverse.dropWhile fun c => c = Char.ofNat 0)

/-- the names found when there is more than one file, `rt_pdataset.py:159-210`; `none` when
the code falls through -/
def manyNames (fs : List Name) : Option (List Name) :=
  match padded fs with
  | [] => none
  | r0 :: rs =>
    let m := diffMask r0 rs
    let start0 := scan m true 0 0
    let end0 := scan m false (start0 + 1) start0
    let s := extendDown r0 start0
    let e := extendUp r0 end0
    if s < e && (r0[s]?.map digitLike).getD false && (r0[e - 1]?.map digitLike).getD false then
      let ps := (r0 :: rs).map (cut s e)
      if ps.Nodup then some ps else none
    else none

/-- the name found for a single file, `rt_pdataset.py:214-233` -/
def singleName (f : Name) : Option Name :=
  let r := f.reverse
  let rest := r.dropWhile fun c => !c.isDigit
  match rest with
  | [] => none
  | c :: _ =>
    if rest.all Char.isDigit then some [c] else some (rest.takeWhile Char.isDigit).reverse

/-- `_filenames_to_pnames`, `rt_pdataset.py:144-239` -/
def fileNames (fs : List Name) : List Name :=
  match fs with
  | [] => autoNames 0
  | [f] => match singleName f with
    | some n => [n]
    | none => autoNames 1
  | _ => (manyNames fs).getD (autoNames fs.length)

/-- `{p: i for i, p in enumerate(pnames)}`, `rt_pdataset.py:133`, `:138` -/
def nameDict (ps : List Name) : Dict Name Nat :=
  (ps.zip (List.range ps.length)).foldl (fun (d : Dict Name Nat) (p : Name × Nat) => d.set p.1 p.2) []

/-! ## Construction -/

/-- `_post_init` and `_init_pnames_filenames`, `rt_pdataset.py:106-141`, `:293-316` -/
def make (cols : List Name) (rows : List R) (cutoffs : Option (List Nat)) (filenames : List Name)
    (pnames : Option (List Name)) : PDS R :=
  let cs := cutoffs.getD [rows.length]
  let ps := pnames.getD (if filenames = [] then autoNames cs.length else fileNames filenames)
  ⟨cols, rows, cs, nameDict ps, none⟩

/-- `cumsum` -/
def cumsum : Nat → List Nat → List Nat
  | _, [] => []
  | a, n :: ns => (a + n) :: cumsum (a + n) ns

/-- `PDataset(list of Datasets)`, `rt_pdataset.py:255-262`; `none`: it raises for an empty
list (`:252`) -/
def ofList (cols : List Name) (dss : List (List R)) (filenames : List Name)
    (pnames : Option (List Name)) : Option (PDS R) :=
  if dss = [] then none
  else some (make cols dss.flatten (some (cumsum 0 (dss.map List.length)))
    filenames (some (pnames.getD (if filenames = [] then autoNames dss.length else fileNames filenames))))

/-! ## Partitions -/

/-- `a[i]` for an integer `i` -/
def pyGet {α : Type} (a : List α) (i : Int) : Option α :=
  if 0 ≤ i then a[i.toNat]? else if -(a.length : Int) ≤ i then a[(a.length + i).toNat]? else none

/-- `pcount`, `rt_pdataset.py:396` -/
def pcount (d : PDS R) : Nat := d.cutoffs.length

/-- `prows`, `rt_pdataset.py:123-127`: `_prows[1:] -= _pcutoffs[:-1]`, computed once -/
def prows (cutoffs : List Nat) : List Nat :=
  List.zipWith (fun a b => a - b) cutoffs (0 :: cutoffs)

/-- `pslice`, `rt_pdataset.py:628-648`; `none`: it raises -/
def pslice (d : PDS R) (i : Int) : Option (Nat × Nat) :=
  if i = 0 then (pyGet d.cutoffs i).map fun b => (0, b)
  else match pyGet d.cutoffs (i - 1), pyGet d.cutoffs i with
    | some a, some b => some (a, b)
    | _, _ => none

/-- rows `a:b` -/
def sliceRows (rows : List R) (s : Nat × Nat) : List R := (rows.drop s.1).take (s.2 - s.1)

/-- `partition` with an integer, `rt_pdataset.py:663-665` -/
def partition (d : PDS R) (i : Int) : Option (List R) := (pslice d i).map (sliceRows d.rows)

/-- `pnames`, `rt_pdataset.py:414` -/
def names (d : PDS R) : List Name := d.pnames.map Prod.fst

/-- `pdict`, `rt_pdataset.py:470` -/
def pdict (d : PDS R) : Option (List (Name × Nat × Nat)) :=
  ((names d).zip (List.range (names d).length)).mapM fun p => (pslice d (p.2 : Int)).map fun s => (p.1, s)

/-- `piter`, `rt_pdataset.py:598-601`, run to the end; `none`: it raises on the way -/
def piter (d : PDS R) : Option (List (Name × List R)) :=
  (List.range (pcount d)).mapM fun (i : Nat) => match (names d)[i]?, partition d i with
    | some n, some r => some (n, r)
    | _, _ => none

/-- `idx[slice] = v` -/
def writeSlice (codes : List (Option Nat)) (s : Nat × Nat) (v : Nat) : List (Option Nat) :=
  codes.mapIdx fun r c => if s.1 ≤ r ∧ r < s.2 then some v else c

/-- the loop body `idx[self.pslice(i)] = i + 1`, `rt_pdataset.py:520` -/
def writePart (d : PDS R) (cs : List (Option Nat)) (i : Nat) : List (Option Nat) :=
  match pslice d i with
  | some s => writeSlice cs s (i + 1)
  | none => cs

/-- `pcat`, `rt_pdataset.py:512-524`: the Categorical and the PDataset with it cached -/
def pcat (d : PDS R) : PCat × PDS R :=
  match d.pcat with
  | some c => (c, d)
  | none =>
    let codes := (List.range (pcount d)).foldl (writePart d) (List.replicate d.rows.length none)
    (⟨codes, names d⟩, { d with pcat := some ⟨codes, names d⟩ })

/-- what a Categorical with base index 1 shows in each row -/
def shown (c : PCat) : List (Option Name) :=
  c.codes.map fun k => match k with
    | some (k + 1) => c.labels[k]?
    | _ => none

/-- `prow_labeler`, `rt_pdataset.py:539-540`: the name shown for a row number;
`searchsorted(side="right")` counts the cutoffs up to and including the row number -/
def rowLabel (d : PDS R) (r : Nat) : Option Name :=
  (names d)[(d.cutoffs.filter fun c => c ≤ r).length]?

/-- a key for `[]` -/
inductive Key where
  | str (n : Name)
  | int (k : Int)
  deriving DecidableEq, Repr

/-- what `[]` gives -/
inductive Got (R : Type) where
  | column (n : Name)
  | part (rows : List R)
  | error
  deriving DecidableEq, Repr

/-- `str(k)` -/
def intName (k : Int) : Name := if k < 0 then '-' :: Nat.toDigits 10 k.natAbs else Nat.toDigits 10 k.natAbs

/-- the second half of `__getitem__`, `rt_pdataset.py:691-698` -/
def byName (d : PDS R) (n : Name) : Got R :=
  match d.pnames.get n with
  | none => .error
  | some i => match partition d i with
    | some r => .part r
    | none => .error

/-- `__getitem__`, `rt_pdataset.py:674-698`, with a name or an integer; columns first
(`rt_dataset.py:1456-1463`, `rt_struct.py:792-794`) -/
def getItem (d : PDS R) : Key → Got R
  | .str n => if n ∈ d.cols then .column n else byName d n
  | .int k => match pyGet d.cols k with
    | some n => .column n
    | none => byName d (intName k)

/-- `set_pnames`, `rt_pdataset.py:416-450`; `none`: it raises -/
def setPnames (d : PDS R) (ps : List Name) : Option (PDS R) :=
  if ps.length = d.pnames.length then
    if (nameDict ps).length = d.pnames.length then some { d with pnames := nameDict ps } else none
  else none

/-! ## Operations of Dataset on a PDataset -/

/-- `copy`, `rt_pdataset.py:319-332` -/
def copy (d : PDS R) : PDS R := { d with pcat := none }

/-- rows at these positions -/
def takeRows (rows : List R) (idx : List Nat) : List R := idx.filterMap fun i => rows[i]?

/-- `filter(rowfilter, inplace=True)`, `rt_dataset.py:983-989`: the rest of the PDataset is
not touched -/
def filterInplace (d : PDS R) (idx : List Nat) : PDS R := { d with rows := takeRows d.rows idx }

/-- `sort_inplace`, `rt_dataset.py:4096-4109`, given the order found -/
def sortInplace (d : PDS R) (order : List Nat) : PDS R := { d with rows := takeRows d.rows order }

/-- `sort_copy`, `rt_dataset.py:4111-4128`: `type(self)(newdict)` -/
def sortCopy (d : PDS R) (order : List Nat) : PDS R := make d.cols (takeRows d.rows order) none [] none

end Verif.PDs
