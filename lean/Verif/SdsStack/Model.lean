import Verif.Cat.StackMap
import Verif.SdsStack.Spec
/-!
# Stacking saved Datasets: model

`load_sds(files, stack=True)` calls `rc.MultiStackFiles` (C++, not in the repository) and rebuilds the columns from the
result and the meta data of the files (`rt_sds.py:1253-1322`, `:1374-1449`).
-/
namespace Verif.SdsStack
open Verif.Items Verif.Cat
variable {L : Type} [DecidableEq L]

/-- meta data of one column (`item_meta`): class, or mode and base index of a Categorical -/
inductive Meta where
  | other (cls : Nat)
  | arr (base : Nat)
  | map
deriving DecidableEq

/-- The content of an .sds file of a Dataset.  `orig` are the arrays with the flag `OriginalContainer`, `aux` the arrays of
categories; simplified: the several category arrays of a multi-key Categorical are one array of tuples, and the two arrays
of a mapping are kept as a mapping. -/
structure SFile (L : Type) where
  rows : Nat
  orig : Dict Name (List Int)
  aux : Dict Name (List L)
  maps : Dict Name Mapping
  metas : List (Name × Meta)

/-- `name + "!col_" + str(i)` (`rt_categorical.py:3704`) -/
def auxName (n : Name) : Name := n ++ ['!', 'c', 'o', 'l', '_', '0']

/-- the mapping made of pairs of codes and labels -/
def mappingOf (ps : List (Int × Label)) : Mapping := ⟨ps, ps.map fun e => (e.2, e.1)⟩

def metaOf : Kind L → Option Meta
  | .plain 0 => none
  | .plain (c + 1) => some (.other (c + 1))
  | .arr base _ => some (.arr base)
  | .map _ => some .map

def labelsOf : Kind L → Option (List L)
  | .arr _ labels => some labels
  | _ => none

def mapsOf : Kind L → Option Mapping
  | .map ps => some (mappingOf ps)
  | _ => none

/-- saving a Dataset: the underlying array of every column (`rt_sds.py:3589-3746` reads them back), the categories
(`rt_categorical.py:3640-3705`) and the meta data of every column that is not a plain FastArray -/
def save (t : Table L) : SFile L where
  rows := t.rows
  orig := t.cols.map fun e => (e.1, e.2.vals)
  aux := t.cols.filterMap fun e => (labelsOf e.2.kind).map fun l => (auxName e.1, l)
  maps := t.cols.filterMap fun e => (mapsOf e.2.kind).map fun m => (auxName e.1, m)
  metas := t.cols.filterMap fun e => (metaOf e.2.kind).map fun m => (e.1, m)

/-- result of `rc.MultiStackFiles`: stacked arrays with their cutoffs, and the meta data of the files -/
structure Stacked (L : Type) where
  orig : List (Name × List Int × List Nat)
  aux : List (Name × List L × List Nat)
  maps : List (Name × List Mapping)
  metas : List (List (Name × Meta))

/-- Contract of `rc.MultiStackFiles`: the arrays of one name one after the other, names in the order of first occurrence, and
the cumulated lengths.  A file without the array of a column counts as so many invalids as it has rows, a file without an
array of categories as an empty one.  Simplified: one invalid integer `inv` for all widths. -/
def multiStack (inv : Int) (files : List (SFile L)) : Stacked L where
  orig := (files.flatMap fun f => f.orig.map (·.1)).eraseDups.map fun n =>
    (n, files.flatMap fun f => (f.orig.get n).getD (List.replicate f.rows inv), cumsum 0 (files.map fun f => f.rows))
  aux := (files.flatMap fun f => f.aux.map (·.1)).eraseDups.map fun n =>
    (n, files.flatMap fun f => (f.aux.get n).getD [], cumsum 0 (files.map fun f => ((f.aux.get n).getD []).length))
  maps := (files.flatMap fun f => f.maps.map (·.1)).eraseDups.map fun n =>
    (n, files.map fun f => (f.maps.get n).getD ⟨[], []⟩)
  metas := files.map (·.metas)

/-- `indices[k]`, `k` an integer array (`rc.MBGet`) -/
def mbAt (inv : Int) (a : List Int) (k : Int) : Int := (npGet a k).getD inv

/-- `_multistack_categoricals`, first part (`rt_sds.py:1259-1270`): rows of files without the column get code 0 -/
def fixGaps (inv : Int) (icut : List Nat) (indices : List Int) : List Int :=
  if icut.length > 1 then
    let firstindex := (icut.drop 1).map fun c : Nat => mbAt inv indices ((c : Int) - 1)
    if firstindex.any (fun k : Int => k = inv) ∨ indices[0]? = some inv then
      indices.map fun k : Int => if k = inv then 0 else k
    else indices
  else indices

def Meta.isOther : Meta → Bool
  | .other _ => true
  | _ => false

/-- `m["instance_vars"]["mode"]`: only the two families of modes are distinguished -/
def Meta.isMap : Meta → Bool
  | .map => true
  | _ => false

/-- the new codes are kept in the type `int_dtype_from_len(max(uikey))` (`rt_grouping.py:369-384`, `rt_enum.py:666-679`), which
wraps around silently; simplified: 64 bits are not limited -/
def narrow (n : Nat) (k : Int) : Int :=
  if n < 100 then Int.bmod k 256 else if n < 30000 then Int.bmod k 65536 else if n < 2000000000 then Int.bmod k 4294967296 else k

/-- `_multistack_categoricals` (`rt_sds.py:1253-1322`); `buf n`: an uninitialised array of `n` integers -/
def multistackCats (crc : List L → Nat) (crcI : List Int → Nat) (crcS : List Label → Nat) (g : List L → Grp) (buf : Nat → List Int)
    (inv : Int) (metas : List Meta) (indices : List Int) (icut : List Nat) (aux : List (List L × List Nat)) (maps : List (List Mapping)) :
    Except Err (Column L) :=
  let indices := fixGaps inv icut indices
  if metas.any Meta.isOther then .error .key                                -- no "mode"
  else if metas.any Meta.isMap ∧ ¬ metas.all Meta.isMap then .error .type   -- `:1277`
  else if metas.all Meta.isMap then                                         -- `:1287-1299`
    match maps with
    | [ms] => .ok ⟨.map (hstackMaps crcI crcS ms).i2s, indices⟩
    | _ => .error .key
  else match metas with
    | .arr base :: rest =>
      if rest.all (fun m => m = .arr base) then                             -- `:1303`
        match aux with
        | [(labels, ucut)] => match mergeCats crc g base indices labels icut ucut (buf indices.length) with
          | some (codes, newcats) => .ok ⟨.arr base newcats, codes.map (narrow (newcats.length + base - 1))⟩
          | none => .error .value
        | _ => .error .key
      else .error .type
    | _ => .error .key

/-- `itemname[: itemname.find("!")]` (`:1425`); without `!` the last character is cut off -/
def specName (n : Name) : Name := if '!' ∈ n then n.takeWhile (· ≠ '!') else n.dropLast

/-- `spec_meta[name]` (`:1390-1398`) -/
def specMeta (metas : List (List (Name × Meta))) (n : Name) : List Meta :=
  metas.flatMap fun l => (l.filter fun e => e.1 = n).map (·.2)

/-- One column of `_multistack_items` (`rt_sds.py:1374-1449`): a plain array, the class of the first meta data, or a
Categorical rebuilt at the end; the three passes over the dictionaries are done name by name. -/
def stackColumn (crc : List L → Nat) (crcI : List Int → Nat) (crcS : List Label → Nat) (g : List L → Grp) (buf : Nat → List Int)
    (inv : Int) (s : Stacked L) (o : Name × List Int × List Nat) : Except Err (Name × Column L) :=
  match specMeta s.metas o.1 with
  | [] => .ok (o.1, ⟨.plain 0, o.2.1⟩)
  | .other cls :: _ => .ok (o.1, ⟨.plain cls, o.2.1⟩)                       -- `metalist[0]`, `:1411-1418`
  | ms => match multistackCats crc crcI crcS g buf inv ms o.2.1 o.2.2
        ((s.aux.filter fun a => specName a.1 = o.1).map (·.2)) ((s.maps.filter fun a => specName a.1 = o.1).map (·.2)) with
    | .ok c => .ok (o.1, c)
    | .error e => .error e

/-- `_multistack_items` on the result of `rc.MultiStackFiles` -/
def stackItems (crc : List L → Nat) (crcI : List Int → Nat) (crcS : List Label → Nat) (g : List L → Grp) (buf : Nat → List Int)
    (inv : Int) (files : List (SFile L)) : Except Err (List (Name × Column L)) :=
  (multiStack inv files).orig.mapM (stackColumn crc crcI crcS g buf inv (multiStack inv files))

end Verif.SdsStack
