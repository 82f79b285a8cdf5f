import Verif.Items.Dict
import Verif.Cat.Stack
/-!
# Model of stacking Datasets (`riptable/rt_hstack.py:165-207`, `:388-594`)

A column has a number of dimensions, a second dimension (for two) and rows; `none` is an invalid row.  Simplified: rows keep
their value when arrays of different dtype are stacked (`hstack` of rt_numpy, C++), and types may always be mixed (the code
warns, or raises TypeError for custom classes, `:433-451`).
-/
namespace Verif.Hstack
open Verif.Items

structure Col (V : Type) where
  dim : Nat
  width : Nat
  vals : List (Option V)
deriving DecidableEq

/-- a Dataset; `nrows` is None as long as it never had a column -/
structure Ds (V : Type) where
  nrows : Option Nat
  cols : Dict Name (Col V)
deriving DecidableEq

variable {V : Type}

/-- `d.setdefault(name, []).append(x)` -/
def pushDict (d : Dict Name (List Nat)) (n : Name) (x : Nat) : Dict Name (List Nat) :=
  Dict.set d n ((Dict.get d n).getD [] ++ [x])

/-- `:414-431`: dimensions and second dimensions of all columns of a name -/
def collect (dss : List (Ds V)) : Dict Name (List Nat) × Dict Name (List Nat) :=
  (dss.flatMap (·.cols)).foldl
    (fun st e => (pushDict st.1 e.1 e.2.dim, if e.2.dim = 2 then pushDict st.2 e.1 e.2.width else st.2)) ([], [])

/-- `len(set(l)) > 1` -/
def several (l : List Nat) : Bool := l.any fun x => decide (some x ≠ l.head?)

/-- `:453-467`: the checks of one name -/
def checkName (ndims shapes : Dict Name (List Nat)) (n : Name) : Except String Unit :=
  let dims := (Dict.get ndims n).getD []
  if several dims then .error "ValueError: multiple dimensions"
  else if dims.headD 0 ≠ 1 ∧ dims.headD 0 ≠ 2 then .error "NotImplementedError"
  else if dims.headD 0 = 2 ∧ several ((Dict.get shapes n).getD []) then .error "ValueError: mismatch in axis-1 length"
  else .ok ()

/-- `_possibly_add_concat_gap` (`:562-594`), 1 and 2 dimensions: `fill_invalid` gives invalid rows -/
def addGap (inv : Nat) (cl : List (List (Option V))) : Nat × List (List (Option V)) :=
  if inv > 0 then (0, cl ++ [List.replicate inv none]) else (inv, cl)

/-- body of the loop over the Datasets (`:486-513`) -/
def colStep (n : Name) (st : Nat × List (List (Option V))) (ds : Ds V) : Nat × List (List (Option V)) :=
  match ds.nrows with
  | none => st
  | some nrows =>
    match Dict.get ds.cols n with
    | some c =>
      let st' := addGap st.1 st.2
      (st'.1, st'.2 ++ [c.vals])
    | none => (st.1 + nrows, st.2)

/-- the column list of a name, stacked (`:478-526`) -/
def stackCol (dss : List (Ds V)) (n : Name) : List (Option V) :=
  let st := dss.foldl (colStep n) (0, [])
  (addGap st.1 st.2).2.flatten

/-- first column of that name: dimensions of the result -/
def firstCol (dss : List (Ds V)) (n : Name) : Option (Col V) := dss.findSome? fun d => Dict.get d.cols n

/-- `_hstack_dataset` (`:388-559`), `destroy=False` -/
def hstackDs (dss : List (Ds V)) : Except String (Ds V) :=
  match dss with
  | [] => .ok ⟨none, []⟩
  | [d] => .ok d
  | dss =>
    let (ndims, shapes) := collect dss
    match ndims.keys.mapM (checkName ndims shapes) with
    | .error e => .error e
    | .ok _ =>
      let newcols := ndims.keys.map fun n =>
        (n, (⟨((firstCol dss n).map (·.dim)).getD 0, ((firstCol dss n).map (·.width)).getD 0, stackCol dss n⟩ : Col V))
      .ok ⟨(newcols.head?).map fun e => e.2.vals.length, newcols⟩

/-- the loop of `hstack_dict` (`:199-204`): `ikey[startpos:endpos] = i + 1` -/
def ikeyLoop (bits : Nat) : Nat → List Nat → Nat → List Int → List Int
  | _, [], _, ikey => ikey
  | i, e :: es, s, ikey => ikeyLoop bits (i + 1) es e (Cat.sliceWrite ikey s (List.replicate (e - s) (Cat.store bits ((i : Int) + 1))))

/-- `int_dtype_from_len` (`rt_enum.py:666-679`) -/
def bitsFromLen (n : Nat) : Nat := if n < 100 then 8 else if n < 30000 then 16 else if n < 2000000000 then 32 else 64

/-- codes of the Categorical returned by `hstack_dict` (`:165-207`), `lens` the lengths of the items -/
def hstackDictCodes (lens : List Nat) (buf : List Int) : List Int :=
  ikeyLoop (bitsFromLen lens.sum) 0 (Cat.cumsum 0 lens) 0 buf

end Verif.Hstack
