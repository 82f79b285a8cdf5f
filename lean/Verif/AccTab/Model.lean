import Verif.AccTab.Spec
import Verif.Cat.Model
/-!
# Model of `/repo/riptable/rt_accumtable.py`

Datasets are in a heap, since an `AccumTable` keeps the Dataset it is given and renames things in
it.  Operations of Datasets used here: `col_rename` (`rt_itemcontainer.py:409-440`: summary tags
and footers stay with the column), footers (`rt_dataset.py:5396-5689`, `Verif/Foot`), arithmetic
of two Datasets (`rt_dataset.py:2512-2604`, `Verif/Cols`), `trim` (`Verif/Trim`; here the filters
it finds are given).  One label column.  `none`: it raises.  Not modelled: display, `format` and
`ref_table` (not used by the code), categories that are not strings.
-/
namespace Verif.AccTab
open Verif.Items (Name Dict)

variable {L V : Type}

/-! ## Datasets -/

/-- new name of a column -/
def newName (old new n : Name) : Name := if n = old then new else n

/-- keys of a dictionary renamed -/
def renameKeys {β : Type} (old new : Name) (d : Dict Name β) : Dict Name β := d.map fun e => (newName old new e.1, e.2)

/-- `col_rename`, `rt_itemcontainer.py:409-440` -/
def colRename (t : Tab L V) (old new : Name) : Option (Tab L V) :=
  if old = new then some t
  else if t.cols.has old = false then none
  else if new = t.key ∨ t.cols.has new = true then none
  else some { t with
    cols := renameKeys old new t.cols
    summ := t.summ.map (newName old new)
    foot := t.foot.map fun f => (f.1, renameKeys old new f.2) }

/-- `footer_set_values`, `rt_dataset.py:5613-5689` -/
def footerSet (foot : Dict Name (Dict Name V)) (label : Name) (vals : Dict Name V) : Dict Name (Dict Name V) :=
  foot.set label (vals.foldl (fun (d : Dict Name V) (e : Name × V) => d.set e.1 e.2) ((foot.get label).getD []))

/-- `rt_accumtable.py:292-297` -/
def renameFooter (name : Name) (t : Tab L V) : Tab L V :=
  match t.foot with
  | [f] => { t with foot := footerSet [] name f.2 }
  | _ => t

/-- `_rename_summary_row_and_col`, `rt_accumtable.py:276-298` -/
def renameSummary (t : Tab L V) (name : Name) : Option (Tab L V) :=
  match t.summ with
  | [s] => (colRename t s name).map (renameFooter name)
  | _ => some (renameFooter name t)

/-! ## AccumTable -/

/-- an `AccumTable`: `_inner`, `_cols`, `_rows` -/
structure AT where
  inner : Dict Name Nat
  margins : List Name
  footers : List Name
  deriving DecidableEq, Repr

/-- a new `AccumTable` -/
def AT.new : AT := ⟨[], [], []⟩

/-- keys of an ordered dictionary to which a key is added -/
def addKey (l : List Name) (n : Name) : List Name := if n ∈ l then l else l ++ [n]

/-- `at[name] = ds`, `rt_accumtable.py:240-248`, for the Dataset at address `a` -/
def setItem (h : List (Tab L V)) (t : AT) (name : Name) (a : Nat) : Option (List (Tab L V) × AT) :=
  match h[a]? with
  | none => none
  | some d => (renameSummary d name).map fun d' =>
    (h.set a d', ⟨t.inner.set name a, addKey t.margins name, addKey t.footers name⟩)

/-- `set_margin_columns` and `set_footer_rows`, `rt_accumtable.py:579-581`, `:717-719` -/
def setMargins (t : AT) (ns : List Name) : AT := { t with margins := ns.foldl addKey [] }
@[inherit_doc setMargins] def setFooters (t : AT) (ns : List Name) : AT := { t with footers := ns.foldl addKey [] }

/-- rows of a column where the mask holds; no mask is `slice(None)` -/
def pick {α : Type} (rf : Option (List Bool)) (l : List α) : List α :=
  match rf with
  | none => l
  | some m => ((l.zip m).filter fun p => p.2).map Prod.fst

/-- `orig.copy().trim(ret_filters=True)` or `orig.copy()`, `rt_accumtable.py:417-422`; `rf` is the
row filter, `cf` says which columns are kept -/
def clean (t : Tab L V) (rf : Option (List Bool)) (cf : Name → Bool) : Tab L V :=
  { t with
    rows := pick rf t.rows
    cols := (t.cols.filter fun e => cf e.1).map fun e => (e.1, pick rf e.2)
    summ := t.summ.filter cf
    foot := t.foot.map fun f => (f.1, f.2.filter fun e => cf e.1) }

/-- the Dataset called `n` -/
def AT.ds (h : List (Tab L V)) (t : AT) (n : Name) : Option (Tab L V) := (t.inner.get n).bind fun a => h[a]?

/-- one margin column, `rt_accumtable.py:427-428`; a column of another length raises.  (A margin with
the name of the label column would replace the labels; this is taken for an exception.) -/
def addMargin (h : List (Tab L V)) (at' : AT) (rf : Option (List Bool)) (o : Option (Tab L V × List Name)) (m : Name) :
    Option (Tab L V × List Name) :=
  o.bind fun s => ((at'.ds h m).bind fun d => d.cols.get m).bind fun v =>
    if (pick rf v).length = s.1.rows.length ∧ m ≠ s.1.key then
      some ({ s.1 with cols := s.1.cols.set m (pick rf v) }, s.2 ++ [m])
    else none

/-- one footer row, `rt_accumtable.py:433-437` -/
def addFooter (h : List (Tab L V)) (at' : AT) (o : Option (Tab L V)) (f : Name) : Option (Tab L V) :=
  o.bind fun s => ((at'.ds h f).bind fun d => d.foot.get f).map fun fd =>
    { s with foot := footerSet s.foot f (fd.filter fun e => s.cols.has e.1) }

/-- `summary_set_names`, `rt_itemcontainer.py:630-641`: only columns that exist are tagged -/
def setSumm (t : Tab L V) (ns : List Name) : Tab L V := { t with summ := ns.filter fun n => t.cols.has n }

/-- `gen`, `rt_accumtable.py:410-439`, with a name -/
def gen (h : List (Tab L V)) (t : AT) (name : Name) (rf : Option (List Bool)) (cf : Name → Bool) : Option (Tab L V) :=
  (t.ds h name).bind fun orig =>
    ((t.margins.filter fun m => m ≠ name).foldl (addMargin h t rf) (some (clean orig rf cf, (clean orig rf cf).summ))).bind fun s =>
      (t.footers.filter fun f => f ≠ name).foldl (addFooter h t) (some (setSumm s.1 s.2))

/-! ## Arithmetic of two tables -/

/-- the position of the summary columns -/
def summPos (t : Tab L V) : List Nat := t.summ.map fun n => t.cols.keys.idxOf n

/-- `_labels_footers_summaries_conform`, `rt_dataset.py:2561-2604`, for tables with one label
column, which comes first -/
def conform (a b : Tab L V) : Bool :=
  a.foot.length = b.foot.length ∧ (a.foot ≠ [] → a.cols.length = b.cols.length) ∧
  ((a.summ = [] ∧ b.summ = []) ∨ (a.summ ≠ [] ∧ b.summ ≠ [] ∧ summPos a = summPos b ∧
    summPos a = (List.range a.cols.length).drop (a.cols.length - a.summ.length)))

/-- `"Summary" + str(i)` -/
def summaryName (i : Nat) : Name := "Summary".toList ++ Nat.toDigits 10 i

/-- the loop of `_operate_iter_input_cols`, `rt_dataset.py:2527-2541` -/
def opCols (op : V → V → V) (conf : Bool) (a b : Tab L V) : Nat → Dict Name (List V) → Dict Name (List V) → Option (Dict Name (List V))
  | _, od, [] => some od
  | k, od, (n, c) :: cs =>
    let s := conf && decide (n ∈ a.summ)
    let n' := if s then summaryName k else n
    match b.cols.get (if s then b.summ.getD k [] else n) with
    | none => opCols op conf a b (if s then k + 1 else k) (od.set n' c) cs
    | some v => if v.length = c.length then
        opCols op conf a b (if s then k + 1 else k) (od.set n' (List.zipWith op c v)) cs
      else none

/-- one row of footers, `rt_dataset.py:2546-2556`, `:2482-2500`: the values along the columns,
under the new names of the columns -/
def opFoot (op : V → V → V) (nan : V) (a b : Tab L V) (fa fb : Dict Name V) : Dict Name V :=
  let names := a.cols.keys.map fun n => if n ∈ a.summ then summaryName ((a.cols.keys.filter fun m => m ∈ a.summ).idxOf n) else n
  let va := a.cols.keys.map fun n => (fa.get n).getD nan
  let vb := b.cols.keys.map fun n => (fb.get n).getD nan
  (names.zip (List.zipWith op va vb)).foldl (fun (d : Dict Name V) (e : Name × V) => d.set e.1 e.2) []

/-- `a op b`, `rt_dataset.py:2512-2559`, for tables with the same rows -/
def binop (op : V → V → V) (nan : V) (a b : Tab L V) : Option (Tab L V) :=
  let conf := conform a b
  (opCols op conf a b 0 [] a.cols).map fun od =>
    { key := a.key
      rows := a.rows
      cols := od
      summ := if conf then (List.range a.summ.length).map summaryName else []
      foot := if conf then ((a.foot.zip b.foot).zip (List.range a.foot.length)).map fun p =>
          ("Footer".toList ++ Nat.toDigits 10 p.2, opFoot op nan a b p.1.1.2 p.1.2.2)
        else [] }

/-! ## `accum_ratio` -/

def nNumer : Name := "Numer".toList
def nDenom : Name := "Denom".toList
def nRatio : Name := "Ratio".toList

/-- `rt_accumtable.py:1005-1021`: from the two tables `func1(val1)`, `func2(val2)` -/
def ratio (op : V → V → V) (nan : V) (num den : Tab L V) (incN incD : Bool) (rf : Option (List Bool)) (cf : Name → Bool) :
    Option (Tab L V) :=
  (setItem [num, den] AT.new nNumer 0).bind fun s1 =>
  (setItem s1.1 s1.2 nDenom 1).bind fun s2 =>
  ((s2.2.ds s2.1 nNumer).bind fun x => (s2.2.ds s2.1 nDenom).bind fun y => binop op nan x y).bind fun q =>
  (setItem (s2.1 ++ [q]) s2.2 nRatio 2).bind fun s3 =>
    let fs := (if incN then [nNumer] else []) ++ if incD then [nDenom] else []
    gen s3.1 (setFooters (setMargins s3.2 fs) fs) nRatio rf cf

/-- one of the names in the way, `rt_accumtable.py:1000-1002` -/
def avoid (o : Option Cat.Cat) (k : Name) : Option Cat.Cat :=
  o.bind fun c => if k ∈ c.list then
      match Cat.categoryReplace c k (k ++ ['_']) with
      | (c', none) => some c'
      | (_, some _) => none
    else some c

/-- `accum_ratio`, `rt_accumtable.py:996-1021`: also what has become of `cat2`.  `num` and `den`
calculate the two tables for given labels of the columns. -/
def accumRatio (op : V → V → V) (nan : V) (cat2 : Cat.Cat) (num den : List Name → Tab L V) (incN incD : Bool)
    (rf : Option (List Bool)) (cf : Name → Bool) : Option (Tab L V × Cat.Cat) :=
  ([nNumer, nDenom, nRatio].foldl avoid (some cat2)).bind fun c =>
    (ratio op nan (num c.uniq) (den c.uniq) incN incD rf cf).map fun t => (t, c)

/-! ## `accum_ratiop` -/

def nTR : Name := "TotalRatio".toList
def nTotal : Name := "Total".toList

/-- `keys`, `rt_accumtable.py:1293-1297` -/
def normKeys (t : Tab L V) : List Name := t.cols.keys.filter fun n => n ∉ t.summ ∨ n = nTR

/-- all values of a column against one value -/
def normCol (pct : V → V → V) (o : Option (Dict Name (List V))) (total : Name → Option V) (n : Name) : Option (Dict Name (List V)) :=
  o.bind fun cols => (cols.get n).bind fun v => (total n).map fun t => cols.set n (v.map fun x => pct x t)

/-- all values of a column against the column `TotalRatio` as it is now -/
def normRow (pct : V → V → V) (o : Option (Dict Name (List V))) (n : Name) : Option (Dict Name (List V)) :=
  o.bind fun cols => (cols.get n).bind fun v => (cols.get nTR).map fun t => cols.set n (List.zipWith pct v t)

/-- `rt_accumtable.py:1299-1321`; `pct x y` is `100 * x / y` -/
def normalize (pct : V → V → V) (hundred : V) (by' : Norm) (t : Tab L V) : Option (Tab L V) :=
  (t.foot.get nTR).bind fun f =>
  match by' with
  | .T => (f.get nTR).bind fun total =>
      ((normKeys t).foldl (fun o n => normCol pct o (fun _ => some total) n) (some t.cols)).map fun cols =>
        { t with cols := cols, foot := footerSet t.foot nTR (f.map fun e => (e.1, pct e.2 total)) }
  | .R => (f.get nTR).bind fun total =>
      ((normKeys t).foldl (normRow pct) (some t.cols)).map fun cols =>
        { t with cols := cols, foot := footerSet t.foot nTR (f.map fun e => (e.1, pct e.2 total)) }
  | .C => ((normKeys t).foldl (fun o n => normCol pct o f.get n) (some t.cols)).map fun cols =>
        { t with cols := cols, foot := footerSet t.foot nTR (f.map fun e => (e.1, hundred)) }

/-- `accum_ratiop`, `rt_accumtable.py:1283-1323`: `x` is the table of `func(val)`, calculated anew
each time -/
def ratiop (pct : V → V → V) (hundred : V) (by' : Norm) (x : Tab L V) (incTotal : Bool) (rf : Option (List Bool)) (cf : Name → Bool) :
    Option (Tab L V) :=
  (setItem [x, x] AT.new nTR 0).bind fun s1 =>
  (if incTotal then setItem s1.1 s1.2 nTotal 1 else some s1).bind fun s2 =>
  (gen s2.1 s2.2 nTR rf cf).bind (normalize pct hundred by')

/-! ## `accum_cols` -/

def nOne : Name := "NotGrouped".toList

/-- one entry of `val_list`, with the table or the two tables calculated for it (one column,
`NotGrouped`) -/
inductive Val (L V : Type) where
  | plain (t : Tab L V)
  | pct (t : Tab L V)
  | ratio (num den : Tab L V)

/-- `curr_data`, `rt_accumtable.py:1631-1642` -/
def current (op pct : V → V → V) (nan hundred : V) : Val L V → Option (Tab L V)
  | .plain t => some t
  | .pct t => ratiop pct hundred .T t false none fun _ => true
  | .ratio n d => ratio op nan n d false true none fun _ => true

/-- one round of the loop, `rt_accumtable.py:1643-1652` -/
def addCol (op pct : V → V → V) (nan hundred zero : V) (o : Option (Option (Tab L V))) (e : Val L V × Name) : Option (Option (Tab L V)) :=
  o.bind fun r => (current op pct nan hundred e.1).bind fun t => (t.cols.get nOne).bind fun v =>
    match t.foot with
    | [] => none
    | f :: _ =>
      let r0 := r.getD ⟨t.key, t.rows, [], [], []⟩
      if v.length = r0.rows.length ∧ e.2 ≠ r0.key then
        some (some { r0 with cols := r0.cols.set e.2 v
                             foot := footerSet r0.foot nTotal [(e.2, (f.2.get nOne).getD zero)] })
      else none

/-- `accum_cols`, `rt_accumtable.py:1625-1657`, without `remove_blanks`.  A name equal to that of the
label column would replace the labels; this is taken for an exception here. -/
def accumCols (op pct : V → V → V) (nan hundred zero : V) (vals : List (Val L V)) (names : List Name) : Option (Tab L V) :=
  ((vals.zip names).foldl (addCol op pct nan hundred zero) (some none)).bind id

end Verif.AccTab
