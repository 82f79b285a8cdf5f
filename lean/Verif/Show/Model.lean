import Verif.Show.Spec
/-!
# Tables shown as text (C314 - C321)

`riptable/rt_display.py`: 310-328 (`build_row_mask`), 470-512 (rows of a table), 1194-1265 (`build_column`), 1268-1308
(`add_required_columns`), 1311-1424 (`fit_max_columns`), 1427-1448 (`all_columns_console`), 1503-1553 (`build_transposed_columns`),
902-923 (`fix_repeated_keys`), 1099-1165 (`fix_multiline_headers`), 710-718 (colour of sort columns), 786-790 (colour of columns below
several lines of headers), 1020-1090 (headers and footers), 1770-1849 (`DisplayConsoleTable`), 1893-1947 (`DisplayColumn`), 2203-2251 (plain cells);
`riptable/rt_dataset.py`: 5692-5753 (`_prepare_display_data`).

Simplifications: plain text only, no colours, no HTML and no callbacks; cells are texts already (formatting an item is the business of its
array); a column says how its cells are aligned; footers are texts. Masks are in range.
-/
namespace Verif.Show

/-! ## rows -/

/-- `build_row_mask` (310-328): indices of rows, and the place of the break -/
def rowMask (all : Bool) (head tail total : Nat) : List Nat × Option Nat :=
  if head + tail ≥ total ∨ all = true then (List.range total, none)
  else (List.range head ++ (List.range tail).map (total - tail + ·), some head)

/-- 487-512: the mask of a table, with or without a sort; with all rows `head` is the number of rows -/
def tableMask (all : Bool) (head tail total : Nat) (sorted : Option (List Nat)) : List Nat × Option Nat :=
  let m := rowMask all (if all then total else head) (if all then 0 else tail) total
  match sorted with
  | none => m
  | some s => (m.1.map fun i => s.getD i 0, m.2)

def pick (column : List Text) (mask : List Nat) : List Text := mask.map fun i => column.getD i []

/-- cells of `build_column` (1222-1248) -/
def columnCells (mask : List Nat) (rowBreak : Option Nat) (masked : Bool) (column : List Text) : List Text :=
  let mask := if masked then List.range column.length else mask
  match rowBreak with
  | some b => pick column (mask.take b) ++ dots :: pick column (mask.drop b)
  | none => pick column mask

/-! ## columns -/

inductive Just where
  | left | right | center
  deriving DecidableEq

/-- a column of data: header, cells of all rows, footers, alignment -/
structure Col where
  header : Text
  data : List Text
  foot : Option (List Text)
  just : Just
  deriving DecidableEq

/-- a column to be shown (1893-1947) -/
structure Shown where
  header : Text
  cells : List Text
  foot : Option (List Text)
  just : Just
  width : Nat
  deriving DecidableEq

def longest (l : List Text) : Nat := l.foldl (fun m t => max m t.length) 0

/-- 1914-1927: the width of a column -/
def maxWidth (header : Text) (cells : List Text) (foot : Option (List Text)) : Nat :=
  let w := if cells.length > 0 then longest cells else header.length
  match foot with
  | none => max w header.length
  | some f => max (max w header.length) (longest f)

/-- `build_column` (1194-1265) -/
def buildColumn (mask : List Nat) (rowBreak : Option Nat) (masked : Bool) (c : Col) : Shown :=
  let cells := columnCells mask rowBreak masked c.data
  { header := c.header, cells := cells, foot := c.foot, just := c.just, width := maxWidth c.header cells c.foot }

/-- the loop of `fit_max_columns` (1355-1405): `b` and `e` are `colbegin` and `colend + 1`; columns on the left, on the right, whether there is
a break, and the width counted. `pad` is added to every width (1947). -/
def fitLoop (pad console : Nat) (force : Bool) (cols : List Shown) (b e total : Nat) (left right : List Shown) :
    List Shown × List Shown × Bool × Nat :=
  if h : (total ≤ console ∨ force = true) ∧ b < e then
    match cols[b]?, cols[e - 1]? with
    | some c, some l =>
      if total + (c.width + pad) > console ∧ force = false then (left, right, true, total)
      else if b + 1 ≥ e then (left ++ [c], right, false, total + (c.width + pad))
      else if total + (c.width + pad) + (l.width + pad) > console ∧ force = false then (left ++ [c], right, true, total + (c.width + pad))
      else fitLoop pad console force cols (b + 1) (e - 1) (total + (c.width + pad) + (l.width + pad)) (left ++ [c]) (l :: right)
    | _, _ => (left, right, false, total)
  else (left, right, false, total)
termination_by e - b
decreasing_by omega

/-- `build_break_column` (1325-1333) -/
def breakColumn (nrows : Nat) (rowBreak : Option Nat) (nfoot : Option Nat) : Shown :=
  buildColumn [] rowBreak true { header := dots, data := List.replicate nrows dots, foot := some (List.replicate (nfoot.getD 1) dots), just := .left }

/-- `fit_max_columns` (1311-1424): columns shown, and how many of them are left (with the break) and right -/
def fitMax (pad console : Nat) (force : Bool) (cols : List Shown) (total : Nat) (brk : Shown) : List Shown × Nat × Nat :=
  let r := fitLoop pad console force cols 0 cols.length total [] []
  let left := if r.2.2.1 then r.1 ++ [brk] else r.1
  (left ++ r.2.1, left.length, r.2.1.length)

/-- `all_columns_console` (1427-1448): tables below each other; the sets before the last, the last and its width -/
def columnSets (pad console offset : Nat) (cols : List Shown) : List (List Shown) :=
  let r := cols.foldl (fun (s : List (List Shown) × List Shown × Nat) c =>
    if s.2.2 + (c.width + pad) > console then (s.1 ++ [s.2.1], [c], offset + (c.width + pad))
    else (s.1, s.2.1 ++ [c], s.2.2 + (c.width + pad))) ([], [], offset)
  r.1 ++ [r.2.1]

/-- 710-718: painting the sort columns fails if there are fewer columns than sort keys -/
def paintSorted (nkeys : Nat) (shown : List Shown) : Except String Unit :=
  if nkeys ≤ shown.length then .ok () else .error "IndexError: list index out of range"

/-! ## lines -/

/-- `align_console_string` (2228-2251) -/
def align (t : Text) (width : Nat) : Just → Text
  | .right => List.replicate (width - t.length) ' ' ++ t
  | .left => t ++ List.replicate (width - t.length) ' '
  | .center => List.replicate ((width - t.length) / 2) ' ' ++ t ++ List.replicate ((width - t.length + 1) / 2) ' '

/-- `plain_string_list` (2203-2214) -/
def plainCells (c : Shown) : List Text := c.cells.map fun t => align t c.width c.just

/-- Python's `zip` of lists -/
def zipAll {A : Type} (ls : List (List A)) : List (List A) :=
  match ls with
  | [] => []
  | l :: r => (List.range (r.foldl (fun m x => min m x.length) l.length)).map fun i => (l :: r).filterMap (·[i]?)

/-- `str.join` -/
def joinWith (sep : Text) : List Text → Text
  | [] => []
  | p :: r => r.foldl (fun s q => s ++ sep ++ q) p

def spacer : Text := [' ', ' ', ' ']

/-- `build_data` (1833-1849): parts without rows are left out, the rows of the parts are zipped -/
def dataLines (parts : List (List (List Text))) : List Text :=
  (zipAll (parts.filter fun p => p.length ≠ 0)).map fun row => joinWith spacer row.flatten

/-- `_build_end` and `build_header` (1978-2033), plain -/
def headerCells (cols : List Shown) : List Text := cols.map fun c => align c.header c.width c.just

/-- `build_footer`, plain: a column without footer gives one `None`, which is not shown (859-862) -/
def footerCells (cols : List Shown) : List (List Text) :=
  zipAll (cols.map fun c => match c.foot with
    | none => [[]]
    | some f => f.map fun t => align t c.width .right)

/-- the whole table (771-773, 832-883, 1062-1075, 1798-1831): headers, border, rows and footers -/
def tableLines (left main right : List Shown) (hasFoot : Bool) : List Text :=
  let border := joinWith spacer ((left ++ main ++ right).map fun c => List.replicate c.width '-')
  let part := fun (cs : List Shown) => zipAll (cs.map plainCells)
  [joinWith spacer (headerCells (left ++ main ++ right)), border] ++ dataLines [part left, part main, part right] ++
    if hasFoot = true ∧ (footerCells (left ++ main ++ right)).length ≠ 0 then
      border :: (footerCells (left ++ main ++ right)).map (joinWith spacer) else []

/-- `fix_repeated_keys` (902-923) for the first key column -/
def fixRepeated : List Text → List Text
  | [] => []
  | a :: l => a :: (l.foldl (fun (s : List Text × Text) t => if t = s.2 then (s.1 ++ [['.']], s.2) else (s.1 ++ [t], t)) ([], a)).1

/-! ## several lines of headers -/

/-- 1108-1133: the left headers for `n` columns (without the break): the loop, with the number of columns passed -/
def leftHeads {N : Type} (brk : N) (n : Nat) : (done : List (N × Nat)) → (idx : Nat) → List (N × Nat) → Option (List (N × Nat))
  | _, _, [] => none
  | done, idx, h :: r =>
    if idx + h.2 < n then leftHeads brk n (done ++ [h]) (idx + h.2) r
    else some (done ++ [if idx + h.2 = n then h else (h.1, n - idx), (brk, 1)])

/-- 1135-1158: the right headers for `n` columns; the list is walked from its end -/
def rightHeads {N : Type} (n : Nat) : (done : List (N × Nat)) → (idx : Nat) → List (N × Nat) → Option (List (N × Nat))
  | _, _, [] => none
  | done, idx, h :: r =>
    if idx + h.2 < n then rightHeads n (h :: done) (idx + h.2) r
    else some ((if idx + h.2 > n then (h.1, n - idx) else h) :: done)

/-- `lst[-n:]` -/
def lastN {A : Type} (l : List A) (n : Nat) : List A := if n = 0 then l else l.drop (l.length - n)

/-- `fix_multiline_headers` (1099-1165): both lines of headers; `nl` are the columns on the left with the break. `none`: a name is unbound -/
def fixHeads {N : Type} (brk : N) (top : List (N × Nat)) (bottom : List N) (nl nr : Nat) : Option (List (N × Nat) × List N) :=
  match leftHeads brk (nl - 1) [] 0 top, rightHeads nr [] 0 top.reverse with
  | some l, some r => some (l ++ r, bottom.take (nl - 1) ++ brk :: lastN bottom nr)
  | _, _ => none

/-- 786-790: painting the columns below the headers -/
def paintHeads {N : Type} (bottom : List N) (shown : List Shown) : Except String Unit :=
  if bottom.length ≤ shown.length then .ok () else .error "IndexError: list index out of range"

/-! ## transposed -/

/-- `build_transposed_columns` (1503-1553): the texts of every line, and the widths; `start` is the width of the left column -/
def transposed (console start nrows : Nat) (cols : List (List Text)) : List (List Text) × List Nat :=
  let t := min 15 nrows
  let lines := cols.map fun c => c.take t
  let widths := (List.range t).map fun i => longest (lines.map fun c => c.getD i [])
  let fit := (widths.foldl (fun (s : Nat × Nat × Bool) w =>
    if s.2.2 then s else if s.1 + (w + 3) > console then (s.1 + (w + 3), s.2.1, true) else (s.1 + (w + 3), s.2.1 + 1, false)) (start, 0, false)).2.1
  (lines.map fun c => c.take fit, widths.take fit)

/-! ## what is shown of a Dataset -/

/-- `_prepare_display_data` (5692-5753): names of the columns on the left, and of all others, in order; `numbers`: a callback gives the row numbers -/
def shownNames (cols labels sortkeys right : List Text) (sortOn numbers : Bool) : List Text × List Text :=
  let leftkeys := if labels.length = 0 then (if numbers then [] else [['#']]) else labels
  let sorts := if sortOn then sortkeys else []
  (leftkeys, sorts ++ cols.filter (fun c => decide (c ∉ leftkeys) && decide (c ∉ right) && decide (c ∉ sorts)) ++ right)

/-- a row of footers (5721-5744): the label below the last column on the left -/
def footerRow (nleft : Nat) (label : Text) (foot : Text → Option Text) (names : List Text) : List Text :=
  (if nleft < 2 then [] else List.replicate (nleft - 1) []) ++ label :: names.map fun c => (foot c).getD []

/-- 583-585, 618-619 and 640-648: the footers of the left, main and right columns -/
def splitFooter (nleft nright : Nat) (row : List Text) : List Text × List Text × List Text :=
  let r := row.drop nleft
  (row.take nleft, r.take (r.length - nright), row.drop (row.length - nright))

end Verif.Show
