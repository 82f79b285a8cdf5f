import Verif.Matlab.Spec
/-!
# Turning matlab columns into Categoricals (C347 - C350)

`riptable/rt_struct.py`: 1916-1996 (`make_matlab_categoricals`), 3421-3480 (`col_rename`), 3512-3640 (`col_remove`, missing names warn);
`riptable/rt_itemcontainer.py`: 409-440 (`item_rename`).

Simplifications: `pname[len(prefix):]` is the name the prefix was put before; the texts are arrays of texts; indices are whole numbers, and
the Categorical has them as codes; an item that is neither an array of indices nor a Categorical raises; warnings and the printed line are
left out. `method` says which names are attributes of the class (`hasattr` finds them before columns), `valid` is `is_valid_colname`.
-/
namespace Verif.Matlab

structure Cfg where
  pre : Name
  keep : Bool
  strip : Bool
  method : Name → Bool
  valid : Name → Bool
  cap : Name → Name

/-- `rc.RemoveTrailingSpaces` for one text -/
def rstrip (s : Text) : Text := (s.reverse.dropWhile fun c => c == ' ').reverse

/-- the categories (1962-1964) -/
def shown (cfg : Cfg) (names : List Text) : List Text := if cfg.strip then names.map rstrip else names

def get (cols : Cols) (n : Name) : Option Val := (cols.find? fun c => c.1 == n).map Prod.snd

/-- `col_set_value` -/
def setVal (n : Name) (v : Val) : Cols → Cols
  | [] => [(n, v)]
  | c :: cs => if c.1 = n then (n, v) :: cs else c :: setVal n v cs

/-- `col_remove` -/
def del (cols : Cols) (n : Name) : Cols := cols.filter fun c => c.1 != n

def names (cols : Cols) : List Name := cols.map Prod.fst

/-- `col_rename`; `none`: it raises -/
def rename (cfg : Cfg) (cols : Cols) (old new : Name) : Option Cols :=
  if old = new then some cols
  else if cfg.valid new = false then none
  else if (names cols).contains old = false then none
  else if (names cols).contains new then none
  else some (cols.map fun c => if c.1 = old then (new, c.2) else c)

/-- one array of texts (1944-1994): the columns, and whether it raised -/
def one (cfg : Cfg) (cols : Cols) (k : Name) (texts : List Text) : Cols × Bool :=
  if cfg.method (cfg.pre ++ k) then (cols, true)
  else match get cols (cfg.pre ++ k) with
    | none => (cols, false)
    | some (.cat _ _) => (cols, false)
    | some .other => (cols, true)
    | some (.idx codes) =>
      if cfg.keep then (setVal (cfg.pre ++ k) (.cat codes (shown cfg texts)) cols, false)
      else match rename cfg (del cols k) (cfg.pre ++ k) k with
        | some cols2 => (setVal k (.cat codes (shown cfg texts)) cols2, false)
        | none => match rename cfg (del cols k) (cfg.pre ++ k) (cfg.cap k) with
          | some cols2 => (setVal (cfg.cap k) (.cat codes (shown cfg texts)) cols2, false)
          | none => (del cols k, true)

/-- `make_matlab_categoricals` -/
def convert (cfg : Cfg) : List (Name × List Text) → Cols → Cols × Bool
  | [], cols => (cols, false)
  | (k, texts) :: rest, cols =>
    match one cfg cols k texts with
    | (cols', true) => (cols', true)
    | (cols', false) => convert cfg rest cols'
end Verif.Matlab
