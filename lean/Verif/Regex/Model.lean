import Verif.Items.Dict
import Verif.Regex.Call
/-!
# Patterns in arrays of texts (C305 - C307)

`riptable/rt_str.py`: 104-111 (applying a function to the unique values), 954-960 (`regex_match`), 1023-1027 (`regex_replace`),
1116-1158 (`extract`); `riptable/rt_struct.py`: 3019-3061 (`label_filter`), `riptable/rt_numpy.py`: 5526-5566 (`mask_ori`).

Simplifications: Python's `re` is a parameter: it gives for the text of a pattern what a search finds (`Rx`), or nothing if the
pattern is wrong.  Texts are ASCII without trailing zero characters, so bytes and str hold the same texts and making an array from a list keeps
them.  `unique` is a parameter with its contract.  Columns of a Dataset are a dictionary (names that a Dataset refuses are not
modelled).
-/
namespace Verif.Regex
open Verif.Items

inductive Kind where
  | bytes
  | str
deriving DecidableEq, Repr

/-- an array of texts, or one text, with its type -/
structure Arr where
  kind : Kind
  strs : List String
deriving DecidableEq, Repr

structure Txt where
  kind : Kind
  s : String
deriving DecidableEq, Repr

/-- a compiled pattern: the number of groups, the names of groups with their numbers (from 1), what a search finds, what a
search finds as a whole, and `sub` -/
structure Rx where
  groups : Nat
  names : List (String × Nat)
  search : String → Found
  whole : String → Option String
  sub : String → String → String

/-- `_maybe_encode` (116-119) for arrays of bytes (954-955, 1118-1119) -/
def encodeFor (k : Kind) (t : Txt) : Txt := if k = .bytes then ⟨.bytes, t.s⟩ else t

/-- searching needs a pattern of the type of the texts -/
def agrees (arr : Arr) (t : Txt) : Bool := arr.strs.isEmpty || decide (arr.kind = t.kind)

/-- 954-960 `regex_match`; `np.vectorize` refuses arrays without elements -/
def regexMatch (re : String → Option Rx) (arr : Arr) (regex : Txt) : Except String (List Bool) :=
  let t := encodeFor arr.kind regex
  match re t.s with
  | none => .error "re.error"
  | some rx =>
    if arr.strs.isEmpty then .error "ValueError: cannot call vectorize on size 0 inputs" else
    if agrees arr t then .ok (arr.strs.map fun s => (rx.search s).isSome) else .error "TypeError: pattern and text differ in type"

/-- 1023-1027 `regex_replace`: likewise -/
def regexReplace (re : String → Option Rx) (arr : Arr) (regex repl : Txt) : Except String (List String) :=
  let t := encodeFor arr.kind regex
  let r := encodeFor arr.kind repl
  match re t.s with
  | none => .error "re.error"
  | some rx =>
    if arr.strs.isEmpty then .error "ValueError: cannot call vectorize on size 0 inputs" else
    if agrees arr t && agrees arr r then .ok (arr.strs.map fun s => rx.sub r.s s)
    else .error "TypeError: pattern and text differ in type"

/-- 1120-1125: a pattern without groups is put in brackets, which needs `regex.decode()`; texts of type str have no `decode`.  (The call is
repeated with the new pattern, which has a group.) -/
def withGroup (re : String → Option Rx) (k : Kind) (regex : Txt) : Except String (Txt × Rx) :=
  let t := encodeFor k regex
  match re t.s with
  | none => .error "re.error"
  | some rx =>
    if rx.groups = 0 then
      match t.kind with
      | .str => .error "AttributeError: decode"
      | .bytes =>
        match re ("(" ++ t.s ++ ")") with
        | none => .error "re.error"
        | some rx' => .ok (encodeFor k ⟨.str, "(" ++ t.s ++ ")"⟩, rx')
    else .ok (t, rx)

inductive Result where
  | array (l : List Cell)
  | dataset (d : Dict String (List Cell))
deriving DecidableEq, Repr

/-- 1133-1136: the names of the columns -/
def defaultNames (rx : Rx) : List String :=
  rx.names.foldl (fun l e => l.set (e.2 - 1) e.1) ((List.range rx.groups).map fun i => "group_" ++ toString i)

/-- 1132-1138 -/
def namesOf (rx : Rx) : Option (List String) → Except String (List String)
  | none => .ok (defaultNames rx)
  | some ns => if ns.length = rx.groups then .ok ns else .error "ValueError: number of names"

/-- 1147-1151: the cell of group `j` for one text -/
def cellOf (fillna : String) (j : Nat) : Found → Cell
  | none => .text fillna
  | some gs =>
    match gs[j]? with
    | some (some s) => .text s
    | some none => .none
    | none => .text fillna

/-- 1141-1151: the columns -/
def columns (rx : Rx) (fillna : String) (strs : List String) : List (List Cell) :=
  (List.range rx.groups).map fun j => strs.map fun s => cellOf fillna j (rx.search s)

/-- `dict(zip(names, out_arrs))` -/
def dictOf {W : Type} (l : List (String × W)) : Dict String W := l.foldl (fun d e => d.set e.1 e.2) []

/-- 1127-1131: whether a Dataset is made -/
def expandOf (rx : Rx) (expand : Option Bool) (names : Option (List String)) : Except String Bool :=
  match expand with
  | none => .ok (decide (1 < rx.groups) || names.isSome || !rx.names.isEmpty)
  | some b => if !b && decide (1 < rx.groups) then .error "ValueError: expand cannot be False" else .ok b

/-- 1116-1158 `extract` of all texts -/
def extract (re : String → Option Rx) (arr : Arr) (regex : Txt) (expand : Option Bool) (fillna : String)
    (names : Option (List String)) : Except String Result :=
  match withGroup re arr.kind regex with
  | .error e => .error e
  | .ok (t, rx) =>
    match expandOf rx expand names with
    | .error e => .error e
    | .ok ex =>
      match namesOf rx names with
      | .error e => .error e
      | .ok ns =>
        if agrees arr t then
          let cols := columns rx fillna arr.strs
          if ex then .ok (.dataset (dictOf (ns.zip cols)))
          else .ok (.array (cols.headD []))
        else .error "TypeError: pattern and text differ in type"

/-- `result[index]` or `result[index, :]` (109) -/
def takeRows (idx : List Nat) : Result → Result
  | .array l => .array (idx.filterMap fun i => l[i]?)
  | .dataset d => .dataset (d.map fun e => (e.1, idx.filterMap fun i => e.2[i]?))

/-- 104-109 for `extract` -/
def extractUnique (uniq : List String → List String × List Nat) (re : String → Option Rx) (arr : Arr) (regex : Txt)
    (expand : Option Bool) (fillna : String) (names : Option (List String)) : Except String Result :=
  match extract re ⟨arr.kind, (uniq arr.strs).1⟩ regex expand fillna names with
  | .error e => .error e
  | .ok r => .ok (takeRows (uniq arr.strs).2 r)

/-- 104-109 for `regex_match` and `regex_replace` -/
def uniqueOf {W : Type} (uniq : List String → List String × List Nat) (f : Arr → Except String (List W)) (arr : Arr) :
    Except String (List W) :=
  match f ⟨arr.kind, (uniq arr.strs).1⟩ with
  | .error e => .error e
  | .ok l => .ok ((uniq arr.strs).2.filterMap fun i => l[i]?)

/-- `item in x` -/
def inside (a x : String) : Bool := x.toList.tails.any fun t => a.toList.isPrefixOf t

/-- `mask_ori` (5526-5566): one after the other; none at all are refused -/
def maskOr : List (List Bool) → Except String (List Bool)
  | [] => .error "ValueError: Nothing passed"
  | m :: ms => .ok (ms.foldl (List.zipWith (· || ·)) m)

/-- `col.apply(lambda x: item in x)` and `matcher.search(x)`: the text is of type str (3043-3047 encodes a copy and does
not use it), so for bytes TypeError; `np.vectorize` refuses no rows -/
def applyCol (f : String → Bool) (col : Arr) : Except String (List Bool) :=
  if col.strs.isEmpty then .error "ValueError: cannot call vectorize on size 0 inputs" else
  match col.kind with
  | .bytes => .error "TypeError: a bytes-like object is required, not 'str'"
  | .str => .ok (col.strs.map f)

/-- all or the first error -/
def sequence {W : Type} : List (Except String W) → Except String (List W)
  | [] => .ok []
  | .error e :: _ => .error e
  | .ok x :: l =>
    match sequence l with
    | .error e => .error e
    | .ok xs => .ok (x :: xs)

def andThen {W X : Type} (a : Except String W) (f : W → Except String X) : Except String X :=
  match a with
  | .error e => .error e
  | .ok x => f x

/-- one text or a list of texts -/
inductive Texts where
  | one (s : String)
  | many (l : List String)
deriving DecidableEq, Repr

/-- 3033-3035, 3040-3042: a text becomes a list -/
def Texts.list : Texts → List String
  | .one s => [s]
  | .many l => l

/-- truth of `like`: not the empty text and not the empty list -/
def Texts.truth : Texts → Bool
  | .one s => decide (s ≠ "")
  | .many l => !l.isEmpty

/-- `label_filter` (3019-3061) of label columns with texts: which rows are kept -/
def labelFilter (re : String → Option Rx) (labels : List Arr) (items like : Option Texts) (regex : Option String) :
    Except String (List Bool) :=
  if labels.isEmpty then .error "TypeError: Dataset has no label columns" else
  match items, like, regex with
  | some its, none, none => maskOr (labels.flatMap fun c => its.list.map fun a => c.strs.map fun x => decide (a = x))
  | none, some ls, none =>
    if !ls.truth then .error "TypeError: Must pass" else
    andThen (sequence (labels.flatMap fun c => ls.list.map fun a => applyCol (inside a) c)) maskOr
  | none, none, some p =>
    if p = "" then .error "TypeError: Must pass" else
    match re p with
    | none => .error "re.error"
    | some rx => andThen (sequence (labels.map (applyCol fun x => (rx.search x).isSome))) maskOr
  | _, _, _ => .error "TypeError: mutually exclusive"

end Verif.Regex
