/-!
# The building blocks of a pandas Categorical (C310)

`riptable/rt_categorical.py`: 129-198 (`categorical_convert`), 202-223 (`make_string_array`); `riptable/rt_enum.py`: 73.

Simplifications: the categories are texts or integers; a code fits its type after one is added (pandas never uses the last number of a
type, as it counts from zero); texts hold no NUL.
-/
namespace Verif.PdCat

/-- categories of pandas: texts, or integers -/
inductive Cats where
  | text (l : List (List Char))
  | int (l : List Int)

/-- the array of labels: bytes or unicode with a width in characters, or integers -/
inductive Labels where
  | bytes (width : Nat) (l : List (List Char))
  | unicode (width : Nat) (l : List (List Char))
  | int (l : List Int)
  deriving DecidableEq, Repr

/-- the width numpy chooses for a list of texts, at least one character -/
def widthOf (l : List (List Char)) : Nat := l.foldr (fun t m => max t.length m) 1

/-- `make_string_array` (207-221): bytes if all characters are ASCII, otherwise unicode; integers stay -/
def makeStringArray : Cats → Labels
  | .int l => .int l
  | .text l => if l.all (fun t => t.all fun c => c.val < 128) then .bytes (widthOf l) l else .unicode (widthOf l) l

/-- a text written in a cell of `w` characters -/
def store (w : Nat) (t : List Char) : List Char := t.take w

def invName : List Char := ['I', 'n', 'v']

/-- 179-183: bytes -/
def invBytes (w : Nat) : List Char := if w = 1 then [] else store w invName
/-- 187-190: unicode, four bytes for a character -/
def invUnicode (w : Nat) : List Char := if w * 4 < 12 then [] else store w invName

/-- `v[-1]` (197): the last row of the pandas Categorical; `none` is not-a-number -/
def lastRow (codes : List Int) (l : List Int) : Option Int :=
  match codes.getLast? with
  | none => none
  | some k => if k < 0 then none else l[k.toNat]?

/-- 164-197: a label in front of the others -/
def insertFirst (codes : List Int) : Labels → Except String Labels
  | .bytes w l => .ok (.bytes w (invBytes w :: l))
  | .unicode w l => .ok (.unicode w (invUnicode w :: l))
  | .int l =>
    match lastRow codes l with
    | none => .error "ValueError: cannot convert float NaN to integer"
    | some v => .ok (.int (v :: l))

def minOf : List Int → Option Int
  | [] => none
  | a :: l => some (l.foldl min a)

/-- `categorical_convert` (150-198) -/
def convert (codes : List Int) (cats : Cats) (base : Int) : Except String (List Int × Labels) :=
  if base ≠ 0 then .ok (codes.map (· + base), makeStringArray cats) else
  match minOf codes with
  | none => .error "ValueError: zero-size array to reduction operation"
  | some m =>
    if m < -1 then .error "TypeError: pandas categorical has an index below -1" else
    if m = -1 then
      match insertFirst codes (makeStringArray cats) with
      | .error e => .error e
      | .ok ls => .ok (codes.map (· + 1), ls)
    else .ok (codes, makeStringArray cats)

/-! ## specification -/

/-- a value shown -/
inductive Val where
  | text (t : List Char)
  | int (v : Int)
  deriving DecidableEq, Repr

def Labels.vals : Labels → List Val
  | .bytes _ l => l.map .text
  | .unicode _ l => l.map .text
  | .int l => l.map .int

def Cats.vals : Cats → List Val
  | .text l => l.map .text
  | .int l => l.map .int

/-- row of a pandas Categorical: code -1 is a missing value -/
def pandasRow (cats : Cats) (k : Int) : Option Val := if k < 0 then none else cats.vals[k.toNat]?

/-- row of codes that count from `base` -/
def shown (base : Int) (ls : Labels) (k : Int) : Option Val := if k < base then none else ls.vals[(k - base).toNat]?

/-- the categories hold a text of at least `n` characters -/
def HasLong (l : List (List Char)) (n : Nat) : Prop := ∃ t ∈ l, n ≤ t.length

/-- the codes of a pandas Categorical -/
def WF (codes : List Int) (cats : Cats) : Prop := ∀ k ∈ codes, -1 ≤ k ∧ k < cats.vals.length

end Verif.PdCat
