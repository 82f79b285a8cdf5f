import Verif.Basic
import Mathlib.Data.Rat.Floor

/-!
# Model of `ismember`, `riptable/rt_numpy.py:432-506`, `:1082-1460`

Numeric arrays.  Not modelled: strings, Categoricals (only the value conversion of
`Categorical.isin`), long doubles, negative zero.  Type characters are taken as types (`'l'` and
`'q'` are both int64).
-/
namespace Verif.Member

/-- a number as arrays hold it -/
inductive Num where
  | num (q : Rat)
  | nan
  | pinf
  | ninf
  deriving DecidableEq

inductive Width where
  | w8 | w16 | w32 | w64
  deriving DecidableEq

def Width.bits : Width → Nat
  | .w8 => 8
  | .w16 => 16
  | .w32 => 32
  | .w64 => 64

/-- the allowed types, `:1255-1257` -/
inductive DT where
  | int (signed : Bool) (w : Width)
  | f32
  | f64
  deriving DecidableEq

/-- `np.iinfo`/`np.finfo` as read by `_get_info`, `:441-446` -/
structure Info where
  min : Int
  max : Int
  prec : Nat

def DT.info : DT → Info
  | .int true w => ⟨-2 ^ (w.bits - 1), 2 ^ (w.bits - 1) - 1, w.bits - 1⟩
  | .int false w => ⟨0, 2 ^ w.bits - 1, w.bits⟩
  | .f32 => ⟨-((2 ^ 24 - 1) * 2 ^ 104), (2 ^ 24 - 1) * 2 ^ 104, 23⟩
  | .f64 => ⟨-((2 ^ 53 - 1) * 2 ^ 971), (2 ^ 53 - 1) * 2 ^ 971, 52⟩

def DT.isInt : DT → Bool
  | .int _ _ => true
  | _ => false

def Width.max (a b : Width) : Width := if a.bits ≤ b.bits then b else a

/-- the signed type that holds all values of the two, `float64` if there is none -/
def mixed (s u : Width) : DT :=
  if u.bits < s.bits then .int true s
  else match u with
    | .w8 => .int true .w16
    | .w16 => .int true .w32
    | .w32 => .int true .w64
    | .w64 => .f64

/-- the float type for an integer width and `float32` -/
def withF32 (w : Width) : DT := if w.bits ≤ 16 then .f32 else .f64

/-- `np.result_type` on the allowed types -/
def resultType : DT → DT → DT
  | .int s1 w1, .int s2 w2 => if s1 = s2 then .int s1 (w1.max w2) else if s1 then mixed w1 w2 else mixed w2 w1
  | .int _ w, .f32 => withF32 w
  | .f32, .int _ w => withF32 w
  | .f32, .f32 => .f32
  | _, _ => .f64

/-- `:453-454` `can_represent` -/
def canRepresent (t target : Info) : Bool :=
  decide (t.min ≥ target.min) && decide (t.max ≤ target.max) && decide (t.prec ≤ target.prec)

/-- `:432-456` `_find_lossless_common_type` -/
def findLossless (d1 d2 : DT) : Option DT :=
  let c := resultType d1 d2
  if canRepresent d1.info c.info && canRepresent d2.info c.info then some c else none

/-- an array -/
structure Arr where
  dt : DT
  vals : List Num

/-- `v < z` -/
def Num.ltInt : Num → Int → Bool
  | .num q, z => decide (q < (z : Rat))
  | .ninf, _ => true
  | _, _ => false

/-- `v > z` -/
def Num.gtInt : Num → Int → Bool
  | .num q, z => decide ((z : Rat) < q)
  | .pinf, _ => true
  | _, _ => false

/-- `:479-487` `_can_coerce` -/
def canCoerce (arr : Arr) (target : DT) : Bool :=
  if !target.isInt then false
  else if decide (arr.dt.info.min < 0) && arr.vals.all (fun v => v.ltInt target.info.min) then false
  else if arr.vals.all (fun v => v.gtInt target.info.max) then false
  else true

/-- `:459-498` `_find_lossless_common_array_type` -/
def findArrayType (a b : Arr) : Option DT :=
  match findLossless a.dt b.dt with
  | some c => some c
  | none => if canCoerce b a.dt then some a.dt else if canCoerce a b.dt then some b.dt else none

/-- conversions from one type to another: `safe` is `FastArray.astype` with the default
`copy=True` (C++, translates missing values), `plain` with `copy=False` (numpy) -/
structure Casts where
  safe : DT → DT → Num → Num
  plain : DT → DT → Num → Num

/-- `:1382-1385` -/
def convert (cast : DT → DT → Num → Num) (a : Arr) (c : DT) : List Num :=
  if a.dt = c then a.vals else a.vals.map (cast a.dt c)

/-- `==` on one type: NaN is not equal to itself -/
def Num.eqv : Num → Num → Bool
  | .nan, _ => false
  | x, y => decide (x = y)

/-- `rc.IsMember32` (C++, documented at `:1188-1250`) on arrays of one type: index of the first
equal element; `none` is the missing index -/
def isMember32 (a b : List Num) : List (Option Nat) := a.map fun x => b.findIdx? fun y => x.eqv y

/-- what is returned: for base index 0 the indices (the mask says where there is one), for base
index 1 indices from 1, with 0 for no match -/
inductive Out where
  | zero (l : List (Option Nat))
  | one (l : List Nat)
  deriving DecidableEq

/-- `rc.IsMemberCategorical` (C++): the same from 1 -/
def toOne (l : List (Option Nat)) : List Nat := l.map fun o => match o with | some j => j + 1 | none => 0

/-- `:1388-1393` -/
def finish (baseIndex : Nat) (l : List (Option Nat)) : Except String Out :=
  if baseIndex = 1 then .ok (.one (toOne l))
  else if baseIndex = 0 then .ok (.zero l)
  else .error "ValueError"

/-- `:1185-1393` `ismember` of two numeric arrays -/
def ismember (cs : Casts) (baseIndex : Nat) (a b : Arr) : Except String Out :=
  if a.vals.length = 0 || b.vals.length = 0 then .ok (.zero (a.vals.map fun _ => none))
  else if a.dt = b.dt then finish baseIndex (isMember32 a.vals b.vals)
  else match findArrayType a b with
    | none => .error "TypeError"
    | some c => finish baseIndex (isMember32 (convert cs.safe a c) (convert cs.safe b c))

/-! ## Several keys -/

/-- `:1126-1180`: one pair of columns of `_ismember_align_multikey` -/
def alignCol (cs : Casts) (p : Arr × Arr) : Except String (List Num × List Num) :=
  if p.1.dt = p.2.dt then .ok (p.1.vals, p.2.vals)
  else match findArrayType p.1 p.2 with
    | none => .error "TypeError"
    | some c => .ok (convert cs.plain p.1 c, convert cs.plain p.2 c)

/-- row `i` of columns -/
def rowAt (cols : List (List Num)) (i : Nat) : List (Option Num) := cols.map fun c => c[i]?

/-- `rc.MultiKeyIsMember32` (C++): index of the first row with equal bytes; `na`, `nb` rows.
NaN is equal to itself here (one bit pattern). -/
def multiIsMember (a b : List (List Num)) (na nb : Nat) : List (Option Nat) :=
  (List.range na).map fun i => (List.range nb).findIdx? fun j => decide (rowAt a i = rowAt b j)

/-- number of rows of columns -/
def rowsOf (l : List Arr) : Nat := match l with | [] => 0 | a :: _ => a.vals.length

/-- `:1308-1329`: `ismember` of two lists of columns.  `len_a`, `len_b` are the numbers of
columns; for one column the call is repeated without the base index (`:1320-1321`), and for
several it is not used (`:1325`). -/
def ismemberKeys (cs : Casts) (_baseIndex : Nat) (a b : List Arr) : Except String Out :=
  if a.length = 0 || b.length = 0 then .ok (.zero (a.map fun _ => none))
  else if a.all (fun x => x.vals.length = 0) then .ok (.zero [])
  else if a.length ≠ b.length then .error "ValueError"
  else match a, b with
    | [x], [y] => ismember cs 0 x y
    | _, _ =>
      match (a.zip b).mapM (alignCol cs) with
      | .error e => .error e
      | .ok l => .ok (.zero (multiIsMember (l.map Prod.fst) (l.map Prod.snd) (rowsOf a) (rowsOf b)))

/-- `:1424-1460` `assoc_copy` for an array: fancy indexing where the missing index gives a missing
value (`inv`); the array is as long as the second keys -/
def assocCopy {V : Type} (inv : V) (arr : List V) (idx : List (Option Nat)) : List V :=
  idx.map fun o => match o with | some j => arr.getD j inv | none => inv

/-! ## `Categorical.isin` with numeric categories -/

/-- `rt_categorical.py:4171-4230`: `rows` are the labels of the rows (`none` for filtered), `cats`
the type of the categories; the values are a Python list of floats, converted to the type of the
categories at `:4217`.  Comparison of labels as documented. -/
def catIsin (cs : Casts) (cats : DT) (rows : List (Option Num)) (values : List Num) : List Bool :=
  rows.map fun r => match r with
    | none => false
    | some x => (values.map (cs.plain .f64 cats)).any fun y => x.eqv y

end Verif.Member
