import Verif.Member.Model

/-! # Specification of `ismember` -/
namespace Verif.Member

/-- a floating point number with `p` bits: `m * 2 ^ e` -/
def IsFloat (p : Nat) (emin emax : Int) (q : Rat) : Prop :=
  ∃ m e : Int, |m| < 2 ^ p ∧ emin ≤ e ∧ e ≤ emax ∧ q = (m : Rat) * (2 : Rat) ^ e

/-- least and greatest number of an integer type -/
def lo (s : Bool) (w : Width) : Int := if s then -2 ^ (w.bits - 1) else 0
def hi (s : Bool) (w : Width) : Int := if s then 2 ^ (w.bits - 1) - 1 else 2 ^ w.bits - 1

/-- the value is less than all numbers of an integer type, or greater than all -/
def Under (s : Bool) (w : Width) : Num → Prop
  | .num q => q < (lo s w : Rat)
  | .ninf => True
  | _ => False
def Over (s : Bool) (w : Width) : Num → Prop
  | .num q => (hi s w : Rat) < q
  | .pinf => True
  | _ => False

/-- the value can be held by an array of this type -/
def Rep : DT → Num → Prop
  | .int s w, .num q => ∃ z : Int, q = z ∧ lo s w ≤ z ∧ z ≤ hi s w
  | .int _ _, _ => False
  | .f32, .num q => IsFloat 24 (-149) 104 q
  | .f64, .num q => IsFloat 53 (-1074) 971 q
  | _, _ => True

/-- the missing value of a type (documented sentinels) -/
def sentinel : DT → Num
  | .int true w => .num (-2 ^ (w.bits - 1) : Int)
  | .int false w => .num (2 ^ w.bits - 1 : Int)
  | _ => .nan

/-- not missing -/
def Valid (d : DT) (v : Num) : Prop := v ≠ sentinel d

/-- the array is an array -/
def Arr.WF (a : Arr) : Prop := ∀ v ∈ a.vals, Rep a.dt v

/-- the elements are the same: both are the same number, or both are missing integers (NaN is
never the same as anything, as documented) -/
def Same (d : DT) (x : Num) (d' : DT) (y : Num) : Prop :=
  (Valid d x ∧ Valid d' y ∧ x = y) ∨ (d.isInt = true ∧ d'.isInt = true ∧ ¬ Valid d x ∧ ¬ Valid d' y)

/-- what `ismember` promises: where the first same element of `b` is, for every element of `a` -/
def IsFirst (same : Nat → Nat → Prop) (na nb : Nat) (r : List (Option Nat)) : Prop :=
  r.length = na ∧ ∀ i, i < na →
    (∃ j, r[i]? = some (some j) ∧ j < nb ∧ same i j ∧ ∀ k, k < j → ¬ same i k) ∨
    (r[i]? = some none ∧ ∀ k, k < nb → ¬ same i k)

/-- elements at two positions -/
def sameAt (a b : Arr) (i j : Nat) : Prop :=
  ∃ x y, a.vals[i]? = some x ∧ b.vals[j]? = some y ∧ Same a.dt x b.dt y

/-- rows at two positions: the same values in all columns, missing integers taken as numbers -/
def rowsSame (a b : List Arr) (i j : Nat) : Prop :=
  ∀ (k : Nat) (x y : Arr), a[k]? = some x → b[k]? = some y → ∃ v, x.vals[i]? = some v ∧ y.vals[j]? = some v

/-- truncation of a rational towards zero -/
def trunc (q : Rat) : Int := if 0 ≤ q then q.floor else -((-q).floor)

/-- contracts of the conversions: values that fit are kept, missing values stay missing in
`safe`; floats are truncated; integers wrap around -/
structure CastsOK (cs : Casts) : Prop where
  safe_keeps : ∀ d c v, Rep d v → Valid d v → Rep c v → cs.safe d c v = v
  safe_missing : ∀ d c v, Rep d v → ¬ Valid d v → cs.safe d c v = sentinel c
  plain_keeps : ∀ d c v, Rep d v → Rep c v → cs.plain d c v = v
  safe_trunc : ∀ s w q, Rep .f64 (.num q) → Rep (.int s w) (.num (trunc q)) →
    cs.safe .f64 (.int s w) (.num q) = .num (trunc q)
  plain_trunc : ∀ s w q, Rep .f64 (.num q) → Rep (.int s w) (.num (trunc q)) →
    cs.plain .f64 (.int s w) (.num q) = .num (trunc q)
  safe_wrap : ∀ z : Int, 2 ^ 63 ≤ z → z < 2 ^ 64 - 1 →
    cs.safe (.int false .w64) (.int true .w64) (.num z) = .num ((z - 2 ^ 64 : Int) : Rat)

end Verif.Member
