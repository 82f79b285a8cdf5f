import Verif.Basic
/-!
# Specification: cutting times of day into buckets, rounding times (C130 to C136)
-/
namespace Verif.TimeCut.Spec

/-- `e`: `start`, `start + size`, ... as long as before `stop`, then `stop` -/
def IsGrid (start stop size : Int) (e : List Int) : Prop :=
  ∃ n : Nat, e.length = n + 1 ∧ (∀ k : Nat, k < n → e[k]? = some (start + k * size) ∧ start + k * size < stop) ∧
    e[n]? = some stop ∧ stop ≤ start + n * size

/-- time `t` is in bucket `k`: after the edge `k`, not after the next one -/
def InBucket (e : List Int) (t : Int) (k : Nat) : Prop :=
  ∃ lo hi, e[k]? = some lo ∧ e[k + 1]? = some hi ∧ lo < t ∧ t ≤ hi

/-- the codes of a cut: 1 for the first bucket, 0 for times in no bucket -/
def IsCut (e : List Int) (times : List (Option Int)) (codes : List Nat) : Prop :=
  codes.length = times.length ∧ ∀ (i : Nat) (v : Option Int), times[i]? = some v → ∃ c, codes[i]? = some c ∧
    (∀ k, c = k + 1 ↔ ∃ t, v = some t ∧ InBucket e t k) ∧
    (c = 0 ↔ ∀ t, v = some t → (∀ lo, e.head? = some lo → t ≤ lo) ∨ (∀ hi, e.getLast? = some hi → hi < t))

/-- the edge a bucket is called after -/
def Named (right : Bool) (e : List Int) (k : Nat) (t : Int) : Prop := (e[if right then k + 1 else k]?) = some t

/-- fields of a tuple `(h, m)`, `(h, m, s)` or `(h, m, s, ms)` in their ranges -/
def Usual (t : List Int) : Prop :=
  ∃ h m s ms, (t = [h, m] ∧ s = 0 ∧ ms = 0 ∨ t = [h, m, s] ∧ ms = 0 ∨ t = [h, m, s, ms]) ∧
    0 ≤ h ∧ 0 ≤ m ∧ m < 60 ∧ 0 ≤ s ∧ s < 60 ∧ 0 ≤ ms ∧ ms < 1000

/-- nanoseconds since midnight of a time of day -/
def sinceMidnight (h m s ms : Int) : Int := h * 3600000000000 + m * 60000000000 + s * 1000000000 + ms * 1000000

/-- `r` is `t` rounded down to a multiple of `step` -/
def IsFloor (step t r : Int) : Prop := step ∣ r ∧ r ≤ t ∧ t < r + step

/-- the codes for units of time, in nanoseconds -/
def units : List (List Char × Nat) :=
  [(['H'], 3600000000000), (['T'], 60000000000), (['M', 'I', 'N'], 60000000000), (['S'], 1000000000), (['L'], 1000000), (['M', 'S'], 1000000),
   (['U'], 1000), (['U', 'S'], 1000), (['N'], 1), (['N', 'S'], 1)]

/-- `r`: the multiples of `step` from the one below the first time to the one below the last time -/
def IsRange (step : Int) (ts r : List Int) : Prop :=
  (∀ k : Int, k ∈ r ↔ step ∣ k ∧ (∃ t ∈ ts, t < k + step) ∧ ∃ t ∈ ts, k ≤ t) ∧ r.Pairwise (· < ·)

end Verif.TimeCut.Spec
