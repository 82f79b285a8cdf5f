import Verif.Arr.Model
import Mathlib.Data.List.Sort
/-!
# Model of `cut_time`, `resample`, `min`, `max` and `diff` of times, `/repo/riptable/rt_datetime.py`

Times are nanoseconds, whole numbers (rows in floating point are exact in this range).
-/
namespace Verif.TimeCut

/-- what a call ends with, besides a result; `running`: a loop has not ended yet -/
inductive Err where
  | value
  | index
  | zero
  | running
  deriving DecidableEq, Repr

def second : Int := 1000000000
def minute : Int := 60 * second
def day : Int := 1440 * minute

/-! ## `cut_time`, lines 5149-5287 -/

/-- `timetuple_to_nsm`, `:5201-5208` -/
def tupleNs : List Int → Option Int
  | [h, m] => some (1000000 * (0 + 1000 * (0 + 60 * (m + 60 * h))))
  | [h, m, s] => some (1000000 * (0 + 1000 * (s + 60 * (m + 60 * h))))
  | [h, m, s, ms] => some (1000000 * (ms + 1000 * (s + 60 * (m + 60 * h))))
  | _ => none

/-- comparison of tuples in Python -/
def tupLe : List Int → List Int → Bool
  | [], _ => true
  | _ :: _, [] => false
  | x :: xs, y :: ys => decide (x < y) || (decide (x = y) && tupLe xs ys)

/-- `buckets`: a length of time (an `int` is a number of minutes, `:5224-5225`), or a list of tuples -/
inductive Buckets where
  | span (ns : Int)
  | edges (l : List (List Int))

/-- `isinstance(buckets, int)`, `:5224-5225` -/
def Buckets.minutes (n : Int) : Buckets := .span (n * minute)

inductive Label where
  | left
  | right
  | other
  deriving DecidableEq

structure Args where
  buckets : Buckets
  start : Option (List Int) := none
  stop : Option (List Int) := none
  pre : Bool := false
  post : Bool := false
  label : Label := .left
  /-- `strftime` with `label_fmt` -/
  fmt : Option (Int → List Char) := none
  nyc : Bool := false

/-- `while now_nsm < end_time_nsm`, `:5255-5257`, at most `fuel` rounds -/
def loop (size stop : Int) : Nat → Int → Option (List Int)
  | 0, _ => none
  | fuel + 1, now => if now < stop then (loop size stop fuel (now + size)).map (now :: ·) else some []

/-- `:5234-5259` -/
def cutPoints (fuel : Nat) (a : Args) : Except Err (List Int) :=
  match a.buckets with
  | .edges l =>
    match (l.insertionSort (fun p q => tupLe p q = true)).mapM tupleNs with
    | none => .error .value
    | some e => .ok e
  | .span size =>
    if a.nyc && a.start.isSome && a.stop.isSome then .error .value
    else
      match (if a.nyc then some (a.start.getD [9, 30]) else a.start), (if a.nyc then some (a.stop.getD [16, 15]) else a.stop) with
      | some s, some t =>
        match tupleNs s, tupleNs t with
        | some s, some t =>
          match loop size t fuel s with
          | none => .error .running
          | some e => .ok (e ++ [t])
        | _, _ => .error .value
      | _, _ => .error .value

/-- `bucket_cut_points.insert(timetuple_to_nsm((0, 0)), 0)` and `append`, `:5261-5265` -/
def addEnds (a : Args) (e : List Int) : List Int :=
  (if a.pre then [0] else []) ++ e ++ (if a.post then [day] else [])

def digit (d : Nat) : Char := Char.ofNat (48 + d % 10)
def two (n : Nat) : List Char := [digit (n / 10), digit n]
def six (n : Nat) : List Char := [digit (n / 100000), digit (n / 10000), digit (n / 1000), digit (n / 100), digit (n / 10), digit n]

/-- formats `%H:%M`, `%H:%M:%S`, `%H:%M:%S.%f` -/
inductive Clock where
  | min
  | sec
  | micro
  deriving DecidableEq

/-- `clock_format_short`, `:6727-6736` -/
def clockShort (e : List Int) : Clock :=
  if e.any (fun t => t % second != 0) then .micro
  else if e.any (fun t => t % minute != 0) then .sec
  else .min

/-- `TimeSpan._strftime`, `:6530-6547`, for times that are not negative.  Parts of a microsecond are cut off here (Python
rounds them). -/
def clockText (c : Clock) (t : Int) : List Char :=
  let n := (t % day).toNat / 1000
  let hm := two (n / 3600000000) ++ [':'] ++ two (n / 60000000 % 60)
  match c with
  | .min => hm
  | .sec => hm ++ [':'] ++ two (n / 1000000 % 60)
  | .micro => hm ++ [':'] ++ two (n / 1000000 % 60) ++ ['.'] ++ six (n % 1000000)

def widthOf (l : List (List Char)) : Nat := l.foldl (fun (w : Nat) (s : List Char) => max w s.length) 0

/-- `bucket_cut_labels[i] = s` on an array of strings: cut to the width of the array -/
def putLabel (l : List (List Char)) (i : Nat) (s : List Char) : Except Err (List (List Char)) :=
  if i < l.length then .ok (l.set i (s.take (widthOf l))) else .error .index

/-- the edges that give names, `:5270-5275` -/
def shownEdges (label : Label) (e : List Int) : Option (List Int) :=
  match label with
  | .right => some e.tail
  | .left => some e.dropLast
  | .other => none

/-- `:5277-5280`; setting the last entry of an empty array is out of bounds as well -/
def withPrePost (a : Args) (l : List (List Char)) : Except Err (List (List Char)) :=
  match (if a.pre then putLabel l 0 ['p', 'r', 'e'] else .ok l) with
  | .error x => .error x
  | .ok l => if a.post then putLabel l (l.length - 1) ['p', 'o', 's', 't'] else .ok l

/-- the labels, `:5267-5280` -/
def labels (a : Args) (e : List Int) : Except Err (List (List Char)) :=
  let text := a.fmt.getD (clockText (clockShort e))
  match shownEdges a.label e with
  | none => .error .value
  | some shown => withPrePost a (shown.map text)

/-- `cut_time`: codes and labels of the Categorical.  `ss` is `searchsorted` (C++), `none` an invalid time. -/
def cutTime (ss : List Int → Option Int → Nat) (fuel : Nat) (a : Args) (times : List (Option Int)) :
    Except Err (List Nat × List (List Char)) :=
  match cutPoints fuel a with
  | .error x => .error x
  | .ok e =>
    match labels a (addEnds a e) with
    | .error x => .error x
    | .ok l => .ok (times.map (fun v => let c := ss (addEnds a e) v; if (addEnds a e).length ≤ c then 0 else c), l)

/-! ## `resample`, lines 6146-6312 -/

/-- `c.isnumeric()`, for ASCII -/
def isDigit (c : Char) : Bool := decide (48 ≤ c.toNat) && decide (c.toNat ≤ 57)

def digitsVal (l : List Char) : Nat := l.foldl (fun (n : Nat) (c : Char) => 10 * n + (c.toNat - 48)) 0

/-- `int(amount)` or `float(amount)`, `:6243-6247`: numerator and denominator; an empty text is the amount 1 -/
def amount (l : List Char) : Option (Nat × Nat) :=
  if l = [] then some (1, 1)
  else if l.all isDigit then some (digitsVal l, 1)
  else
    let a := l.takeWhile isDigit
    let b := (l.dropWhile isDigit).tail
    if b.all isDigit && !(a == [] && b == []) then some (digitsVal (a ++ b), 10 ^ b.length) else none

/-- `str.upper()`, for ASCII -/
def upper (c : Char) : Char := if 97 ≤ c.toNat ∧ c.toNat ≤ 122 then Char.ofNat (c.toNat - 32) else c

/-- `FrequencyStrings`, `:4424-4435`, and `unit_convert_factors`, `:6466-6476` -/
def unitOf (l : List Char) : Option Nat :=
  match l.map upper with
  | ['H'] => some 3600000000000
  | ['T'] => some 60000000000
  | ['M', 'I', 'N'] => some 60000000000
  | ['S'] => some 1000000000
  | ['L'] => some 1000000
  | ['M', 'S'] => some 1000000
  | ['U'] => some 1000
  | ['U', 'S'] => some 1000
  | ['N'] => some 1
  | ['N', 'S'] => some 1
  | _ => none

/-- `parse_rule`, `:6235-6259`, and `step = np.int64(amount * unit)`, `:6281` -/
def stepOf (rule : List Char) : Except Err Int :=
  let num := rule.takeWhile (fun c => isDigit c || c == '.')
  let unit := rule.dropWhile (fun c => isDigit c || c == '.')
  if unit = [] then .error .value
  else
    match amount num, unitOf unit with
    | some (p, q), some u => .ok (((p * u) / q : Nat) : Int)
    | _, _ => .error .value

/-- `min`, `max` of the values in the array, lines 5632, 5671: an invalid time is the number 0 and counts -/
def minOf (ts : List Int) : Option Int := ts.foldl (fun (m : Option Int) (t : Int) => match m with | none => some t | some m => some (min m t)) none
def maxOf (ts : List Int) : Option Int := ts.foldl (fun (m : Option Int) (t : Int) => match m with | none => some t | some m => some (max m t)) none

/-- `arange(start, end, step)`, for `step > 0` -/
def arange (start stop step : Int) : List Int :=
  (List.range ((stop - start + step - 1) / step).toNat).map fun k : Nat => start + (k : Int) * step

/-- `resample`, times in UTC.  With a step of 0 `arange` raises; the remainder by 0 of the other branch is C++, taken to
raise as well.  `self - timediff` (`:6298`) leaves an invalid time (≤ 0) invalid. -/
def resample (rule : List Char) (dropna : Bool) (ts : List Int) : Except Err (List Int) :=
  match stepOf rule with
  | .error x => .error x
  | .ok step =>
    if step = 0 then .error .zero
    else if dropna then .ok (ts.map fun t => if t ≤ 0 then 0 else t - t % step)
    else
      match minOf ts, maxOf ts with
      | some lo, some hi => .ok (arange (lo - lo % step) (hi - hi % step + step) step)
      | _, _ => .error .value

/-! ## `diff`, line 5733 -/

/-- `TimeSpan(self._fa.diff(periods).astype(np.float64))`: numbers are subtracted; places without a partner are invalid
(`none` here), which the conversion keeps -/
def diffTimes (p : Int) (ts : List Int) (junk : List (Option Int)) : Except Verif.Arr.Err (List (Option Int)) :=
  Verif.Arr.diff (fun a b => a.bind fun x => b.map fun y => x - y) none p (ts.map some) junk

end Verif.TimeCut
