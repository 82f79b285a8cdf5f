import Verif.TimeCut.Labels
import Verif.TimeCut.Resample
/-!
# Cutting and rounding times: examples, and where the code does something else
-/
namespace Verif.TimeCut
open Verif.TimeCut.Spec

/-- a `searchsorted` that meets the contract -/
def refSearch (e : List Int) : Option Int → Nat
  | some t => e.countP (fun x => x < t)
  | none => e.length

theorem refSearch_ok : SearchOK refSearch := by
  refine ⟨fun e t _ => rfl, fun e => Or.inr (le_refl e.length)⟩

/-- 9:30 to 10:15 in buckets of 15 minutes -/
def exArgs : Args := { buckets := .minutes 15, start := some [9, 30], stop := some [10, 15] }

example : ∃ (N : Nat) (e : List Int), IsGrid 34200000000000 36900000000000 900000000000 e ∧ ∀ fuel, N ≤ fuel →
    ∃ r, cutTime refSearch fuel exArgs [some 34300000000000, none, some 36900000000000] = .ok r ∧
      IsResult exArgs e [some 34300000000000, none, some 36900000000000] r :=
  cutTime_span refSearch_ok (size := 900000000000) rfl (by decide) rfl rfl rfl rfl (by decide) (by decide) (by decide) (by decide) (by decide) _

/-- what comes out -/
example : cutTime refSearch 9 exArgs [some 34300000000000, none, some 36900000000000, some 35100000000000, some 35100000000001, some 40000000000000] =
    .ok ([1, 0, 3, 1, 2, 0], ["09:30".toList, "09:45".toList, "10:00".toList]) := by decide +kernel

example : cutTime refSearch 9 { exArgs with pre := true, post := true, label := .right } [some 34300000000000, some 36900000000001, some 1] =
    .ok ([2, 5, 1], ["pre".toList, "09:45".toList, "10:00".toList, "10:15".toList, "post".toList]) := by decide +kernel

example : ∃ e, e.Pairwise (· ≤ ·) ∧ (∀ n, n ∈ e ↔ ∃ t ∈ [[12, 0], [9, 30, 5], [9, 30]], tupleNs t = some n) ∧ e.length = 3 ∧
    ∃ r, cutTime refSearch 0 { buckets := .edges [[12, 0], [9, 30, 5], [9, 30]] } [some 34300000000000] = .ok r ∧
      IsResult { buckets := .edges [[12, 0], [9, 30, 5], [9, 30]] } e [some 34300000000000] r := by
  refine cutTime_list refSearch_ok (l := [[12, 0], [9, 30, 5], [9, 30]]) rfl ?_ (by decide) (by decide) (by decide) 0 _
  intro t ht
  simp only [List.mem_cons, List.not_mem_nil, or_false] at ht
  rcases ht with rfl | rfl | rfl
  · exact ⟨12, 0, 0, 0, Or.inl ⟨rfl, rfl, rfl⟩, by decide⟩
  · exact ⟨9, 30, 5, 0, Or.inr (Or.inl ⟨rfl, rfl⟩), by decide⟩
  · exact ⟨9, 30, 0, 0, Or.inl ⟨rfl, rfl, rfl⟩, by decide⟩

/-- the names of the example are different -/
example (r : List Nat × List (List Char)) (h : IsResult exArgs [34200000000000, 35100000000000, 36000000000000, 36900000000000] [] r) : r.2.Nodup :=
  names_distinct h rfl (by decide) (by decide)

/-! ## Where it does something else -/

/-- C131: the time at which the first bucket starts is in no bucket. -/
theorem first_edge_counterexample : ∃ r, cutTime refSearch 9 exArgs [some 34200000000000] = .ok r ∧ r.1 = [0] :=
  ⟨([0], ["09:30".toList, "09:45".toList, "10:00".toList]), by decide +kernel, rfl⟩

/-- A time is in no bucket exactly if it is invalid, at or before the first edge, or after the last one. -/
theorem uncovered_exact {ss : List Int → Option Int → Nat} (hss : SearchOK ss) {a : Args} {size : Int} (hb : a.buckets = .span size) (hz : 0 < size)
    {p q : List Int} {s t : Int} (hstart : (if a.nyc then some (a.start.getD [9, 30]) else a.start) = some p)
    (hstop : (if a.nyc then some (a.stop.getD [16, 15]) else a.stop) = some q) (hp : tupleNs p = some s) (hq : tupleNs q = some t)
    (hnyc : ¬ (a.nyc = true ∧ a.start.isSome = true ∧ a.stop.isSome = true)) (hst : s < t) (hl : a.label ≠ .other)
    (h0 : a.pre = true → 0 ≤ s) (h1 : a.post = true → t ≤ 86400000000000) (times : List (Option Int)) :
    ∃ N : Nat, ∀ fuel, N ≤ fuel → ∃ r, cutTime ss fuel a times = .ok r ∧ ∀ (i : Nat) (v : Option Int), times[i]? = some v →
      (r.1[i]? = some 0 ↔ ∀ u, v = some u → u ≤ (if a.pre then 0 else s) ∨ (if a.post then 86400000000000 else t) < u) := by
  obtain ⟨N, e, hg, h⟩ := cutTime_span hss hb hz hstart hstop hp hq hnyc hst hl h0 h1 times
  refine ⟨N, fun fuel hf => ?_⟩
  obtain ⟨r, e1, e2⟩ := h fuel hf
  refine ⟨r, e1, fun i v hv => ?_⟩
  obtain ⟨n, hlen, hk, hlast, hge⟩ := hg
  have hn : 0 < n := by
    rcases Nat.eq_zero_or_pos n with h | h
    · subst h; simp at hge; omega
    · exact h
  have hh : e.head? = some s := by rw [List.head?_eq_getElem?, (hk 0 hn).1]; simp
  have hll : e.getLast? = some t := by rw [List.getLast?_eq_getElem?, hlen]; exact hlast
  have hH : (withEnds a e).head? = some (if a.pre then 0 else s) := by
    unfold withEnds
    cases a.pre
    · simp [List.head?_append, hh]
    · simp
  have hL : (withEnds a e).getLast? = some (if a.post then 86400000000000 else t) := by
    unfold withEnds
    cases a.post
    · simp [List.getLast?_append, hll]
    · simp [List.getLast?_append]
  obtain ⟨c, c1, -, c2⟩ := e2.codes.2 i v hv
  rw [c1, Option.some.injEq, c2, hH, hL]
  constructor
  · intro h u hu
    rcases h u hu with h | h
    · exact Or.inl (h _ rfl)
    · exact Or.inr (h _ rfl)
  · intro h u hu
    rcases h u hu with h | h
    · exact Or.inl (fun lo hlo => by cases hlo; exact h)
    · exact Or.inr (fun hi hhi => by cases hhi; exact h)

/-- C131: midnight is not in the bucket before the start. -/
theorem midnight_counterexample : ∃ r, cutTime refSearch 9 { exArgs with pre := true } [some 0] = .ok r ∧ r.1 = [0] :=
  ⟨([0], ["pre".toList, "09:30".toList, "09:45".toList, "10:00".toList]), by decide +kernel, rfl⟩

/-- C131: buckets of length 0 (or negative) never end. -/
theorem zero_size_counterexample : ∀ fuel ss times, cutTime ss fuel { exArgs with buckets := .minutes 0 } times = .error .running := by
  intro fuel ss times
  unfold cutTime cutPoints
  have : loop 0 36900000000000 fuel 34200000000000 = none := loop_forever _ _ (by decide) _ (by decide) _
  simp only [exArgs, Buckets.minutes, zero_mul, tupleNs]
  norm_num
  rw [this]

/-- C131: tuples with more than 59 minutes may not be sorted by time. -/
theorem tuple_order_counterexample : ∃ r, cutTime refSearch 0 { buckets := .edges [[9, 90], [10, 0], [11, 0]] } [some 36000000000001] = .ok r ∧
    r = ([1], ["10:30".toList, "10:00".toList]) := ⟨_, by decide +kernel, rfl⟩

/-- C132: edges on different days have the same names. -/
theorem names_counterexample : ∃ r, cutTime refSearch 9 { buckets := .edges [[0, 0], [24, 0], [48, 0]] } [] = .ok r ∧ ¬ r.2.Nodup :=
  ⟨([], ["00:00".toList, "00:00".toList]), by decide +kernel, by decide⟩

/-- C132: with a short format the name of the first bucket is cut off. -/
theorem pre_name_counterexample : ∃ r, cutTime refSearch 9 { exArgs with pre := true, fmt := some fun t => two (t.toNat / 3600000000000) } [] = .ok r ∧
    r.2 = ["pr".toList, "09".toList, "09".toList, "10".toList] := ⟨([], ["pr".toList, "09".toList, "09".toList, "10".toList]), by decide +kernel, rfl⟩

/-! ## `resample` and `diff` -/

example : stepOf (Nat.toDigits 10 90 ++ "min".toList) = .ok ((90 : Nat) * (60000000000 : Nat)) :=
  (stepOf_number (u := "min".toList) (w := "MIN".toList) (f := 60000000000) (by decide) (by decide)).1 90
example : Nat.toDigits 10 90 ++ "min".toList = "90min".toList := by decide +kernel
example : stepOf "H".toList = .ok 3600000000000 := (stepOf_number (u := "H".toList) (by decide) rfl).2
example : stepOf "0.25s".toList = .ok 250000000 := by decide +kernel

example : resample "T".toList true [60000000001, 0, 179999999999] = .ok [60000000000, 0, 120000000000] := by decide +kernel
example : resample "T".toList false [60000000001, 240000000000] = .ok [60000000000, 120000000000, 180000000000, 240000000000] := by decide +kernel

example : ∃ r, resample "T".toList true [60000000001, 0] = .ok r ∧ r.length = 2 ∧
    ∀ (i : Nat) (t : Int), [60000000001, 0][i]? = some t → ∃ v, r[i]? = some v ∧ (0 < t → IsFloor 60000000000 t v) ∧ (t ≤ 0 → v = 0) :=
  resample_each (rule := "T".toList) (by decide +kernel) (by decide) _

/-- C135: with `24H` the times displayed in New York are not midnight but 19:00. -/
theorem local_counterexample : ∃ r, resample "24H".toList true [1600000000000000000] = .ok r ∧
    ∃ v, r[0]? = some v ∧ ¬ IsFloor 86400000000000 (1600000000000000000 + -18000000000000) (v + -18000000000000) :=
  ⟨[1599955200000000000], by decide +kernel, _, rfl, by unfold IsFloor; decide +kernel⟩

/-- C135: an invalid time makes the range start in 1970. -/
theorem invalid_range_counterexample : ∃ r, resample "H".toList false [0, 7200000000001] = .ok r ∧ r = [0, 3600000000000, 7200000000000] :=
  ⟨_, by decide +kernel, rfl⟩

/-- C135: a rule of less than a nanosecond raises. -/
theorem small_step_counterexample : stepOf "0.5N".toList = .ok 0 ∧ resample "0.5N".toList false [5] = .error .zero := by decide +kernel

/-- C136: beside an invalid time (the number 0) the difference is a valid one of many years. -/
theorem diff_invalid_counterexample : diffTimes 1 [1600000000000000000, 0] [none, none] = .ok [none, some (-1600000000000000000)] := by decide +kernel

example : diffTimes 1 [5, 9, 20] [none, none, none] = .ok [none, some 4, some 11] := by decide +kernel

end Verif.TimeCut
