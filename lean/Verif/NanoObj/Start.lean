import Verif.NanoObj.Scalars
/-! # start_date (C225) -/
namespace Verif.NanoObj
open Verif.Tz (Zone TimeZone)
open Verif.Arrow (toUtcWrap dateShown)
open Verif.Pandas (Int64)
open Verif.DateOps (I64 NPD)

/-- the day of row `i`: there is one for every row, or one for all -/
def dayOf (n : Nat) (days : List Int) (i : Nat) : Int := if days.length = n then days.getD i 0 else days.headD 0

theorem startNanos_iff (n : Nat) (days : List Int) : (∃ ns, startNanos n days = .ok ns) ↔ days.length = n ∨ days.length = 1 := by
  unfold startNanos
  split_ifs with h1 h2
  · simp [h1]
  · simp [h2]
  · exact ⟨(fun ⟨_, h⟩ => by cases h), fun h => by rcases h with h | h <;> contradiction⟩

theorem startNanos_row {n : Nat} {days ns : List Int} (h : startNanos n days = .ok ns) (i : Nat) (hi : i < n) :
    ns[i]? = some (DateOps.w64 (dayOf n days i * NPD)) := by
  unfold startNanos at h
  unfold dayOf
  split_ifs at h with h1 h2
  · cases h
    rw [if_pos h1, List.getElem?_map, List.getElem?_eq_getElem (by omega), List.getD_eq_getElem?_getD, List.getElem?_eq_getElem (by omega)]
    rfl
  · cases h
    rw [if_neg h1, List.getElem?_replicate, if_pos hi]

/-- **C225 (partial)** `DateTimeNano(spans, start_date=dates)` raises exactly if the number of dates is neither that of the spans nor 1. A row
with a valid span is the instant at which the clocks in `from_tz` show the span after midnight of the date (as C33 has it; while no number
exceeds 64 bits). Missing: invalid spans and dates. -/
theorem newStart_partial (f t : Zone) (spans : List (Option Int)) (days : List Int) :
    ((∃ r, newStart f t spans days = .ok r) ↔ days.length = spans.length ∨ days.length = 1) ∧
    ∀ vals tz, newStart f t spans days = .ok (vals, tz) → vals.length = spans.length ∧ tz.toTz = t ∧
      ∀ (i : Nat) (s : Int), spans[i]? = some (some s) → Int64 (dayOf spans.length days i * NPD) → Int64 (s + dayOf spans.length days i * NPD) →
        Int64 ((TimeZone.init f t).toUtc (s + dayOf spans.length days i * NPD)) →
        vals[i]? = some ((TimeZone.init f t).toUtc (s + dayOf spans.length days i * NPD)) := by
  constructor
  · rw [← startNanos_iff]
    unfold newStart
    cases startNanos spans.length days with
    | error e => simp
    | ok ns => simp
  · intro vals tz h
    unfold newStart at h
    cases hs : startNanos spans.length days with
    | error e => rw [hs] at h; cases h
    | ok ns =>
      rw [hs] at h
      cases h
      have hlen : ns.length = spans.length := by
        unfold startNanos at hs
        split_ifs at hs with h1 h2
        · cases hs; rw [List.length_map, h1]
        · cases hs; rw [List.length_replicate]
      refine ⟨by rw [List.length_map, List.length_zipWith, hlen, Nat.min_self], rfl, ?_⟩
      intro i s hi hd hsd hu
      have hil := (List.getElem?_eq_some_iff.1 hi).1
      rw [List.getElem?_map, List.getElem?_zipWith, hi, startNanos_row hs i hil]
      show some (toUtcWrap _ (DateOps.w64 (s + DateOps.w64 (dayOf spans.length days i * NPD)))) = _
      rw [w64_id hd, w64_id hsd]
      unfold toUtcWrap
      rw [wrap_id hu]

example : Int64 (dayOf 2 [18262] 1 * NPD) ∧ Int64 (5 + dayOf 2 [18262] 1 * NPD) := by unfold Pandas.Int64; decide

/-- **C225** violated: a span that is NaN with the date 2020-01-01 is a valid time; and so is one hour with an invalid date. -/
theorem newStart_counterexample :
    (match newStart .utc .utc [none] [18262] with | .ok (vals, _) => decide (vals.map (dateShown I64) ≠ [none]) | .error _ => false) = true ∧
    (match newStart .utc .utc [some 3600000000000] [0] with | .ok (vals, _) => decide (vals.map (dateShown I64) = [some 3600000000000]) | .error _ => false) = true := by
  constructor <;> decide +kernel

end Verif.NanoObj
