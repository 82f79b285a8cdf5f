import Verif.Pandas.Model
import Verif.Arrow.Times
/-! # Times to pandas and back (C211, C212, C213, C214, C215) -/
namespace Verif.Pandas
open Verif.NpOps hiding Err
open Verif.Arrow

/-- a 64 bit integer -/
def Int64 (x : Int) : Prop := least true 3 ≤ x ∧ x ≤ greatest true 3

theorem toUtcWrap_utc (z : Tz.Zone) {x : Int} (h : Int64 x) : toUtcWrap (Tz.TimeZone.init .utc z) x = x := by
  unfold toUtcWrap
  have : (Tz.TimeZone.init .utc z).toUtc x = x := by
    unfold Tz.TimeZone.toUtc
    rw [if_neg]
    simp [Tz.TimeZone.init]
  rw [this]
  unfold wrap
  have hb : bitsOf 3 = 64 := by decide
  have h1 : least true 3 = -9223372036854775808 := by decide
  have h2 : greatest true 3 = 9223372036854775807 := by decide
  unfold Int64 at h
  rw [h1, h2] at h
  rw [hb]
  apply Int.bmod_eq_of_le <;> norm_num <;> omega

theorem int64_least : Int64 (least true 3) := by unfold Int64; decide

/-- **C211** A DateTimeNano column comes back from pandas with the same instants, shown in the same time zone. -/
theorem dtn_round_trip (tz : Tz.Zone) (d : Dtn) (hv : ∀ x ∈ d.vals, Int64 x) :
    ∃ d', fromPandasDtn tz (.known (toPandasDtn d).1) (toPandasDtn d).2 = .ok d' ∧ d'.vals = d.vals ∧ d'.tz = Tz.TimeZone.init .utc d.tz.toTz := by
  refine ⟨_, rfl, ?_, rfl⟩
  show (d.vals.map fun x => if x = least true 3 then none else some x).map
    (fun r : Option Int => toUtcWrap (Tz.TimeZone.init .utc d.tz.toTz) (r.getD (least true 3))) = d.vals
  rw [List.map_map]
  conv_rhs => rw [← List.map_id d.vals]
  apply List.map_congr_left
  intro x hx
  show toUtcWrap _ ((if x = least true 3 then none else some x).getD (least true 3)) = x
  by_cases h : x = least true 3
  · rw [if_pos h, h]
    exact toUtcWrap_utc _ int64_least
  · rw [if_neg h]
    exact toUtcWrap_utc _ (hv x hx)

example : ∀ x ∈ [1577836800000000000, 0, least true 3], Int64 x := by unfold Int64; decide

/-- **C212 (partial)** A DateTimeNano column shows in pandas the same instants, exactly if it has no 0. -/
theorem toPandasDtn_exact (d : Dtn) : (toPandasDtn d).2.shows = d.vals.map (dateShown (least true 3)) ↔ (0 : Int) ∉ d.vals := by
  show (d.vals.map fun x => if x = least true 3 then none else some x).map (fun r : Option Int => r.map fun x => x * 1) = _ ↔ _
  rw [List.map_map, List.map_inj_left]
  have h0 : (0 : Int) ≠ least true 3 := by decide
  constructor
  · intro h hm
    have := h 0 hm
    simp [dateShown, h0] at this
  · intro h x hx
    have hx0 : x ≠ 0 := by rintro rfl; exact h hx
    by_cases hl : x = least true 3
    · simp [dateShown, hl]
    · simp [dateShown, hl, hx0]

/-- **C212** violated: the missing time 0 is 1970-01-01 in pandas, while `to_arrow` makes it null. -/
theorem dtn_zero_counterexample (tz : Tz.TimeZone) : (toPandasDtn ⟨[0, 5], tz⟩).2.shows = [some 0, some 5] ∧
    [0, 5].map (dateShown (least true 3)) = [none, some 5] ∧ (toArrowDtn ⟨[0, 5], tz⟩).2 = [none, some 5] := by
  have hl : (0 : Int) ≠ least true 3 := by decide
  have h5 : (5 : Int) ≠ least true 3 := by decide
  refine ⟨?_, by decide, ?_⟩
  · simp [toPandasDtn, PTimes.shows, hl, h5]
  · simp [toArrowDtn, toArrowDate, nanOrZero, h5]

/-- **C213 (partial)** Timestamps of pandas in nanoseconds become the same instants, unless they are 1970-01-01; NaT is missing. The time
zone is that of the column, or the argument `tz`. Missing: other units, other time zones than riptable knows, and 1970-01-01. -/
theorem fromPandasDtn_partial (tz z : Tz.Zone) (p : PTimes) (hf : p.factor = 1) (hv : ∀ x, some x ∈ p.rows → Int64 x ∧ x ≠ 0 ∧ x ≠ least true 3) :
    (∃ d, fromPandasDtn tz (.known z) p = .ok d ∧ d.vals.map (dateShown (least true 3)) = p.shows ∧ d.tz.toTz = z) ∧
    (∃ d, fromPandasDtn tz .naive p = .ok d ∧ d.vals.map (dateShown (least true 3)) = p.shows ∧ d.tz.toTz = tz) := by
  have key : ∀ z' : Tz.Zone, (p.rows.map fun r => toUtcWrap (Tz.TimeZone.init .utc z') (r.getD (least true 3))).map (dateShown (least true 3)) = p.shows := by
    intro z'
    unfold PTimes.shows
    rw [List.map_map, hf]
    apply List.map_congr_left
    intro r hr
    cases r with
    | none =>
      show dateShown _ (toUtcWrap _ (least true 3)) = none
      rw [toUtcWrap_utc _ int64_least]
      simp [dateShown]
    | some x =>
      obtain ⟨h1, h2, h3⟩ := hv x hr
      show dateShown _ (toUtcWrap _ x) = some (x * 1)
      rw [toUtcWrap_utc _ h1]
      simp [dateShown, h2, h3]
  exact ⟨⟨_, rfl, key z, rfl⟩, ⟨_, rfl, key tz, rfl⟩⟩

example : ∀ x, some x ∈ [some (5 : Int), none] → Int64 x ∧ x ≠ 0 ∧ x ≠ least true 3 := by
  intro x hx
  simp at hx
  subst hx
  unfold Int64; decide

/-- **C213** violated: the second 1700000000 of a column in seconds becomes the nanosecond 1700000000 (1.7 seconds after 1970); the instant
1970-01-01 is missing; a time zone that riptable does not know raises an error. -/
theorem fromPandasDtn_counterexample :
    (match fromPandasDtn .utc .naive ⟨1000000000, [some 1700000000]⟩ with | .ok d => decide (d.vals = [1700000000]) | .error _ => false) = true ∧
    (⟨1000000000, [some 1700000000]⟩ : PTimes).shows = [some 1700000000000000000] ∧
    (match fromPandasDtn .utc .naive ⟨1, [some 0]⟩ with | .ok d => decide (d.vals.map (dateShown (least true 3)) = [none]) | .error _ => false) = true ∧
    (match fromPandasDtn .utc .unknown ⟨1, [some 5]⟩ with | .ok _ => false | .error e => decide (e = .valueError)) = true := by
  refine ⟨?_, ?_, ?_, ?_⟩ <;> decide +kernel

theorem tdiv_whole (x : Int) : Int.tdiv ((x : Rat).num) ((x : Rat).den) = x := by simp

/-- **C214 (partial)** A TimeSpan column of whole nanoseconds up to 2 ^ 53 shows the same in pandas and comes back as it was. Missing:
fractions, and longer spans. -/
theorem span_round_trip_partial (round : Int → Rat) (hr : Exact round) (hl : round (least true 3) = ((least true 3 : Int) : Rat)) (xs : List (Option Int))
    (hx : ∀ x, some x ∈ xs → -2 ^ 53 ≤ x ∧ x ≤ 2 ^ 53) :
    (toPandasSpan (xs.map fun r => r.map fun (x : Int) => (x : Rat))).shows = xs ∧
    fromPandasSpan round (toPandasSpan (xs.map fun r => r.map fun (x : Int) => (x : Rat))) = xs.map fun r => r.map fun (x : Int) => (x : Rat) := by
  have hrows : (toPandasSpan (xs.map fun r => r.map fun (x : Int) => (x : Rat))).rows = xs := by
    show (xs.map fun r => r.map fun (x : Int) => (x : Rat)).map (fun r : Option Rat => r.map fun q => Int.tdiv q.num q.den) = xs
    rw [List.map_map]
    conv_rhs => rw [← List.map_id xs]
    apply List.map_congr_left
    intro r _
    cases r with
    | none => rfl
    | some x => exact congrArg some (tdiv_whole x)
  constructor
  · unfold PTimes.shows
    rw [hrows]
    conv_rhs => rw [← List.map_id xs]
    apply List.map_congr_left
    intro r _
    cases r with
    | none => rfl
    | some x =>
      show some (x * 1) = some x
      rw [Int.mul_one]
  · unfold fromPandasSpan
    rw [hrows]
    apply List.map_congr_left
    intro r hr'
    cases r with
    | none => simp [hl]
    | some x =>
      obtain ⟨h0, h1⟩ := hx x hr'
      have hne : ((x : Int) : Rat) ≠ ((least true 3 : Int) : Rat) := by
        intro h
        have h2 : x = least true 3 := by exact_mod_cast h
        have h3 : least true 3 = -9223372036854775808 := by decide
        omega
      show (if round x = _ then none else some (round x)) = some (x : Rat)
      rw [hr x h0 h1, if_neg hne]

example : Exact (fun k => (k : Rat)) := fun _ _ _ => rfl

/-- **C214** violated: half a nanosecond is cut off. -/
theorem span_counterexample : (toPandasSpan [some (1 / 2), none]).shows = [some 0, none] := by decide +kernel

/-- **C215 (partial)** Time differences of pandas in nanoseconds, up to 2 ^ 53, become the same TimeSpans; NaT is NaN. Missing: other
units. -/
theorem fromPandasSpan_partial (round : Int → Rat) (hr : Exact round) (hl : round (least true 3) = ((least true 3 : Int) : Rat)) (p : PTimes)
    (hf : p.factor = 1) (hx : ∀ x, some x ∈ p.rows → -2 ^ 53 ≤ x ∧ x ≤ 2 ^ 53) :
    fromPandasSpan round p = p.shows.map fun r => r.map fun (x : Int) => (x : Rat) := by
  unfold fromPandasSpan PTimes.shows
  rw [List.map_map]
  apply List.map_congr_left
  intro r hr'
  cases r with
  | none => simp [hl]
  | some x =>
    obtain ⟨h0, h1⟩ := hx x hr'
    have hne : ((x : Int) : Rat) ≠ ((least true 3 : Int) : Rat) := by
      intro h
      have h2 : x = least true 3 := by exact_mod_cast h
      have h3 : least true 3 = -9223372036854775808 := by decide
      omega
    show (if round x = _ then none else some (round x)) = some (((x * p.factor : Int)) : Rat)
    rw [hr x h0 h1, if_neg hne, hf, Int.mul_one]

/-- **C215** violated: 3 seconds of a column in seconds become 3 nanoseconds. -/
theorem fromPandasSpan_counterexample : fromPandasSpan (fun k => (k : Rat)) ⟨1000000000, [some 3]⟩ = [some 3] ∧
    (⟨1000000000, [some 3]⟩ : PTimes).shows = [some 3000000000] := by
  constructor <;> decide +kernel

end Verif.Pandas
