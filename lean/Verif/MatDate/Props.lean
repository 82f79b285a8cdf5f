import Verif.MatDate.Model
import Verif.MatDate.Spec
import Verif.Calendar.Props
import Verif.Tz.Props
import Mathlib.Tactic.Linarith
import Mathlib.Tactic.NormNum
/-! # Dates from matlab (C382 - C384) -/
namespace Verif.MatDate
open Verif.Tz (Zone TimeZone wall StartsDst)
open Verif.Calendar (ValidDate dayNumber dateYear dateMonth dateDayOfMonth daysBeforeYear)

theorem epoch_is : epochDatenum = datenum 1970 1 1 := by
  have : daysBeforeYear 1970 = 719528 := by rw [Calendar.daysBeforeYear_closed]
  have h : Calendar.daysBeforeMonth 1970 1 = 0 := rfl
  unfold epochDatenum datenum
  rw [this, h]
  rfl

theorem day_of_datenum (y m d : Nat) : (datenum y m d : Int) - epochDatenum = dayNumber y m d := by
  rw [epoch_is]
  have h : Calendar.daysBeforeMonth 1970 1 = 0 := rfl
  unfold datenum dayNumber
  rw [h]
  push_cast
  omega

theorem trunc_day (n : Nat) (t : ℚ) (h0 : 0 ≤ t) (h1 : t < 1) : trunc ((n : ℚ) + t) = n := by
  have hn : (0 : ℚ) ≤ n := Nat.cast_nonneg n
  unfold trunc
  rw [if_neg (by linarith), Int.floor_eq_iff]
  constructor
  · push_cast; linarith
  · push_cast; linarith

theorem trunc_int (n : Int) : trunc (n : ℚ) = n := by
  unfold trunc
  split
  · exact Int.ceil_intCast n
  · exact Int.floor_intCast n

/-- C382: the day matlab means, at any time of the day -/
theorem date_correct (arr : List (Option ℚ)) : (dateFromMatlab arr).length = arr.length ∧
    ∀ i (hi : i < arr.length), (arr[i] = none → (dateFromMatlab arr)[i]? = some 0) ∧
      ∀ (y m d : Nat) (t : ℚ), ValidDate y m d → 0 ≤ t → t < 1 → arr[i] = some ((datenum y m d : ℚ) + t) →
        (dateFromMatlab arr)[i]? = some (dayNumber y m d) := by
  refine ⟨by simp [dateFromMatlab], fun i hi => ⟨fun h => by simp [dateFromMatlab, hi, h], ?_⟩⟩
  intro y m d t _ h0 h1 h
  have : (dateFromMatlab arr)[i]? = some (trunc ((datenum y m d : ℚ) + t) - epochDatenum) := by simp [dateFromMatlab, hi, h]
  rw [this, trunc_day _ _ h0 h1, day_of_datenum]

/-- C382: and the fields shown are those of this day, from 1970 to 2099 -/
theorem date_fields (y m d : Nat) (hv : ValidDate y m d) (h0 : 1970 ≤ y) (h1 : y < 2100) (t : ℚ) (ht : 0 ≤ t) (ht' : t < 1) :
    ∃ n, dateFromMatlab [some ((datenum y m d : ℚ) + t)] = [n] ∧ dateYear n = y ∧ dateMonth n = some (m : Int) ∧ dateDayOfMonth n = some (d : Int) := by
  have hd : dateFromMatlab [some ((datenum y m d : ℚ) + t)] = [dayNumber y m d] := by
    simp only [dateFromMatlab, List.map_cons, List.map_nil, trunc_day _ _ ht ht', day_of_datenum]
  have hy := Calendar.day_in_year hv
  have hm0 := Calendar.daysBeforeYear_mono h0
  have hm1 := Calendar.daysBeforeYear_mono (show y + 1 ≤ 2100 by omega)
  rw [Calendar.daysBeforeYear_succ] at hm1
  have hd1 := hv.2.2.1
  have hj : Calendar.daysBeforeMonth 2100 1 = 0 := rfl
  have hlo : 0 ≤ dayNumber y m d := by unfold dayNumber; omega
  have hhi : dayNumber y m d < dayNumber 2100 1 1 := by unfold dayNumber; rw [hj]; omega
  obtain ⟨y', m', d', hv', he, e1, e2, e3, -⟩ := Calendar.date_fields_partial _ hlo hhi
  obtain ⟨rfl, rfl, rfl⟩ := Calendar.dayNumber_injective hv' hv he
  exact ⟨_, hd, e1, e2, e3⟩

/-! ## DateTimeNano -/

theorem unmasked_eq (tz : TimeZone) (x : Int) (hx : x ≠ 0) : toUtcUnmasked tz x = tz.toUtc x := by
  unfold toUtcUnmasked TimeZone.toUtc
  simp only [hx, if_false]

theorem nano_get (tz : TimeZone) (arr : List (Option ℚ)) (i : Nat) (hi : i < arr.length) (w : Int) (q : ℚ) (hq : arr[i] = some q)
    (he : (q - epochDatenum) * nanosPerDay = w) : (nanoFromMatlab tz arr)[i]? = some (toUtcUnmasked tz w) := by
  have : (nanoFromMatlab tz arr)[i]? = some (toUtcUnmasked tz (trunc ((q - epochDatenum) * nanosPerDay))) := by simp [nanoFromMatlab, hi, hq]
  rw [this, he, trunc_int]

open Classical in
/-- C383: the instant at which the clocks of the zone show what matlab does; the first one in the repeated hour -/
theorem nano_correct (z t : Zone) (arr : List (Option ℚ)) : (nanoFromMatlab (TimeZone.init z t) arr).length = arr.length ∧
    ∀ i (hi : i < arr.length), (arr[i] = none → (nanoFromMatlab (TimeZone.init z t) arr)[i]? = some 0) ∧
      ∀ (u : Int) (q : ℚ), arr[i] = some q → (q - (datenum 1970 1 1 : ℚ)) * 86400000000000 = wall z u → wall z u ≠ 0 →
        ¬ (z = .dublin ∧ StartsDst z u) →
        (nanoFromMatlab (TimeZone.init z t) arr)[i]? = some (u - if Tz.RepeatedHour z u then 3600000000000 else 0) := by
  refine ⟨by simp [nanoFromMatlab], fun i hi => ⟨fun h => by simp [nanoFromMatlab, hi, h], ?_⟩⟩
  intro u q hq he hx hs
  have hN : (nanosPerDay : ℚ) = 86400000000000 := by
    have : nanosPerDay = 86400000000000 := by decide
    rw [this]; norm_num
  have hE : (epochDatenum : ℚ) = (datenum 1970 1 1 : ℚ) := by
    rw [epoch_is]; exact Int.cast_natCast _
  rw [nano_get _ arr i hi (wall z u) q hq (by rw [hE, hN]; exact he), unmasked_eq _ _ hx]
  obtain ⟨t1, t2, -⟩ := Tz.toUtc_exact z t u hx
  by_cases hr : Tz.RepeatedHour z u
  · rw [if_pos hr, t2 hr]
    rfl
  · rw [if_neg hr, t1 hr hs, sub_zero]

/-- C383: the clock shows it again -/
theorem nano_shown (z : Zone) (u : Int) (q : ℚ) (he : (q - (datenum 1970 1 1 : ℚ)) * 86400000000000 = wall z u) (hx : wall z u ≠ 0)
    (hs : ¬ StartsDst z u) : ∃ r, nanoFromMatlab (TimeZone.init z z) [some q] = [r] ∧ (TimeZone.init z z).fixDst r = wall z u := by
  have hN : (nanosPerDay : ℚ) = 86400000000000 := by
    have : nanosPerDay = 86400000000000 := by decide
    rw [this]; norm_num
  have hE : (epochDatenum : ℚ) = (datenum 1970 1 1 : ℚ) := by
    rw [epoch_is]; exact Int.cast_natCast _
  refine ⟨(TimeZone.init z z).toUtc (wall z u), ?_, Tz.local_round_trip_partial z u hx hs⟩
  simp only [nanoFromMatlab, List.map_cons, List.map_nil]
  rw [hE, hN, he, trunc_int, unmasked_eq _ _ hx]

/-! ## Valid dates that are shown as invalid -/

/-- C384: the numbers that become the invalid Date 0 -/
theorem invalid_exact (v : Option ℚ) (hv : ∀ q, v = some q → 0 ≤ q) : dateFromMatlab [v] = [0] ↔
    v = none ∨ ∃ t, 0 ≤ t ∧ t < 1 ∧ v = some ((datenum 1970 1 1 : ℚ) + t) := by
  cases v with
  | none => simp [dateFromMatlab]
  | some q =>
    have hq := hv q rfl
    have hE : (epochDatenum : ℚ) = (datenum 1970 1 1 : ℚ) := by rw [epoch_is]; exact Int.cast_natCast _
    have ht : trunc q = ⌊q⌋ := by unfold trunc; rw [if_neg (not_lt.mpr hq)]
    have e0 : dateFromMatlab [some q] = [⌊q⌋ - epochDatenum] := by simp [dateFromMatlab, ht]
    rw [e0]
    constructor
    · intro h
      have h1 : ⌊q⌋ = epochDatenum := by
        have := List.cons.inj h
        omega
      rw [Int.floor_eq_iff] at h1
      refine Or.inr ⟨q - (datenum 1970 1 1 : ℚ), ?_, ?_, by simp⟩
      · rw [← hE]; linarith [h1.1]
      · rw [← hE]; linarith [h1.2]
    · rintro (h | ⟨t, h0, h1, h⟩)
      · cases h
      · have hq' := Option.some.inj h
        have h1' : ⌊q⌋ = epochDatenum := by
          rw [Int.floor_eq_iff, hE, hq']
          constructor <;> linarith
        rw [h1', sub_self]

/-- C384: every other day from 1970 to 2099 is valid -/
theorem valid_partial (y m d : Nat) (hv : ValidDate y m d) (h0 : 1970 ≤ y) (h : ¬ (y = 1970 ∧ m = 1 ∧ d = 1)) (t : ℚ) (ht : 0 ≤ t) (ht' : t < 1) :
    ∃ n, dateFromMatlab [some ((datenum y m d : ℚ) + t)] = [n] ∧ 0 < n := by
  refine ⟨dayNumber y m d, by simp only [dateFromMatlab, List.map_cons, List.map_nil, trunc_day _ _ ht ht', day_of_datenum], ?_⟩
  have hm0 := Calendar.daysBeforeYear_mono h0
  have hd1 := hv.2.2.1
  have hlo : 0 ≤ dayNumber y m d := by unfold dayNumber; omega
  rcases hlo.lt_or_eq with hl | he
  · exact hl
  · exfalso
    have hv1 : ValidDate 1970 1 1 := by unfold ValidDate; decide
    have hz : dayNumber 1970 1 1 = 0 := by
      have hj : Calendar.daysBeforeMonth 1970 1 = 0 := rfl
      unfold dayNumber; rw [hj]; omega
    exact h (Calendar.dayNumber_injective hv hv1 (by rw [hz]; exact he.symm))

/-- 1 January 1970 is 719529 in matlab, and the same as NaN in riptable. -/
theorem epoch_counterexample : datenum 1970 1 1 = 719529 ∧ dateFromMatlab [some 719529] = [0] ∧ dateFromMatlab [none] = [0] ∧
    nanoFromMatlab (TimeZone.init .utc .utc) [some 719529] = [0] ∧ nanoFromMatlab (TimeZone.init .utc .utc) [none] = [0] := by
  refine ⟨?_, by decide +kernel, rfl, by decide +kernel, rfl⟩
  have := epoch_is
  unfold epochDatenum at this
  omega

/-! ## Concrete cases -/

example : dateFromMatlab [some (737791 + 1 / 2), none, some 719530] = [18262, 0, 1] := by decide +kernel
example : ValidDate 2020 1 1 := by unfold ValidDate; decide
example : nanoFromMatlab (TimeZone.init .nyc .nyc) [some (737791 + 1 / 2)] = [1577898000000000000] := by decide +kernel
/-- midnight of 1 January 1970 in New York is not taken for an invalid -/
example : nanoFromMatlab (TimeZone.init .nyc .nyc) [some 719529, none] = [18000000000000, 0] := by decide +kernel
example : wall .nyc 1577898000000000000 = 1577880000000000000 ∧ ((737791 + 1 / 2 : ℚ) - 719529) * 86400000000000 = 1577880000000000000 :=
  ⟨by decide +kernel, by norm_num⟩

end Verif.MatDate
