import Verif.Tz.Nano
/-!
# C49: the fields of a DateTimeNano are those of the displayed local time
-/
namespace Verif.Tz
open Verif.Calendar

theorem npd_pos : (0 : Int) < nanosPerDay := by decide

/-- `x` is displayed as the date `y`-`m`-`d` at `t` nanoseconds after midnight -/
def Shows (x : Int) (y m d : Nat) (t : Int) : Prop :=
  ValidDate y m d ∧ 0 ≤ t ∧ t < nanosPerDay ∧ x = dayNumber y m d * nanosPerDay + t

theorem shows_unique {x : Int} {y m d y' m' d' : Nat} {t t' : Int} (h : Shows x y m d t) (h' : Shows x y' m' d' t') :
    y = y' ∧ m = m' ∧ d = d' ∧ t = t' := by
  obtain ⟨hv, h0, h1, hx⟩ := h
  obtain ⟨hv', h0', h1', hx'⟩ := h'
  have e1 : x / nanosPerDay = dayNumber y m d := by
    rw [hx, Int.add_comm, Int.add_mul_ediv_right _ _ (by decide), Int.ediv_eq_zero_of_lt h0 h1]; omega
  have e2 : x / nanosPerDay = dayNumber y' m' d' := by
    rw [hx', Int.add_comm, Int.add_mul_ediv_right _ _ (by decide), Int.ediv_eq_zero_of_lt h0' h1']; omega
  obtain ⟨rfl, rfl, rfl⟩ := dayNumber_injective hv hv' (by rw [← e1, ← e2])
  exact ⟨rfl, rfl, rfl, by omega⟩

theorem shows_div {x : Int} {y m d : Nat} {t : Int} (h : Shows x y m d t) : x / nanosPerDay = dayNumber y m d ∧ x % nanosPerDay = t := by
  obtain ⟨hv, h0, h1, hx⟩ := h
  constructor
  · rw [hx, Int.add_comm, Int.add_mul_ediv_right _ _ (by decide), Int.ediv_eq_zero_of_lt h0 h1]; omega
  · rw [hx, Int.add_comm, Int.add_mul_emod_self_right, Int.emod_eq_of_lt h0 h1]

/-- the years of the table -/
def InRange (x : Int) : Prop := 0 ≤ x ∧ x < dayNumber 2100 1 1 * nanosPerDay

theorem inRange_div {x : Int} (h : InRange x) : 0 ≤ x / nanosPerDay ∧ x / nanosPerDay < 47482 := by
  obtain ⟨h0, h1⟩ := h
  rw [year_end] at h1
  exact ⟨Int.ediv_nonneg h0 (by decide), Int.ediv_lt_of_lt_mul npd_pos h1⟩

/-- **C49** year, month, day of year, yyyymmdd, weekday, start of week and time since midnight, for every time displayed from 1970
to 2099 and every time zone. -/
theorem nano_fields_partial (tz : TimeZone) (u : Int) (h : InRange (tz.fixDst u)) :
    ∃ (y m d : Nat) (t : Int), Shows (tz.fixDst u) y m d t ∧
      nanoYear tz u = y ∧ nanoMonth tz u = some (m : Int) ∧
      nanoDayOfYear tz u = some (dayNumber y m d - dayNumber y 1 1 + 1) ∧
      nanoYyyymmdd tz u = some ((y : Int) * 10000 + (m : Int) * 100 + (d : Int)) ∧
      nanosSinceYear tz u = some ((dayNumber y m d - dayNumber y 1 1) * nanosPerDay + t) ∧
      nanosSinceMidnight tz u = t ∧ daysSinceEpoch tz u = dayNumber y m d := by
  obtain ⟨h0, h1⟩ := inRange_div h
  obtain ⟨y, m, d, hv, hn, hy, hm, hsy, hsm⟩ := sinceMonth_spec nanosPerDay (tz.fixDst u) npd_pos h0 h1
  obtain ⟨y', hy1, hy2, hy3, -⟩ := sinceYear_spec nanosPerDay (tz.fixDst u) npd_pos h0 h1
  have hyy : y' = y := by rw [hy] at hy3; omega
  subst hyy
  have hx := Int.mul_ediv_add_emod (tz.fixDst u) nanosPerDay
  have ht0 := Int.emod_nonneg (tz.fixDst u) (show nanosPerDay ≠ 0 by decide)
  have ht1 := Int.emod_lt_of_pos (tz.fixDst u) npd_pos
  have hfirst := dayNumber_first y' m d hv.2.2.1
  have hfirst1 := dayNumber_first y' m 1 (by omega)
  have hd1 := hv.2.2.1
  have hday : (tz.fixDst u - dayNumber y' m 1 * nanosPerDay) / nanosPerDay + 1 = (d : Int) := by
    rw [time_of_day _ _ _ npd_pos, ← hn]; omega
  refine ⟨y', m, d, tz.fixDst u % nanosPerDay, ⟨hv, ht0, ht1, ?_⟩, hy, hm, ?_, ?_, ?_, rfl, hn.symm⟩
  · rw [hn, Int.mul_comm]; exact hx.symm
  · unfold nanoDayOfYear nanosSinceYear
    rw [hsy, Option.map_some, time_of_day _ _ _ npd_pos, hn]
  · unfold nanoYyyymmdd
    dsimp only
    rw [hsy, Option.bind_some, hy, hsm, Option.map_some, hday]
    have hm' : (searchRight (if (y' : Int) % 4 = 0 then scale nanosPerDay ydaySplitsLeap else scale nanosPerDay ydaySplits)
        (tz.fixDst u - dayNumber y' 1 1 * nanosPerDay) : Int) = m := by
      unfold monthOf at hm
      rw [hsy, Option.map_some] at hm
      have hm2 := Option.some.inj hm
      rw [hy] at hm2
      by_cases hl : (y' : Int) % 4 = 0
      · simp only [if_pos hl] at hm2 ⊢; exact hm2
      · simp only [if_neg hl] at hm2 ⊢; exact hm2
    rw [hm']
  · unfold nanosSinceYear
    rw [hsy, hn, Int.sub_mul, Int.mul_comm (tz.fixDst u / nanosPerDay)]
    refine congrArg some ?_
    generalize nanosPerDay * (tz.fixDst u / nanosPerDay) = a at hx ⊢
    generalize dayNumber y' 1 1 * nanosPerDay = b
    omega

/-- **C49** Weekday (Monday is 0) and the Monday of the week, for every instant. -/
theorem nano_week (tz : TimeZone) (u : Int) :
    nanoDayOfWeek tz u = (tz.fixDst u / nanosPerDay - dayNumber 1970 1 5) % 7 ∧
    nanoStartOfWeek tz u ≤ daysSinceEpoch tz u ∧ daysSinceEpoch tz u < nanoStartOfWeek tz u + 7 ∧
    (nanoStartOfWeek tz u - dayNumber 1970 1 5) % 7 = 0 := by
  have : dayNumber 1970 1 5 = 4 := by rw [dayNumber_eq_fast]; decide +kernel
  rw [this]
  unfold nanoDayOfWeek nanoStartOfWeek daysSinceEpoch
  refine ⟨by omega, ?_, ?_, ?_⟩ <;> dsimp only <;> omega

/-! ## minutes and seconds -/

theorem fixDst_mod (f z : Zone) (u k : Int) (hk : k ∣ nanosPerHour) (ho : k ∣ z.offset) : (TimeZone.init f z).fixDst u % k = u % k := by
  rw [fixDst_eq]
  refine Int.emod_eq_emod_iff_emod_sub_eq_zero.2 (Int.emod_eq_zero_of_dvd ?_)
  have e : u - z.offset + (if searchLeft (switches z) u % 2 = 1 then nanosPerHour else 0) - u =
      (if searchLeft (switches z) u % 2 = 1 then nanosPerHour else 0) - z.offset := by omega
  rw [e]
  refine Int.dvd_sub ?_ ho
  split
  · exact hk
  · exact Int.dvd_zero k

/-- **C49** Minutes: right in every zone whose offset is a whole number of hours. -/
theorem minute_partial (f z : Zone) (hz : z ≠ .kolkata) (u : Int) : minuteSpan u = (TimeZone.init f z).fixDst u % nanosPerHour := by
  refine (fixDst_mod f z u _ (Int.dvd_refl _) ?_).symm
  cases z <;> first | (exact absurd rfl hz) | decide +kernel

/-- **C49** Seconds and fractions of a second: right in every zone. -/
theorem second_correct (f z : Zone) (u : Int) :
    secondSpan u = (TimeZone.init f z).fixDst u % nanosPerMinute ∧ millisecondSpan u = (TimeZone.init f z).fixDst u % nanosPerSecond := by
  constructor
  · refine (fixDst_mod f z u _ (by decide +kernel) ?_).symm
    cases z <;> decide +kernel
  · refine (fixDst_mod f z u _ (by decide +kernel) ?_).symm
    cases z <;> decide +kernel

/-- Kolkata is five and a half hours ahead: 2019-01-01 12:00 there has minute 30. -/
theorem minute_kolkata_counterexample :
    ∃ u, Shows ((TimeZone.init .kolkata .kolkata).fixDst u) 2019 1 1 (12 * nanosPerHour) ∧ minuteSpan u = 30 * nanosPerMinute := by
  refine ⟨at_ (dayNumber 2019 1 1) 6 + 30 * nanosPerMinute, ⟨⟨by decide, by decide, by decide, by decide⟩, by decide, by decide, ?_⟩, ?_⟩
  · rw [dayNumber_eq_fast]; decide +kernel
  · rw [dayNumber_eq_fast]; decide +kernel

/-! ## day_of_month -/

/-- **C49** `day_of_month` is the day of the UTC time, as long as the year is the same. -/
theorem day_of_month_utc (tz : TimeZone) (u : Int) (h : InRange u) (hy : yearOf nanosPerDay (tz.fixDst u) = yearOf nanosPerDay u) :
    ∃ (y m d : Nat) (t : Int), Shows u y m d t ∧ nanoDayOfMonth tz u = some (d : Int) := by
  obtain ⟨h0, h1⟩ := inRange_div h
  obtain ⟨y, m, d, hv, hn, hyu, hm, hsy, hsm⟩ := sinceMonth_spec nanosPerDay u npd_pos h0 h1
  have hx := Int.mul_ediv_add_emod u nanosPerDay
  have ht0 := Int.emod_nonneg u (show nanosPerDay ≠ 0 by decide)
  have ht1 := Int.emod_lt_of_pos u npd_pos
  have hfirst := dayNumber_first y m d hv.2.2.1
  have hfirst1 := dayNumber_first y m 1 (by omega)
  have hd1 := hv.2.2.1
  refine ⟨y, m, d, u % nanosPerDay, ⟨hv, ht0, ht1, ?_⟩, ?_⟩
  · rw [hn, Int.mul_comm]; exact hx.symm
  · unfold nanoDayOfMonth
    dsimp only
    unfold sinceYear at hsy
    rw [hy]
    obtain ⟨s, hs1, hs2⟩ := Option.map_eq_some_iff.1 hsy
    rw [hs1, Option.bind_some, hs2, hyu, hsm, Option.map_some, time_of_day _ _ _ npd_pos, ← hn]
    refine congrArg some ?_
    omega

/-- **C49** `day_of_month` is right when the displayed day is also the UTC day. -/
theorem day_of_month_partial (tz : TimeZone) (u : Int) (h : InRange u) (hd : tz.fixDst u / nanosPerDay = u / nanosPerDay) :
    ∃ (y m d : Nat) (t : Int), Shows (tz.fixDst u) y m d t ∧ nanoDayOfMonth tz u = some (d : Int) := by
  have hy : yearOf nanosPerDay (tz.fixDst u) = yearOf nanosPerDay u := by
    unfold yearOf
    rw [searchRight_scale _ npd_pos, searchRight_scale _ npd_pos, hd]
  obtain ⟨y, m, d, t, hs, hr⟩ := day_of_month_utc tz u h hy
  have hx := Int.mul_ediv_add_emod (tz.fixDst u) nanosPerDay
  have ht0 := Int.emod_nonneg (tz.fixDst u) (show nanosPerDay ≠ 0 by decide)
  have ht1 := Int.emod_lt_of_pos (tz.fixDst u) npd_pos
  refine ⟨y, m, d, tz.fixDst u % nanosPerDay, ⟨hs.1, ht0, ht1, ?_⟩, hr⟩
  rw [← (shows_div hs).1, ← hd, Int.mul_comm]
  exact hx.symm

/-- 2019-01-22 20:00 in New York has day of month 23, and 2018-12-31 20:00 has 32. -/
theorem day_of_month_counterexample :
    (∃ u, Shows ((TimeZone.init .nyc .nyc).fixDst u) 2019 1 22 (20 * nanosPerHour) ∧ nanoDayOfMonth (TimeZone.init .nyc .nyc) u = some 23) ∧
    (∃ u, Shows ((TimeZone.init .nyc .nyc).fixDst u) 2018 12 31 (20 * nanosPerHour) ∧ nanoDayOfMonth (TimeZone.init .nyc .nyc) u = some 32) := by
  have hsr : switches .nyc = nycReverse.map fastNanos := by unfold switches; rw [nanos_eq_fast]
  refine ⟨⟨at_ (dayNumber 2019 1 23) 1, ⟨⟨by decide, by decide, by decide, by decide⟩, by decide, by decide, ?_⟩, ?_⟩,
    ⟨at_ (dayNumber 2019 1 1) 1, ⟨⟨by decide, by decide, by decide, by decide⟩, by decide, by decide, ?_⟩, ?_⟩⟩
  · rw [fixDst_eq, hsr, dayNumber_eq_fast, dayNumber_eq_fast]; decide +kernel
  · unfold nanoDayOfMonth
    rw [fixDst_eq, hsr, dayNumber_eq_fast]; decide +kernel
  · rw [fixDst_eq, hsr, dayNumber_eq_fast, dayNumber_eq_fast]; decide +kernel
  · unfold nanoDayOfMonth
    rw [fixDst_eq, hsr, dayNumber_eq_fast]; decide +kernel

/-! ## date() -/

/-- every wall clock time outside the skipped hours occurs -/
theorem wall_surj (z : Zone) (m : Int) (hm : ∀ a, StartsDst z a → ¬ (a - z.offset ≤ m ∧ m < a - z.offset + nanosPerHour)) :
    ∃ u, wall z u = m := by
  have hR := zone_rel z
  have hpos := hR.pos
  by_cases h2 : searchRight (switches z) (m + z.offset - nanosPerHour) % 2 = 1
  · exact ⟨m + z.offset - nanosPerHour, by rw [wall_eq, if_pos h2]; omega⟩
  · by_cases h1 : searchRight (switches z) (m + z.offset) % 2 = 1
    · exfalso
      obtain ⟨b1, s1⟩ := right_spec hR.sorted (m + z.offset)
      obtain ⟨b2, s2⟩ := right_spec hR.sorted (m + z.offset - nanosPerHour)
      generalize searchRight (switches z) (m + z.offset) = k1 at h1 b1 s1
      generalize searchRight (switches z) (m + z.offset - nanosPerHour) = k2 at h2 b2 s2
      have hmono : k2 ≤ k1 := by
        rcases Nat.lt_or_ge k1 k2 with hlt | hge
        · have hk : k1 < (switches z).length := by omega
          have := (s2 k1 _ (List.getElem?_eq_getElem hk)).2 hlt
          have := (s1 k1 _ (List.getElem?_eq_getElem hk)).1 (by omega)
          omega
        · exact hge
      have hk : k2 < (switches z).length := by omega
      have ha := List.getElem?_eq_getElem hk
      have n1 := (s1 k2 _ ha).2 (by omega)
      have n2 := mt (s2 k2 _ ha).1 (by omega)
      exact hm _ ⟨k2, by omega, ha⟩ ⟨by omega, by omega⟩
    · exact ⟨m + z.offset, by rw [wall_eq, if_neg h1]; omega⟩

/-- no zone skips midnight, or starts daylight saving time so that midnight is its first instant -/
theorem midnight_exists (z : Zone) (a : Int) (ha : StartsDst z a) :
    0 < (a - z.offset) % nanosPerDay ∧ (a - z.offset) % nanosPerDay + nanosPerHour < nanosPerDay := by
  obtain ⟨i, hi, hia⟩ := ha
  have key : ∀ a ∈ switches z, 0 < (a - z.offset) % nanosPerDay ∧ (a - z.offset) % nanosPerDay + nanosPerHour < nanosPerDay := by
    cases z <;> unfold switches <;> (try rw [nanos_eq_fast]) <;> decide +kernel
  exact key a (List.mem_of_getElem? hia)

theorem midnight_not_between {x m : Int} (h1 : 0 < x % nanosPerDay) (h2 : x % nanosPerDay + nanosPerHour < nanosPerDay)
    (hm : m % nanosPerDay = 0) : ¬ (x ≤ m ∧ m ≤ x + nanosPerHour) := by
  rintro ⟨a, b⟩
  unfold nanosPerDay nanosPerHour at *
  omega

/-- **C49** `date()` is displayed as midnight of the displayed day (never the invalid midnight of 1970-01-01), in every zone with a
table of switches, and in GMT and UTC. -/
theorem date_partial (f z : Zone) (hz : z ≠ .tokyo ∧ z ≠ .kolkata) (u : Int) :
    let tz := TimeZone.init f z
    let x := tz.fixDst u
    let r := nanoDate tz u
    x - x % nanosPerDay ≠ 0 → r.1.fixDst r.2 = x - x % nanosPerDay := by
  intro tz x r hne
  have hr : r = (TimeZone.init z z, (TimeZone.init z z).toUtc (x - x % nanosPerDay)) := by
    show nanoDate (TimeZone.init f z) u = (TimeZone.init z z, (TimeZone.init z z).toUtc ((TimeZone.init f z).fixDst u - (TimeZone.init f z).fixDst u % nanosPerDay))
    unfold nanoDate
    cases z with
    | nyc => rfl
    | dublin => rfl
    | sydney => rfl
    | hongKong => rfl
    | seoul => rfl
    | tokyo => exact absurd rfl hz.1
    | kolkata => exact absurd rfl hz.2
    | gmt =>
      have e : (TimeZone.init f .gmt).fixDst u = u := by show u - 0 = u; omega
      rw [e]; rfl
    | utc =>
      have e : (TimeZone.init f .utc).fixDst u = u := by show u - 0 = u; omega
      rw [e]; rfl
  rw [hr]
  show (TimeZone.init z z).fixDst ((TimeZone.init z z).toUtc (x - x % nanosPerDay)) = _
  have hmod : (x - x % nanosPerDay) % nanosPerDay = 0 := by unfold nanosPerDay; omega
  generalize x - x % nanosPerDay = m at hne hmod ⊢
  obtain ⟨v, hv⟩ := wall_surj z m fun a ha hc => by
    obtain ⟨k1, k2⟩ := midnight_exists z a ha
    exact midnight_not_between k1 k2 hmod ⟨hc.1, by omega⟩
  rw [← hv]
  refine local_round_trip_partial z v (by rw [hv]; exact hne) fun hs => ?_
  obtain ⟨k1, k2⟩ := midnight_exists z v hs
  refine midnight_not_between k1 k2 hmod ?_
  obtain ⟨i, hi, hiv⟩ := hs
  have hw := (left_right_at (zone_rel z).sorted hiv).2
  rw [wall_eq, hw, if_pos (by omega)] at hv
  have := (zone_rel z).pos
  omega

/-- Tokyo, 2019-01-02 05:00: `date()` is 2019-01-01. -/
theorem date_tokyo_counterexample :
    ∃ u, Shows ((TimeZone.init .tokyo .tokyo).fixDst u) 2019 1 2 (5 * nanosPerHour) ∧
      Shows ((nanoDate (TimeZone.init .tokyo .tokyo) u).1.fixDst (nanoDate (TimeZone.init .tokyo .tokyo) u).2) 2019 1 1 0 := by
  refine ⟨at_ (dayNumber 2019 1 1) 20, ⟨⟨by decide, by decide, by decide, by decide⟩, by decide, by decide, ?_⟩,
    ⟨⟨by decide, by decide, by decide, by decide⟩, by decide, by decide, ?_⟩⟩
  · rw [dayNumber_eq_fast, dayNumber_eq_fast]; decide +kernel
  · rw [dayNumber_eq_fast]; decide +kernel

/-! ## Arrays -/

/-- **C49** `year()` and `month()` of an array that is not of length one: the fields of the displayed time where the entry is valid,
invalid elsewhere. -/
theorem nano_array_partial (inv : Int) (tz : TimeZone) (arr : List Int) (hl : arr.length ≠ 1)
    (hr : ∀ u ∈ arr, u ≠ inv → u ≠ 0 → InRange (tz.fixDst u)) :
    ∃ ys ms, fieldArray inv (fun u => some (nanoYear tz u)) arr = some ys ∧ fieldArray inv (nanoMonth tz) arr = some ms ∧
      ys.length = arr.length ∧ ms.length = arr.length ∧
      ∀ (i : Nat) (u : Int), arr[i]? = some u →
        ((u = inv ∨ u = 0) → ys[i]? = some none ∧ ms[i]? = some none) ∧
        (¬ (u = inv ∨ u = 0) → ∃ (y m d : Nat) (t : Int), Shows (tz.fixDst u) y m d t ∧
          ys[i]? = some (some (y : Int)) ∧ ms[i]? = some (some (m : Int))) := by
  have hm : ∀ u, (nanoMonth tz u).isSome := by
    intro u
    unfold nanoMonth monthOf
    rw [Option.isSome_map]
    exact sinceYear_isSome _ _
  obtain ⟨ys, e1, l1, g1⟩ := fieldArray_spec inv (fun u => some (nanoYear tz u)) (fun _ => rfl) arr hl
  obtain ⟨ms, e2, l2, g2⟩ := fieldArray_spec inv (nanoMonth tz) hm arr hl
  refine ⟨ys, ms, e1, e2, l1, l2, fun i u hu => ⟨fun hinv => ?_, fun hinv => ?_⟩⟩
  · have a1 := g1 i u hu
    have a2 := g2 i u hu
    rw [if_pos hinv] at a1 a2
    exact ⟨a1, a2⟩
  · have a1 := g1 i u hu
    have a2 := g2 i u hu
    rw [if_neg hinv] at a1 a2
    obtain ⟨y, m, d, t, hs, hy, hmo, -⟩ :=
      nano_fields_partial tz u (hr u (List.mem_of_getElem? hu) (fun h => hinv (Or.inl h)) (fun h => hinv (Or.inr h)))
    rw [hy] at a1
    rw [hmo] at a2
    exact ⟨y, m, d, t, hs, a1, a2⟩

example : InRange ((TimeZone.init .nyc .nyc).fixDst (at_ (dayNumber 2019 7 4) 12)) := by
  have hsr : switches .nyc = nycReverse.map fastNanos := by unfold switches; rw [nanos_eq_fast]
  unfold InRange
  rw [fixDst_eq, hsr, dayNumber_eq_fast, dayNumber_eq_fast]
  decide +kernel

end Verif.Tz
