import Verif.DateOps.More

/-!
# Properties: ranges of dates, first days of weeks and months (C84)
-/
namespace Verif.DateOps
open Spec

/-! ## `Date.range` -/

theorem mem_arange_pos (a b step n : Int) (hs : 0 < step) :
    n ∈ arange a b step ↔ a ≤ n ∧ n < b ∧ step ∣ (n - a) := by
  unfold arange arangeLen
  rw [if_pos hs]
  simp only [List.mem_map, List.mem_range]
  have key : ∀ k : Int, k < (b - a + (step - 1)) / step ↔ k * step < b - a := by
    intro k
    rw [Int.lt_iff_add_one_le, Int.le_ediv_iff_mul_le hs, Int.add_mul]
    omega
  constructor
  · rintro ⟨i, hi, rfl⟩
    have hi' : (i : Int) < (b - a + (step - 1)) / step := by omega
    have := (key i).1 hi'
    refine ⟨?_, by omega, ⟨i, by rw [Int.mul_comm]; omega⟩⟩
    have : (0 : Int) ≤ (i : Int) * step := Int.mul_nonneg (by omega) (by omega)
    omega
  · rintro ⟨h1, h2, ⟨k, hk⟩⟩
    have hk0 : 0 ≤ k := by
      by_contra hneg
      have : step * k < 0 := Int.mul_neg_of_pos_of_neg hs (by omega)
      omega
    have hk' : k * step < b - a := by rw [Int.mul_comm]; omega
    refine ⟨k.toNat, ?_, ?_⟩
    · have := (key k).2 hk'
      omega
    · have : (k.toNat : Int) = k := by omega
      rw [this, Int.mul_comm]; omega

theorem arange_length (a b step : Int) : (arange a b step).length = arangeLen a b step := by simp [arange]

theorem arange_get (a b step : Int) (i : Nat) (h : i < arangeLen a b step) : (arange a b step)[i]? = some (a + i * step) := by
  simp [arange, h]

theorem arange_sorted (a b step : Int) (hs : 0 < step) : (arange a b step).Pairwise (· < ·) := by
  unfold arange
  rw [List.pairwise_map]
  refine List.Pairwise.imp (fun {i j} h => ?_) List.pairwise_lt_range
  have : (i : Int) * step < (j : Int) * step := Int.mul_lt_mul_of_pos_right (by omega) hs
  omega

/-- **C84, `end` given.** `Date.range(start, end)` holds, in order and once each, exactly the
days from `start` to `end`: both included; only `start` with `closed="left"`; only `end` with
`closed="right"`.  Any other `closed` raises. -/
theorem range_closed (start e : Int) :
    (∃ r, dateRange start (some e) none 1 none = .ok r ∧ r.Pairwise (· < ·) ∧ ∀ n, n ∈ r ↔ start ≤ n ∧ n ≤ e) ∧
    (∃ r, dateRange start (some e) none 1 (some "left") = .ok r ∧ r.Pairwise (· < ·) ∧ ∀ n, n ∈ r ↔ start ≤ n ∧ n < e) ∧
    (∃ r, dateRange start (some e) none 1 (some "right") = .ok r ∧ r.Pairwise (· < ·) ∧ ∀ n, n ∈ r ↔ start < n ∧ n ≤ e) ∧
    (∀ c, c ≠ "left" → c ≠ "right" → dateRange start (some e) none 1 (some c) = .error .value) := by
  refine ⟨⟨arange start (e + 1) 1, by simp [dateRange, rangeEnds, rangeEnd], arange_sorted _ _ _ (by decide), fun n => ?_⟩,
    ⟨arange start e 1, by simp [dateRange, rangeEnds, rangeEnd], arange_sorted _ _ _ (by decide), fun n => ?_⟩,
    ⟨arange (start + 1) (e + 1) 1, by simp [dateRange, rangeEnds, rangeEnd], arange_sorted _ _ _ (by decide), fun n => ?_⟩, ?_⟩
  · rw [mem_arange_pos _ _ _ _ (by decide)]
    simp; omega
  · rw [mem_arange_pos _ _ _ _ (by decide)]
    simp
  · rw [mem_arange_pos _ _ _ _ (by decide)]
    simp; omega
  · intro c hl hr
    simp [dateRange, rangeEnds, rangeEnd, hl, hr]

/-- **C84, `step`.** With a step of two days or more, `Date.range(start, end, step=s)` holds, in
order and once each, exactly the days a multiple of `s` after `start` and before `end`, which is
left out; `closed` makes no difference, whatever it is. -/
theorem range_step (start e step : Int) (hs : 1 < step) (closed : Option String) :
    ∃ r, dateRange start (some e) none step closed = .ok r ∧ r.Pairwise (· < ·) ∧
      ∀ n, n ∈ r ↔ start ≤ n ∧ n < e ∧ step ∣ (n - start) := by
  refine ⟨arange start e step, by simp [dateRange, rangeEnds, rangeEnd, show step ≠ 1 by omega], arange_sorted _ _ _ (by omega), fun n => ?_⟩
  exact mem_arange_pos _ _ _ _ (by omega)

/-- **C84, `days`.** `Date.range(start, days=n, step=s)` holds exactly `n` dates, the `i`-th `i`
steps after `start`, for steps forward and backward, as long as the end is within 32 bits. -/
theorem range_days (start days step : Int) (hd : 0 ≤ days) (hs : step ≠ 0) (closed : Option String)
    (h1 : -(2 ^ 31) ≤ start + days * step) (h2 : start + days * step < 2 ^ 31) :
    ∃ r, dateRange start none (some days) step closed = .ok r ∧ (r.length : Int) = days ∧
      ∀ i : Nat, (i : Int) < days → r[i]? = some (start + i * step) := by
  have hlen : (arangeLen start (start + days * step) step : Int) = days := by
    unfold arangeLen
    by_cases hp : 0 < step
    · rw [if_pos hp]
      have : (start + days * step - start + (step - 1)) / step = days := by
        have e : start + days * step - start + (step - 1) = (step - 1) + days * step := by omega
        rw [e, Int.add_mul_ediv_right _ _ (by omega), Int.ediv_eq_zero_of_lt (by omega) (by omega)]
        omega
      rw [this]; omega
    · rw [if_neg hp, if_pos (by omega)]
      have : (start - (start + days * step) + (-step - 1)) / (-step) = days := by
        have e : start - (start + days * step) + (-step - 1) = (-step - 1) + days * (-step) := by
          rw [Int.mul_neg]; omega
        rw [e, Int.add_mul_ediv_right _ _ (by omega), Int.ediv_eq_zero_of_lt (by omega) (by omega)]
        omega
      rw [this]; omega
  refine ⟨arange start (start + days * step) step, by simp [dateRange, rangeEnds, rangeEnd, w32_eq h1 h2], ?_, ?_⟩
  · rw [arange_length]; exact hlen
  · intro i hi
    exact arange_get _ _ _ _ (by omega)

/-- **C84, nothing given.** Without `end` and `days` the call raises. -/
theorem range_raises (start step : Int) (closed : Option String) : dateRange start none none step closed = .error .value := by
  simp [dateRange, rangeEnds, rangeEnd]

/-- When both `end` and `days` are given, `days` only takes away `closed`: the end is left out. -/
theorem range_both_exact (start e days : Int) (closed : Option String) :
    dateRange start (some e) (some days) 1 closed = dateRange start (some e) none 1 (some "left") := by
  simp [dateRange, rangeEnds, rangeEnd]

/-- A range over the start of 1970 contains an invalid date. -/
theorem range_epoch_counterexample : dateRange (-1) (some 1) none 1 none = .ok [-1, 0, 1] ∧ rDate 0 = none := by decide +kernel

/-! ## The first day of the week and of the month -/

theorem ints_entry (op : Op) (xs ys : List Int) (hl : ys.length = xs.length) (h1 : xs.length ≠ 1) :
    ∃ r, dateFunnel op xs xs (.ints I32 ys) = .ok (.date r) ∧ r.length = xs.length ∧
      ∀ (i : Nat) (x y : Int), xs[i]? = some x → ys[i]? = some y →
        r[i]? = some (narrow I32 (if nanOrZero I32 x || decide (y = I32) then 0 else op.on x y)) := by
  have hf : Fit xs ys := Or.inl hl.symm
  obtain ⟨r0, h0, hl0, hr0⟩ := bcast_entry (fun x y => op.on x y) hf
  obtain ⟨hl', hr'⟩ := applyInv_entry xs xs (nanOrZero I32) ys (fun y => decide (y = I32)) r0 I32 0 rfl h1 hf hl0
  have hout : outLen xs ys = xs.length := by simp [outLen, h1]
  refine ⟨(applyInv xs (xs.map (nanOrZero I32)) r0 I32 0 (some (ys.map fun y => decide (y = I32)))).map (narrow I32),
    by simp only [dateFunnel, h0, bind, Except.bind, pure, Except.pure], by rw [List.length_map, hl', hout], ?_⟩
  intro i x y hx hy
  have hil : i < xs.length := by
    by_contra hge
    rw [List.getElem?_eq_none (by omega)] at hx; cases hx
  have hxe : entry xs i = some x := by simp only [entry, if_neg h1]; exact hx
  have hye : entry ys i = some y := by simp only [entry]; rw [if_neg (by omega)]; exact hy
  rw [List.getElem?_map, hr' i x y _ (by omega) hxe hye (hr0 i x y (by omega) hxe hye)]
  rfl

theorem nan_or (x : Int) : nanOrZero I32 x = true ↔ x = I32 ∨ x = 0 := by
  simp [nanOrZero, or_comm]

/-- **C84, weeks.** `start_of_week` of a `Date` column which has not one entry: for every valid
date the last Monday up to it, at most six days back; an invalid date stays invalid. -/
theorem start_of_week_partial (xs : List Int) (h1 : xs.length ≠ 1)
    (hx : ∀ x ∈ xs, x = -(2 ^ 31) ∨ (-(2 ^ 31) + 7 < x ∧ x < 2 ^ 31)) :
    ∃ r, startOfWeek xs = some (.ok (.date r)) ∧ r.length = xs.length ∧
      ∀ (i : Nat) (x : Int), xs[i]? = some x →
        if rDate x = none then ∃ y, r[i]? = some y ∧ rDate y = none
        else ∃ y, r[i]? = some y ∧ rDate y ≠ none ∧ y ≤ x ∧ x < y + 7 ∧ Calendar.dateDayOfWeek y = 0 := by
  obtain ⟨dow, hd, hdl, hdw⟩ := Calendar.fieldArray_spec I32 (fun n => some (Calendar.dateDayOfWeek n)) (fun _ => rfl) xs h1
  obtain ⟨r, hr, hrl, hre⟩ := ints_entry .sub xs (marked dow) (by simp [marked, hdl]) h1
  refine ⟨r, by simp [startOfWeek, hd, hr], hrl, ?_⟩
  intro i x hxi
  have hxm := hx x (List.mem_of_getElem? hxi)
  have hdi := hdw i x hxi
  by_cases hn : rDate x = none
  · rw [if_pos hn]
    have hz := (date_nan_iff x).2 hn
    have hz' := (nan_or x).1 hz
    rw [if_pos hz'] at hdi
    refine ⟨0, ?_, rfl⟩
    rw [hre i x I32 hxi (by simp [marked, hdi])]
    simp [hz, narrow, I32, w32]
  · rw [if_neg hn]
    have hz : nanOrZero I32 x = false := by
      cases h : nanOrZero I32 x
      · rfl
      · exact absurd ((date_nan_iff x).1 h) hn
    have hz' : ¬ (x = I32 ∨ x = 0) := fun h => by rw [(nan_or x).2 h] at hz; cases hz
    rw [if_neg hz'] at hdi
    have hw : 0 ≤ Calendar.dateDayOfWeek x ∧ Calendar.dateDayOfWeek x < 7 := by
      unfold Calendar.dateDayOfWeek; omega
    have hne : decide (Calendar.dateDayOfWeek x = I32) = false := decide_eq_false (by simp only [I32]; omega)
    have hxr : -(2 ^ 31) + 7 < x ∧ x < 2 ^ 31 := hxm.resolve_left (fun e => hz' (Or.inl (by simpa only [I32] using e)))
    have hval : narrow I32 (x - Calendar.dateDayOfWeek x) = x - Calendar.dateDayOfWeek x := by
      unfold narrow
      rw [if_neg (by simp only [I32]; omega), w32_eq (by omega) (by omega)]
    have hmon : Calendar.dateDayOfWeek (x - Calendar.dateDayOfWeek x) = 0 := by
      unfold Calendar.dateDayOfWeek; omega
    refine ⟨x - Calendar.dateDayOfWeek x, ?_, ?_, by omega, by omega, hmon⟩
    · rw [hre i x (Calendar.dateDayOfWeek x) hxi (by simp [marked, hdi])]
      simp only [hz, hne, Bool.or_self, Op.on]
      exact congrArg some hval
    · simp only [rDate]
      rw [if_neg]
      · simp
      · rintro (e | e)
        · rw [e] at hmon
          simp [Calendar.dateDayOfWeek] at hmon
        · omega

/-- **C84, months.** `start_of_month` of a `Date` column which has not one entry, up to the year
2099: for every valid date the first day of its month; an invalid date stays invalid. -/
theorem start_of_month_partial (xs : List Int) (h1 : xs.length ≠ 1)
    (hx : ∀ x ∈ xs, x = -(2 ^ 31) ∨ (0 ≤ x ∧ x < Calendar.dayNumber 2100 1 1)) :
    ∃ r, startOfMonth xs = some (.ok (.date r)) ∧ r.length = xs.length ∧
      ∀ (i : Nat) (x : Int), xs[i]? = some x →
        if rDate x = none then ∃ y, r[i]? = some y ∧ rDate y = none
        else ∃ y m d : Nat, Calendar.ValidDate y m d ∧ Calendar.dayNumber y m d = x ∧
          r[i]? = some (Calendar.dayNumber y m 1) := by
  obtain ⟨dom, hd, hdl, hdw⟩ := Calendar.fieldArray_spec I32 Calendar.dateDayOfMonth Calendar.dateDayOfMonth_isSome xs h1
  obtain ⟨r, hr, hrl, hre⟩ := ints_entry .sub xs (marked dom) (by simp [marked, hdl]) h1
  refine ⟨r.map fun x => if nanOrZero I32 x then 0 else w32 (x + 1), ?_, by simp [hrl], ?_⟩
  · simp only [startOfMonth, hd, Option.map_some, hr]
    simp only [plusOne]
    simp only [dateFunnel]
    rw [applyInv_none r r _ _ _ _ rfl (by omega)]
    rfl
  intro i x hxi
  have hxm := hx x (List.mem_of_getElem? hxi)
  have hdi := hdw i x hxi
  by_cases hn : rDate x = none
  · rw [if_pos hn]
    have hz := (date_nan_iff x).2 hn
    have hz' := (nan_or x).1 hz
    rw [if_pos hz'] at hdi
    refine ⟨0, ?_, rfl⟩
    rw [List.getElem?_map, hre i x I32 hxi (by simp [marked, hdi])]
    simp [hz, narrow, I32, w32, nanOrZero]
  · rw [if_neg hn]
    have hz : nanOrZero I32 x = false := by
      cases h : nanOrZero I32 x
      · rfl
      · exact absurd ((date_nan_iff x).1 h) hn
    have hz' : ¬ (x = I32 ∨ x = 0) := fun h => by rw [(nan_or x).2 h] at hz; cases hz
    rw [if_neg hz'] at hdi
    obtain ⟨hx0, hx1⟩ := hxm.resolve_left (fun e => hz' (Or.inl (by simpa only [I32] using e)))
    obtain ⟨y, m, d, hv, hn', _, _, hdd, _⟩ := Calendar.date_fields_partial x hx0 hx1
    refine ⟨y, m, d, hv, hn', ?_⟩
    rw [hdd] at hdi
    have hfirst : Calendar.dayNumber y m 1 = x - d + 1 := by
      rw [← hn']; unfold Calendar.dayNumber; push_cast; omega
    have hd31 : d ≤ 31 := by
      have := hv.2.2.2
      unfold Calendar.monthLen at this
      split at this
      · split at this <;> omega
      · split at this <;> omega
    have hxb : x < 47482 := by rw [Calendar.year_end] at hx1; exact hx1
    clear hx1 hx
    have hd1 := hv.2.2.1
    have hne : decide ((d : Int) = I32) = false := decide_eq_false (by simp only [I32]; omega)
    have hval : narrow I32 (x - d) = x - d := by
      unfold narrow
      rw [if_neg (by simp only [I32]; omega), w32_eq (by omega) (by omega)]
    have hri : r[i]? = some (x - d) := by
      rw [hre i x d hxi (by simp [marked, hdi])]
      simp only [hz, hne, Bool.or_self, Op.on]
      exact congrArg some hval
    rw [List.getElem?_map, hri, hfirst]
    have hnz : x - d ≠ 0 := by
      intro e
      -- the day before the first of a month is never 1970-01-01
      have h0 : Calendar.dayNumber y m 1 = 1 := by omega
      have h2 : Calendar.dayNumber 1970 1 2 = 1 := by
        have : Calendar.daysBeforeMonth 1970 1 = 0 := rfl
        unfold Calendar.dayNumber; omega
      have := Calendar.dayNumber_injective (y := y) (m := m) (d := 1) (y' := 1970) (m' := 1) (d' := 2)
        ⟨hv.1, hv.2.1, by omega, by have := hv.2.2.2; omega⟩ ⟨by omega, by omega, by omega, by decide⟩ (by rw [h0, h2])
      omega
    have hnn : nanOrZero I32 (x - d) = false := by
      cases h : nanOrZero I32 (x - d)
      · rfl
      · rcases (nan_or _).1 h with e | e
        · simp only [I32] at e; omega
        · exact absurd e hnz
    simp only [Option.map_some, hnn, Bool.false_eq_true, if_false]
    rw [w32_eq (by omega) (by omega)]

/-- Every day of January 1970 has an invalid first day of the month. -/
theorem start_of_month_1970_counterexample :
    startOfMonth [5, 18300] = some (.ok (.date [0, 18293])) ∧ rDate 5 ≠ none ∧ rDate 0 = none := by decide +kernel

example : startOfWeek [18262, 0, 18263] = some (.ok (.date [18260, 0, 18260])) := by decide +kernel
example : ∀ x ∈ [18262, -(2 ^ 31), (0 : Int)], x = -(2 ^ 31) ∨ (0 ≤ x ∧ x < Calendar.dayNumber 2100 1 1) := by
  rw [Calendar.year_end]; decide
example : dateRange 18262 none (some 3) (-2) none = .ok [18262, 18260, 18258] := by decide +kernel
example : dateRange 18262 (some 18266) none 2 none = .ok [18262, 18264] := by decide +kernel
example : (0 : Int) ≤ 3 ∧ (-2 : Int) ≠ 0 ∧ -(2 ^ 31) ≤ (18262 + 3 * (-2) : Int) := by decide

end Verif.DateOps
