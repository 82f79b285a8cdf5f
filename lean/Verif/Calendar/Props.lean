import Verif.Calendar.Model
/-!
# C32: calendar fields of dates
-/
namespace Verif.Calendar

/-! ## Searching ascending tables -/

theorem filter_prefix {p : Int → Bool} (l : List Int) (n : Nat) (hn : n ≤ l.length)
    (h : ∀ (i : Nat) (x : Int), l[i]? = some x → (p x = true ↔ i < n)) : (l.filter p).length = n := by
  induction l generalizing n with
  | nil => simp at hn; simp [hn]
  | cons a l ih =>
    have h0 := h 0 a rfl
    cases n with
    | zero =>
      have ha : p a = false := by
        cases hp : p a with
        | false => rfl
        | true => have := h0.1 hp; omega
      rw [List.filter_cons_of_neg (by simp [ha])]
      refine ih 0 (by omega) fun i x hx => ?_
      have := h (i + 1) x (by simpa using hx)
      constructor
      · intro hp; have := this.1 hp; omega
      · intro hi; omega
    | succ n =>
      rw [List.filter_cons_of_pos (h0.2 (by omega)), List.length_cons, ih n (by simpa using hn)]
      intro i x hx
      have := h (i + 1) x (by simpa using hx)
      rw [this]; omega

/-- on an ascending table exactly the entries before the found position are not above `x` -/
theorem searchRight_spec (s : List Int) (hs : s.Pairwise (· < ·)) (x : Int) :
    searchRight s x ≤ s.length ∧ ∀ (i : Nat) (a : Int), s[i]? = some a → (a ≤ x ↔ i < searchRight s x) := by
  unfold searchRight
  refine ⟨List.length_filter_le _ _, ?_⟩
  induction s with
  | nil => simp
  | cons b s ih =>
    rw [List.pairwise_cons] at hs
    intro i a ha
    by_cases hb : b ≤ x
    · rw [List.filter_cons_of_pos (by simpa using hb), List.length_cons]
      cases i with
      | zero =>
        simp at ha; subst ha
        exact ⟨fun _ => by omega, fun _ => hb⟩
      | succ i =>
        rw [ih hs.2 i a (by simpa using ha)]; omega
    · rw [List.filter_cons_of_neg (by simpa using hb)]
      have hall : s.filter (fun a => decide (a ≤ x)) = [] := by
        rw [List.filter_eq_nil_iff]
        intro c hc
        have := hs.1 c hc
        simp; omega
      rw [hall]
      simp only [List.length_nil, Nat.not_lt_zero, iff_false]
      cases i with
      | zero => simp at ha; omega
      | succ i =>
        have := hs.1 a (List.mem_of_getElem? (by simpa using ha))
        omega

theorem searchRight_scale (u : Int) (hu : 0 < u) (s : List Int) (x : Int) : searchRight (scale u s) x = searchRight s (x / u) := by
  unfold searchRight scale
  induction s with
  | nil => rfl
  | cons a s ih =>
    have : a * u ≤ x ↔ a ≤ x / u := (Int.le_ediv_iff_mul_le hu).symm
    rw [List.map_cons]
    by_cases h : a ≤ x / u
    · rw [List.filter_cons_of_pos (by simpa using this.2 h), List.filter_cons_of_pos (by simpa using h), List.length_cons, List.length_cons, ih]
    · rw [List.filter_cons_of_neg (by simpa [this] using h), List.filter_cons_of_neg (by simpa using h), ih]

/-! ## The tables -/

theorem daySplits_length : daySplits.length = 130 := by decide +kernel

theorem daySplits_sorted : daySplits.Pairwise (· < ·) := by decide +kernel

/-- closed form of the first day of a year -/
theorem dayNumber_year (y : Nat) :
    dayNumber y 1 1 = ((365 * y + (y + 3) / 4 + (y + 399) / 400 - (y + 99) / 100 : Nat) : Int) - 719528 := by
  unfold dayNumber
  rw [daysBeforeYear_closed, daysBeforeYear_closed]
  have : daysBeforeMonth y 1 = 0 := rfl
  rw [this]
  omega

/-- the table holds the first days of the years -/
theorem daySplits_get (i : Nat) (hi : i < 130) : daySplits[i]? = some (dayNumber (1970 + i) 1 1) := by
  rw [dayNumber_year]
  revert i
  decide +kernel

theorem year_end : dayNumber 2100 1 1 = 47482 := by rw [dayNumber_year]; decide

/-- the leap year test of the code is right for the years of the table -/
theorem leap_eq (y : Nat) (h1 : 1970 ≤ y) (h2 : y < 2100) : leap y = decide ((y : Int) % 4 = 0) := by
  unfold leap
  rw [decide_eq_decide]
  omega

theorem yday_get (y j : Nat) (hj : j < 12) :
    (if leap y then ydaySplitsLeap else ydaySplits)[j]? = some ((daysBeforeMonth y (j + 1) : Nat) : Int) := by
  unfold daysBeforeMonth monthLen
  cases leap y
  · revert j; decide
  · revert j; decide

theorem yday_sorted (y : Nat) : (if leap y then ydaySplitsLeap else ydaySplits).Pairwise (· < ·) := by
  cases leap y <;> decide

theorem npGet_nat (s : List Int) (i : Nat) (hi : i < s.length) : Cat.npGet s (i : Int) = s[i]? := by
  unfold Cat.npGet
  simp [hi]

/-! ## Fields -/

/-- the year of a day in the range of the table -/
theorem year_spec (n : Int) (h0 : 0 ≤ n) (h1 : n < 47482) :
    ∃ y : Nat, 1970 ≤ y ∧ y < 2100 ∧ yearOf 1 n = y ∧ dayNumber y 1 1 ≤ n ∧ n < dayNumber (y + 1) 1 1 := by
  obtain ⟨hle, hs⟩ := searchRight_spec daySplits daySplits_sorted n
  have hy : yearOf 1 n = (searchRight daySplits n : Int) + 1969 := by
    unfold yearOf
    rw [searchRight_scale 1 (by omega), Int.ediv_one]
  generalize hk : searchRight daySplits n = k at *
  rw [daySplits_length] at hle
  have hk1 : 0 < k := (hs 0 0 (by decide)).1 h0
  refine ⟨1969 + k, by omega, by omega, by rw [hy]; omega, ?_, ?_⟩
  · have hg := daySplits_get (k - 1) (by omega)
    have := (hs (k - 1) _ hg).2 (by omega)
    rw [show 1970 + (k - 1) = 1969 + k by omega] at this
    exact this
  · by_cases hk130 : k = 130
    · rw [hk130]
      have := year_end
      show n < dayNumber 2100 1 1
      omega
    · have hg := daySplits_get k (by omega)
      have := mt (hs k _ hg).1 (by omega)
      rw [show 1970 + k = 1969 + k + 1 by omega] at this
      omega

theorem dayNumber_first (y m d : Nat) (hd : 1 ≤ d) : dayNumber y m d = dayNumber y 1 1 + daysBeforeMonth y m + (d - 1 : Nat) := by
  unfold dayNumber
  have : daysBeforeMonth y 1 = 0 := rfl
  rw [this]
  push_cast [hd]
  omega

/-- month and day of the day `t` of a year -/
theorem month_spec (y : Nat) (t : Int) (h0 : 0 ≤ t) (h1 : t < yearLen y) :
    ∃ m d : Nat, ValidDate y m d ∧ (searchRight (if leap y then ydaySplitsLeap else ydaySplits) t : Int) = m ∧
      t = daysBeforeMonth y m + (d - 1 : Nat) := by
  obtain ⟨hle, hs⟩ := searchRight_spec _ (yday_sorted y) t
  have hlen : (if leap y then ydaySplitsLeap else ydaySplits).length = 12 := by cases leap y <;> rfl
  generalize hk : searchRight (if leap y then ydaySplitsLeap else ydaySplits) t = k at *
  rw [hlen] at hle
  have hk1 : 0 < k := (hs 0 _ (yday_get y 0 (by omega))).1 (by simpa [daysBeforeMonth] using h0)
  have hlow := (hs (k - 1) _ (yday_get y (k - 1) (by omega))).2 (by omega)
  rw [show k - 1 + 1 = k by omega] at hlow
  have hhigh : t < daysBeforeMonth y (k + 1) := by
    by_cases hk12 : k = 12
    · rw [hk12, daysBeforeMonth_13]; exact h1
    · have := mt (hs k _ (yday_get y k (by omega))).1 (by omega)
      omega
  rw [daysBeforeMonth_succ y k hk1] at hhigh
  refine ⟨k, (t - daysBeforeMonth y k).toNat + 1, ⟨hk1, hle, by omega, ?_⟩, rfl, ?_⟩
  · push_cast at hhigh; omega
  · simp only [Nat.add_sub_cancel]; omega

/-- scaling the tables by the length of a day is working with whole days -/
theorem sinceYear_spec (u x : Int) (hu : 0 < u) (h0 : 0 ≤ x / u) (h1 : x / u < 47482) :
    ∃ y : Nat, 1970 ≤ y ∧ y < 2100 ∧ yearOf u x = y ∧ dayNumber y 1 1 ≤ x / u ∧ x / u < dayNumber (y + 1) 1 1 ∧
      sinceYear u x = some (x - dayNumber y 1 1 * u) := by
  obtain ⟨y, hy1, hy2, hy3, hy4, hy5⟩ := year_spec (x / u) h0 h1
  have hyu : yearOf u x = y := by
    rw [← hy3]
    unfold yearOf
    rw [searchRight_scale u hu, searchRight_scale 1 (by omega), Int.ediv_one]
  refine ⟨y, hy1, hy2, hyu, hy4, hy5, ?_⟩
  unfold sinceYear
  rw [hyu]
  have : (y : Int) - 1970 = ((y - 1970 : Nat) : Int) := by omega
  rw [this, npGet_nat _ _ (by simp [scale, daySplits_length]; omega)]
  unfold scale
  rw [List.getElem?_map, daySplits_get _ (by omega), show 1970 + (y - 1970) = y by omega]
  rfl

theorem time_of_day (x u k : Int) (hu : 0 < u) : (x - k * u) / u = x / u - k := by
  rw [Int.sub_ediv_of_dvd _ (Int.dvd_mul_left k u), Int.mul_ediv_cancel _ (by omega)]

/-- month and time since its start -/
theorem sinceMonth_spec (u x : Int) (hu : 0 < u) (h0 : 0 ≤ x / u) (h1 : x / u < 47482) :
    ∃ y m d : Nat, ValidDate y m d ∧ dayNumber y m d = x / u ∧ yearOf u x = y ∧ monthOf u x = some (m : Int) ∧
      sinceYear u x = some (x - dayNumber y 1 1 * u) ∧
      sinceMonth u y (x - dayNumber y 1 1 * u) = some (x - (dayNumber y m 1) * u) := by
  obtain ⟨y, hy1, hy2, hy3, hy4, hy5, hy6⟩ := sinceYear_spec u x hu h0 h1
  have hlen : dayNumber (y + 1) 1 1 = dayNumber y 1 1 + yearLen y := by
    unfold dayNumber
    rw [daysBeforeYear_succ]
    have e1 : daysBeforeMonth y 1 = 0 := rfl
    have e2 : daysBeforeMonth (y + 1) 1 = 0 := rfl
    rw [e1, e2]
    push_cast; omega
  have hdiv := time_of_day x u (dayNumber y 1 1) hu
  obtain ⟨m, d, hv, hm, ht⟩ := month_spec y (x / u - dayNumber y 1 1) (by omega) (by omega)
  have hleap : (y : Int) % 4 = 0 ↔ leap y = true := by rw [leap_eq y hy1 hy2]; simp
  refine ⟨y, m, d, hv, ?_, hy3, ?_, hy6, ?_⟩
  · rw [dayNumber_first y m d hv.2.2.1]; omega
  · unfold monthOf
    rw [hy6]
    dsimp only [Option.map_some]
    rw [hy3, searchRight_scale u hu, searchRight_scale u hu, hdiv, ← hm]
    by_cases hl : leap y = true
    · rw [if_pos (hleap.2 hl), if_pos hl]
    · rw [if_neg (fun h => hl (hleap.1 h)), if_neg hl]
  · unfold sinceMonth
    dsimp only
    have hs : (if (y : Int) % 4 = 0 then scale u ydaySplitsLeap else scale u ydaySplits) =
        scale u (if leap y then ydaySplitsLeap else ydaySplits) := by
      by_cases hl : leap y = true
      · rw [if_pos (hleap.2 hl), if_pos hl]
      · rw [if_neg (fun h => hl (hleap.1 h)), if_neg hl]
    have hl12 : (if leap y then ydaySplitsLeap else ydaySplits).length = 12 := by cases leap y <;> rfl
    rw [hs, searchRight_scale u hu, hdiv, hm, show (m : Int) - 1 = ((m - 1 : Nat) : Int) by have := hv.1; omega,
      npGet_nat _ _ (by simp only [scale, List.length_map, hl12]; have := hv.1; have := hv.2.1; omega)]
    unfold scale
    rw [List.getElem?_map, yday_get y (m - 1) (by have := hv.1; have := hv.2.1; omega), show m - 1 + 1 = m by have := hv.1; omega]
    simp only [Option.map_some, Option.some.injEq]
    have : dayNumber y m 1 = dayNumber y 1 1 + daysBeforeMonth y m := by
      rw [dayNumber_first y m 1 (by omega)]; simp
    rw [this, Int.add_mul]
    omega

/-- **C32** From 1970-01-01 to 2099-12-31, the year, month, day of the month, day of the year and leap year flag of a day number
are those of the Gregorian calendar. -/
theorem date_fields_partial (n : Int) (h0 : 0 ≤ n) (h1 : n < dayNumber 2100 1 1) :
    ∃ y m d : Nat, ValidDate y m d ∧ dayNumber y m d = n ∧
      dateYear n = y ∧ dateMonth n = some (m : Int) ∧ dateDayOfMonth n = some (d : Int) ∧
      dateDayOfYear n = some (n - dayNumber y 1 1 + 1) ∧ dateIsLeap n = leap y := by
  rw [year_end] at h1
  obtain ⟨y, m, d, hv, hn, hy, hm, hsy, hsm⟩ := sinceMonth_spec 1 n (by omega) (by simpa using h0) (by simpa using h1)
  obtain ⟨y', hy1, hy2, hy3, -⟩ := year_spec n h0 h1
  have hyy : y' = y := by rw [hy] at hy3; omega
  subst hyy
  simp only [Int.ediv_one] at hn
  refine ⟨y', m, d, hv, hn, hy, hm, ?_, ?_, ?_⟩
  · unfold dateDayOfMonth
    rw [hsy]
    dsimp only [Option.bind_some]
    rw [hy, hsm, ← hn, dayNumber_first y' m d hv.2.2.1, dayNumber_first y' m 1 (by omega)]
    have := hv.2.2.1
    simp only [Option.map_some, Option.some.injEq]
    omega
  · unfold dateDayOfYear
    rw [hsy]
    simp only [Option.map_some, Option.some.injEq]
    omega
  · unfold dateIsLeap
    rw [hy, leap_eq y' hy1 hy2]

/-- **C32** The day of the week of any day number: 1970-01-01 is a Thursday (3), and the days of the week follow each other. -/
theorem day_of_week_correct (n : Int) :
    dateDayOfWeek 0 = 3 ∧ 0 ≤ dateDayOfWeek n ∧ dateDayOfWeek n < 7 ∧ dateDayOfWeek (n + 1) = (dateDayOfWeek n + 1) % 7 := by
  unfold dateDayOfWeek
  omega

/-- **C32** Every day from 2100-01-01 on is reported in the year 2099. -/
theorem date_year_after (n : Int) (h : dayNumber 2100 1 1 ≤ n) : dateYear n = 2099 := by
  rw [year_end] at h
  unfold dateYear yearOf
  rw [searchRight_scale 1 (by omega)]
  obtain ⟨hle, hs⟩ := searchRight_spec daySplits daySplits_sorted (n / 1)
  have h129 := (hs 129 _ (daySplits_get 129 (by omega))).1 (by rw [dayNumber_year]; simp; omega)
  rw [daySplits_length] at hle
  omega

/-- **C32** Every negative day number is reported in the year 1969. -/
theorem date_year_before (n : Int) (h : n < 0) : dateYear n = 1969 := by
  unfold dateYear yearOf
  rw [searchRight_scale 1 (by omega)]
  obtain ⟨hle, hs⟩ := searchRight_spec daySplits daySplits_sorted (n / 1)
  have h0 := mt (hs 0 _ (daySplits_get 0 (by omega))).2 (by rw [dayNumber_year]; simp; omega)
  omega

/-! ## Arrays -/

theorem mapM_some_get {α β : Type} {l : List α} {f : α → Option β} (h : ∀ a, (f a).isSome) :
    ∃ r, l.mapM f = some r ∧ r.length = l.length ∧ ∀ (i : Nat) (a : α), l[i]? = some a → r[i]? = f a := by
  induction l with
  | nil => exact ⟨[], rfl, rfl, by simp⟩
  | cons a l ih =>
    obtain ⟨r, hr, hl, hg⟩ := ih
    obtain ⟨b, hb⟩ := Option.isSome_iff_exists.1 (h a)
    refine ⟨b :: r, by rw [List.mapM_cons, hb, hr]; rfl, by simp [hl], ?_⟩
    intro i x hx
    cases i with
    | zero => simp at hx; subst hx; simp [hb]
    | succ i => simpa using hg i x (by simpa using hx)

/-- the table lookups never fail -/
theorem sinceYear_isSome (u x : Int) : (sinceYear u x).isSome := by
  unfold sinceYear
  have hle : searchRight (scale u daySplits) x ≤ 130 := by
    have : searchRight (scale u daySplits) x ≤ (scale u daySplits).length := List.length_filter_le _ _
    rw [scale, List.length_map, daySplits_length] at this
    exact this
  unfold yearOf
  generalize searchRight (scale u daySplits) x = k at *
  have hl : (scale u daySplits).length = 130 := by rw [scale, List.length_map, daySplits_length]
  cases k with
  | zero =>
    have : Cat.npGet (scale u daySplits) (((0 : Nat) : Int) + 1969 - 1970) = (scale u daySplits)[129]? := by
      unfold Cat.npGet
      rw [hl]; rfl
    rw [this, List.getElem?_eq_getElem (by omega)]
    rfl
  | succ k =>
    rw [show (((k + 1 : Nat) : Int) + 1969 - 1970) = (k : Int) by push_cast; omega, npGet_nat _ _ (by omega),
      List.getElem?_eq_getElem (by omega)]
    rfl

theorem npGet_wrap_isSome (s : List Int) (k : Nat) (hk : k ≤ s.length) (hs : s ≠ []) : (Cat.npGet s ((k : Int) - 1)).isSome := by
  have hpos := List.length_pos_iff.2 hs
  cases k with
  | zero =>
    have : Cat.npGet s (((0 : Nat) : Int) - 1) = s[s.length - 1]? := by
      unfold Cat.npGet
      have e1 : ¬ (0 : Int) ≤ ((0 : Nat) : Int) - 1 := by omega
      simp only [e1, if_false]
      rw [if_pos (by omega)]
      congr 1
      omega
    rw [this, List.getElem?_eq_getElem (by omega)]
    rfl
  | succ k =>
    rw [show (((k + 1 : Nat) : Int) - 1) = (k : Int) by omega, npGet_nat _ _ (by omega), List.getElem?_eq_getElem (by omega)]
    rfl

theorem sinceMonth_isSome (u y t : Int) : (sinceMonth u y t).isSome := by
  unfold sinceMonth
  dsimp only
  rw [Option.isSome_map]
  refine npGet_wrap_isSome _ _ (List.length_filter_le _ _) ?_
  split <;> simp [scale, ydaySplits, ydaySplitsLeap]

theorem dateMonth_isSome (n : Int) : (dateMonth n).isSome := by
  unfold dateMonth monthOf
  rw [Option.isSome_map]
  exact sinceYear_isSome 1 n

theorem dateDayOfMonth_isSome (n : Int) : (dateDayOfMonth n).isSome := by
  unfold dateDayOfMonth
  obtain ⟨t, ht⟩ := Option.isSome_iff_exists.1 (sinceYear_isSome 1 n)
  rw [ht, Option.bind_some, Option.isSome_map]
  exact sinceMonth_isSome _ _ _

/-- **C32** Reading a field of an array never raises, and every entry is treated by itself: 0 and the sentinel give the invalid,
every other entry of an array of two or more its field. -/
theorem fieldArray_spec (inv : Int) (f : Int → Option Int) (hf : ∀ n, (f n).isSome) (arr : List Int) (hl : arr.length ≠ 1) :
    ∃ r, fieldArray inv f arr = some r ∧ r.length = arr.length ∧
      ∀ (i : Nat) (n : Int), arr[i]? = some n → r[i]? = some (if n = inv ∨ n = 0 then none else f n) := by
  obtain ⟨r0, h1, h2, h3⟩ := mapM_some_get (l := arr) hf
  refine ⟨applyInvMask inv arr r0, by unfold fieldArray; rw [h1]; rfl, ?_, ?_⟩
  · unfold applyInvMask
    rw [if_neg hl, List.length_zipWith, h2, Nat.min_self]
  · intro i n hn
    have hr := h3 i n hn
    obtain ⟨b, hb⟩ := Option.isSome_iff_exists.1 (hf n)
    rw [hb] at hr
    unfold applyInvMask
    rw [if_neg hl, List.getElem?_zipWith, hn, hr, hb]

/-- an array of one entry -/
theorem fieldArray_single (inv : Int) (f : Int → Option Int) (hf : ∀ n, (f n).isSome) (n : Int) :
    fieldArray inv f [n] = some [if n ≤ 0 then none else f n] := by
  obtain ⟨b, hb⟩ := Option.isSome_iff_exists.1 (hf n)
  unfold fieldArray
  simp only [List.mapM_cons, hb, List.mapM_nil]
  show (some [b]).map _ = _
  simp only [Option.map_some, applyInvMask, List.length_cons, List.length_nil, List.headD_cons]
  by_cases h : n ≤ 0 <;> simp [h]

/-- **C32** Fields of a Date array of two or more entries up to 2099-12-31: no field raises, 0 and the sentinel are invalid, and
every other entry has the fields of its Gregorian date. -/
theorem date_array_partial (inv : Int) (arr : List Int) (hl : arr.length ≠ 1)
    (hr : ∀ n ∈ arr, n = inv ∨ (0 ≤ n ∧ n < dayNumber 2100 1 1)) :
    ∃ ys ms ds : List (Option Int),
      fieldArray inv (fun n => some (dateYear n)) arr = some ys ∧ fieldArray inv dateMonth arr = some ms ∧
      fieldArray inv dateDayOfMonth arr = some ds ∧
      ∀ (i : Nat) (n : Int), arr[i]? = some n →
        if n = inv ∨ n = 0 then ys[i]? = some none ∧ ms[i]? = some none ∧ ds[i]? = some none
        else ∃ y m d : Nat, ValidDate y m d ∧ dayNumber y m d = n ∧
          ys[i]? = some (some (y : Int)) ∧ ms[i]? = some (some (m : Int)) ∧ ds[i]? = some (some (d : Int)) := by
  obtain ⟨ys, hy1, -, hy2⟩ := fieldArray_spec inv (fun n => some (dateYear n)) (fun _ => rfl) arr hl
  obtain ⟨ms, hm1, -, hm2⟩ := fieldArray_spec inv dateMonth dateMonth_isSome arr hl
  obtain ⟨ds, hd1, -, hd2⟩ := fieldArray_spec inv dateDayOfMonth dateDayOfMonth_isSome arr hl
  refine ⟨ys, ms, ds, hy1, hm1, hd1, fun i n hn => ?_⟩
  have e1 := hy2 i n hn
  have e2 := hm2 i n hn
  have e3 := hd2 i n hn
  by_cases hinv : n = inv ∨ n = 0
  · rw [if_pos hinv] at e1 e2 e3 ⊢
    exact ⟨e1, e2, e3⟩
  · rw [if_neg hinv] at e1 e2 e3 ⊢
    obtain ⟨h0, h1⟩ := (hr n (List.mem_of_getElem? hn)).resolve_left (fun h => hinv (Or.inl h))
    obtain ⟨y, m, d, hv, hdn, hy, hm, hd, -, -⟩ := date_fields_partial n h0 h1
    rw [hy] at e1
    rw [hm] at e2
    rw [hd] at e3
    exact ⟨y, m, d, hv, hdn, e1, e2, e3⟩

example : ∀ n ∈ [11016, -2147483648, 0, 47481], n = -2147483648 ∨ (0 ≤ n ∧ n < dayNumber 2100 1 1) := by
  rw [year_end]; decide

/-! ## Counterexamples -/

/-- The day after 2099-12-31 is reported as day 32 of month 12 of 2099. -/
theorem date_2100_counterexample :
    ∃ n, n = dayNumber 2100 1 1 ∧ dateYear n = 2099 ∧ dateMonth n = some 12 ∧ dateDayOfMonth n = some 32 := by
  refine ⟨47482, year_end.symm, by decide +kernel, by decide +kernel, by decide +kernel⟩

/-- 1968-01-01 is reported in the year 1969, as a negative day of the month. -/
theorem date_1968_counterexample :
    ∃ n, n = dayNumber 1968 1 1 ∧ dateYear n = 1969 ∧ dateMonth n = some 0 ∧ dateDayOfMonth n = some (-48181) := by
  refine ⟨-731, by rw [dayNumber_year]; decide, by decide +kernel, by decide +kernel, by decide +kernel⟩

/-- The same day is valid or invalid depending on the length of the array. -/
theorem date_negative_length_counterexample :
    fieldArray (-2147483648) (fun n => some (dateYear n)) [-1] = some [none] ∧
      fieldArray (-2147483648) (fun n => some (dateYear n)) [-1, 5] = some [some 1969, some 1970] := by
  constructor <;> decide +kernel

example : dateYear 11016 = 2000 ∧ dateMonth 11016 = some 2 ∧ dateDayOfMonth 11016 = some 29 := by decide +kernel

end Verif.Calendar
