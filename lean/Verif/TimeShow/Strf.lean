import Verif.TimeShow.Clock
/-! # Showing times: strftime, hhmmss and units -/
namespace Verif.TimeShow

/-- `datetime.fromtimestamp` rounds the seconds to whole microseconds: half a microsecond away at most, but for the rounding of its own float arithmetic. -/
def MicroOk (micro : Rat → Int) : Prop := ∀ q, |(micro q : Rat) - q * 1000000| ≤ 501 / 1000

/-- From 1970 to 2106 (2^32 seconds), the microsecond strftime shows is less than one microsecond from the time. -/
theorem micro_near (rnd : Rat → Rat) (hr : Nearest rnd) (micro : Rat → Int) (hm : MicroOk micro) (u : Int) (h0 : 0 ≤ u) (h1 : u < 2 ^ 32 * 10 ^ 9) :
    |(micro (rnd (rnd u / 1000000000)) : Rat) - (u : Rat) / 1000| < 997 / 1000 := by
  have hu0 : (0 : Rat) ≤ u := by exact_mod_cast h0
  have hu1 : (u : Rat) < 2 ^ 32 * 10 ^ 9 := by exact_mod_cast h1
  have e1 := hr.error u 62 (by rw [abs_of_nonneg hu0]; norm_num; linarith)
  rw [show (2 : Rat) ^ ((62 : Int) - 54) = 256 by norm_num] at e1
  have hq : rnd u ≤ 2 ^ 32 * 10 ^ 9 := by
    have hmono : ∀ n : Rat, IsF n → (u : Rat) ≤ n → rnd u ≤ n := by
      intro n hn hle
      by_contra hc
      have hc := not_le.mp hc
      have := hr.near u n hn
      rw [abs_of_nonneg (by linarith), abs_of_nonneg (by linarith)] at this
      linarith
    apply hmono _ _ hu1.le
    exact ⟨10 ^ 9, 32, by norm_num, by norm_num⟩
  have hq0 : 0 ≤ rnd u := hr.le ⟨0, 0, by norm_num, by simp⟩ hu0
  have e2 := hr.error (rnd u / 1000000000) 32 (by
    rw [abs_of_nonneg (by positivity), div_le_iff₀ (by norm_num)]; norm_num at hq ⊢; linarith)
  have e3 := hm (rnd (rnd u / 1000000000))
  have e4 : (2 : Rat) ^ ((32 : Int) - 54) ≤ 239 / 1000000000 := by norm_num
  rw [abs_le] at e1 e2 e3
  rw [abs_lt]
  constructor <;> linarith [e1.1, e1.2, e2.1, e2.2, e3.1, e3.2]

/-- **C257** From 1970 to 2106, a DateTimeNano of whole microseconds is written by `strftime` as the date and time it is on the clock of its zone. -/
theorem strftime_micro_partial (rnd : Rat → Rat) (hr : Nearest rnd) (micro : Rat → Int) (hm : MicroOk micro) (off : Int → Int) (t : Int)
    (h0 : 0 ≤ t) (h1 : t < 2 ^ 32 * 10 ^ 6) :
    let b := strftimeNano rnd micro off (t * 1000)
    (b.day * 86400 + b.sec) * 10 ^ 6 + b.us = t + off (t / 10 ^ 6) * 10 ^ 6 ∧ 0 ≤ b.sec ∧ b.sec < 86400 ∧ 0 ≤ b.us ∧ b.us < 10 ^ 6 := by
  have h := micro_near rnd hr micro hm (t * 1000) (by omega) (by omega)
  have e : micro (rnd (rnd ((t * 1000 : Int) : Rat) / 1000000000)) = t := by
    generalize micro _ = k at h ⊢
    push_cast at h
    rw [mul_div_assoc, div_self (by norm_num), mul_one] at h
    have h2 : |((k - t : Int) : Rat)| < 1 := by push_cast; exact lt_trans h (by norm_num)
    have h3 : |k - t| < 1 := by exact_mod_cast h2
    rw [abs_lt] at h3
    omega
  unfold strftimeNano
  rw [e]
  norm_num
  unfold broken
  dsimp only
  refine ⟨by omega, by omega, by omega, by omega, by omega⟩

/-- A rounding of seconds to microseconds. -/
example : MicroOk fun q => round (q * 1000000) := by
  intro q
  have := abs_sub_round (q * 1000000)
  rw [abs_sub_comm]
  exact le_trans this (by norm_num)

/-- **C257** One nanosecond before midnight, `strftime` writes the next day: 31 December 2020 23:59:59.999999999 UTC becomes 1 January 2021 00:00:00.000000. -/
theorem strftime_nextday_counterexample (rnd : Rat → Rat) (hr : Nearest rnd) (micro : Rat → Int) (hm : MicroOk micro) :
    strftimeNano rnd micro (fun _ => 0) (Calendar.dayNumber 2021 1 1 * (24 * 3600 * 10 ^ 9) - 1) = ⟨Calendar.dayNumber 2021 1 1, 0, 0⟩ := by
  have hd : Calendar.dayNumber 2021 1 1 = 18628 := by decide +kernel
  rw [hd]
  norm_num
  have e : micro (rnd (rnd ((1609459199999999999 : Int) : Rat) / 1000000000)) = 1609459200000000 := by
    have e1 := hr.error (1609459199999999999 : Int) 61 (by rw [abs_of_nonneg (by norm_num)]; norm_num)
    rw [show (2 : Rat) ^ ((61 : Int) - 54) = 128 by norm_num] at e1
    push_cast at e1 ⊢
    rw [abs_le] at e1
    have e2 := hr.error (rnd 1609459199999999999 / 1000000000) 31 (by
      rw [abs_of_nonneg (by apply div_nonneg _ (by norm_num); linarith [e1.1]), div_le_iff₀ (by norm_num)]; norm_num; linarith [e1.2])
    have e3 := hm (rnd (rnd 1609459199999999999 / 1000000000))
    have e4 : (2 : Rat) ^ ((31 : Int) - 54) ≤ 120 / 1000000000 := by norm_num
    generalize micro _ = k at e3 ⊢
    rw [abs_le] at e2 e3
    have h2 : |((k - 1609459200000000 : Int) : Rat)| < 1 := by
      push_cast
      rw [abs_lt]
      constructor <;> linarith [e1.1, e1.2, e2.1, e2.2, e3.1, e3.2]
    have h3 : |k - 1609459200000000| < 1 := by exact_mod_cast h2
    rw [abs_lt] at h3
    omega
  unfold strftimeNano
  rw [e]
  decide +kernel

/-- **C258** A TimeSpan of whole microseconds and less than a day is written by `strftime` as the clock time it is, with its sign. -/
theorem span_strftime_partial (rnd : Rat → Rat) (hr : Nearest rnd) (micro : Rat → Int) (hm : MicroOk micro) (t : Int) (h : |t| < 24 * 3600 * 10 ^ 6) :
    let b := strftimeSpan rnd micro ((t * 1000 : Int) : Rat)
    b.1 = decide (t < 0) ∧ b.2.1 * 10 ^ 6 + b.2.2 = |t| ∧ 0 ≤ b.2.1 ∧ 0 ≤ b.2.2 ∧ b.2.2 < 10 ^ 6 := by
  have habs : |((t * 1000 : Int) : Rat)| = ((|t| * 1000 : Int) : Rat) := by push_cast; rw [abs_mul]; norm_num
  have e : micro (rnd (|((t * 1000 : Int) : Rat)| / 1000000000)) = |t| := by
    rw [habs]
    have ha := abs_nonneg t
    generalize |t| = a at *
    have ha0 : (0 : Rat) ≤ a := by exact_mod_cast ha
    have ha1 : (a : Rat) < 24 * 3600 * 10 ^ 6 := by exact_mod_cast h
    have e2 := hr.error (((a * 1000 : Int) : Rat) / 1000000000) 32 (by
      push_cast
      rw [abs_of_nonneg (by positivity), div_le_iff₀ (by norm_num)]; norm_num; linarith)
    have e3 := hm (rnd (((a * 1000 : Int) : Rat) / 1000000000))
    have e4 : (2 : Rat) ^ ((32 : Int) - 54) ≤ 239 / 1000000000 := by norm_num
    generalize micro _ = k at e3 ⊢
    push_cast at e2 e3
    rw [abs_le] at e2 e3
    have h2 : |((k - a : Int) : Rat)| < 1 := by
      push_cast
      rw [abs_lt]
      constructor <;> linarith [e2.1, e2.2, e3.1, e3.2]
    have h3 : |k - a| < 1 := by exact_mod_cast h2
    rw [abs_lt] at h3
    omega
  unfold strftimeSpan
  rw [e]
  have ha := abs_nonneg t
  have hneg : (((t * 1000 : Int) : Rat) < 0) ↔ t < 0 := by
    constructor
    · intro h; have : t * 1000 < 0 := by exact_mod_cast h
      omega
    · intro h; have : t * 1000 < 0 := by omega
      exact_mod_cast this
  unfold broken
  dsimp only
  norm_num at h ⊢
  refine ⟨?_, by omega, by omega, by omega, by omega⟩
  push_cast at hneg
  exact hneg

/-- Minus 02:30. -/
example : |(-9000000000 : Int)| < 24 * 3600 * 10 ^ 6 := by decide

/-- **C258** 25 hours are written as one hour: whole days are dropped, so different spans are written alike. -/
theorem span_strftime_day_counterexample (rnd : Rat → Rat) (hr : Nearest rnd) (micro : Rat → Int) (hm : ∀ n : Int, micro n = n * 1000000) :
    strftimeSpan rnd micro ((25 * 3600 * 10 ^ 9 : Int) : Rat) = strftimeSpan rnd micro ((3600 * 10 ^ 9 : Int) : Rat) := by
  have k1 : rnd (|((25 * 3600 * 10 ^ 9 : Int) : Rat)| / 1000000000) = ((90000 : Int) : Rat) := by
    rw [abs_of_nonneg (by norm_num), show ((25 * 3600 * 10 ^ 9 : Int) : Rat) / 1000000000 = ((90000 : Int) : Rat) by norm_num]
    exact hr.keeps (isF_int _ (by decide))
  have k2 : rnd (|((3600 * 10 ^ 9 : Int) : Rat)| / 1000000000) = ((3600 : Int) : Rat) := by
    rw [abs_of_nonneg (by norm_num), show ((3600 * 10 ^ 9 : Int) : Rat) / 1000000000 = ((3600 : Int) : Rat) by norm_num]
    exact hr.keeps (isF_int _ (by decide))
  unfold strftimeSpan
  rw [k1, k2, hm, hm, decide_eq_false (by norm_num), decide_eq_false (by norm_num)]
  decide +kernel

/-- **C259** `hhmmss` of a span that is not negative: hours, minutes and seconds side by side, a started second dropped. -/
theorem hhmmss_partial (v : Rat) (h : 0 ≤ v) :
    ∃ hh mm ss : Int, hhmmss v = hh * 10000 + mm * 100 + ss ∧ 0 ≤ hh ∧ 0 ≤ mm ∧ mm < 60 ∧ 0 ≤ ss ∧ ss < 60 ∧
      (((hh * 60 + mm) * 60 + ss : Int) : Rat) * 10 ^ 9 ≤ v ∧ v < ((((hh * 60 + mm) * 60 + ss : Int) : Rat) + 1) * 10 ^ 9 := by
  unfold hhmmss trunc
  simp only [if_pos h]
  have f0 : 0 ≤ ⌊v⌋ := Int.floor_nonneg.mpr h
  have f1 := Int.floor_le v
  have f2 := Int.lt_floor_add_one v
  generalize ⌊v⌋ = n at *
  refine ⟨n / 1000000000 / 3600, n / 1000000000 % 3600 / 60, n / 1000000000 % 3600 % 60, by ring, by omega, by omega, by omega, by omega, by omega, ?_, ?_⟩
  · refine le_trans ?_ f1
    have : ((n / 1000000000 / 3600 * 60 + n / 1000000000 % 3600 / 60) * 60 + n / 1000000000 % 3600 % 60) * 10 ^ 9 ≤ n := by omega
    exact_mod_cast this
  · refine lt_of_lt_of_le f2 ?_
    have : n + 1 ≤ (((n / 1000000000 / 3600 * 60 + n / 1000000000 % 3600 / 60) * 60 + n / 1000000000 % 3600 % 60) + 1) * 10 ^ 9 := by omega
    exact_mod_cast this

/-- 12:34:56.5 -/
example : (0 : Rat) ≤ 45296500000000 ∧ hhmmss 45296500000000 = 123456 := by
  refine ⟨by norm_num, ?_⟩
  have f : ⌊(45296500000000 : Rat)⌋ = 45296500000000 := by exact_mod_cast Int.floor_intCast (R := Rat) 45296500000000
  unfold hhmmss trunc
  simp only [if_pos (show (0 : Rat) ≤ 45296500000000 by norm_num), f]
  decide +kernel

/-- **C259** `hhmmss` of minus one second is -4041, of minus one hour -10000 and of minus one hour and a minute -14100: minutes and seconds count from the hour before. -/
theorem hhmmss_negative_counterexample : hhmmss (-1000000000) = -4041 ∧ hhmmss (-3600000000000) = -10000 ∧ hhmmss (-3660000000000) = -14100 := by
  have f1 : ⌊(1000000000 : Rat)⌋ = 1000000000 := by exact_mod_cast Int.floor_intCast (R := Rat) 1000000000
  have f2 : ⌊(3600000000000 : Rat)⌋ = 3600000000000 := by exact_mod_cast Int.floor_intCast (R := Rat) 3600000000000
  have f3 : ⌊(3660000000000 : Rat)⌋ = 3660000000000 := by exact_mod_cast Int.floor_intCast (R := Rat) 3660000000000
  unfold hhmmss trunc
  simp only [if_neg (show ¬ (0 : Rat) ≤ -1000000000 by norm_num), if_neg (show ¬ (0 : Rat) ≤ -3600000000000 by norm_num),
    if_neg (show ¬ (0 : Rat) ≤ -3660000000000 by norm_num), neg_neg, f1, f2, f3]
  decide +kernel

/-- **C259** `hhmmss` of a negative span: the fraction of a nanosecond is dropped, and then hours count down and minutes and seconds up from the hour before. -/
theorem hhmmss_negative_exact (v : Rat) (h : v < 0) :
    ∃ hh mm ss : Int, hhmmss v = hh * 10000 + mm * 100 + ss ∧ hh ≤ 0 ∧ 0 ≤ mm ∧ mm < 60 ∧ 0 ≤ ss ∧ ss < 60 ∧
      ((hh * 60 + mm) * 60 + ss) * 10 ^ 9 ≤ ⌈v⌉ ∧ ⌈v⌉ < ((hh * 60 + mm) * 60 + ss + 1) * 10 ^ 9 := by
  unfold hhmmss trunc
  simp only [if_neg (not_le.2 h), Int.floor_neg, neg_neg]
  have f0 : ⌈v⌉ ≤ 0 := Int.ceil_le.2 (by simpa using h.le)
  generalize ⌈v⌉ = n at *
  exact ⟨n / 1000000000 / 3600, n / 1000000000 % 3600 / 60, n / 1000000000 % 3600 % 60, by ring, by omega, by omega, by omega, by omega, by omega, by omega, by omega⟩

example : (-1000000001 : Rat) < 0 := by norm_num

/-- The size of a unit in nanoseconds. -/
def Unit'.size : Unit' → Rat
  | .ns => 1
  | .us => 10 ^ 3
  | .ms => 10 ^ 6
  | .s => 10 ^ 9
  | .m => 60 * 10 ^ 9
  | .h => 3600 * 10 ^ 9

theorem resolution_size (v : Rat) : ((resolution v).1 : Rat) = (resolution v).2.size := by
  unfold resolution
  simp only
  repeat' split
  all_goals norm_num [Unit'.size]

/-- **C260** The unit a span is shown in is the largest one of which the span holds at least one (nanoseconds for the smallest spans). -/
theorem unit_largest (rnd : Rat → Rat) (fmt : Rat → Int) (v : Rat) (u : Unit') :
    ((displayUnit rnd fmt v).2 = u ∨ (u.size ≤ |v| → u.size ≤ (displayUnit rnd fmt v).2.size)) ∧
    ((displayUnit rnd fmt v).2 ≠ .ns → (displayUnit rnd fmt v).2.size ≤ |v|) := by
  have e : (displayUnit rnd fmt v).2 = (resolution v).2 := by unfold displayUnit; simp only; split <;> rfl
  rw [e]
  unfold resolution
  simp only
  repeat' split
  all_goals
    constructor
    · right
      intro h
      cases u <;> norm_num [Unit'.size] at h ⊢ <;> linarith
    · intro _
      first
        | contradiction
        | (norm_num [Unit'.size]; linarith)

/-- **C260** What is shown is right to one thousandth of the unit: the number itself below a microsecond, else the nearest thousandth but for the
rounding of the division. -/
theorem unit_close (rnd : Rat → Rat) (hr : Nearest rnd) (fmt : Rat → Int) (hf : ∀ q, |(fmt q : Rat) - q * 1000| ≤ 1 / 2) (v : Rat) (hv : |v| < 2 ^ 62) :
    match (displayUnit rnd fmt v).1 with
    | .exact q => q = v ∧ (displayUnit rnd fmt v).2 = .ns
    | .thousandths n => |(n : Rat) / 1000 * (displayUnit rnd fmt v).2.size - v| < (displayUnit rnd fmt v).2.size / 1000 := by
  unfold displayUnit
  have hs := resolution_size v
  by_cases h1 : (resolution v).1 = 1
  · simp only [h1, if_true]
    refine ⟨trivial, ?_⟩
    revert h1
    unfold resolution
    simp only
    repeat' split
    all_goals first | (intro _; rfl) | (intro h; norm_num at h)
  · simp only [h1, if_false]
    rw [hs]
    have hsz : 1000 ≤ (resolution v).2.size := by
      revert h1
      unfold resolution
      simp only
      repeat' split
      all_goals first | (intro h; exact absurd rfl h) | (intro _; norm_num [Unit'.size])
    have hmax : |v| ≤ 2 ^ 21 * (resolution v).2.size := by
      unfold resolution
      simp only
      repeat' split
      all_goals (norm_num [Unit'.size] at *; linarith)
    generalize (resolution v).2.size = d at *
    have hd : 0 < d := by linarith
    have hq : |v / d| ≤ (2 : Rat) ^ (21 : Int) := by
      rw [abs_div, abs_of_pos hd, div_le_iff₀ hd]
      exact hmax
    have e1 := hr.error (v / d) 21 hq
    have e2 := hf (rnd (v / d))
    have e4 : (2 : Rat) ^ ((21 : Int) - 54) ≤ 1 / 1000000 := by norm_num
    generalize hk : fmt (rnd (v / d)) = k at e2 ⊢
    have hx : |(k : Rat) / 1000 - v / d| < 1 / 1000 := by
      rw [abs_le] at e1 e2
      rw [abs_lt]
      constructor <;> linarith [e1.1, e1.2, e2.1, e2.2]
    have hy : (k : Rat) / 1000 * d - v = ((k : Rat) / 1000 - v / d) * d := by field_simp
    rw [hy, abs_mul, abs_of_pos hd]
    have := mul_lt_mul_of_pos_right hx hd
    linarith

/-- 678.823 ms. -/
example : ∃ rnd fmt, Nearest rnd ∧ (∀ q : Rat, |((fmt q : Int) : Rat) - q * 1000| ≤ 1 / 2) ∧ (displayUnit rnd fmt 678823000).2 = .ms := by
  obtain ⟨rnd, hr⟩ := nearest_exists
  refine ⟨rnd, fun q => round (q * 1000), hr, fun q => by rw [abs_sub_comm]; exact abs_sub_round _, ?_⟩
  unfold displayUnit resolution
  rw [abs_of_pos (show (0 : Rat) < 678823000 by norm_num)]
  norm_num

end Verif.TimeShow
