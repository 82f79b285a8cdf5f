import Verif.TimeShow.Model
import Verif.TimeShow.Float
import Verif.Calendar.Props
/-! # Showing times: the clock texts -/
namespace Verif.TimeShow

theorem value_append_zeros (k : Nat) (l : List Char) : value (List.replicate k '0' ++ l) = value l := by
  induction k with
  | zero => simp
  | succ k ih => simpa [value, List.replicate_succ] using ih

theorem value_toDigits (n : Nat) : value (Nat.toDigits 10 n) = n := by
  have := Nat.ofDigitChars_ten_toDigits (n := n)
  rw [Nat.ofDigitChars_eq_foldl] at this
  exact this

theorem numeral_toDigits (n : Nat) : Numeral (Nat.toDigits 10 n) n :=
  ⟨Nat.toDigits_ne_nil, fun _ hc => Nat.isDigit_of_mem_toDigits (by norm_num) (by norm_num) hc, value_toDigits n⟩

theorem zfill_field (w n : Nat) (hw : 0 < w) (hn : n < 10 ^ w) : Field w (zfill w n) n := by
  have hl := (Nat.length_toDigits_le_iff (b := 10) (n := n) (by norm_num) hw).mpr hn
  refine ⟨by simp [zfill]; omega, ?_, ?_⟩
  · intro c hc
    rcases List.mem_append.mp hc with h | h
    · rw [(List.mem_replicate.mp h).2]; decide
    · exact Nat.isDigit_of_mem_toDigits (by norm_num) (by norm_num) h
  · unfold zfill; rw [value_append_zeros, value_toDigits]

/-- The digits written behind the point, for a whole number of nanoseconds and a precision of nine or more. -/
theorem addNanoExt_nine (p : Int) (hp : 9 ≤ p) (v : Int) (text : List Char) :
    addNanoExt p v text = text ++ '.' :: zfill 9 (v % 1000000000).toNat := by
  unfold addNanoExt
  have e : (if 9 < p then 9 else p.toNat) = 9 := by split <;> omega
  rw [if_pos (by omega)]
  simp only [e]
  have h : ⌊(v : Rat) / 10 ^ 9⌋ = v / 1000000000 := by
    have := Rat.floor_intCast_div_natCast v 1000000000
    push_cast at this
    rw [show (10 : Rat) ^ 9 = 1000000000 by norm_num]
    exact this
  rw [h]
  have h2 : (v : Rat) - 10 ^ 9 * ((v / 1000000000 : Int) : Rat) = ((v % 1000000000 : Int) : Rat) := by
    rw [Int.emod_def]; push_cast; norm_num
  rw [h2, Int.floor_intCast]

theorem clock_reads (sec n : Int) (h : 0 ≤ n) (hn : n < 1000000000) :
    ClockReads (hms sec ++ '.' :: zfill 9 n.toNat) (sec % 86400 * 1000000000 + n).toNat := by
  refine ⟨_, _, _, _, (sec / 3600 % 24).toNat, (sec / 60 % 60).toNat, (sec % 60).toNat, n.toNat, rfl,
    zfill_field 2 _ (by norm_num) (by omega), zfill_field 2 _ (by norm_num) (by omega), zfill_field 2 _ (by norm_num) (by omega),
    zfill_field 9 _ (by norm_num) (by omega), by omega, by omega, by omega, ?_⟩
  omega

/-- **C254** A TimeSpan of whole nanoseconds (a float64 of less than 2^62 ns, 146 years, either way) is shown exactly: the text reads as that many
nanoseconds, sign and days included, though the seconds come from a float64 division. -/
theorem clock_exact (rnd : Rat → Rat) (hr : Nearest rnd) (v : Int) (hv : |v| < 2 ^ 62) (hf : IsF v) :
    SpanReads (displayClock rnd defaultPrecision v) v := by
  have habs : |(v : Rat)| = ((|v| : Int) : Rat) := by push_cast; rfl
  have hfa : IsF ((|v| : Int) : Rat) := by
    obtain ⟨m, e, hm, he⟩ := hf
    refine ⟨|m|, e, by rwa [abs_abs], ?_⟩
    rw [← habs, he, abs_mul, abs_of_pos (zpow_pos (by norm_num : (0 : Rat) < 2) e)]; push_cast; rfl
  have hfl := hr.floor_seconds (abs_nonneg v) hv hfa
  unfold displayClock
  simp only [habs, hfl, Int.floor_intCast]
  rw [addNanoExt_nine _ (by decide)]
  have ha : 0 ≤ |v| := abs_nonneg v
  have hneg : ((v : Rat) < 0) ↔ v < 0 := by exact_mod_cast Iff.rfl
  have hav : (v < 0 ∧ |v| = -v) ∨ (0 ≤ v ∧ |v| = v) := by
    rcases lt_or_ge v 0 with h | h
    · exact Or.inl ⟨h, abs_of_neg h⟩
    · exact Or.inr ⟨h, abs_of_nonneg h⟩
  generalize |v| = a at *
  have hc := clock_reads (a / 1000000000) (a % 1000000000) (by omega) (by omega)
  refine ⟨if v < 0 then ['-'] else [], if 0 < a / 86400000000000 then Nat.toDigits 10 (a / 86400000000000).toNat ++ ['d', ' '] else [],
    _, (a / 86400000000000).toNat, _, ?_, hc, ?_, ?_⟩
  · simp only [hneg]
    split <;> split <;> simp
  · split
    · exact Or.inr ⟨by omega, _, rfl, numeral_toDigits _⟩
    · exact Or.inl ⟨by omega, rfl⟩
  · have ht : (((a / 1000000000) % 86400 * 1000000000 + a % 1000000000).toNat : Int) = a / 1000000000 % 86400 * 1000000000 + a % 1000000000 := by
      omega
    have hd : (((a / 86400000000000).toNat : Nat) : Int) = a / 86400000000000 := by omega
    rcases hav with ⟨h, he⟩ | ⟨h, he⟩
    · refine Or.inr ⟨if_pos h, ?_⟩
      rw [ht, hd]; omega
    · refine Or.inl ⟨if_neg (by omega), ?_⟩
      rw [ht, hd]; omega

/-- -1 day, 02:03:04.000000005. -/
example : |(-93784000000005 : Int)| < 2 ^ 62 ∧ IsF (-93784000000005 : Int) := ⟨by decide, isF_int _ (by decide)⟩
example : ∃ rnd, Nearest rnd := nearest_exists

theorem field_unique {w : Nat} {l : List Char} {a b : Nat} (ha : Field w l a) (hb : Field w l b) : a = b := ha.2.2.symm.trans hb.2.2

theorem clockReads_length {text : List Char} {t : Nat} (h : ClockReads text t) : text.length = 18 := by
  obtain ⟨hh, mm, ss, nn, _, _, _, _, rfl, h1, h2, h3, h4, _⟩ := h
  simp [h1.1, h2.1, h3.1, h4.1]

theorem clockReads_unique {text : List Char} {t t' : Nat} (h : ClockReads text t) (h' : ClockReads text t') : t = t' := by
  obtain ⟨hh, mm, ss, nn, h, m, s, n, e, h1, h2, h3, h4, -, -, -, rfl⟩ := h
  obtain ⟨hh', mm', ss', nn', k, m', s', n', e', k1, k2, k3, k4, -, -, -, rfl⟩ := h'
  rw [e] at e'
  simp only [List.append_assoc, List.cons_append] at e'
  obtain ⟨e1, e2⟩ := List.append_inj e' (h1.1.trans k1.1.symm)
  obtain ⟨e3, e4⟩ := List.append_inj (List.cons.inj e2).2 (h2.1.trans k2.1.symm)
  obtain ⟨e5, e6⟩ := List.append_inj (List.cons.inj e4).2 (h3.1.trans k3.1.symm)
  have e7 := (List.cons.inj e6).2
  subst e1 e3 e5 e7
  rw [field_unique h1 k1, field_unique h2 k2, field_unique h3 k3, field_unique h4 k4]

theorem no_minus {days rest : List Char} {d : Nat} (h : (d = 0 ∧ days = []) ∨ (0 < d ∧ ∃ dd, days = dd ++ ['d', ' '] ∧ Numeral dd d)) :
    days ≠ '-' :: rest := by
  rintro rfl
  rcases h with ⟨_, h⟩ | ⟨_, dd, h, h1, h2, _⟩
  · cases h
  · cases dd with
    | nil => exact h1 rfl
    | cons c cs =>
      have := h2 c (by simp)
      rw [← (List.cons.inj h).1] at this
      exact absurd this (by decide)

theorem days_unique {days : List Char} {d d' : Nat} (h : (d = 0 ∧ days = []) ∨ (0 < d ∧ ∃ dd, days = dd ++ ['d', ' '] ∧ Numeral dd d))
    (h' : (d' = 0 ∧ days = []) ∨ (0 < d' ∧ ∃ dd, days = dd ++ ['d', ' '] ∧ Numeral dd d')) : d = d' := by
  rcases h with ⟨h, e⟩ | ⟨h, dd, e, hn⟩ <;> rcases h' with ⟨k, f⟩ | ⟨k, ee, f, kn⟩
  · omega
  · rw [e] at f; simp at f
  · rw [f] at e; simp at e
  · rw [e] at f
    have := List.append_cancel_right f
    subst this
    exact hn.2.2.symm.trans kn.2.2

/-- The reading of a span text is unambiguous. -/
theorem spanReads_unique {text : List Char} {v w : Int} (h : SpanReads text v) (h' : SpanReads text w) : v = w := by
  obtain ⟨sg, ds, ck, d, t, e, hc, hd, hs⟩ := h
  obtain ⟨sg', ds', ck', d', t', e', hc', hd', hs'⟩ := h'
  rw [e] at e'
  obtain ⟨e1, e2⟩ := List.append_inj' e' ((clockReads_length hc).trans (clockReads_length hc').symm)
  subst e2
  have ht := clockReads_unique hc hc'
  subst ht
  rcases hs with ⟨rfl, hv⟩ | ⟨rfl, hv⟩ <;> rcases hs' with ⟨rfl, hw⟩ | ⟨rfl, hw⟩
  · rw [List.nil_append, List.nil_append] at e1
    subst e1
    rw [hv, hw, days_unique hd hd']
  · exact absurd e1 (no_minus hd)
  · exact absurd e1.symm (no_minus hd')
  · have := (List.cons.inj e1).2
    have this : ds = ds' := this
    subst this
    rw [hv, hw, days_unique hd hd']

/-- **C254** Different spans are shown differently. -/
theorem clock_injective (rnd : Rat → Rat) (hr : Nearest rnd) (v w : Int) (hv : |v| < 2 ^ 62) (hw : |w| < 2 ^ 62) (hfv : IsF v) (hfw : IsF w)
    (h : displayClock rnd defaultPrecision v = displayClock rnd defaultPrecision w) : v = w :=
  spanReads_unique (clock_exact rnd hr v hv hfv) (h ▸ clock_exact rnd hr w hw hfw)

/-- **C255** With `DateTimeBase.PRECISION` of nine or more a span is shown with its nine digits, with zero or less without any. -/
theorem precision_partial (rnd : Rat → Rat) (p : Int) (v : Int) :
    (9 ≤ p → displayClock rnd p v = displayClock rnd defaultPrecision v) ∧
    (p ≤ 0 → ∃ nn, displayClock rnd defaultPrecision v = displayClock rnd p v ++ '.' :: nn ∧ nn.length = 9) := by
  constructor
  · intro hp
    have habs : |(v : Rat)| = ((|v| : Int) : Rat) := by push_cast; rfl
    unfold displayClock
    simp only [habs]
    rw [addNanoExt_nine _ hp, addNanoExt_nine _ (by decide)]
  · intro hp
    have habs : |(v : Rat)| = ((|v| : Int) : Rat) := by push_cast; rfl
    unfold displayClock
    simp only [habs]
    rw [addNanoExt_nine _ (by decide)]
    refine ⟨_, ?_, (zfill_field 9 (|v| % 1000000000).toNat (by norm_num) (by omega)).1⟩
    unfold addNanoExt
    rw [if_neg (show ¬ 0 < p by omega)]

/-- **C255** With a precision of three, one second and a half is shown as `00:00:01.000`: the digits shown are the last ones of the nanoseconds, not the
first ones of the fraction. -/
theorem precision_counterexample (rnd : Rat → Rat) (hr : Nearest rnd) :
    displayClock rnd 3 1500000000 = "00:00:01.000".toList ∧ displayClock rnd 3 1000000005 = "00:00:01.005".toList := by
  have h1 := hr.floor_seconds (v := 1500000000) (by norm_num) (by norm_num) (isF_int _ (by decide))
  have h2 := hr.floor_seconds (v := 1000000005) (by norm_num) (by norm_num) (isF_int _ (by decide))
  have a1 : |(1500000000 : Rat)| = 1500000000 := by rw [abs_of_pos (by norm_num)]
  have a2 : |(1000000005 : Rat)| = 1000000005 := by rw [abs_of_pos (by norm_num)]
  push_cast at h1 h2
  have f1 : ⌊(1500000000 : Rat)⌋ = 1500000000 := by exact_mod_cast Int.floor_intCast (R := Rat) 1500000000
  have f2 : ⌊(1000000005 : Rat)⌋ = 1000000005 := by exact_mod_cast Int.floor_intCast (R := Rat) 1000000005
  have g1 : ⌊(1500000000 : Rat) / 10 ^ 3⌋ = 1500000 := by
    rw [Int.floor_eq_iff]; norm_num
  have g2 : ⌊(1000000005 : Rat) / 10 ^ 3⌋ = 1000000 := by
    rw [Int.floor_eq_iff]; norm_num
  constructor
  · unfold displayClock addNanoExt
    simp only [a1, h1, f1, show (0 : Int) < 3 by norm_num, show ¬ ((9 : Int) < 3) by norm_num, if_true, if_false, show Int.toNat 3 = 3 from rfl, g1]
    rw [show (1500000000 : Rat) - 10 ^ 3 * ((1500000 : Int) : Rat) = ((0 : Int) : Rat) by norm_num, Int.floor_intCast,
      if_neg (show ¬ (1500000000 : Rat) < 0 by norm_num)]
    decide +kernel
  · unfold displayClock addNanoExt
    simp only [a2, h2, f2, show (0 : Int) < 3 by norm_num, show ¬ ((9 : Int) < 3) by norm_num, if_true, if_false, show Int.toNat 3 = 3 from rfl, g2]
    rw [show (1000000005 : Rat) - 10 ^ 3 * ((1000000 : Int) : Rat) = ((5 : Int) : Rat) by norm_num, Int.floor_intCast,
      if_neg (show ¬ (1000000005 : Rat) < 0 by norm_num)]
    decide +kernel

/-- **C256** A DateTimeNano, before or after 1970, is shown exactly: the text reads as its nanoseconds on the clock of its zone. -/
theorem stamp_exact (off : Int → Int) (cal : Int → Nat × Nat × Nat) (lo hi : Int) (hc : CalendarOk cal lo hi) (u : Int)
    (h0 : u ≠ 0) (h1 : u ≠ -2 ^ 63) (hlo : lo * (24 * 3600 * 10 ^ 9) ≤ u + off (u / 10 ^ 9) * 10 ^ 9)
    (hhi : u + off (u / 10 ^ 9) * 10 ^ 9 < hi * (24 * 3600 * 10 ^ 9)) :
    StampReads (formatNano off cal defaultPrecision u) (u + off (u / 10 ^ 9) * 10 ^ 9) := by
  unfold formatNano
  rw [if_neg (by norm_num at h1; tauto)]
  norm_num at hlo hhi ⊢
  rw [addNanoExt_nine _ (by decide)]
  generalize off (u / 1000000000) = o at *
  obtain ⟨c1, c2, c3, c4, c5, c6⟩ := hc ((u / 1000000000 + o) / 86400) (by omega) (by omega)
  have hclk := clock_reads (u / 1000000000 + o) (u % 1000000000) (by omega) (by omega)
  have hm31 : Calendar.monthLen (cal ((u / 1000000000 + o) / 86400)).1 (cal ((u / 1000000000 + o) / 86400)).2.1 ≤ 31 := by
    unfold Calendar.monthLen; split <;> (try split) <;> omega
  refine ⟨_, _, _, _, _, _, _, _, ?_, zfill_field 4 _ (by norm_num) (by omega), zfill_field 2 _ (by norm_num) (by omega),
    zfill_field 2 _ (by norm_num) (by omega), hclk, c2, c3, c4, c5, ?_⟩
  · simp [List.append_assoc]
  · rw [c6]
    omega

/-- A calendar for the days from 1970 to 2099. -/
theorem calendar_exists : ∃ cal, CalendarOk cal 0 47482 := by
  classical
  have : ∀ n : Int, ∃ c : Nat × Nat × Nat, 0 ≤ n → n < 47482 → c.1 < 10000 ∧ 1 ≤ c.2.1 ∧ c.2.1 ≤ 12 ∧ 1 ≤ c.2.2 ∧
      c.2.2 ≤ Calendar.monthLen c.1 c.2.1 ∧ Calendar.dayNumber c.1 c.2.1 c.2.2 = n := by
    intro n
    by_cases h : 0 ≤ n ∧ n < 47482
    · obtain ⟨y, m, d, hv, hn, hy, -⟩ := Calendar.date_fields_partial n h.1 (by rw [Calendar.year_end]; exact h.2)
      obtain ⟨y', hy1, hy2, hy3, -⟩ := Calendar.year_spec n h.1 h.2
      refine ⟨(y, m, d), fun _ _ => ⟨?_, hv.1, hv.2.1, hv.2.2.1, hv.2.2.2, hn⟩⟩
      have : (y' : Int) = y := by rw [← hy, ← hy3]; rfl
      show y < 10000
      omega
    · exact ⟨(0, 0, 0), fun h1 h2 => absurd ⟨h1, h2⟩ h⟩
  exact ⟨fun n => (this n).choose, fun n h1 h2 => (this n).choose_spec h1 h2⟩

/-- 2021-01-01 09:31:15.000000007 in New York. -/
example : ∃ cal, CalendarOk cal 0 47482 ∧ StampReads (formatNano (fun _ => -18000) cal defaultPrecision 1609511475000000007)
    (1609511475000000007 - 18000 * 10 ^ 9) := by
  obtain ⟨cal, hc⟩ := calendar_exists
  refine ⟨cal, hc, ?_⟩
  have := stamp_exact (fun _ => -18000) cal 0 47482 hc 1609511475000000007 (by norm_num) (by norm_num) (by norm_num) (by norm_num)
  norm_num at this ⊢
  exact this

end Verif.TimeShow
