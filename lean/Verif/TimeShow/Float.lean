import Verif.TimeShow.Spec
import Mathlib.Tactic.Linarith
import Mathlib.Tactic.Ring
import Mathlib.Tactic.NormNum
import Mathlib.Tactic.FieldSimp
import Mathlib.Tactic.IntervalCases
import Mathlib.Tactic.Positivity
import Mathlib.Algebra.Order.Archimedean.Basic
/-! # Showing times: facts about float64 arithmetic -/
namespace Verif.TimeShow

theorem isF_int (n : Int) (h : |n| ≤ 2 ^ 53) : IsF n := ⟨n, 0, h, by simp⟩

theorem Nearest.keeps {rnd : Rat → Rat} (hr : Nearest rnd) {q : Rat} (h : IsF q) : rnd q = q := by
  have := hr.near q q h
  rw [sub_self, abs_zero] at this
  have h2 := abs_nonneg (rnd q - q)
  have h3 : |rnd q - q| = 0 := le_antisymm this h2
  have h4 := abs_eq_zero.mp h3
  linarith

theorem Nearest.le {rnd : Rat → Rat} (hr : Nearest rnd) {q n : Rat} (hn : IsF n) (h : n ≤ q) : n ≤ rnd q := by
  by_contra hc
  have hc := not_le.mp hc
  have := hr.near q n hn
  rw [abs_of_neg (by linarith), abs_of_nonpos (by linarith)] at this
  linarith

/-- Rounding a number of size up to `2 ^ k` errs by at most `2 ^ (k - 54)`. -/
theorem Nearest.error {rnd : Rat → Rat} (hr : Nearest rnd) (q : Rat) (k : Int) (h : |q| ≤ (2 : Rat) ^ k) :
    |rnd q - q| ≤ (2 : Rat) ^ (k - 54) := by
  have hp : (0 : Rat) < (2 : Rat) ^ (k - 53) := zpow_pos (by norm_num) _
  have e1 : (2 : Rat) ^ k = (2 : Rat) ^ (53 : Nat) * (2 : Rat) ^ (k - 53) := by
    rw [← zpow_natCast, ← zpow_add₀ (by norm_num)]; congr 1; push_cast; ring
  have e2 : (2 : Rat) ^ (k - 53) = 2 * (2 : Rat) ^ (k - 54) := by
    have : (2 : Rat) * (2 : Rat) ^ (k - 54) = (2 : Rat) ^ (1 : Int) * (2 : Rat) ^ (k - 54) := by simp
    rw [this, ← zpow_add₀ (by norm_num)]; congr 1; ring
  set u : Rat := (2 : Rat) ^ (k - 53) with hu
  have hq : |q / u| ≤ 2 ^ 53 := by
    rw [abs_div, abs_of_pos hp, div_le_iff₀ hp]
    linarith
  have hm : |round (q / u)| ≤ (2 : Int) ^ 53 := by
    rw [abs_le] at hq ⊢
    constructor
    · have : ((-(2 ^ 53) : Int) : Rat) ≤ q / u := by push_cast; exact hq.1
      have h5 := Int.le_floor.mpr this
      have h6 : ⌊q / u⌋ ≤ round (q / u) := by
        rw [round_eq]; exact Int.floor_mono (by linarith)
      exact le_trans h5 h6
    · have : q / u + 1 / 2 < ((2 ^ 53 + 1 : Int) : Rat) := by push_cast; linarith [hq.2]
      rw [round_eq]
      have h6 := Int.floor_lt.mpr this
      omega
  have hn := hr.near q ((round (q / u) : Int) * u) ⟨round (q / u), k - 53, hm, rfl⟩
  refine le_trans hn ?_
  have h7 := abs_sub_round (q / u)
  have h8 : (round (q / u) : Rat) * u - q = -((q / u - round (q / u)) * u) := by field_simp; ring
  rw [h8, abs_neg, abs_mul, abs_of_pos hp]
  have : |q / u - (round (q / u) : Rat)| * u ≤ 1 / 2 * u := mul_le_mul_of_nonneg_right h7 hp.le
  linarith

/-- A whole float64 of less than 2^62 is a multiple of a power of two up to the ninth, with at most 53 digits left. -/
theorem whole_float {v : Int} (h0 : 0 ≤ v) (h1 : v < 2 ^ 62) (hf : IsF v) : ∃ e : Nat, e ≤ 9 ∧ ∃ m : Int, v = m * 2 ^ e ∧ m ≤ 2 ^ 53 := by
  by_cases hs : v ≤ 2 ^ 53
  · exact ⟨0, by omega, v, by simp, hs⟩
  obtain ⟨m, e, hm, hv⟩ := hf
  have hs := not_le.mp hs
  have hm2 := (abs_le.mp hm).2
  have hp : (0 : Rat) < (2 : Rat) ^ e := zpow_pos (by norm_num) e
  have he : 0 ≤ e := by
    by_contra hc
    have hc := not_le.mp hc
    have h3 : (2 : Rat) ^ e ≤ 1 := zpow_le_one_of_nonpos₀ (by norm_num) hc.le
    have hm3 : (0 : Rat) ≤ m := by
      by_contra hcm
      have : (m : Rat) * (2 : Rat) ^ e ≤ 0 := mul_nonpos_of_nonpos_of_nonneg (by linarith) hp.le
      have h4 : (v : Rat) ≤ 0 := hv ▸ this
      have : v ≤ 0 := by exact_mod_cast h4
      omega
    have h4 : (v : Rat) ≤ m := by
      rw [hv]; nlinarith
    have : v ≤ m := by exact_mod_cast h4
    omega
  obtain ⟨k, rfl⟩ := Int.eq_ofNat_of_zero_le he
  have hv2 : v = m * 2 ^ k := by
    have : (v : Rat) = ((m * 2 ^ k : Int) : Rat) := by rw [hv]; push_cast; simp
    exact_mod_cast this
  by_cases hk : k ≤ 9
  · exact ⟨k, hk, m, hv2, hm2⟩
  · refine ⟨9, le_refl _, m * 2 ^ (k - 9), ?_, ?_⟩
    · rw [hv2, mul_assoc, ← pow_add]; congr 2; omega
    · have h5 : v = m * 2 ^ (k - 9) * 2 ^ 9 := by rw [hv2, mul_assoc, ← pow_add]; congr 2; omega
      omega

/-- Dividing a whole float64 of nanoseconds by 1e9 never rounds up to the next whole second. -/
theorem Nearest.floor_seconds {rnd : Rat → Rat} (hr : Nearest rnd) {v : Int} (h0 : 0 ≤ v) (h1 : v < 2 ^ 62) (hf : IsF v) :
    ⌊rnd ((v : Rat) / 1000000000)⌋ = v / 1000000000 := by
  obtain ⟨e, he, m, hv, hm⟩ := whole_float h0 h1 hf
  have hdm := Int.emod_add_mul_ediv v 1000000000
  have hmod := Int.emod_lt_of_pos v (b := 1000000000) (by norm_num)
  have hmod0 := Int.emod_nonneg v (b := 1000000000) (by norm_num)
  rw [Int.floor_eq_iff]
  generalize hn : v / 1000000000 = n at *
  have hn0 : 0 ≤ n := by omega
  have hn1 : n < 2 ^ 53 := by omega
  have hq : (v : Rat) / 1000000000 = (v : Rat) / 10 ^ 9 := by norm_num
  constructor
  · apply hr.le (isF_int n (by rw [abs_of_nonneg hn0]; omega))
    rw [le_div_iff₀ (by norm_num)]
    have : n * 1000000000 ≤ v := by omega
    exact_mod_cast this
  · by_contra hc
    have hc := not_lt.mp hc
    -- a float64 just below the next second
    have hk : (n + 1) * 2 ^ (29 - e) ≤ (2 : Int) ^ 53 := by
      interval_cases e <;> norm_num at hv ⊢ <;> omega
    have hgap : v + 2 ^ e ≤ (n + 1) * 1000000000 := by
      interval_cases e <;> norm_num at hv ⊢ <;> omega
    have hu : (2 : Rat) ^ ((e : Int) - 29) * (2 : Rat) ^ (29 - e) = 1 := by
      rw [← zpow_natCast, ← zpow_add₀ (by norm_num)]
      have : ((e : Int) - 29 + ((29 - e : Nat) : Int)) = 0 := by omega
      rw [this, zpow_zero]
    have hue : (2 : Rat) ^ ((e : Int) - 29) * 2 ^ 29 = (2 : Rat) ^ e := by
      rw [← zpow_natCast, ← zpow_natCast, ← zpow_add₀ (by norm_num)]
      congr 1; push_cast; ring
    have hup : (0 : Rat) < (2 : Rat) ^ ((e : Int) - 29) := zpow_pos (by norm_num) _
    generalize hug : (2 : Rat) ^ ((e : Int) - 29) = u at *
    have hf2 : IsF (((n + 1 : Int) : Rat) - u) := by
      refine ⟨(n + 1) * 2 ^ (29 - e) - 1, (e : Int) - 29, ?_, ?_⟩
      · rw [abs_le]
        have : 0 ≤ (n + 1) * (2 : Int) ^ (29 - e) := by positivity
        constructor <;> omega
      · rw [hug]; push_cast
        have : ((n : Rat) + 1) * 2 ^ (29 - e) * u = (n : Rat) + 1 := by
          rw [mul_assoc, mul_comm _ u, hu, mul_one]
        linarith
    have hnear := hr.near ((v : Rat) / 1000000000) _ hf2
    have hgap2 : (v : Rat) + 2 ^ e ≤ ((n : Rat) + 1) * 1000000000 := by exact_mod_cast hgap
    have hd : (v : Rat) / 1000000000 + 2 ^ e / 1000000000 ≤ (n : Rat) + 1 := by
      rw [← add_div, div_le_iff₀ (by norm_num)]; exact hgap2
    have hb : u / 2 < 2 ^ e / 1000000000 := by
      rw [lt_div_iff₀ (by norm_num), ← hue]; linarith
    rw [abs_of_nonneg (by linarith)] at hnear
    push_cast at hnear
    rcases abs_cases ((n : Rat) + 1 - u - (v : Rat) / 1000000000) with ⟨h, _⟩ | ⟨h, _⟩ <;> rw [h] at hnear <;> linarith

/-! ## The contract can be met -/

theorem exists_nearest (q : Rat) : ∃ r, IsF r ∧ ∀ f, IsF f → |r - q| ≤ |f - q| := by
  by_cases hq : q = 0
  · exact ⟨0, ⟨0, 0, by norm_num, by simp⟩, fun f _ => by simp [hq]⟩
  have hqa : 0 < |q| := abs_pos.mpr hq
  obtain ⟨k, hk1, hk2⟩ := exists_mem_Ico_zpow (y := (2 : Rat)) hqa (by norm_num)
  -- 2^k ≤ |q| < 2^(k+1)
  set u : Rat := (2 : Rat) ^ (k - 52) with hu
  have hp : 0 < u := zpow_pos (by norm_num) _
  have e1 : (2 : Rat) ^ k = (2 : Rat) ^ (52 : Nat) * u := by
    rw [hu, ← zpow_natCast, ← zpow_add₀ (by norm_num)]; congr 1; push_cast; ring
  have e2 : (2 : Rat) ^ (k + 1) = (2 : Rat) ^ (53 : Nat) * u := by
    rw [hu, ← zpow_natCast, ← zpow_add₀ (by norm_num)]; congr 1; push_cast; ring
  have hqu : |q / u| ≤ 2 ^ 53 := by
    rw [abs_div, abs_of_pos hp, div_le_iff₀ hp]; linarith
  have hm : |round (q / u)| ≤ (2 : Int) ^ 53 := by
    rw [abs_le] at hqu ⊢
    constructor
    · have : ((-(2 ^ 53) : Int) : Rat) ≤ q / u := by push_cast; exact hqu.1
      have h5 := Int.le_floor.mpr this
      have h6 : ⌊q / u⌋ ≤ round (q / u) := by
        rw [round_eq]; exact Int.floor_mono (by linarith)
      exact le_trans h5 h6
    · have : q / u + 1 / 2 < ((2 ^ 53 + 1 : Int) : Rat) := by push_cast; linarith [hqu.2]
      rw [round_eq]
      have h6 := Int.floor_lt.mpr this
      omega
  have grid : ∀ z : Int, |(round (q / u) : Rat) * u - q| ≤ |(z : Rat) * u - q| := by
    intro z
    have h := round_le (q / u) z
    have a1 : (round (q / u) : Rat) * u - q = -((q / u - round (q / u)) * u) := by field_simp; ring
    have a2 : (z : Rat) * u - q = -((q / u - z) * u) := by field_simp; ring
    rw [a1, a2, abs_neg, abs_neg, abs_mul, abs_mul]
    exact mul_le_mul_of_nonneg_right h (abs_nonneg u)
  refine ⟨(round (q / u) : Rat) * u, ⟨_, _, hm, rfl⟩, ?_⟩
  rintro f ⟨m, e, hme, rfl⟩
  by_cases hek : k - 52 ≤ e
  · obtain ⟨j, hj⟩ := Int.eq_ofNat_of_zero_le (show 0 ≤ e - (k - 52) by omega)
    have : (m : Rat) * (2 : Rat) ^ e = ((m * 2 ^ j : Int) : Rat) * u := by
      have : e = (j : Int) + (k - 52) := by omega
      rw [this, zpow_add₀ (by norm_num), hu]; push_cast; rw [zpow_natCast]; ring
    rw [this]; exact grid _
  · -- a number below 2^k
    have hfb : |(m : Rat) * (2 : Rat) ^ e| ≤ 2 ^ 52 * u := by
      rw [abs_mul, abs_of_pos (zpow_pos (by norm_num : (0 : Rat) < 2) e)]
      have h1 : (2 : Rat) ^ e ≤ (2 : Rat) ^ (k - 53) := zpow_le_zpow_right₀ (by norm_num) (by omega)
      have h2 : (2 : Rat) * (2 : Rat) ^ (k - 53) = u := by
        have : (2 : Rat) * (2 : Rat) ^ (k - 53) = (2 : Rat) ^ (1 : Int) * (2 : Rat) ^ (k - 53) := by simp
        rw [this, ← zpow_add₀ (by norm_num), hu]; congr 1; ring
      have h3 : |(m : Rat)| ≤ 2 ^ 53 := by exact_mod_cast hme
      have h4 : |(m : Rat)| * (2 : Rat) ^ e ≤ 2 ^ 53 * (2 : Rat) ^ (k - 53) :=
        mul_le_mul h3 h1 (zpow_pos (by norm_num) e).le (by norm_num)
      linarith
    rw [e1] at hk1
    rcases le_or_gt 0 q with h | h
    · rw [abs_of_nonneg h] at hk1
      refine le_trans (grid (2 ^ 52)) ?_
      have := (abs_le.mp hfb).2
      push_cast
      rw [abs_of_nonpos (by linarith), abs_of_nonpos (by linarith)]
      linarith
    · rw [abs_of_neg h] at hk1
      refine le_trans (grid (-(2 ^ 52))) ?_
      have := (abs_le.mp hfb).1
      push_cast
      rw [abs_of_nonneg (by linarith), abs_of_nonneg (by linarith)]
      linarith

/-- There is a rounding to the nearest float64, so the theorems that ask for one are not empty. -/
theorem nearest_exists : ∃ rnd, Nearest rnd := by
  classical
  exact ⟨fun q => (exists_nearest q).choose, fun q => (exists_nearest q).choose_spec.1, fun q => (exists_nearest q).choose_spec.2⟩

end Verif.TimeShow
