import Verif.TimeShow.Strf
/-! # Showing times: the short clock format -/
namespace Verif.TimeShow

/-- Dividing a whole float64 by a unit gives a whole number only if it is a multiple of the unit. -/
theorem Nearest.whole {rnd : Rat → Rat} (hr : Nearest rnd) {v : Int} (h0 : 0 ≤ v) (h1 : v < 2 ^ 62) (hf : IsF v) (D b : Nat)
    (hb9 : 10 ≤ b) (hb : b ≤ 40) (hD1 : 2 ^ (b - 1) < D) (hD2 : D < 2 ^ b) (hD9 : 2 ^ 9 ∣ D) (k : Int) (hk : rnd ((v : Rat) / D) = k) :
    v = k * D := by
  obtain ⟨e, he, m, hv, hm⟩ := whole_float h0 h1 hf
  by_contra hne
  have hDpos : (0 : Rat) < D := by exact_mod_cast (lt_of_le_of_lt (Nat.zero_le _) hD1)
  have hv0 : (0 : Rat) ≤ v := by exact_mod_cast h0
  -- the gap
  have hdvd : (2 : Int) ^ e ∣ v - k * D := by
    apply Int.dvd_sub
    · exact ⟨m, by rw [hv]; ring⟩
    · apply Dvd.dvd.mul_left
      have h2 : (2 : Int) ^ e ∣ 2 ^ 9 := pow_dvd_pow 2 he
      exact h2.trans (by exact_mod_cast hD9)
  have hgap : (2 : Int) ^ e ≤ |v - k * D| := by
    have := Int.le_of_dvd (abs_pos.mpr (sub_ne_zero.mpr hne)) ((dvd_abs _ _).mpr hdvd)
    exact this
  -- bounds on the quotient
  have hpow : (2 : Rat) ^ 53 * 2 ^ e = 2 ^ (54 + e - b) * 2 ^ (b - 1) := by
    rw [← pow_add, ← pow_add]; congr 1; omega
  have hvle : (v : Rat) ≤ 2 ^ 53 * 2 ^ e := by
    have : v ≤ 2 ^ 53 * 2 ^ e := by rw [hv]; exact Int.mul_le_mul_of_nonneg_right hm (by positivity)
    exact_mod_cast this
  have hD1' : (2 : Rat) ^ (b - 1) < D := by exact_mod_cast hD1
  have hD2' : (D : Rat) < 2 ^ b := by exact_mod_cast hD2
  have hqlt : (v : Rat) / D < 2 ^ (54 + e - b) := by
    rw [div_lt_iff₀ hDpos]
    have : (2 : Rat) ^ (54 + e - b) * 2 ^ (b - 1) < 2 ^ (54 + e - b) * D := mul_lt_mul_of_pos_left hD1' (by positivity)
    linarith
  have hq0 : 0 ≤ (v : Rat) / D := by positivity
  have hk0 : 0 ≤ k := by
    have := hr.le (q := (v : Rat) / D) (n := 0) ⟨0, 0, by norm_num, by simp⟩ hq0
    rw [hk] at this
    exact_mod_cast this
  have hkb : |k - 1| ≤ 2 ^ 53 := by
    have hk53 : rnd ((v : Rat) / D) ≤ 2 ^ 53 := by
      by_contra hc
      have hc := not_le.mp hc
      have h3 := hr.near ((v : Rat) / D) (2 ^ 53 : Int) (isF_int _ (by norm_num))
      have h4 : (2 : Rat) ^ (54 + e - b) ≤ 2 ^ 53 := pow_le_pow_right₀ (by norm_num) (by omega)
      push_cast at h3
      rw [abs_of_nonneg (by linarith), abs_of_nonneg (by linarith)] at h3
      linarith
    rw [hk] at hk53
    have : k ≤ 2 ^ 53 := by exact_mod_cast hk53
    rw [abs_le]; omega
  have hkhalf : (k : Rat) ≤ (v : Rat) / D + 1 / 2 := by
    have h3 := hr.near ((v : Rat) / D) ((k - 1 : Int) : Rat) (isF_int _ hkb)
    rw [hk] at h3
    push_cast at h3
    rcases abs_cases ((k : Rat) - (v : Rat) / D) with ⟨h, _⟩ | ⟨h, _⟩ <;>
      rcases abs_cases ((k : Rat) - 1 - (v : Rat) / D) with ⟨h', _⟩ | ⟨h', _⟩ <;> rw [h, h'] at h3 <;> linarith
  have hkle : k ≤ 2 ^ (54 + e - b) := by
    have : (k : Rat) < ((2 ^ (54 + e - b) + 1 : Int) : Rat) := by push_cast; linarith
    have : k < 2 ^ (54 + e - b) + 1 := by exact_mod_cast this
    omega
  -- a float next to k
  have hu : (2 : Rat) ^ ((e : Int) + 1 - b) * (2 : Rat) ^ (b - 1 - e) = 1 := by
    rw [← zpow_natCast, ← zpow_add₀ (by norm_num)]
    have : ((e : Int) + 1 - b + ((b - 1 - e : Nat) : Int)) = 0 := by omega
    rw [this, zpow_zero]
  have hue : (2 : Rat) ^ ((e : Int) + 1 - b) * 2 ^ b = 2 * (2 : Rat) ^ e := by
    have : (2 : Rat) * 2 ^ e = (2 : Rat) ^ ((e : Int) + 1) := by rw [zpow_add₀ (by norm_num), zpow_natCast]; norm_num; ring
    rw [this, ← zpow_natCast, ← zpow_add₀ (by norm_num)]
    congr 1; ring
  have hup : (0 : Rat) < (2 : Rat) ^ ((e : Int) + 1 - b) := zpow_pos (by norm_num) _
  generalize hug : (2 : Rat) ^ ((e : Int) + 1 - b) = u at *
  have hscale : ∀ z : Int, ((z : Rat) * u) = (z : Rat) * (2 : Rat) ^ ((e : Int) + 1 - b) := fun z => by rw [hug]
  have hkm : (k : Rat) * 2 ^ (b - 1 - e) * u = k := by rw [mul_assoc, mul_comm _ u, hu, mul_one]
  have hpow2 : (2 : Int) ^ (54 + e - b) * 2 ^ (b - 1 - e) = 2 ^ 53 := by
    rw [← pow_add]; congr 1; omega
  have hp1 : (1 : Int) ≤ 2 ^ (b - 1 - e) := by exact_mod_cast Nat.one_le_two_pow
  have hkmul : k * 2 ^ (b - 1 - e) ≤ (2 : Int) ^ 53 := by
    rw [← hpow2]; exact Int.mul_le_mul_of_nonneg_right hkle (by positivity)
  have hkmul0 : 0 ≤ k * (2 : Int) ^ (b - 1 - e) := by positivity
  have hd : u / 2 < |(v : Rat) / D - k| := by
    have hdd : (v : Rat) / D - k = ((v - k * D : Int) : Rat) / D := by push_cast; field_simp
    rw [hdd, abs_div, abs_of_pos hDpos, lt_div_iff₀ hDpos]
    have h3 : (2 : Rat) ^ e ≤ |((v - k * D : Int) : Rat)| := by exact_mod_cast hgap
    have h4 : u / 2 * D < u / 2 * 2 ^ b := mul_lt_mul_of_pos_left hD2' (by linarith)
    linarith
  rcases lt_or_ge ((v : Rat) / D) k with hlt | hge
  · have hf2 : IsF ((k : Rat) - u) := by
      refine ⟨k * 2 ^ (b - 1 - e) - 1, (e : Int) + 1 - b, by rw [abs_le]; omega, ?_⟩
      rw [hug]; push_cast; linarith
    have hnear := hr.near ((v : Rat) / D) _ hf2
    rw [hk, abs_of_pos (by linarith)] at hnear
    rw [abs_of_neg (by linarith)] at hd
    rcases abs_cases ((k : Rat) - u - (v : Rat) / D) with ⟨h, _⟩ | ⟨h, _⟩ <;> rw [h] at hnear <;> linarith
  · have hklt : k < 2 ^ (54 + e - b) := by
      have : (k : Rat) < ((2 ^ (54 + e - b) : Int) : Rat) := by push_cast; linarith
      exact_mod_cast this
    have hkmul2 : k * 2 ^ (b - 1 - e) + 1 ≤ (2 : Int) ^ 53 := by
      have : (k + 1) * 2 ^ (b - 1 - e) ≤ (2 : Int) ^ 53 := by
        rw [← hpow2]; exact Int.mul_le_mul_of_nonneg_right (by omega) (by positivity)
      rw [add_mul] at this
      omega
    have hf2 : IsF ((k : Rat) + u) := by
      refine ⟨k * 2 ^ (b - 1 - e) + 1, (e : Int) + 1 - b, by rw [abs_le]; omega, ?_⟩
      rw [hug]; push_cast; linarith
    have hnear := hr.near ((v : Rat) / D) _ hf2
    rw [hk, abs_of_nonpos (by linarith)] at hnear
    rw [abs_of_nonneg (by linarith)] at hd
    rcases abs_cases ((k : Rat) + u - (v : Rat) / D) with ⟨h, _⟩ | ⟨h, _⟩ <;> rw [h] at hnear <;> linarith

theorem Nearest.neg {rnd : Rat → Rat} (hr : Nearest rnd) : Nearest fun q => -rnd (-q) := by
  have hn : ∀ f : Rat, IsF f → IsF (-f) := by
    rintro f ⟨m, e, hm, rfl⟩
    exact ⟨-m, e, by rwa [abs_neg], by push_cast; ring⟩
  refine ⟨fun q => hn _ (hr.float _), fun q f hf => ?_⟩
  have := hr.near (-q) (-f) (hn f hf)
  rw [← abs_neg, show -(rnd (-q) - -q) = -rnd (-q) - q by ring, ← abs_neg (-f - -q), show -(-f - -q) = f - q by ring] at this
  exact this

theorem fractional_iff {rnd : Rat → Rat} (hr : Nearest rnd) {v : Int} (h1 : |v| < 2 ^ 62) (hf : IsF v) (D b : Nat)
    (hb9 : 10 ≤ b) (hb : b ≤ 40) (hD1 : 2 ^ (b - 1) < D) (hD2 : D < 2 ^ b) (hD9 : 2 ^ 9 ∣ D) :
    fractional (rnd ((v : Rat) / D)) = false ↔ (D : Int) ∣ v := by
  unfold fractional
  rw [decide_eq_false_iff_not, not_not]
  have hDpos : (0 : Rat) < D := by exact_mod_cast (lt_of_le_of_lt (Nat.zero_le _) hD1)
  have hDge : 512 ≤ D := by
    have : 2 ^ 9 ≤ 2 ^ (b - 1) := Nat.pow_le_pow_right (by norm_num) (by omega)
    omega
  constructor
  · intro h
    rcases le_or_gt 0 v with hp | hp
    · have := hr.whole hp (by rwa [abs_of_nonneg hp] at h1) hf D b hb9 hb hD1 hD2 hD9 _ h
      exact ⟨_, this.trans (mul_comm _ _)⟩
    · have hf' : IsF ((-v : Int) : Rat) := by
        obtain ⟨m, e, hm, he⟩ := hf
        exact ⟨-m, e, by rwa [abs_neg], by push_cast; rw [he]; ring⟩
      have := hr.neg.whole (v := -v) (by omega) (by rw [abs_of_neg hp] at h1; exact h1) hf' D b hb9 hb hD1 hD2 hD9
        (-⌊rnd ((v : Rat) / D)⌋) (by push_cast; rw [neg_div, neg_neg]; rw [← h])
      have h4 : v = ⌊rnd ((v : Rat) / D)⌋ * D := by
        have e2 : -⌊rnd ((v : Rat) / D)⌋ * (D : Int) = -(⌊rnd ((v : Rat) / D)⌋ * (D : Int)) := by ring
        rw [e2] at this
        omega
      exact ⟨_, h4.trans (mul_comm _ _)⟩
  · rintro ⟨k, rfl⟩
    have hq : (((D : Int) * k : Int) : Rat) / D = ((k : Int) : Rat) := by push_cast; field_simp
    have hk : |k| ≤ 2 ^ 53 := by
      rw [abs_mul] at h1
      have h2 : |(D : Int)| = D := abs_of_nonneg (by positivity)
      rw [h2] at h1
      have h3 : (512 : Int) * |k| ≤ (D : Int) * |k| := Int.mul_le_mul_of_nonneg_right (by exact_mod_cast hDge) (abs_nonneg k)
      omega
    rw [hq, hr.keeps (isF_int k hk), Int.floor_intCast]

/-- **C261** The short clock format hides nothing of the seconds: it is `%H:%M` just when every span is a whole number of minutes, and `%H:%M:%S` just when
every span is a whole number of seconds but not every one of minutes. -/
theorem clock_format_short_exact (rnd : Rat → Rat) (hr : Nearest rnd) (vs : List Int) (hv : ∀ v ∈ vs, |v| < 2 ^ 62 ∧ IsF v) :
    let f := clockFormatShort rnd (vs.map fun v : Int => (v : Rat))
    (f = .hm ↔ ∀ v ∈ vs, 60 * 10 ^ 9 ∣ v) ∧
    (f = .hms ↔ (∀ v ∈ vs, 10 ^ 9 ∣ v) ∧ ¬ ∀ v ∈ vs, 60 * 10 ^ 9 ∣ v) ∧
    (f = .hmsf ↔ ¬ ∀ v ∈ vs, 10 ^ 9 ∣ v) := by
  have hs : ((vs.map fun v : Int => (v : Rat)).any fun v => fractional (rnd (v / 1000000000))) = true ↔ ¬ ∀ v ∈ vs, (10 ^ 9 : Int) ∣ v := by
    rw [← not_iff_not, not_not, Bool.not_eq_true, List.any_eq_false]
    simp only [List.forall_mem_map, Bool.not_eq_true]
    constructor
    · intro h v hvm
      have := (fractional_iff hr (hv v hvm).1 (hv v hvm).2 1000000000 30 (by norm_num) (by norm_num) (by norm_num) (by norm_num) (by norm_num)).mp
        (by push_cast; exact h v hvm)
      norm_num at this ⊢; exact this
    · intro h v hvm
      have := (fractional_iff hr (hv v hvm).1 (hv v hvm).2 1000000000 30 (by norm_num) (by norm_num) (by norm_num) (by norm_num) (by norm_num)).mpr
        (by have := h v hvm; norm_num at this ⊢; exact this)
      push_cast at this
      exact this
  have hm : ((vs.map fun v : Int => (v : Rat)).any fun v => fractional (rnd (v / 60000000000))) = true ↔ ¬ ∀ v ∈ vs, (60 * 10 ^ 9 : Int) ∣ v := by
    rw [← not_iff_not, not_not, Bool.not_eq_true, List.any_eq_false]
    simp only [List.forall_mem_map, Bool.not_eq_true]
    constructor
    · intro h v hvm
      have := (fractional_iff hr (hv v hvm).1 (hv v hvm).2 60000000000 36 (by norm_num) (by norm_num) (by norm_num) (by norm_num) (by norm_num)).mp
        (by push_cast; exact h v hvm)
      norm_num at this ⊢; exact this
    · intro h v hvm
      have := (fractional_iff hr (hv v hvm).1 (hv v hvm).2 60000000000 36 (by norm_num) (by norm_num) (by norm_num) (by norm_num) (by norm_num)).mpr
        (by have := h v hvm; norm_num at this ⊢; exact this)
      push_cast at this
      exact this
  have himp : (∀ v ∈ vs, (60 * 10 ^ 9 : Int) ∣ v) → ∀ v ∈ vs, (10 ^ 9 : Int) ∣ v :=
    fun h v hvm => (Dvd.intro_left 60 rfl).trans (h v hvm)
  unfold clockFormatShort
  dsimp only
  split
  · rename_i h
    have := hs.mp h
    refine ⟨⟨fun h => (by cases h), fun h => absurd (himp h) this⟩, ⟨fun h => (by cases h), fun h => absurd h.1 this⟩, fun _ => this, fun _ => rfl⟩
  · rename_i h
    have h' := not_not.mp (fun hc => h (hs.mpr hc))
    split
    · rename_i g
      have := hm.mp g
      exact ⟨⟨fun h => (by cases h), fun h => absurd h this⟩, ⟨fun _ => ⟨h', this⟩, fun _ => rfl⟩, ⟨fun h => (by cases h), fun h => absurd h' h⟩⟩
    · rename_i g
      have g' := not_not.mp (fun hc => g (hm.mpr hc))
      exact ⟨⟨fun _ => g', fun _ => rfl⟩, ⟨fun h => (by cases h), fun h => absurd g' h.2⟩, ⟨fun h => (by cases h), fun h => absurd h' h⟩⟩

/-- One minute and one second. -/
example : ∀ v ∈ [60000000000, 61000000000], |(v : Int)| < 2 ^ 62 ∧ IsF v := by
  intro v hv
  simp only [List.mem_cons, List.not_mem_nil, or_false] at hv
  rcases hv with rfl | rfl <;> exact ⟨by decide, isF_int _ (by decide)⟩

end Verif.TimeShow
