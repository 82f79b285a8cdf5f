import Verif.AsofDs.Spec
import Mathlib.Data.Rat.Floor
import Mathlib.Data.Rat.Cast.Order

/-!
# C61: the tolerance of an as-of merge means what was asked for
-/
namespace Verif.AsofDs

theorem wrap_fits (signed : Bool) (bits : Nat) (z : Int) (h0 : 0 ≤ z)
    (h : z < if signed then 2 ^ (bits - 1) else 2 ^ bits) (hb : 0 < bits) : wrapTo signed bits z = z := by
  unfold wrapTo
  cases signed
  · simp only [Bool.false_eq_true, if_false] at h ⊢
    exact Int.emod_eq_of_lt h0 h
  · simp only [if_true] at h ⊢
    have hp : (2 : Int) ^ bits = 2 * 2 ^ (bits - 1) := by
      rw [← pow_succ']; congr 1; omega
    apply Int.bmod_eq_of_le_mul_two
    · push_cast; have : (0 : Int) < 2 ^ bits := by positivity
      linarith
    · push_cast; rw [hp]; linarith

/-- the requested tolerance is at most the largest value of the `on` dtype -/
def Representable (t : OnType) (arg : TolArg) : Prop :=
  ∀ top q, t.top = some top → arg.asked = some q → q < top + 1

/-- **C61** A tolerance that is accepted admits exactly the distances asked for: integer and
fractional numbers on integer and float keys, time spans on date-time keys.  `d` ranges over the
distances that can occur: integers for integer and date-time keys. -/
theorem normTol_partial (t : OnType) (arg : TolArg) (v : TolVal) (h : normTol t arg = .ok v)
    (hbits : ∀ b, t = .int b ∨ t = .uint b → 0 < b) (hr : Representable t arg) (d : Rat)
    (hd : t = .float ∨ ∃ n : Int, d = n) : v.admits d ↔ arg.admits d := by
  have hcast : ∀ (z : Int) (q : Rat), 0 ≤ q → z = q.floor → arg.asked = some q → (arg ≠ .inf) →
      castInt t z (.rat q) = .ok v → (v.admits d ↔ arg.admits d) := by
    intro z q hq hz ha hinf hc
    have hz0 : 0 ≤ z := by rw [hz]; exact Rat.le_floor_iff.mpr (by simpa using hq)
    have hadm : arg.admits d ↔ d ≤ q := by
      unfold TolArg.admits
      split
      · exact absurd rfl hinf
      · simp [ha]
    rw [hadm]
    have hint : ∀ n : Int, d = n → (d ≤ z ↔ d ≤ q) := by
      rintro n rfl
      rw [Int.cast_le, hz, Rat.le_floor_iff]
    have hlt : ∀ top : Int, q < top + 1 → z < top + 1 := by
      intro top h
      rw [hz, Rat.floor_lt_iff]
      push_cast
      exact h
    unfold castInt at hc
    cases t with
    | int bits =>
      cases hc
      obtain ⟨n, hn⟩ := hd.resolve_left (by simp)
      have := hlt _ (hr _ q rfl ha)
      rw [wrap_fits true bits z hz0 (by simp only [if_true]; omega) (hbits bits (Or.inl rfl))]
      exact hint n hn
    | uint bits =>
      cases hc
      obtain ⟨n, hn⟩ := hd.resolve_left (by simp)
      have := hlt _ (hr _ q rfl ha)
      rw [wrap_fits false bits z hz0 (by simp only [Bool.false_eq_true, if_false]; omega) (hbits bits (Or.inr rfl))]
      exact hint n hn
    | float => cases hc; exact Iff.rfl
    | dtn => cases hc
    | derived => cases hc
  cases arg with
  | int z =>
    simp only [normTol] at h
    split at h
    · cases h
    · rename_i hz
      exact hcast z z (by exact_mod_cast (not_lt.mp hz)) (by simp) rfl (by simp) h
  | rat q =>
    simp only [normTol] at h
    split at h
    · cases h
    · rename_i hz
      exact hcast _ q (not_lt.mp hz) rfl rfl (by simp) h
  | inf =>
    simp only [normTol] at h
    cases t <;> first | cases h; done | (cases h; simp [TolVal.admits, TolArg.admits])
  | nan => simp [normTol] at h
  | span ns =>
    simp only [normTol] at h
    split at h
    · cases h
    · split at h
      · cases h; simp [TolVal.admits, TolArg.admits, TolArg.asked]
      · cases h
  | delta days secs micros =>
    simp only [normTol] at h
    split at h
    · cases h
    · split at h
      · split at h
        · cases h
        · split at h
          · cases h; simp [TolVal.admits, TolArg.admits, TolArg.asked]
          · cases h
      · cases h
  | other => simp [normTol] at h

/-- **C61** Negative tolerances and NaN are refused for every key type. -/
theorem normTol_negative (t : OnType) (arg : TolArg)
    (hw : ∀ d s u, arg = .delta d s u → 0 ≤ s ∧ s < 86400 ∧ 0 ≤ u ∧ u < 1000000)
    (h : arg = .nan ∨ ∃ q, arg.asked = some q ∧ q < 0) : ∃ e, normTol t arg = .error e := by
  rcases h with rfl | ⟨q, h1, h2⟩
  · exact ⟨_, rfl⟩
  · cases arg with
    | int z => cases h1; exact ⟨_, if_pos (by exact_mod_cast h2)⟩
    | rat q' => cases h1; exact ⟨_, if_pos h2⟩
    | span ns => cases h1; exact ⟨_, if_pos (by exact_mod_cast h2)⟩
    | delta d s u =>
      cases h1
      obtain ⟨a, b, c, e⟩ := hw d s u rfl
      have h3 : (d * 86400 + s) * 1000000000 + u * 1000 < 0 := by exact_mod_cast h2
      exact ⟨_, if_pos (by omega)⟩
    | _ => cases h1

/-- **C61** Numbers are refused on date-time keys, time spans on plain keys: no unit is guessed. -/
theorem normTol_units (t : OnType) (arg : TolArg) (v : TolVal) (h : normTol t arg = .ok v) :
    (t = .dtn ↔ (∃ ns, arg = .span ns) ∨ ∃ d s u, arg = .delta d s u) ∧ t ≠ .derived := by
  have hc : ∀ z f, castInt t z f = .ok v → t ≠ .dtn ∧ t ≠ .derived := by
    intro z f h
    cases t <;> simp_all [castInt]
  cases arg with
  | int z =>
    simp only [normTol] at h
    split at h
    · cases h
    · simpa using hc _ _ h
  | rat z =>
    simp only [normTol] at h
    split at h
    · cases h
    · simpa using hc _ _ h
  | inf => cases t <;> simp [normTol] at h ⊢
  | nan => simp [normTol] at h
  | span ns =>
    simp only [normTol] at h
    split at h
    · cases h
    · split at h
      · rename_i ht; subst ht; simp
      · cases h
  | delta d s u =>
    simp only [normTol] at h
    split at h
    · cases h
    · split at h
      · rename_i ht; subst ht; simp
      · cases h
  | other => simp [normTol] at h

/-- C61: a tolerance that is not negative and whose kind fits the keys is accepted: numbers for
numeric keys, time spans that fit in 64 bits for times -/
theorem normTol_accepts (t : OnType) (arg : TolArg)
    (hw : ∀ d s u, arg = .delta d s u → 0 ≤ s ∧ s < 86400 ∧ 0 ≤ u ∧ u < 1000000)
    (q : Rat) (h : arg.asked = some q) (h0 : 0 ≤ q) :
    (t ≠ .dtn → t ≠ .derived → (∃ z, arg = .int z) ∨ (∃ r, arg = .rat r) → ∃ v, normTol t arg = .ok v) ∧
    (t = .dtn → (∃ ns, arg = .span ns) ∨ (∃ d s u, arg = .delta d s u) → q < 2 ^ 63 →
      ∃ z : Int, normTol t arg = .ok (.int z) ∧ q = z) := by
  have hc : ∀ z f, t ≠ .dtn → t ≠ .derived → ∃ v, castInt t z f = .ok v := by
    intro z f h1 h2
    cases t <;> simp_all [castInt]
  constructor
  · rintro h1 h2 (⟨z, rfl⟩ | ⟨r, rfl⟩)
    · cases h
      have : ¬ z < 0 := by
        have : (0 : Int) ≤ z := by exact_mod_cast h0
        omega
      simp only [normTol, if_neg this]
      exact hc _ _ h1 h2
    · cases h
      simp only [normTol, if_neg (not_lt.2 h0)]
      exact hc _ _ h1 h2
  · rintro rfl (⟨ns, rfl⟩ | ⟨d, s, u, rfl⟩) hb
    · cases h
      have : ¬ ns < 0 := by
        have : (0 : Int) ≤ ns := by exact_mod_cast h0
        omega
      exact ⟨ns, by simp [normTol, this], rfl⟩
    · cases h
      obtain ⟨a, b, c, e⟩ := hw d s u rfl
      have h3 : (0 : Int) ≤ (d * 86400 + s) * 1000000000 + u * 1000 := by exact_mod_cast h0
      have h4 : (d * 86400 + s) * 1000000000 + u * 1000 < 2 ^ 63 := by exact_mod_cast hb
      refine ⟨(d * 86400 + s) * 1000000000 + u * 1000, ?_, rfl⟩
      simp only [normTol]
      rw [if_neg (by omega), if_pos trivial, if_neg (by omega), if_pos h4]

/-- **C61** fails beyond the range of the `on` dtype: a tolerance of 300 on 8-bit keys
becomes 44 and refuses a distance of 100. -/
theorem normTol_wrap_counterexample :
    normTol (.int 8) (.int 300) = .ok (.int 44) ∧ (TolArg.int 300).admits 100 ∧ ¬ (TolVal.int 44).admits 100 := by
  refine ⟨by decide, ⟨300, rfl, by norm_num⟩, ?_⟩
  simp only [TolVal.admits]
  norm_num

example : normTol (.int 32) (.rat (7/2)) = .ok (.int 3) := by decide +kernel
example : normTol .dtn (.delta 0 1 5) = .ok (.int 1000005000) := by decide
example : Representable (.int 32) (.rat (7/2)) := by
  intro top q h1 h2
  cases h1; cases h2
  norm_num

end Verif.AsofDs
