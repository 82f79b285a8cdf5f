import Verif.NpOps.Model
import Mathlib.Tactic.NormNum
import Mathlib.Tactic.Ring
import Mathlib.Tactic.Linarith
import Mathlib.Tactic.Push
import Mathlib.Data.Fintype.Basic
import Mathlib.Data.Fintype.Pi
import Mathlib.Algebra.Order.Field.Basic
/-! # Types that hold numbers: `min_scalar_type`, operations of integer arrays and integers (C180, C181) -/
namespace Verif.NpOps

theorem narrowest_some {p : Fin 4 → Bool} {w : Fin 4} (h : narrowest p = some w) : p w = true ∧ ∀ w' < w, p w' = false := by
  revert p w; decide +kernel

theorem narrowest_none {p : Fin 4 → Bool} (h : narrowest p = none) : ∀ w, p w = false := by
  revert p; decide +kernel

theorem npMinInt_int {z : Int} {sg : Bool} {w : Fin 4} (h : npMinInt z = .int sg w) :
    (sg = false ∧ 0 ≤ z ∧ z ≤ 2 ^ bitsOf w - 1 ∧ ∀ w' < w, 2 ^ bitsOf w' - 1 < z) ∨
    (sg = true ∧ z < 0 ∧ -2 ^ (bitsOf w - 1) ≤ z ∧ ∀ w' < w, z < -2 ^ (bitsOf w' - 1)) := by
  unfold npMinInt at h
  split_ifs at h with hz
  · left
    cases hn : narrowest (fun w => decide (z ≤ 2 ^ bitsOf w - 1)) with
    | none => rw [hn] at h; cases h
    | some w1 =>
      rw [hn] at h
      injection h with e1 e2
      subst e1; subst e2
      obtain ⟨h1, h2⟩ := narrowest_some hn
      exact ⟨rfl, hz, of_decide_eq_true h1, fun w' hw => not_le.1 (of_decide_eq_false (h2 w' hw))⟩
  · right
    cases hn : narrowest (fun w => decide (-2 ^ (bitsOf w - 1) ≤ z)) with
    | none => rw [hn] at h; cases h
    | some w1 =>
      rw [hn] at h
      injection h with e1 e2
      subst e1; subst e2
      obtain ⟨h1, h2⟩ := narrowest_some hn
      exact ⟨rfl, not_le.1 hz, of_decide_eq_true h1, fun w' hw => not_le.1 (of_decide_eq_false (h2 w' hw))⟩

theorem npMinInt_obj {z : Int} (h : npMinInt z = .obj) (w : Fin 4) : 2 ^ bitsOf w - 1 < z ∨ z < -2 ^ (bitsOf w - 1) := by
  unfold npMinInt at h
  split_ifs at h with hz
  · left
    cases hn : narrowest (fun w => decide (z ≤ 2 ^ bitsOf w - 1)) with
    | none => exact not_le.1 (of_decide_eq_false (narrowest_none hn w))
    | some w1 => rw [hn] at h; cases h
  · right
    cases hn : narrowest (fun w => decide (-2 ^ (bitsOf w - 1) ≤ z)) with
    | none => exact not_le.1 (of_decide_eq_false (narrowest_none hn w))
    | some w1 => rw [hn] at h; cases h

/-- half of the range of a type -/
theorem half (w : Fin 4) : (2 : Int) ^ bitsOf w = 2 * 2 ^ (bitsOf w - 1) ∧ (1 : Int) < 2 ^ (bitsOf w - 1) := by
  revert w; decide +kernel

/-- the number fits into the integer type, and is not its missing value if that matters -/
def FitsIn (s : Bool) (w : Fin 4) (notMissing : Bool) (z : Int) : Prop :=
  least s w ≤ z ∧ z ≤ greatest s w ∧ (notMissing = true → z ≠ missing s w)

theorem least_vals : least true 0 = -128 ∧ least true 1 = -32768 ∧ least true 2 = -2147483648 ∧ least true 3 = -9223372036854775808 ∧
    (∀ w, least false w = 0) ∧ greatest true 0 = 127 ∧ greatest true 1 = 32767 ∧ greatest true 2 = 2147483647 ∧
    greatest true 3 = 9223372036854775807 ∧ greatest false 0 = 255 ∧ greatest false 1 = 65535 ∧ greatest false 2 = 4294967295 ∧
    greatest false 3 = 18446744073709551615 := by
  refine ⟨by decide, by decide, by decide, by decide, by decide, by decide, by decide, by decide, by decide, by decide, by decide, by decide, by decide⟩

/-- **C180** The type given for an integer holds it — and not as its missing value, if that is asked for — and is signed for negative numbers
and if that is preferred. The exception: numbers 128, 32768, 2³¹ and 2⁶³ when a signed type is preferred and missing values are not avoided. -/
theorem minScalarType_holds_partial (val : Int) (p s : Bool) (h : ¬ (s = true ∧ p = false ∧ ∃ w : Fin 4, val = 2 ^ (bitsOf w - 1))) (sg : Bool) (w : Fin 4)
    (ht : minScalarType val p s = .int sg w) : FitsIn sg w p val ∧ (sg = true ↔ val < 0 ∨ s = true) := by
  obtain ⟨hh1, hh2⟩ := half w
  have hx : s = true → p = false → val ≠ 2 ^ (bitsOf w - 1) := fun hs hp e => h ⟨hs, hp, w, e⟩
  unfold minScalarType at ht
  dsimp only at ht
  unfold FitsIn missing least greatest
  rcases npMinInt_int ht with ⟨rfl, h1, h2, -⟩ | ⟨rfl, h1, h2, -⟩
  · rw [hh1] at h2 ⊢
    generalize (2 : Int) ^ (bitsOf w - 1) = P at *
    cases p <;> cases s <;> simp at * <;> (try split_ifs at *) <;> omega
  · generalize (2 : Int) ^ (bitsOf w - 1) = P at *
    cases p <;> cases s <;> simp at * <;> (try split_ifs at *) <;> omega

/-- **C180** No narrower type of the same kind would do. -/
theorem minScalarType_least (val : Int) (p s : Bool) (sg : Bool) (w : Fin 4) (ht : minScalarType val p s = .int sg w) (w' : Fin 4) (hw : w' < w) :
    ¬ FitsIn sg w' p val := by
  obtain ⟨hh1, hh2⟩ := half w'
  unfold minScalarType at ht
  dsimp only at ht
  unfold FitsIn missing least greatest
  rcases npMinInt_int ht with ⟨rfl, h1, -, h2⟩ | ⟨rfl, h1, -, h2⟩
  · replace h2 := h2 w' hw
    rw [hh1] at h2 ⊢
    generalize (2 : Int) ^ (bitsOf w' - 1) = P at *
    rintro ⟨g1, g2, g3⟩
    cases p <;> cases s <;> simp at * <;> (try split_ifs at *) <;> omega
  · replace h2 := h2 w' hw
    generalize (2 : Int) ^ (bitsOf w' - 1) = P at *
    rintro ⟨g1, g2, g3⟩
    cases p <;> cases s <;> simp at * <;> (try split_ifs at *) <;> omega

/-- **C180** An integer for which no integer type is given does not fit into any type of the kind. -/
theorem minScalarType_none (val : Int) (p s : Bool) (ht : minScalarType val p s = .obj) (w : Fin 4) :
    ¬ FitsIn (decide (val < 0) || s) w p val := by
  obtain ⟨hh1, hh2⟩ := half w
  unfold minScalarType at ht
  dsimp only at ht
  have h2 := npMinInt_obj ht w
  unfold FitsIn missing least greatest
  rw [hh1] at h2 ⊢
  generalize (2 : Int) ^ (bitsOf w - 1) = P at *
  rintro ⟨g1, g2, g3⟩
  by_cases hv : val < 0 <;> cases p <;> cases s <;> simp [hv] at * <;> (try split_ifs at *) <;> omega

/-- **C180** violated: 128 with a signed type preferred gives int8, whose greatest number is 127. -/
theorem minScalarType_counterexample : minScalarType 128 false true = .int true 0 ∧ ¬ Holds (.int true 0) 128 := by
  refine ⟨by decide +kernel, ?_⟩
  rintro ⟨z, hz, _, h2⟩
  have h3 : z ≤ 127 := h2
  have : (128 : Int) = z := by exact_mod_cast hz
  omega

theorem holds_int (s : Bool) (w : Fin 4) (z : Int) : Holds (.int s w) (z : Rat) ↔ least s w ≤ z ∧ z ≤ greatest s w := by
  constructor
  · rintro ⟨y, hy, h1, h2⟩
    have : z = y := by exact_mod_cast hy
    subst this
    exact ⟨h1, h2⟩
  · rintro ⟨h1, h2⟩
    exact ⟨z, rfl, h1, h2⟩

/-- **C181** The type in which an integer array and an integer are combined holds the integer and everything in the array, unless the array is
unsigned and the integer negative or the integer has more than 64 bits. -/
theorem logicalCommon_holds_partial (s : Bool) (w : Fin 4) (val : Int) (h : if s then least true 3 ≤ val ∧ val ≤ greatest true 3 else 0 ≤ val ∧ val ≤ greatest false 3) :
    Holds (logicalCommon s w val) val ∧ ∀ q, Holds (.int s w) q → Holds (logicalCommon s w val) q := by
  have key : ∃ w', logicalCommon s w val = .int s w' ∧ w ≤ w' ∧ least s w' ≤ val ∧ val ≤ greatest s w' := by
    obtain ⟨a1, a2, a3, a4, a5, b1, b2, b3, b4, c1, c2, c3, c4⟩ := least_vals
    cases s
    · simp only [Bool.false_eq_true, if_false, c4] at h
      have : ∃ f : Fin 4, logicalCommon false w val = (if tyNum (.int false w) < tyNum (.int false f) then .int false f else .int false w) ∧
          val ≤ greatest false f := by
        unfold logicalCommon
        by_cases h0 : val ≤ 255
        · exact ⟨0, by simp [h0], by rw [c1]; exact h0⟩
        · by_cases h1 : val ≤ 65535
          · exact ⟨1, by simp [h0, h1], by rw [c2]; exact h1⟩
          · by_cases h2 : val ≤ 4294967295
            · exact ⟨2, by simp [h0, h1, h2], by rw [c3]; exact h2⟩
            · exact ⟨3, by simp [h0, h1, h2, h.2], by rw [c4]; exact h.2⟩
      obtain ⟨f, hf, hv⟩ := this
      rw [hf]
      split_ifs with hlt
      · refine ⟨f, rfl, ?_, by rw [a5]; exact h.1, hv⟩
        simp only [tyNum, Bool.false_eq_true, if_false] at hlt
        exact Fin.le_def.2 (by omega)
      · refine ⟨w, rfl, le_refl _, by rw [a5]; exact h.1, hv.trans ?_⟩
        simp only [tyNum, Bool.false_eq_true, if_false] at hlt
        have : f ≤ w := Fin.le_def.2 (by omega)
        revert this; clear hlt hv hf; revert f w; decide +kernel
    · simp only [if_true, a4, b4] at h
      have : ∃ f : Fin 4, logicalCommon true w val = (if tyNum (.int true w) < tyNum (.int true f) then .int true f else .int true w) ∧
          least true f ≤ val ∧ val ≤ greatest true f := by
        unfold logicalCommon
        by_cases h0 : -128 ≤ val ∧ val ≤ 127
        · exact ⟨0, by simp [h0], by rw [a1, b1]; exact h0⟩
        · by_cases h1 : -32768 ≤ val ∧ val ≤ 32767
          · exact ⟨1, by simp [h0, h1], by rw [a2, b2]; exact h1⟩
          · by_cases h2 : -2147483648 ≤ val ∧ val ≤ 2147483647
            · exact ⟨2, by simp [h0, h1, h2], by rw [a3, b3]; exact h2⟩
            · exact ⟨3, by simp [h0, h1, h2, h], by rw [a4, b4]; exact h⟩
      obtain ⟨f, hf, hv1, hv2⟩ := this
      rw [hf]
      split_ifs with hlt
      · refine ⟨f, rfl, ?_, hv1, hv2⟩
        simp only [tyNum, if_true] at hlt
        exact Fin.le_def.2 (by omega)
      · refine ⟨w, rfl, le_refl _, ?_, ?_⟩
        · refine le_trans ?_ hv1
          simp only [tyNum, if_true] at hlt
          have : f ≤ w := Fin.le_def.2 (by omega)
          revert this; clear hlt hv1 hv2 hf; revert f w; decide +kernel
        · refine hv2.trans ?_
          simp only [tyNum, if_true] at hlt
          have : f ≤ w := Fin.le_def.2 (by omega)
          revert this; clear hlt hv1 hv2 hf; revert f w; decide +kernel
  obtain ⟨w', h1, h2, h3, h4⟩ := key
  rw [h1]
  refine ⟨(holds_int _ _ _).2 ⟨h3, h4⟩, ?_⟩
  rintro q ⟨z, rfl, hz1, hz2⟩
  have hw : least s w' ≤ least s w ∧ greatest s w ≤ greatest s w' := by
    clear h h1 h3 h4 hz1 hz2; revert s w w'; decide +kernel
  exact (holds_int _ _ _).2 ⟨by omega, by omega⟩

/-- **C181** violated: an array of uint8 and -1 are combined as uint8, which cannot hold -1. -/
theorem logicalCommon_counterexample : logicalCommon false 0 (-1) = .int false 0 ∧ ¬ Holds (.int false 0) ((-1 : Int) : Rat) := by
  refine ⟨by decide +kernel, ?_⟩
  rw [holds_int]
  decide +kernel

example : minScalarType 255 false false = .int false 0 := by decide +kernel
example : minScalarType 255 true false = .int false 1 := by decide +kernel
example : minScalarType 255 true true = .int true 1 := by decide +kernel
example : logicalCommon true 0 1999 = .int true 1 := by decide +kernel

end Verif.NpOps
