import Verif.SpanRed.Model
import Verif.SpanRed.Spec
import Mathlib.Tactic.Ring
import Mathlib.Tactic.FieldSimp
import Mathlib.Tactic.NormNum
/-! # Reductions of TimeSpans: properties (C367, C368) -/
namespace Verif.SpanRed

theorem keptRows_all {α : Type} (l : List α) (m : List Bool) (hl : m.length = l.length) (hm : ∀ b ∈ m, b = true) : keptRows l m = l := by
  induction l generalizing m with
  | nil => rfl
  | cons x l ih =>
    cases m with
    | nil => cases hl
    | cons b m =>
      have hb : b = true := hm b (by simp)
      subst hb
      have := ih m (by simpa using hl) (fun b h => hm b (by simp [h]))
      unfold keptRows at this ⊢
      simp [this]

/-- the model's selection is the kept rows -/
theorem select_kept {α : Type} (l : List α) (m : List Bool) : select l m = keptRows l m := by
  induction l generalizing m with
  | nil => cases m <;> rfl
  | cons x l ih =>
    cases m with
    | nil => rfl
    | cons b m =>
      simp only [select, ih]
      cases b <;> simp [keptRows]

/-- the reductions of arrays count exactly the kept rows -/
theorem array_filter (f : Red) (nan : Bool) (l : List (Option ℚ)) (m : List Bool) :
    arrayReduce f nan l (some m) = arrayReduce f nan (keptRows l m) none := by
  simp only [arrayReduce, select_kept]

/-- **C367** If the filter keeps every row, the reduction is that of the kept rows. -/
theorem span_filter_partial (f : Red) (nan : Bool) (l : List (Option ℚ)) (m : List Bool) (hl : m.length = l.length) (hm : ∀ b ∈ m, b = true) :
    spanReduce f nan l (some m) = arrayReduce f nan l (some m) := by
  rw [array_filter, keptRows_all l m hl hm]
  rfl

/-- **C367** exactly: the filter is not looked at. -/
theorem span_filter_exact (f : Red) (nan : Bool) (l : List (Option ℚ)) (m : List Bool) :
    spanReduce f nan l (some m) = arrayReduce f nan l (some m) ↔
      arrayReduce f nan l none = arrayReduce f nan (keptRows l m) none := by
  rw [array_filter]
  rfl

/-- **C367** fails: a filtered sum of spans is the sum of all of them. -/
theorem span_filter_counterexample :
    spanReduce .sum false [some 1, some 2] (some [true, false]) = some 3 ∧ arrayReduce .sum false [some 1, some 2] (some [true, false]) = some 1 := by
  constructor
  · simp [spanReduce, arrayReduce, numbers, reduceNumbers]
    norm_num
  · simp [arrayReduce, numbers, reduceNumbers, select]

/-! ## Units -/

theorem sum_scale (k : ℚ) (l : List ℚ) : (l.map fun q => k * q).sum = k * l.sum := by
  induction l with
  | nil => simp
  | cons x l ih => simp [ih, mul_add]

theorem mean_scale (k : ℚ) (l : List ℚ) : meanOf (l.map fun q => k * q) = k * meanOf l := by
  unfold meanOf
  rw [sum_scale, List.length_map, mul_div_assoc]

theorem least_scale {k : ℚ} (hk : 0 < k) (l : List ℚ) : least (l.map fun q => k * q) = (least l).map fun q => k * q := by
  cases l with
  | nil => rfl
  | cons x l =>
    simp only [List.map_cons, least, Option.map_some, Option.some.injEq]
    induction l generalizing x with
    | nil => rfl
    | cons y l ih =>
      simp only [List.map_cons, List.foldl_cons, mul_lt_mul_iff_right₀ hk]
      by_cases h : y < x
      · rw [if_pos h, if_pos h]
        exact ih y
      · rw [if_neg h, if_neg h]
        exact ih x

theorem greatest_scale {k : ℚ} (hk : 0 < k) (l : List ℚ) : greatest (l.map fun q => k * q) = (greatest l).map fun q => k * q := by
  cases l with
  | nil => rfl
  | cons x l =>
    simp only [List.map_cons, greatest, Option.map_some, Option.some.injEq]
    induction l generalizing x with
    | nil => rfl
    | cons y l ih =>
      simp only [List.map_cons, List.foldl_cons, mul_lt_mul_iff_right₀ hk]
      by_cases h : x < y
      · rw [if_pos h, if_pos h]
        exact ih y
      · rw [if_neg h, if_neg h]
        exact ih x

theorem middle_scale (k : ℚ) (s : List ℚ) : middle (s.map fun q => k * q) = (middle s).map fun q => k * q := by
  unfold middle
  rw [List.length_map]
  by_cases h : s.length % 2 = 1
  · rw [if_pos h, if_pos h, List.getElem?_map]
  · rw [if_neg h, if_neg h, List.getElem?_map, List.getElem?_map]
    cases s[s.length / 2 - 1]? with
    | none => rfl
    | some a =>
      cases s[s.length / 2]? with
      | none => rfl
      | some b =>
        simp only [Option.map_some, Option.bind_eq_bind, Option.bind_some, Option.some.injEq]
        ring

theorem sort_scale {k : ℚ} (hk : 0 < k) (l : List ℚ) :
    (l.map fun q => k * q).mergeSort (fun a b => decide (a ≤ b)) = (l.mergeSort fun a b => decide (a ≤ b)).map fun q => k * q := by
  symm
  apply List.map_mergeSort
  intro a _ b _
  simp [mul_le_mul_iff_right₀ hk]

/-- how the unit enters a reduction: with the power `2` for the variance, with the power `1` for the others -/
theorem reduce_scale {k : ℚ} (hk : 0 < k) (f : Red) (l : List ℚ) :
    reduceNumbers f (l.map fun q => k * q) = (reduceNumbers f l).map fun q => (if f = .var then k ^ 2 else k) * q := by
  cases f with
  | sum => simp [reduceNumbers, sum_scale]
  | mean =>
    simp only [reduceNumbers, List.length_map, mean_scale]
    by_cases h : l.length = 0
    · rw [if_pos h, if_pos h]
      rfl
    · rw [if_neg h, if_neg h]
      rfl
  | var =>
    simp only [reduceNumbers, List.length_map, mean_scale]
    by_cases h : l.length < 2
    · rw [if_pos h, if_pos h]
      rfl
    · rw [if_neg h, if_neg h, if_pos trivial, Option.map_some, List.map_map, ← mul_div_assoc, ← sum_scale, List.map_map]
      congr 3
      apply List.map_congr_left
      intro x _
      simp only [Function.comp]
      ring
  | min => exact least_scale hk l
  | max => exact greatest_scale hk l
  | median =>
    simp only [reduceNumbers, List.length_map, sort_scale hk, middle_scale]
    by_cases h : l.length = 0
    · rw [if_pos h, if_pos h]
      rfl
    · rw [if_neg h, if_neg h]
      rfl

theorem numbers_scale (k : ℚ) (nan : Bool) (l : List (Option ℚ)) : numbers nan (inUnit k l) = (numbers nan l).map fun s => s.map fun q => k * q := by
  unfold inUnit
  cases nan with
  | true =>
    show some _ = some _
    congr 1
    induction l with
    | nil => rfl
    | cons x l ih =>
      cases x with
      | none => simpa using ih
      | some q => simpa using ih
  | false =>
    show List.mapM id _ = (List.mapM id l).map _
    induction l with
    | nil => rfl
    | cons x l ih =>
      rw [List.map_cons, List.mapM_cons, List.mapM_cons, ih]
      cases x with
      | none => rfl
      | some q =>
        cases List.mapM id l with
        | none => rfl
        | some s => rfl

theorem span_scale {k : ℚ} (hk : 0 < k) (f : Red) (nan : Bool) (l : List (Option ℚ)) (m : Option (List Bool)) :
    spanReduce f nan (inUnit k l) m = (spanReduce f nan l m).map fun q => (if f = .var then k ^ 2 else k) * q := by
  simp only [spanReduce, arrayReduce, numbers_scale]
  cases numbers nan l with
  | none => rfl
  | some s => exact reduce_scale hk f s

/-- **C368** Sums, means, least, greatest and middle spans do not depend on the unit in which the spans are counted. -/
theorem span_unit_partial {k : ℚ} (hk : 0 < k) (f : Red) (hf : f ≠ .var) (nan : Bool) (l : List (Option ℚ)) (m : Option (List Bool)) :
    spanReduce f nan (inUnit k l) m = (spanReduce f nan l m).map fun q => k * q := by
  rw [span_scale hk, if_neg hf]

/-- **C368** exactly: variances carry the square of the unit. -/
theorem span_var_exact {k : ℚ} (hk : 0 < k) (nan : Bool) (l : List (Option ℚ)) (m : Option (List Bool)) :
    spanReduce .var nan (inUnit k l) m = (spanReduce .var nan l m).map fun q => k ^ 2 * q := by
  rw [span_scale hk, if_pos rfl]

/-- **C368** fails: the variance of 1 and 3 seconds is 2 seconds as a TimeSpan if counted in seconds, and more than 63 years counted in nanoseconds. -/
theorem span_unit_counterexample :
    spanReduce .var false [some 1, some 3] none = some 2 ∧ spanReduce .var false (inUnit (10 ^ 9) [some 1, some 3]) none = some (2 * 10 ^ 18) ∧
    (2 * 10 ^ 18 : ℚ) > 63 * 365 * 86400 * 10 ^ 9 := by
  have h1 : spanReduce .var false [some 1, some 3] none = some 2 := by
    simp [spanReduce, arrayReduce, numbers, reduceNumbers, meanOf]
    norm_num
  refine ⟨h1, ?_, by norm_num⟩
  rw [span_var_exact (by norm_num), h1, Option.map_some]
  norm_num

example : spanReduce .max false [some 5, some 1, some 3] none = some 5 ∧ (0 : ℚ) < 1000 ∧ Red.max ≠ .var := by
  refine ⟨by decide +kernel, by norm_num, by decide⟩
example : middle [1, 3, 8] = some 3 ∧ middle [1, 3, 8, 9] = some (11 / 2) := by decide +kernel
example : spanReduce .min true [some 5, none, some 3] none = some 3 ∧ spanReduce .min false [some 5, none, some 3] none = none := by decide +kernel
end Verif.SpanRed
