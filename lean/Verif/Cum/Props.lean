import Verif.Cum.Lemmas
import Mathlib.Data.Int.Order.Basic

/-!
# C19: running minimum and maximum

`inv` is the dtype's invalid (`INVALID_DICT`): the smallest value for signed
dtypes, the largest for unsigned ones, NaN (`none`) for floats.  `ret0` is the
uninitialised output buffer.
-/
namespace Verif.Cum

/-- **C19** integers, `cummin(skipna=True)`. -/
theorem cummin_int_skipna (inv : Int) (ret0 arr : List Int) (hr : ret0.length = arr.length) :
    RunningSkip (fun x => x == inv) (fun a b => a < b) arr (cumminInt inv true ret0 arr) := by
  have := kernel_skip_spec (fun x => x == inv) (fun v r : Int => decide (v < r))
    ⟨by simp, by simp only [decide_eq_true_eq]; omega⟩ ret0 arr hr
  simpa [cumminInt] using this

/-- **C19** integers, `cummax(skipna=True)`. -/
theorem cummax_int_skipna (inv : Int) (ret0 arr : List Int) (hr : ret0.length = arr.length) :
    RunningSkip (fun x => x == inv) (fun a b => a > b) arr (cummaxInt inv true ret0 arr) := by
  have := kernel_skip_spec (fun x => x == inv) (fun v r : Int => decide (v > r))
    ⟨by simp, by simp only [decide_eq_true_eq]; omega⟩ ret0 arr hr
  simpa [cummaxInt] using this

example : cumminInt (-128) true [0, 0, 0, 0, 0] [-128, 5, -128, 3, 7] = [-128, 5, 5, 3, 3] := by decide
example : cummaxInt (-128) true [0, 0, 0, 0, 0] [-128, 5, -128, 3, 7] = [-128, 5, 5, 5, 7] := by decide
example : SomeValidUpTo (fun x : Int => x == -128) [-128, 5, -128, 3, 7] 2 :=
  ⟨1, 5, by decide, rfl, rfl⟩

section Float
variable {α : Type} [LinearOrder α]

/-- numeric comparison of two non-NaN floats -/
def numLt : Option α → Option α → Prop
  | some a, some b => a < b
  | _, _ => False

theorem fltLt_iff (a b : Option α) : fltLt a b = true ↔ numLt a b := by
  cases a <;> cases b <;> simp [fltLt, numLt]

theorem strict_min : StrictOn (α := Option α) Option.isNone (fun v r => fltLt v r) :=
  ⟨fun x _ => by cases x <;> simp [fltLt], fun x y z hx hy hz => by
    cases x <;> cases y <;> cases z <;> simp [fltLt] at *
    exact lt_trans⟩

theorem strict_max : StrictOn (α := Option α) Option.isNone (fun v r => fltLt r v) :=
  ⟨fun x _ => by cases x <;> simp [fltLt], fun x y z hx hy hz => by
    cases x <;> cases y <;> cases z <;> simp [fltLt] at *
    exact fun h1 h2 => lt_trans h2 h1⟩

/-- **C19** floats, `cummin(skipna=True)`. -/
theorem cummin_float_skipna (ret0 arr : List (Option α)) (hr : ret0.length = arr.length) :
    RunningSkip Option.isNone (fun a b => numLt a b) arr (cumminFloat true ret0 arr) := by
  have := kernel_skip_spec Option.isNone (fun v r : Option α => fltLt v r) strict_min ret0 arr hr
  simpa only [cumminFloat, fltLt_iff] using this

/-- **C19** floats, `cummax(skipna=True)`. -/
theorem cummax_float_skipna (ret0 arr : List (Option α)) (hr : ret0.length = arr.length) :
    RunningSkip Option.isNone (fun a b => numLt b a) arr (cummaxFloat true ret0 arr) := by
  have := kernel_skip_spec Option.isNone (fun v r : Option α => fltLt r v) strict_max ret0 arr hr
  simpa only [cummaxFloat, fltLt_iff] using this

/-- **C19** floats, `cummin(skipna=False)`: NaN is sticky. -/
theorem cummin_float_noskip (ret0 arr : List (Option α)) (hr : ret0.length = arr.length) :
    RunningSticky Option.isNone (fun a b => numLt a b) arr (cumminFloat false ret0 arr) := by
  have := kernel_noskip_spec Option.isNone (fun v r : Option α => fltLt v r) strict_min ret0 arr hr
    (fun x _ v hv => by cases v <;> cases x <;> simp [fltLt] at *)
  simpa only [cumminFloat, fltLt_iff] using this

/-- **C19** floats, `cummax(skipna=False)`: NaN is sticky. -/
theorem cummax_float_noskip (ret0 arr : List (Option α)) (hr : ret0.length = arr.length) :
    RunningSticky Option.isNone (fun a b => numLt b a) arr (cummaxFloat false ret0 arr) := by
  have := kernel_noskip_spec Option.isNone (fun v r : Option α => fltLt r v) strict_max ret0 arr hr
    (fun x _ v hv => by cases v <;> cases x <;> simp [fltLt] at *)
  simpa only [cummaxFloat, fltLt_iff] using this

end Float

example : cumminFloat (α := Int) false [none, none, none, none] [some 4, some 2, none, some 1]
    = [some 4, some 2, none, none] := by decide

/-- **C19** signed integers, `cummin(skipna=False)`: sticky, because the invalid is the
smallest value of the dtype.
Partial: for `cummax` on signed (and `cummin` on unsigned) dtypes the claim is false,
see the counterexamples below. -/
theorem cummin_signed_noskip_partial (inv : Int) (ret0 arr : List Int)
    (hr : ret0.length = arr.length) (hmin : ∀ x ∈ arr, inv ≤ x) :
    RunningSticky (fun x => x == inv) (fun a b => a < b) arr (cumminInt inv false ret0 arr) := by
  have := kernel_noskip_spec (fun x => x == inv) (fun v r : Int => decide (v < r))
    ⟨by simp, by simp only [decide_eq_true_eq]; omega⟩ ret0 arr hr
    (fun x hx v hv => by
      have := hmin x hx
      simp at hv ⊢; omega)
  simpa [cumminInt] using this

/-- **C19** unsigned integers, `cummax(skipna=False)`: sticky (see partiality note above). -/
theorem cummax_unsigned_noskip_partial (inv : Int) (ret0 arr : List Int)
    (hr : ret0.length = arr.length) (hmax : ∀ x ∈ arr, x ≤ inv) :
    RunningSticky (fun x => x == inv) (fun a b => a > b) arr (cummaxInt inv false ret0 arr) := by
  have := kernel_noskip_spec (fun x => x == inv) (fun v r : Int => decide (v > r))
    ⟨by simp, by simp only [decide_eq_true_eq]; omega⟩ ret0 arr hr
    (fun x hx v hv => by
      have := hmax x hx
      simp at hv ⊢; omega)
  simpa [cummaxInt] using this

example : ∀ x ∈ [3, -128, (1 : Int)], -128 ≤ x := by decide
example : cumminInt (-128) false [0, 0, 0] [3, -128, 1] = [3, -128, -128] := by decide

/-- **C19** is false for `cummax(skipna=False)` on a signed dtype: after the
invalid `-128` the running maximum starts afresh instead of staying invalid. -/
theorem cummax_signed_noskip_counterexample :
    ∃ ret0 arr : List Int, ret0.length = arr.length ∧ (∀ x ∈ arr, -128 ≤ x ∧ x ≤ 127) ∧
      ¬ RunningSticky (fun x => x == -128) (fun a b => a > b) arr (cummaxInt (-128) false ret0 arr) := by
  refine ⟨[0, 0, 0], [3, -128, 1], rfl, by decide, fun h => ?_⟩
  obtain ⟨y, h1, h2⟩ := h.sticky 2 (by decide) ⟨1, -128, by decide, rfl, rfl⟩
  rw [show cummaxInt (-128) false [0, 0, 0] [3, -128, 1] = [3, -128, 1] by decide] at h1
  simp at h1; subst h1; simp at h2

/-- **C19** is false for `cummin(skipna=False)` on an unsigned dtype (invalid = 255). -/
theorem cummin_unsigned_noskip_counterexample :
    ∃ ret0 arr : List Int, ret0.length = arr.length ∧ (∀ x ∈ arr, 0 ≤ x ∧ x ≤ 255) ∧
      ¬ RunningSticky (fun x => x == 255) (fun a b => a < b) arr (cumminInt 255 false ret0 arr) := by
  refine ⟨[0, 0, 0], [3, 255, 1], rfl, by decide, fun h => ?_⟩
  obtain ⟨y, h1, h2⟩ := h.sticky 2 (by decide) ⟨1, 255, by decide, rfl, rfl⟩
  rw [show cumminInt 255 false [0, 0, 0] [3, 255, 1] = [3, 255, 1] by decide] at h1
  simp at h1; subst h1; simp at h2

end Verif.Cum
