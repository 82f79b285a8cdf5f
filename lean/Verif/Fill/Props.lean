import Verif.Basic
import Verif.Fill.Lemmas

/-!
# C17, C18: fill_forward and fill_backward
-/
namespace Verif.Fill
variable {α : Type}

/-- **C17.** `fill_forward` succeeds exactly on numeric dtypes with a
non-negative limit, and its result is the input filled forward (`FilledFrom`)
with the requested fill value (default: the invalid) and limit (default: none).
The caller's array is changed only if `inplace`. -/
theorem fill_forward_correct (k : ElemKind α) (hk : k.supported = true) (arr : List α)
    (fillVal : Option α) (inplace : Bool) (limit : Option Int) (hl : 0 ≤ limit.getD 0) :
    ∃ out, fillForward k arr fillVal inplace limit = .ok (out, if inplace then out else arr) ∧
      FilledFrom k.isInv (fillVal.getD k.inv) (limit.getD 0) arr out := by
  refine ⟨fillForwardKernel k.isInv (fillVal.getD k.inv) (limit.getD 0) arr, ?_, ?_⟩
  · have : ¬ limit.getD 0 < 0 := by omega
    simp [fillForward, checkFillValues, hk, this]
  · rw [fillForwardKernel_eq_run]; exact run_filledFrom ..

/-- **C17** (error branch): a negative limit or an unsupported dtype raises. -/
theorem fill_forward_rejects (k : ElemKind α) (arr : List α) (fillVal : Option α)
    (inplace : Bool) (limit : Option Int) (h : k.supported = false ∨ limit.getD 0 < 0) :
    ∃ e, fillForward k arr fillVal inplace limit = .error e := by
  by_cases hk : k.supported = true
  · have hl : limit.getD 0 < 0 := by simpa [hk] using h
    exact ⟨.negativeLimit, by simp [fillForward, checkFillValues, hk, hl]⟩
  · exact ⟨.unsupportedType, by simp [fillForward, checkFillValues, hk]⟩

example : fillForward (intKind (-99)) [-99, 5, -99, -99, -99, 7, -99] none false (some 2)
    = .ok ([-99, 5, 5, 5, -99, 7, 7], [-99, 5, -99, -99, -99, 7, -99]) := by decide
example : fillForward (floatKind (α := Nat)) [none, some 5, none, none] (some (some 1)) true none
    = .ok ([some 1, some 5, some 5, some 5], [some 1, some 5, some 5, some 5]) := by decide
example : LastValidBefore (fun x : Int => x == -99) [-99, 5, -99, -99] 3 1 5 :=
  ⟨by decide, rfl, rfl, fun k z h1 h2 hz => by
    have : k = 2 := by omega
    subst this; simp at hz; subst hz; rfl⟩

/-- `FilledFrom` determines its result: two arrays filled from the same input
with the same parameters are equal (so the specification is complete). -/
theorem filledFrom_unique {isInv : α → Bool} {fv : α} {limit : Int} {arr o₁ o₂ : List α}
    (h₁ : FilledFrom isInv fv limit arr o₁) (h₂ : FilledFrom isInv fv limit arr o₂) : o₁ = o₂ := by
  apply List.ext_getElem?
  intro i
  by_cases hi : i < arr.length
  · obtain ⟨x, hx⟩ : ∃ x, arr[i]? = some x := ⟨arr[i], by simp [hi]⟩
    by_cases hv : isInv x = true
    · by_cases hn : NoneValidBefore isInv arr i
      · rw [h₁.leading i x hx hv hn, h₂.leading i x hx hv hn]
      · -- there is a last valid position
        have key : ∀ n, n ≤ i → (∃ j y, LastValidBefore isInv arr n j y) ∨ NoneValidBefore isInv arr n := by
          intro n
          induction n with
          | zero => intro _; right; intro k z hk; omega
          | succ n ih =>
            intro hle
            have hn' : n < arr.length := by omega
            by_cases hvn : isInv arr[n] = true
            · rcases ih (by omega) with ⟨j, y, hj⟩ | hnone
              · left; refine ⟨j, y, by have := hj.1; omega, hj.2.1, hj.2.2.1, ?_⟩
                intro k z hk1 hk2 hz
                by_cases hkn : k = n
                · subst hkn; simp [hn'] at hz; rw [← hz]; exact hvn
                · exact hj.2.2.2 k z hk1 (by omega) hz
              · right; intro k z hk hz
                by_cases hkn : k = n
                · subst hkn; simp [hn'] at hz; rw [← hz]; exact hvn
                · exact hnone k z (by omega) hz
            · left; refine ⟨n, arr[n], by omega, by simp [hn'], by simpa using hvn, ?_⟩
              intro k z hk1 hk2; omega
        rcases key i (Nat.le_refl _) with ⟨j, y, hj⟩ | hnone
        · rw [h₁.filled i x j y hx hv hj, h₂.filled i x j y hx hv hj]
        · exact absurd hnone hn
    · have hv' : isInv x = false := by simpa using hv
      rw [h₁.valid_kept i x hx hv', h₂.valid_kept i x hx hv']
  · rw [List.getElem?_eq_none (by rw [h₁.length_eq]; omega),
      List.getElem?_eq_none (by rw [h₂.length_eq]; omega)]

/-- **C18.** `fill_backward` is `fill_forward` of the reversed array, reversed. -/
theorem fill_backward_eq_reverse_forward (k : ElemKind α) (arr : List α) (fillVal : Option α)
    (limit : Option Int) :
    (fillBackward k arr fillVal false limit).map (·.1)
      = (fillForward k arr.reverse fillVal false limit).map (fun r => r.1.reverse) := by
  unfold fillBackward fillForward
  cases h : checkFillValues k fillVal limit with
  | error e => rfl
  | ok r =>
    simp [Except.map, fillBackwardKernel_eq_run, fillForwardKernel_eq_run]

/-- **C18** (direct form): the reversed result of `fill_backward` is the reversed
input filled forward, so each invalid entry takes the nearest *following* valid
value within the limit. -/
theorem fill_backward_correct (k : ElemKind α) (hk : k.supported = true) (arr : List α)
    (fillVal : Option α) (inplace : Bool) (limit : Option Int) (hl : 0 ≤ limit.getD 0) :
    ∃ out, fillBackward k arr fillVal inplace limit = .ok (out, if inplace then out else arr) ∧
      FilledFrom k.isInv (fillVal.getD k.inv) (limit.getD 0) arr.reverse out.reverse := by
  refine ⟨fillBackwardKernel k.isInv (fillVal.getD k.inv) (limit.getD 0) arr, ?_, ?_⟩
  · have : ¬ limit.getD 0 < 0 := by omega
    simp [fillBackward, checkFillValues, hk, this]
  · rw [fillBackwardKernel_eq_run, List.reverse_reverse]; exact run_filledFrom ..

example : fillBackward (intKind (-99)) [-99, -99, -99, 5, -99] none false (some 2)
    = .ok ([-99, 5, 5, 5, -99], [-99, -99, -99, 5, -99]) := by decide

end Verif.Fill
