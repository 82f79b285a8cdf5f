import Verif.DateOps.More

/-!
# Properties: comparing dates, times and spans (C83)
-/
namespace Verif.DateOps
open Spec

/-! ## Specification -/

/-- what a comparison of two entries should be: False if one of them is invalid, except `!=`,
which is True then -/
def Spec.compare (c : Cmp) : Option Int → Option Int → Bool
  | some a, some b =>
    match c with
    | .eq => a = b
    | .ne => a ≠ b
    | .lt => a < b
    | .le => a ≤ b
    | .gt => a > b
    | .ge => a ≥ b
  | _, _ => c = .ne

/-- the comparison of the swapped operands -/
def Spec.swap : Cmp → Cmp
  | .eq => .eq
  | .ne => .ne
  | .lt => .gt
  | .le => .ge
  | .gt => .lt
  | .ge => .le

/-- the answers, entry by entry -/
def CmpPointwise {α β : Type} (f : α → β → Bool) (xs : List α) (ys : List β) (res : Except Err (List Bool)) : Prop :=
  ∃ r, res = .ok r ∧ r.length = (if xs.length = 1 then ys.length else xs.length) ∧
    ∀ (i : Nat) (x : α) (y : β), i < r.length → entry xs i = some x → entry ys i = some y → r[i]? = some (f x y)

theorem cmp_of_bcast {α β : Type} (f g : α → β → Bool) (xs : List α) (ys : List β) (hf : Fit xs ys)
    (h : ∀ x ∈ xs, ∀ y ∈ ys, g x y = f x y) : CmpPointwise f xs ys (bcast g xs ys) := by
  obtain ⟨r, h0, hl, hr⟩ := bcast_entry g hf
  refine ⟨r, h0, hl, ?_⟩
  intro i x y hi hx hy
  rw [hr i x y (by omega) hx hy, h x (entry_mem hx) y (entry_mem hy)]

theorem day_lt {x y : Int} : x * day < y * day ↔ x < y := by
  have : (0 : Int) < day := by decide
  exact Int.mul_lt_mul_right this

theorem day_le {x y : Int} : x * day ≤ y * day ↔ x ≤ y := by
  have : (0 : Int) < day := by decide
  exact Int.mul_le_mul_right this

theorem day_eq {x y : Int} : x * day = y * day ↔ x = y := ⟨day_inj, fun h => by rw [h]⟩

theorem on_compare (c : Cmp) (a b : Int) : c.on a b = Spec.compare c (some a) (some b) := by
  cases c <;> rfl

theorem on_compare_day (c : Cmp) (a b : Int) : c.on a b = Spec.compare c (some (a * day)) (some (b * day)) := by
  cases c <;> simp only [Cmp.on, Spec.compare, day_lt, day_le, day_eq, gt_iff_lt, ge_iff_le, ne_eq]

theorem compare_none_left (c : Cmp) (b : Option Int) : Spec.compare c none b = decide (c = .ne) := by cases b <;> rfl
theorem compare_none_right (c : Cmp) (a : Option Int) : Spec.compare c a none = decide (c = .ne) := by cases a <;> rfl

theorem preserve_nan (s : Int) (c : Cmp) (x : Int) (r : Bool) (h : nanOrZero s x = true) : preserveInv s c x r = decide (c = .ne) := by
  cases c <;> simp [preserveInv, h]

theorem preserve_valid (s : Int) (c : Cmp) (x : Int) (r : Bool) (h : nanOrZero s x = false) : preserveInv s c x r = r := by
  cases c <;> simp [preserveInv, h]

/-! ## Date with Date -/

/-- the entries the order of two `Date` or `DateTimeNano` entries is wrong for: the first valid,
the second invalid, and the bare numbers in the order asked for -/
def Wrong (c : Cmp) (x y : Int) : Bool :=
  match c with
  | .eq => false
  | .ne => false
  | .lt => x < y
  | .le => x < y
  | .gt => y < x
  | .ge => y < x

/-- one entry of the comparison of two Dates -/
theorem date_cell_exact (c : Cmp) (x y : Int) :
    preserveInv I32 c x (c.on x y) = Spec.compare c (rDate x) (rDate y) ↔
      ¬ (rDate x ≠ none ∧ rDate y = none ∧ Wrong c x y) := by
  cases hx : rDate x with
  | none =>
    rw [preserve_nan I32 c x _ ((date_nan_iff x).2 hx), compare_none_left]
    simp
  | some m =>
    have hx' : nanOrZero I32 x = false := by
      cases h : nanOrZero I32 x
      · rfl
      · rw [(date_nan_iff x).1 h] at hx; cases hx
    rw [preserve_valid I32 c x _ hx']
    obtain ⟨hm, hx0, hx32⟩ := rDate_some' hx
    cases hy : rDate y with
    | some n =>
      obtain ⟨hn, _, _⟩ := rDate_some' hy
      subst hm; subst hn
      rw [on_compare_day]
      simp
    | none =>
      have hxy : x ≠ y := by
        rintro rfl
        rw [hx] at hy; cases hy
      rw [compare_none_right]
      cases c <;> simp [Cmp.on, Wrong, hxy] <;> omega

/-- **C83, Dates, exactly.** A comparison of two `Date` columns answers as it should, with one
exception: a valid entry is compared with an invalid one as if the latter were the day its
marker stands for. -/
theorem date_compare_exact (c : Cmp) (xs ys : List Int) (hf : Fit xs ys) :
    CmpPointwise (fun x y => if rDate x ≠ none ∧ rDate y = none then decide (c = .ne) || Wrong c x y else Spec.compare c (rDate x) (rDate y))
      xs ys (dateCmp c xs ys) := by
  refine cmp_of_bcast _ _ xs ys hf (fun x _ y _ => ?_)
  by_cases h : rDate x ≠ none ∧ rDate y = none
  · rw [if_pos h]
    have hx' : nanOrZero I32 x = false := by
      cases hh : nanOrZero I32 x
      · rfl
      · exact absurd ((date_nan_iff x).1 hh) h.1
    rw [preserve_valid I32 c x _ hx']
    have hxy : x ≠ y := by
      rintro rfl
      exact h.1 h.2
    cases c <;> simp [Cmp.on, Wrong, hxy] <;> omega
  · rw [if_neg h]
    exact (date_cell_exact c x y).2 (fun hw => h ⟨hw.1, hw.2.1⟩)

/-- **C83, Dates.** `==` and `!=` of two `Date` columns always answer as they should; the four
orders do wherever the second entry is valid or the first is not. -/
theorem date_compare_partial (c : Cmp) (xs ys : List Int) (hf : Fit xs ys)
    (h : c = .eq ∨ c = .ne ∨ (∀ x ∈ xs, rDate x = none) ∨ ∀ y ∈ ys, rDate y ≠ none) :
    CmpPointwise (fun x y => Spec.compare c (rDate x) (rDate y)) xs ys (dateCmp c xs ys) := by
  refine cmp_of_bcast _ _ xs ys hf (fun x hx y hy => ?_)
  rw [date_cell_exact]
  rintro ⟨h1, h2, h3⟩
  rcases h with rfl | rfl | h | h
  · exact absurd h3 (by simp [Wrong])
  · exact absurd h3 (by simp [Wrong])
  · exact h1 (h x hx)
  · exact h y hy h2

/-! ## DateTimeNano with DateTimeNano -/

theorem nano_cell_exact (c : Cmp) (x y : Int) :
    preserveInv I64 c x (c.on x y) = Spec.compare c (rNano x) (rNano y) ↔
      ¬ (rNano x ≠ none ∧ rNano y = none ∧ Wrong c x y) := by
  cases hx : rNano x with
  | none =>
    rw [preserve_nan I64 c x _ ((nano_nan_iff x).2 hx), compare_none_left]
    simp
  | some m =>
    have hx' : nanOrZero I64 x = false := by
      cases h : nanOrZero I64 x
      · rfl
      · rw [(nano_nan_iff x).1 h] at hx; cases hx
    rw [preserve_valid I64 c x _ hx']
    obtain ⟨hm, _, _⟩ := rNano_some hx
    cases hy : rNano y with
    | some n =>
      obtain ⟨hn, _, _⟩ := rNano_some hy
      subst hm; subst hn
      rw [on_compare]
      simp
    | none =>
      have hxy : x ≠ y := by
        rintro rfl
        rw [hx] at hy; cases hy
      rw [compare_none_right]
      cases c <;> simp [Cmp.on, Wrong, hxy] <;> omega

/-- **C83, DateTimeNanos.** `==` and `!=` always answer as they should; the four orders do
wherever the second entry is valid or the first is not. -/
theorem nano_compare_partial (c : Cmp) (xs ys : List Int) (hf : Fit xs ys)
    (h : c = .eq ∨ c = .ne ∨ (∀ x ∈ xs, rNano x = none) ∨ ∀ y ∈ ys, rNano y ≠ none) :
    CmpPointwise (fun x y => Spec.compare c (rNano x) (rNano y)) xs ys (nanoCmp c xs ys) := by
  refine cmp_of_bcast _ _ xs ys hf (fun x hx y hy => ?_)
  rw [nano_cell_exact]
  rintro ⟨h1, h2, h3⟩
  rcases h with rfl | rfl | h | h
  · exact absurd h3 (by simp [Wrong])
  · exact absurd h3 (by simp [Wrong])
  · exact h1 (h x hx)
  · exact h y hy h2

/-! ## Spans -/

/-- **C83, TimeSpans.** All comparisons of two `TimeSpan` columns answer as they should. -/
theorem tspan_compare (c : Cmp) (ts us : List (Option Int)) (hf : Fit ts us) :
    CmpPointwise (fun t u => Spec.compare c t u) ts us (tspanCmp c ts us) := by
  refine cmp_of_bcast _ _ ts us hf (fun t _ u _ => ?_)
  cases t <;> cases u <;> simp only [floatCmp, Spec.compare]
  rw [on_compare]; rfl

/-- **C83, DateSpans.** Comparisons of two `DateSpan` columns answer as they should where both
entries are valid. -/
theorem dspan_compare_partial (c : Cmp) (xs ys : List Int) (hf : Fit xs ys) (hx : ∀ x ∈ xs, rDspan x ≠ none)
    (hy : ∀ y ∈ ys, rDspan y ≠ none) :
    CmpPointwise (fun x y => Spec.compare c (rDspan x) (rDspan y)) xs ys (dspanCmp c xs ys) := by
  refine cmp_of_bcast _ _ xs ys hf (fun x hx' y hy' => ?_)
  cases hxm : rDspan x with
  | none => exact absurd hxm (hx x hx')
  | some m =>
    cases hym : rDspan y with
    | none => exact absurd hym (hy y hy')
    | some n =>
      obtain ⟨rfl, _⟩ := rDspan_some hxm
      obtain ⟨rfl, _⟩ := rDspan_some hym
      exact on_compare_day c x y

/-- **C83, DateSpans, exactly.** An invalid `DateSpan` is compared as the number of days its
marker stands for: equal to another invalid one, less than every valid one. -/
theorem dspan_compare_exact (c : Cmp) (xs ys : List Int) (hf : Fit xs ys)
    (hx : ∀ x ∈ xs, -(2 ^ 31) ≤ x) (hy : ∀ y ∈ ys, -(2 ^ 31) ≤ y) :
    CmpPointwise (fun x y =>
      if rDspan x = none ∧ rDspan y = none then decide (c = .eq ∨ c = .le ∨ c = .ge)
      else if rDspan x = none then decide (c = .ne ∨ c = .lt ∨ c = .le)
      else if rDspan y = none then decide (c = .ne ∨ c = .gt ∨ c = .ge)
      else Spec.compare c (rDspan x) (rDspan y)) xs ys (dspanCmp c xs ys) := by
  refine cmp_of_bcast _ _ xs ys hf (fun x hx' y hy' => ?_)
  have h1 := hx x hx'
  have h2 := hy y hy'
  by_cases ex : x = -(2 ^ 31)
  · have rx : rDspan x = none := by simp [rDspan, ex]
    by_cases ey : y = -(2 ^ 31)
    · have ry : rDspan y = none := by simp [rDspan, ey]
      rw [if_pos ⟨rx, ry⟩, ex, ey]
      cases c <;> decide
    · have ry : rDspan y ≠ none := by simp only [rDspan, if_neg ey]; simp
      rw [if_neg (fun h => ry h.2), if_pos rx]
      cases c <;> simp [Cmp.on] <;> omega
  · have rx : rDspan x ≠ none := by simp only [rDspan, if_neg ex]; simp
    rw [if_neg (fun h => rx h.1), if_neg rx]
    by_cases ey : y = -(2 ^ 31)
    · have ry : rDspan y = none := by simp [rDspan, ey]
      rw [if_pos ry]
      cases c <;> simp [Cmp.on] <;> omega
    · have ry : rDspan y ≠ none := by simp only [rDspan, if_neg ey]; simp
      rw [if_neg ry]
      simp only [rDspan, if_neg ex, if_neg ey]
      exact on_compare_day c x y

/-! ## Date with DateTimeNano -/

/-- **C83, a Date and a DateTimeNano.** Where the day and the time are valid, and the midnight
the day starts with in the displayed zone is within 64 bits and not the start of 1970 itself,
the comparison is that of this midnight and the time; the two ways to write it agree. -/
theorem date_nano_compare_partial (toUtc : Int → Int) (c : Cmp) (xs ys : List Int) (hf : Fit xs ys)
    (hx : ∀ x ∈ xs, rDate x ≠ none ∧ -(2 ^ 63) ≤ x * day ∧ x * day < 2 ^ 63 ∧ rNano (toUtc (x * day)) ≠ none)
    (hy : ∀ y ∈ ys, rNano y ≠ none) :
    CmpPointwise (fun x y => Spec.compare c (some (toUtc (x * day))) (some y)) xs ys (dateNanoCmp toUtc c xs ys) ∧
    CmpPointwise (fun y x => Spec.compare (Spec.swap c) (some y) (some (toUtc (x * day)))) ys xs (nanoDateCmp toUtc (Spec.swap c) ys xs) := by
  constructor
  · refine cmp_of_bcast _ _ xs ys hf (fun x hx' y _ => ?_)
    obtain ⟨h1, h2, h3, h4⟩ := hx x hx'
    have hn : nanOrZero I32 x = false := by
      cases hh : nanOrZero I32 x
      · rfl
      · exact absurd ((date_nan_iff x).1 hh) h1
    rw [preserve_valid I32 c x _ hn, npd_day, w64_eq h2 h3]
    have hn' : nanOrZero I64 (toUtc (x * day)) = false := by
      cases hh : nanOrZero I64 (toUtc (x * day))
      · rfl
      · exact absurd ((nano_nan_iff _).1 hh) h4
    rw [preserve_valid I64 c _ _ hn', on_compare]
  · refine cmp_of_bcast _ _ ys xs (by unfold Fit at hf ⊢; omega) (fun y hy' x hx' => ?_)
    obtain ⟨h1, h2, h3, h4⟩ := hx x hx'
    have hn' : nanOrZero I64 y = false := by
      cases hh : nanOrZero I64 y
      · rfl
      · exact absurd ((nano_nan_iff _).1 hh) (hy y hy')
    rw [preserve_valid I64 _ _ _ hn', npd_day, w64_eq h2 h3, on_compare]

/-! ## Disagreements -/

/-- A valid date is later than an invalid one, but the invalid one is not earlier than it. -/
theorem date_order_counterexample :
    dateCmp .gt [18262, 18262] [0, -(2 ^ 31)] = .ok [true, true] ∧
    dateCmp .lt [0, -(2 ^ 31)] [18262, 18262] = .ok [false, false] ∧
    nanoCmp .ge [1577836800000000000] [0] = .ok [true] := by
  decide +kernel

/-- Two invalid DateSpans are equal, and an invalid one is less than −5 days. -/
theorem dspan_compare_counterexample :
    dspanCmp .eq [-(2 ^ 31)] [-(2 ^ 31)] = .ok [true] ∧ dspanCmp .lt [-(2 ^ 31)] [-5] = .ok [true] := by
  decide +kernel

example : (∀ x ∈ [18262, (0 : Int)], rDate x = none) ∨ ∀ y ∈ [18000, (3 : Int)], rDate y ≠ none := Or.inr (by decide +kernel)
example : ∀ x ∈ [(18262 : Int)], rDate x ≠ none ∧ -(2 ^ 63) ≤ x * day ∧ x * day < 2 ^ 63 ∧ rNano (id (x * day)) ≠ none := by decide +kernel
example : dateCmp .lt [18262, 0, 5] [18263, 4, 4] = .ok [true, false, false] := by decide +kernel

end Verif.DateOps
