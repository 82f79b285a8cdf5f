import Verif.Asof.Nearest

/-!
# C09: which unsorted inputs are rejected

Full claim: an input with an unsorted `on` column on either side is rejected.  It is false:
see the counterexamples.  `asof_backward_ok_iff` and `asof_forward_ok_iff` say exactly which
inputs are accepted.
-/
namespace Verif.Asof
section
variable {α : Type} [LinearOrder α]

theorem checkFlags_ok_iff (s : St α) (o : List (Option Nat)) :
    (∃ out, checkFlags s.hbad.isSome s.nbad.isSome o = .ok out) ↔ s.clean := by
  unfold checkFlags St.clean
  cases s.hbad <;> cases s.nbad <;> simp

/-- Which inputs a backward merge of two nonempty sides accepts: the left column must be
ascending, but of the right column only the leading rows at or before the last left key
are checked (and the first row). -/
theorem asof_backward_ok_iff [Sub α] (b : Bounds α) (tol : Option α) (exact : Bool)
    (left right : List (Option α)) (hl : left ≠ []) (hr : right ≠ []) :
    (∃ out, asofIndices b tol exact .backward left right = .ok out) ↔
      Ascending b.loN left ∧ Ascending b.loH (right.take 1) ∧
        ∀ v, (∀ o ∈ right.take v, ∃ y x, o = some y ∧ left.getLast? = some (some x) ∧ Before exact y x) →
          Ascending b.loH (right.take v) := by
  have hl' : 0 < left.length := List.length_pos_iff.mpr hl
  have hr' : 0 < right.length := List.length_pos_iff.mpr hr
  unfold asofIndices
  simp only
  rw [checkFlags_ok_iff, bwdKernel_clean_iff _ _ _ hr' hl', AscV]
  rw [flat_N, flat_H]
  show AscF b.loN _ left.length ∧ AscF b.loH _ 1 ∧ (∀ v, v ≤ right.length → _ → _) ↔ _
  rw [ascF_flat _ _ _ le_rfl, ascF_flat _ _ _ (show 1 ≤ right.length by omega), List.take_length]
  refine and_congr_right fun _ => and_congr_right fun _ => ?_
  have hlast : left.getLast? = left[left.length - 1]? := List.getLast?_eq_getElem?
  constructor
  · intro h v hv
    have key : ∀ v, v ≤ right.length →
        (∀ o ∈ right.take v, ∃ y x, o = some y ∧ left.getLast? = some (some x) ∧ Before exact y x) →
        Ascending b.loH (right.take v) := by
      intro v hv hall
      rw [← ascF_flat _ _ _ hv]
      refine h v hv fun t ht => ?_
      obtain ⟨y, x, e1, e2, e3⟩ := hall (right[t]'(by omega)) (by
        rw [List.mem_iff_getElem?]
        exact ⟨t, by rw [List.getElem?_take, if_pos ht, List.getElem?_eq_getElem]⟩)
      rw [hlast] at e2
      show lessThan exact (right.getD t none) (left.getD (left.length - 1) none) = true
      rw [List.getD_eq_getElem?_getD, List.getD_eq_getElem?_getD, e2,
        List.getElem?_eq_getElem (by omega), e1]
      exact (lessThan_some _ _ _).mpr e3
    rcases Nat.le_total v right.length with hle | hle
    · exact key v hle hv
    · rw [List.take_of_length_le hle] at hv ⊢
      have := key right.length le_rfl
      rw [List.take_length] at this
      exact this hv
  · intro h v hv hall
    rw [ascF_flat _ _ _ hv]
    refine h v fun o ho => ?_
    obtain ⟨t, ht⟩ := List.mem_iff_getElem?.mp ho
    have htv : t < v := by
      have := (List.getElem?_eq_some_iff.mp ht).1
      simp at this; omega
    have h3 : lessThan exact (right.getD t none) (left.getD (left.length - 1) none) = true := hall t htv
    rw [List.getElem?_take, if_pos htv] at ht
    rw [List.getD_eq_getElem?_getD, List.getD_eq_getElem?_getD, ht, ← hlast,
      List.getLast?_eq_some_getLast hl] at h3
    simp only [Option.getD_some] at h3
    rw [List.getLast?_eq_some_getLast hl]
    cases o with
    | none => cases exact <;> simp [lessThan, kle, klt] at h3
    | some y =>
      cases hx : left.getLast hl with
      | none => rw [hx] at h3; cases exact <;> simp [lessThan, kle, klt] at h3
      | some x =>
        rw [hx] at h3
        exact ⟨y, x, rfl, rfl, (lessThan_some _ _ _).mp h3⟩

theorem ascTo_drop (hi : α) (l : List (Option α)) (v : Nat) :
    ((∀ t, v ≤ t → t < l.length → kle (l.getD t none) (some hi) = true) ∧
      ∀ t t', v ≤ t → t ≤ t' → t' < l.length → kle (l.getD t none) (l.getD t' none) = true) ↔
    AscendingTo hi (l.drop v) := by
  rw [← ascTo_flat]
  have hg : ∀ t, (l.drop v).getD t none = l.getD (v + t) none := by
    intro t
    rw [List.getD_eq_getElem?_getD, List.getD_eq_getElem?_getD, List.getElem?_drop]
  unfold AscTo
  simp only [hg, List.length_drop]
  constructor
  · rintro ⟨h1, h2⟩
    exact ⟨fun t ht => h1 _ (by omega) (by omega), fun t t' a b => h2 _ _ (by omega) (by omega) (by omega)⟩
  · rintro ⟨h1, h2⟩
    refine ⟨fun t a b => ?_, fun t t' a b c => ?_⟩
    · have := h1 (t - v) (by omega)
      rwa [show v + (t - v) = t by omega] at this
    · have := h2 (t - v) (t' - v) (by omega) (by omega)
      rwa [show v + (t - v) = t by omega, show v + (t' - v) = t' by omega] at this

/-- Which inputs a forward merge of two nonempty sides accepts: the left column must be
ascending, but of the right column only the trailing rows at or after the first left key
are checked (and the last row). -/
theorem asof_forward_ok_iff [Sub α] (b : Bounds α) (tol : Option α) (exact : Bool)
    (left right : List (Option α)) (hl : left ≠ []) (hr : right ≠ []) :
    (∃ out, asofIndices b tol exact .forward left right = .ok out) ↔
      AscendingTo b.hiN left ∧ (∃ y, right.getLast? = some (some y) ∧ y ≤ b.hiH) ∧
        ∀ v, (∀ o ∈ right.drop v, ∃ y x, o = some y ∧ left.head? = some (some x) ∧ Before exact x y) →
          AscendingTo b.hiH (right.drop v) := by
  have hl' : 0 < left.length := List.length_pos_iff.mpr hl
  have hr' : 0 < right.length := List.length_pos_iff.mpr hr
  unfold asofIndices
  simp only
  rw [checkFlags_ok_iff, fwdKernel_clean_iff _ _ _ hr' hl', AscVTo]
  rw [flat_N, flat_H]
  show AscTo b.hiN _ left.length ∧ kle (right.getD (right.length - 1) none) _ = true ∧
    (∀ v, v ≤ right.length → (∀ t, v ≤ t → t < right.length →
      greaterThan exact (right.getD t none) (left.getD 0 none) = true) → _ ∧ _) ↔ _
  rw [ascTo_flat]
  refine and_congr_right fun _ => and_congr ?_ ?_
  · have hlast : right.getD (right.length - 1) none = right.getLast?.getD none := by
      rw [List.getLast?_eq_getElem?, List.getD_eq_getElem?_getD]
    rw [hlast, List.getLast?_eq_some_getLast hr]
    cases right.getLast hr <;> simp [kle]
  · have hhead : left.head? = left[0]? := List.head?_eq_getElem?
    constructor
    · intro h v hall
      rcases Nat.le_total v right.length with hle | hle
      · rw [← ascTo_drop]
        refine h v hle fun t a c => ?_
        obtain ⟨y, x, e1, e2, e3⟩ := hall (right[t]'c) (by
          rw [List.mem_iff_getElem?]
          exact ⟨t - v, by rw [List.getElem?_drop, show v + (t - v) = t by omega, List.getElem?_eq_getElem]⟩)
        rw [List.getD_eq_getElem?_getD, List.getD_eq_getElem?_getD, ← hhead, e2,
          List.getElem?_eq_getElem c, e1]
        exact (greaterThan_some _ _ _).mpr e3
      · rw [List.drop_eq_nil_of_le hle]
        exact ⟨[], rfl, by simp, by simp⟩
    · intro h v hv hall
      have := (ascTo_drop b.hiH right v).mpr (h v fun o ho => ?_)
      · exact this
      · obtain ⟨t, ht⟩ := List.mem_iff_getElem?.mp ho
        rw [List.getElem?_drop] at ht
        have h3 := hall (v + t) (by omega) (List.getElem?_eq_some_iff.mp ht).1
        rw [List.getD_eq_getElem?_getD, List.getD_eq_getElem?_getD, ht, ← hhead,
          List.head?_eq_some_head hl] at h3
        simp only [Option.getD_some] at h3
        rw [List.head?_eq_some_head hl]
        cases o with
        | none => cases exact <;> simp [greaterThan, kle, klt] at h3
        | some y =>
          cases hx : left.head hl with
          | none => rw [hx] at h3; cases exact <;> simp [greaterThan, kle, klt] at h3
          | some x =>
            rw [hx] at h3
            exact ⟨y, x, rfl, rfl, (greaterThan_some _ _ _).mp h3⟩

theorem ok_or_error {β γ : Type} (e : Except β γ) : (∃ o, e = .ok o) ∨ ∃ m, e = .error m := by
  cases e <;> simp

/-- C09, left side: with a nonempty right side, a left column that is not ascending (or
holds an invalid key) is always rejected. -/
theorem asof_rejects_unsorted_left_partial [Sub α] (b : Bounds α) (tol : Option α) (exact : Bool) (dir : Dir)
    (left right : List (Option α)) (hr : right ≠ [])
    (h : ¬ Ascending b.loN left ∧ dir ≠ .forward ∨ ¬ AscendingTo b.hiN left ∧ dir ≠ .backward) :
    ∃ m, asofIndices b tol exact dir left right = .error m := by
  have hl : left ≠ [] := by
    rintro rfl
    rcases h with ⟨h, _⟩ | ⟨h, _⟩
    · exact h ⟨[], rfl, by simp, by simp⟩
    · exact h ⟨[], rfl, by simp, by simp⟩
  have hb := asof_backward_ok_iff b tol exact left right hl hr
  have hf := asof_forward_ok_iff b tol exact left right hl hr
  have hd : dir = .nearest → (∃ o, asofIndices b tol exact dir left right = .ok o) →
      (∃ o, asofIndices b tol exact .backward left right = .ok o) ∧
      (∃ o, asofIndices b tol exact .forward left right = .ok o) := by
    clear hb hf h
    rintro rfl ⟨o, ho⟩
    simp only [asofIndices] at ho ⊢
    rw [checkFlags_ok_iff, checkFlags_ok_iff]
    unfold checkFlags at ho
    unfold St.clean
    generalize bwdKernel (flatRun exact (tolBwd tol) left right) b.loN b.loH = kb at *
    generalize fwdKernel (flatRun exact (tolFwd tol) left right) b.hiN b.hiH = kf at *
    cases h1 : kb.hbad <;> cases h2 : kb.nbad <;> cases h3 : kf.hbad <;> cases h4 : kf.nbad <;> simp_all
  rcases ok_or_error (asofIndices b tol exact dir left right) with ho | he
  · exfalso
    cases dir with
    | backward => exact (h.resolve_right (by simp)).1 (hb.mp ho).1
    | forward => exact (h.resolve_left (by simp)).1 (hf.mp ho).1
    | nearest =>
      obtain ⟨o1, o2⟩ := hd rfl ho
      rcases h with ⟨h, _⟩ | ⟨h, _⟩
      · exact h (hb.mp o1).1
      · exact h (hf.mp o2).1
  · exact he

/-- C09, right side: an unsorted right column is rejected if all its keys are at or before
the last left key (backward) ... -/
theorem asof_backward_rejects_unsorted_right_partial [Sub α] (b : Bounds α) (tol : Option α) (exact : Bool)
    (left : List (Option α)) (right : List α) (x : α) (hx : left.getLast? = some (some x))
    (hall : ∀ y ∈ right, Before exact y x) (hns : ¬ right.Pairwise (· ≤ ·)) :
    ∃ m, asofIndices b tol exact .backward left (right.map some) = .error m := by
  have hr : right.map some ≠ [] := by rintro h; apply hns; simp at h; simp [h]
  have hl : left ≠ [] := by rintro rfl; simp at hx
  rcases ok_or_error (asofIndices b tol exact .backward left (right.map some)) with ho | he
  · exfalso
    have := ((asof_backward_ok_iff b tol exact left _ hl hr).mp ho).2.2 right.length (by
      intro o ho
      have := List.mem_of_mem_take ho
      obtain ⟨y, hy, rfl⟩ := List.mem_map.mp this
      exact ⟨y, x, rfl, hx, hall y hy⟩)
    rw [List.take_of_length_le (by simp)] at this
    obtain ⟨v, hv, hp, _⟩ := this
    rw [List.map_inj_right (by simp)] at hv
    exact hns (hv ▸ hp)
  · exact he

/-- ... or at or after the first left key (forward). -/
theorem asof_forward_rejects_unsorted_right_partial [Sub α] (b : Bounds α) (tol : Option α) (exact : Bool)
    (left : List (Option α)) (right : List α) (x : α) (hx : left.head? = some (some x))
    (hall : ∀ y ∈ right, Before exact x y) (hns : ¬ right.Pairwise (· ≤ ·)) :
    ∃ m, asofIndices b tol exact .forward left (right.map some) = .error m := by
  have hr : right.map some ≠ [] := by rintro h; apply hns; simp at h; simp [h]
  have hl : left ≠ [] := by rintro rfl; simp at hx
  rcases ok_or_error (asofIndices b tol exact .forward left (right.map some)) with ho | he
  · exfalso
    have := ((asof_forward_ok_iff b tol exact left _ hl hr).mp ho).2.2 0 (by
      intro o ho
      obtain ⟨y, hy, rfl⟩ := List.mem_map.mp (List.mem_of_mem_drop ho)
      exact ⟨y, x, rfl, hx, hall y hy⟩)
    rw [List.drop_zero] at this
    obtain ⟨v, hv, hp, _⟩ := this
    rw [List.map_inj_right (by simp)] at hv
    exact hns (hv ▸ hp)
  · exact he

example : ∃ m, asofIndices ⟨-100, -100, 100, 100⟩ (none : Option Int) true .backward
    ([5, 20].map some) ([1, 10, 2].map some) = .error m :=
  asof_backward_rejects_unsorted_right_partial _ _ _ _ [1, 10, 2] 20 rfl (by simp [Before]) (by decide)
example : ∃ m, asofIndices ⟨-100, -100, 100, 100⟩ (none : Option Int) true .nearest
    ([5, 3].map some) ([1, 10].map some) = .error m :=
  ⟨"ValueError: left not sorted", by decide⟩

/-- C09 is false: an unsorted right column is accepted, and the answer is not the last right
row at or before the left key (row 2, key 2, is). -/
theorem asof_unsorted_right_accepted_counterexample :
    ¬ ([1, 10, 2] : List Int).Pairwise (· ≤ ·) ∧
    asofIndices ⟨-100, -100, 100, 100⟩ (none : Option Int) true .backward
      ([5].map some) ([1, 10, 2].map some) = .ok [some 0] ∧
    ¬ IsBackward true (none : Option Int) (fun j y => ([1, 10, 2] : List Int)[j]? = some y) 5 (some 0) := by
  refine ⟨by decide, by decide, fun h => ?_⟩
  obtain ⟨y, _, _, _, h4⟩ := (h 0).mp rfl
  have := h4 2 2 rfl (by simp [Before])
  omega

/-- C09 is false: with an empty right side an unsorted left column is accepted. -/
theorem asof_unsorted_left_accepted_counterexample :
    asofIndices ⟨-100, -100, 100, 100⟩ (none : Option Int) true .backward ([5, 3].map some) [] =
      .ok [none, none] := by decide

/-- The converse fails as well: a sorted column that starts below `get_min_valid` is
rejected.  For floats `get_min_valid` is the smallest *finite* value
(`numba/invalid_values.py:282-289`), so a column starting with `-inf` is rejected as
unsorted. -/
theorem asof_rejects_below_min_valid [Sub α] (b : Bounds α) (tol : Option α) (exact : Bool)
    (x : α) (left : List (Option α)) (right : List (Option α)) (hr : right ≠ []) (hx : x < b.loN) :
    ∃ m, asofIndices b tol exact .backward (some x :: left) right = .error m := by
  refine asof_rejects_unsorted_left_partial b tol exact .backward _ _ hr (Or.inl ⟨?_, by simp⟩)
  rintro ⟨v, hv, _, hb⟩
  cases v with
  | nil => simp at hv
  | cons y v =>
    simp only [List.map_cons, List.cons.injEq, Option.some.injEq] at hv
    have := hb y (by simp)
    rw [← hv.1] at this
    exact absurd hx (not_lt.mpr this)

end
end Verif.Asof
