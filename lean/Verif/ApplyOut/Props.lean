import Verif.Grp.Apply
import Verif.ApplyOut.Spec
import Verif.ApplyOut.Model
/-!
# C322: results of several values; C323: named outputs
-/
namespace Verif.ApplyOut
open Verif.Grp (pack valuesAt reverseShuffle rowsOf BinOf bins_spec bins_length starts)

variable {V R : Type}

theorem picked_eq (col : List V) (rows : List Nat) : picked col rows = valuesAt col rows := rfl
theorem rowsIn_eq (keys : List Nat) (g : Nat) : rowsIn keys g = rowsOf keys g := rfl

/-! ## The loop -/

theorem tupLoop_some (rows : Nat) (arr : List V) (f : List V → List R) {bins : List (Nat × Nat)} {xs : List (List V)}
    (hb : List.Forall₂ (BinOf arr) bins xs) : ∀ (i : Nat) (a : List (Option (List R))), i + xs.length ≤ a.length →
    tupLoop rows arr f i bins (some a) =
      some (some (a.take i ++ List.zipWith (fun x e => if x = [] then e else some (f x)) xs (a.drop i) ++ a.drop (i + xs.length))) := by
  induction hb with
  | nil => intro i a _; simp [tupLoop]
  | @cons b x bins xs hbx _ ih =>
    intro i a hl
    rw [List.length_cons] at hl
    obtain ⟨e1, e2⟩ := hbx
    have hi : i < a.length := by omega
    rw [tupLoop, Option.getD_some]
    by_cases hc : 0 < b.2
    · have hne : x ≠ [] := by rintro rfl; simp at e2; omega
      rw [if_pos hc, if_pos hi, ih _ _ (by rw [List.length_set]; omega)]
      unfold sliceOf
      rw [e1]
      congr 2
      rw [List.drop_eq_getElem_cons hi, List.zipWith_cons_cons, if_neg hne, List.length_cons]
      rw [List.take_succ_eq_append_getElem (by rw [List.length_set]; exact hi), List.getElem_set_self, List.take_set_of_le (Nat.le_refl _),
        List.drop_set_of_lt (by omega), List.drop_set_of_lt (by omega)]
      simp [Nat.add_assoc, Nat.add_comm 1]
    · have hx : x = [] := by rw [← List.length_eq_zero_iff]; omega
      rw [if_neg hc, ih _ _ (by omega)]
      congr 2
      rw [List.drop_eq_getElem_cons hi, List.zipWith_cons_cons, if_pos hx, List.length_cons, List.take_succ_eq_append_getElem hi,
        List.append_assoc, List.append_assoc, List.append_assoc, List.singleton_append, List.cons_append, Nat.add_assoc,
        Nat.add_comm 1]

theorem tupLoop_none (rows : Nat) (arr : List V) (f : List V → List R) {bins : List (Nat × Nat)} {xs : List (List V)}
    (hb : List.Forall₂ (BinOf arr) bins xs) : ∀ (i : Nat),
    tupLoop rows arr f i bins none = if xs.all (fun x => x.isEmpty) then some none else
      tupLoop rows arr f i bins (some (List.replicate rows none)) := by
  induction hb with
  | nil => intro i; simp [tupLoop]
  | @cons b x bins xs hbx _ ih =>
    intro i
    obtain ⟨e1, e2⟩ := hbx
    rw [tupLoop, tupLoop]
    by_cases hc : 0 < b.2
    · have hne : x.isEmpty = false := by cases x with | nil => simp at e2; omega | cons _ _ => rfl
      rw [if_pos hc, if_pos hc, List.all_cons, hne]
      rfl
    · have hx : x = [] := by rw [← List.length_eq_zero_iff]; omega
      rw [if_neg hc, if_neg hc, ih, hx]
      rfl

/-- a result for a group beyond the array -/
theorem tupLoop_beyond (rows : Nat) (arr : List V) (f : List V → List R) {bins : List (Nat × Nat)} {xs : List (List V)}
    (hb : List.Forall₂ (BinOf arr) bins xs) : ∀ (i : Nat) (a : List (Option (List R))) (k : Nat) (x : List V), xs[k]? = some x → x ≠ [] →
    a.length ≤ i + k → tupLoop rows arr f i bins (some a) = none := by
  induction hb with
  | nil => intro i a k x h; simp at h
  | @cons b y bins xs hbx _ ih =>
    intro i a k x h hx hl
    obtain ⟨e1, e2⟩ := hbx
    rw [tupLoop, Option.getD_some]
    cases k with
    | zero =>
      simp only [List.getElem?_cons_zero, Option.some.injEq] at h
      have hc : 0 < b.2 := by
        rw [e2, h]
        exact List.length_pos_iff.mpr hx
      rw [if_pos hc, if_neg (by omega)]
    | succ k =>
      rw [List.getElem?_cons_succ] at h
      by_cases hc : 0 < b.2
      · rw [if_pos hc]
        by_cases hi : i < a.length
        · rw [if_pos hi]
          exact ih _ _ k x h hx (by rw [List.length_set]; omega)
        · rw [if_neg hi]
      · rw [if_neg hc]
        exact ih _ _ k x h hx (by omega)

/-! ## C322 -/

/-- what the object array holds for a group -/
def entry (keys : List Nat) (f : List V → List R) (col : List V) (g : Nat) : Option (List R) :=
  if valuesAt col (rowsOf keys g) = [] then none else some (f (valuesAt col (rowsOf keys g)))

theorem loop_first (keys : List Nat) (n : Nat) (f : List V → List R) (col : List V) (hl : col.length = keys.length) :
    tupLoop (n + 1) (valuesAt col (pack keys n).iGroup) f 0 (List.zip (pack keys n).iFirst (pack keys n).nCount) none =
      if (List.range (n + 1)).all (fun g => (valuesAt col (rowsOf keys g)).isEmpty) then some none
      else some (some ((List.range (n + 1)).map (entry keys f col))) := by
  have hb := bins_spec keys n col hl
  rw [tupLoop_none _ _ _ hb, List.all_map]
  congr 1
  rw [tupLoop_some _ _ _ hb 0 _ (by simp)]
  congr 2
  rw [List.take_zero, List.nil_append, List.drop_zero, List.drop_eq_nil_of_le (by simp), List.append_nil]
  apply List.ext_getElem
  · simp
  · intro k h1 h2
    rw [List.getElem_zipWith, List.getElem_map, List.getElem_map, List.getElem_replicate]
    rfl

theorem finish_iff (a : List (Option (List R))) (m : List (List R)) :
    finish a = some m ↔ a = m.map some ∧ m ≠ [] ∧ Rectangular m := by
  have hall : ∀ (k : Nat) (l : List (Option (List R))), l.all (below k) = true ↔
      l = (l.filterMap id).map some ∧ ∀ r ∈ l.filterMap id, r.length = k := by
    intro k l
    induction l with
    | nil => simp
    | cons e l ih =>
      cases e with
      | none =>
        simp only [List.all_cons, below, Bool.false_and, Bool.false_eq_true, false_iff]
        rintro ⟨h, _⟩
        have hm : (none : Option (List R)) ∈ ((none :: l).filterMap id).map some := by rw [← h]; simp
        simp at hm
      | some r =>
        rw [List.all_cons, Bool.and_eq_true, ih, List.filterMap_cons]
        simp only [below, beq_iff_eq, id, List.map_cons, List.cons.injEq, true_and, List.mem_cons, forall_eq_or_imp]
        constructor
        · rintro ⟨h1, h2, h3⟩; exact ⟨h2, h1, h3⟩
        · rintro ⟨h2, h1, h3⟩; exact ⟨h1, h2, h3⟩
  match a with
  | [] =>
    simp only [finish]
    constructor
    · intro h; simp at h
    · rintro ⟨h, hm, _⟩
      cases m with
      | nil => exact absurd rfl hm
      | cons _ _ => simp at h
  | none :: rest =>
    simp only [finish]
    constructor
    · intro h; simp at h
    · rintro ⟨h, hm, _⟩
      cases m with
      | nil => exact absurd rfl hm
      | cons _ _ => simp at h
  | some r :: rest =>
    simp only [finish]
    constructor
    · intro h
      by_cases hc : rest.all (below r.length) = true
      · rw [if_pos hc, Option.some.injEq] at h
        subst h
        obtain ⟨h1, h2⟩ := (hall _ _).mp hc
        refine ⟨by rw [List.map_cons, ← h1], by simp, r.length, ?_⟩
        intro r' hr'
        rcases List.mem_cons.mp hr' with rfl | hr'
        · rfl
        · exact h2 _ hr'
      · rw [if_neg hc] at h; simp at h
    · rintro ⟨h, hm, k, hk⟩
      cases m with
      | nil => exact absurd rfl hm
      | cons r0 m =>
        rw [List.map_cons, List.cons.injEq, Option.some.injEq] at h
        obtain ⟨rfl, rfl⟩ := h
        have hf : (m.map some).filterMap id = m := by rw [List.filterMap_map]; simp
        rw [if_pos, hf]
        rw [hall, hf]
        refine ⟨rfl, fun r' hr' => ?_⟩
        rw [hk r' (List.mem_cons_of_mem _ hr'), hk r (by simp)]

theorem entry_some (keys : List Nat) (f : List V → List R) (col : List V) (hl : col.length = keys.length) (g : Nat) (r : List R) :
    entry keys f col g = some r ↔ rowsOf keys g ≠ [] ∧ r = f (valuesAt col (rowsOf keys g)) := by
  unfold entry
  have h := Verif.Grp.valuesAt_eq_nil col keys hl g
  by_cases hc : valuesAt col (rowsOf keys g) = []
  · rw [if_pos hc]
    simp [h.mp hc]
  · rw [if_neg hc, Option.some.injEq]
    constructor
    · intro e; exact ⟨fun hr => hc (h.mpr hr), e.symm⟩
    · intro e; exact e.2.symm

/-- the first column, with the array it leaves -/
theorem first_column (keys : List Nat) (n : Nat) (f : List V → List R) (col : List V) (hl : col.length = keys.length)
    (a : List (Option (List R))) (m : List (List R))
    (h : tupLoop (n + 1) (valuesAt col (pack keys n).iGroup) f 0 (List.zip (pack keys n).iFirst (pack keys n).nCount) none = some (some a))
    (hf : finish (a.drop 1) = some m) :
    n ≠ 0 ∧ (∀ g, g < n → rowsOf keys (g + 1) ≠ []) ∧ m = (List.range n).map (fun g => f (valuesAt col (rowsOf keys (g + 1)))) ∧
      Rectangular m ∧ a.length = n + 1 := by
  rw [loop_first keys n f col hl] at h
  by_cases hc : (List.range (n + 1)).all (fun g => (valuesAt col (rowsOf keys g)).isEmpty) = true
  · rw [if_pos hc] at h; simp at h
  · rw [if_neg hc, Option.some.injEq, Option.some.injEq] at h
    rw [finish_iff] at hf
    obtain ⟨h1, h2, h3⟩ := hf
    rw [← h, List.range_succ_eq_map, List.map_cons, List.drop_succ_cons, List.drop_zero, List.map_map] at h1
    have hlen : m.length = n := by
      have := congrArg List.length h1
      simpa using this.symm
    have hget : ∀ g (hg : g < n), entry keys f col (g + 1) = some (m[g]'(by omega)) := by
      intro g hg
      have := congrArg (fun l => l[g]?) h1
      simp only [List.getElem?_map, List.getElem?_range hg] at this
      rw [List.getElem?_eq_getElem (by omega)] at this
      simpa using this
    refine ⟨?_, ?_, ?_, h3, by rw [← h]; simp⟩
    · rintro rfl
      exact h2 (List.length_eq_zero_iff.mp hlen)
    · intro g hg
      exact ((entry_some keys f col hl _ _).mp (hget g hg)).1
    · apply List.ext_getElem
      · simp [hlen]
      · intro g g1 g2
        rw [List.getElem_map, List.getElem_range]
        exact ((entry_some keys f col hl _ _).mp (hget g (by omega))).2

/-- **C322** (exact) One column and a function that returns several values for a group: the call gives a matrix just when there is
a group, every group has rows and all results have the same number of values; then row `g` of the matrix is the function's
result for the values of group `g + 1`. -/
theorem tuple_exact (keys : List Nat) (n : Nat) (f : List V → List R) (col : List V) (hl : col.length = keys.length)
    (m : List (List R)) :
    applyTuple keys n f [col] = some [m] ↔ n ≠ 0 ∧ (∀ g, g < n → rowsIn keys (g + 1) ≠ []) ∧
      m = (List.range n).map (fun g => f (picked col (rowsIn keys (g + 1)))) ∧ Rectangular m := by
  simp only [rowsIn_eq, picked_eq]
  unfold applyTuple
  rw [tupCols]
  constructor
  · intro h
    split at h
    · rename_i a ha
      split at h
      · rename_i m' hm
        simp only [tupCols, Option.map_some, Option.some.injEq, List.cons.injEq, and_true] at h
        subst h
        obtain ⟨h1, h2, h3, h4, _⟩ := first_column keys n f col hl a m' ha hm
        exact ⟨h1, h2, h3, h4⟩
      · simp at h
    · simp at h
  · rintro ⟨h1, h2, h3, h4⟩
    rw [loop_first keys n f col hl, if_neg]
    · dsimp only
      have hfin : finish (((List.range (n + 1)).map (entry keys f col)).drop 1) = some m := by
        rw [finish_iff]
        refine ⟨?_, ?_, h4⟩
        · rw [List.range_succ_eq_map, List.map_cons, List.drop_succ_cons, List.drop_zero, List.map_map, h3, List.map_map]
          refine List.map_congr_left fun g hg => ?_
          exact (entry_some keys f col hl _ _).mpr ⟨h2 g (List.mem_range.mp hg), rfl⟩
        · rw [h3]
          intro h
          have := congrArg List.length h
          simp at this
          exact h1 this
      rw [hfin]
      simp [tupCols]
    · intro hall
      rw [List.all_eq_true] at hall
      have := hall 1 (List.mem_range.mpr (by omega))
      rw [List.isEmpty_iff, Verif.Grp.valuesAt_eq_nil col keys hl] at this
      exact h2 0 (by omega) this

/-- the hypotheses can be met: the least and the greatest value of two groups -/
example : applyTuple [2, 1, 0, 2] 2 (fun l => [l.min?.getD 0, l.max?.getD 0]) [[5, 6, 7, 8]] = some [[[6, 6], [5, 8]]] := by decide

/-- **C322** (finding) With two or more columns a function that returns several values always makes the call raise. -/
theorem tuple_columns_raises (keys : List Nat) (n : Nat) (f : List V → List R) (col col2 : List V) (cols : List (List V))
    (hl : col.length = keys.length) (hl2 : col2.length = keys.length) : applyTuple keys n f (col :: col2 :: cols) = none := by
  unfold applyTuple
  rw [tupCols]
  split
  · rename_i a ha
    split
    · rename_i m hm
      obtain ⟨h1, h2, _, _, h5⟩ := first_column keys n f col hl a m ha hm
      rw [tupCols, tupLoop_beyond _ _ _ (bins_spec keys n col2 hl2) 0 (a.drop 1) n (valuesAt col2 (rowsOf keys n)) (by simp)]
      · rfl
      · intro h
        have := h2 (n - 1) (by omega)
        rw [show n - 1 + 1 = n by omega] at this
        exact this ((Verif.Grp.valuesAt_eq_nil col2 keys hl2 n).mp h)
      · rw [List.length_drop]; omega
    · rfl
  · rfl

/-- **C322** (counterexample) A group without rows makes the call raise, although each group that has rows has a result. -/
theorem tuple_empty_group_counterexample :
    applyTuple [1, 1] 2 (fun l => [l.length, l.sum]) [[3, 4]] = none ∧ rowsIn [1, 1] 1 ≠ [] ∧
      applyTuple [1, 1] 1 (fun l => [l.length, l.sum]) [[3, 4]] = some [[[2, 7]]] := by decide

/-- **C322** (counterexample) Two columns, where each alone has a matrix. -/
theorem tuple_columns_counterexample :
    let f : List Nat → List Nat := fun l => [l.length, l.sum]
    applyTuple [1, 1] 1 f [[3, 4], [5, 6]] = none ∧ applyTuple [1, 1] 1 f [[3, 4]] = some [[[2, 7]]] ∧
      applyTuple [1, 1] 1 f [[5, 6]] = some [[[2, 11]]] := by decide

end Verif.ApplyOut
