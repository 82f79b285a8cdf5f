import Verif.DsOps.Model

/-!
# Loops over rows
-/

namespace Verif.DsOps

variable {V : Type}

theorem iterrows_heap (cols : List (String × List V)) (k : Nat) :
    ∃ r, (iterrows cols k).heap = [r] ∧ (∀ m, k = m + 1 → r = row cols m) := by
  induction k with
  | zero => exact ⟨[], rfl, fun m hm => by omega⟩
  | succ k ih =>
    rcases ih with ⟨r, hr, _⟩
    refine ⟨row cols k, ?_, fun m hm => by cases hm; rfl⟩
    simp only [iterrows, hr, List.set_cons_zero]
    rfl

theorem iterrows_given (cols : List (String × List V)) (k : Nat) : (iterrows cols k).given = List.replicate k 0 := by
  induction k with
  | zero => rfl
  | succ k ih => simp only [iterrows, ih, List.replicate_succ']

/-- Part of: the rows of `iterrows` are the rows of the Dataset. Proved for the row just given. -/
theorem iterrows_partial (cols : List (String × List V)) (k : Nat) : seen (iterrows cols (k + 1)) k = some (row cols k) := by
  rcases iterrows_heap cols (k + 1) with ⟨r, hr, h⟩
  simp only [seen, iterrows_given, hr]
  rw [List.getElem?_replicate]
  simp [h k rfl]

/-- What every row given so far shows: the latest row. -/
theorem iterrows_exact (cols : List (String × List V)) (k j : Nat) (hj : j ≤ k) : seen (iterrows cols (k + 1)) j = some (row cols k) := by
  rcases iterrows_heap cols (k + 1) with ⟨r, hr, h⟩
  simp only [seen, iterrows_given, hr]
  rw [List.getElem?_replicate, if_pos (by omega)]
  simp [h k rfl]

example : seen (iterrows [("a", [1, 2, 3]), ("b", [4, 5, 6])] 2) 1 = some [2, 5] := by decide +kernel

/-- The code violates it: a list of the rows of `iterrows` shows the last row throughout. -/
theorem iterrows_counterexample :
    seen (iterrows [("a", [1, 2, 3]), ("b", [4, 5, 6])] 3) 0 = some [3, 6] ∧ row [("a", [1, 2, 3]), ("b", [4, 5, 6])] 0 = [1, 4] := by
  decide +kernel

theorem asrows_heap (cols : List (String × List V)) (k : Nat) :
    (asrows cols k).heap = (List.range k).map (row cols) ∧ (asrows cols k).given = List.range k := by
  induction k with
  | zero => exact ⟨rfl, rfl⟩
  | succ k ih =>
    simp only [asrows, ih.1, ih.2, List.range_succ, List.map_append, List.length_map, List.length_range, List.map_cons, List.map_nil, and_true]
    rfl

/-- Every row given by `asrows` is the row of the Dataset, then and later. -/
theorem asrows_correct (cols : List (String × List V)) (k j : Nat) (hj : j < k) : seen (asrows cols k) j = some (row cols j) := by
  simp only [seen, (asrows_heap cols k).1, (asrows_heap cols k).2]
  rw [List.getElem?_range hj]
  simp [hj]

example : seen (asrows [("a", [1, 2, 3]), ("b", [4, 5, 6])] 3) 0 = some [1, 4] := by decide +kernel

/-- A row has one value of every column, if the row is there. -/
theorem row_cells (cols : List (String × List V)) (n i : Nat) (he : ∀ c ∈ cols, c.2.length = n) (hi : i < n) :
    (row cols i).length = cols.length ∧ ∀ (j : Nat) (c : String × List V), cols[j]? = some c → (row cols i)[j]? = c.2[i]? := by
  induction cols with
  | nil => exact ⟨rfl, fun j c h => by simp at h⟩
  | cons c cs ih =>
    have hc : c.2.length = n := he c List.mem_cons_self
    have hg : c.2[i]? = some (c.2[i]'(by omega)) := List.getElem?_eq_getElem (by omega)
    have hrow : row (c :: cs) i = c.2[i]'(by omega) :: row cs i := by simp [row, List.filterMap_cons, hg]
    have ih' := ih fun c hc => he c (List.mem_cons_of_mem _ hc)
    rw [hrow]
    refine ⟨by simp [ih'.1], fun j c' h => ?_⟩
    cases j with
    | zero => simp only [List.getElem?_cons_zero, Option.some.injEq] at h; subst h; simp [hg]
    | succ j => simpa using ih'.2 j c' (by simpa using h)

/-! ### gbrows -/

theorem tile_length (n k : Nat) : (tile n k).length = k * n := by
  induction k with
  | zero => simp [tile]
  | succ k ih => simp [tile, ih, Nat.succ_mul]; omega

theorem pick_range (xs : List V) (a r : Nat) :
    ((xs.zip (List.range' a xs.length)).filterMap fun (p : V × Nat) => if p.2 = r then some p.1 else none) =
      (if a ≤ r then xs[r - a]? else none).toList := by
  induction xs generalizing a with
  | nil => cases h : decide (a ≤ r) <;> simp
  | cons x xs ih =>
    simp only [List.length_cons, List.range'_succ, List.zip_cons_cons, List.filterMap_cons]
    by_cases h : a = r
    · subst h
      rw [if_pos rfl, ih, if_neg (by omega)]
      simp
    · rw [if_neg h, ih]
      by_cases h2 : a ≤ r
      · rw [if_pos h2, if_pos (by omega)]
        have : r - a = (r - (a + 1)) + 1 := by omega
        rw [this, List.getElem?_cons_succ]
      · rw [if_neg h2, if_neg (by omega)]

/-- `gbrows` collects in group `r` exactly the values of row `r`, in the order of the columns. -/
theorem gbrows_correct (n : Nat) (cols : List (String × List V)) (he : ∀ c ∈ cols, c.2.length = n) (r : Nat) :
    gbrows n cols r = row cols r := by
  induction cols with
  | nil => rfl
  | cons c cs ih =>
    have hc : c.2.length = n := he c List.mem_cons_self
    have ih' := ih fun c hc => he c (List.mem_cons_of_mem _ hc)
    unfold gbrows at ih' ⊢
    simp only [List.flatMap_cons, List.length_cons, tile]
    rw [List.zip_append (by simp [hc]), List.filterMap_append, ih']
    have := pick_range c.2 0 r
    rw [hc, ← List.range_eq_range'] at this
    rw [this]
    simp only [Nat.zero_le, if_true, Nat.sub_zero, row, List.filterMap_cons]
    cases c.2[r]? <;> rfl

example : gbrows 3 [("a", [1, 2, 3]), ("b", [4, 5, 6])] 1 = [2, 5] := by decide +kernel

end Verif.DsOps
