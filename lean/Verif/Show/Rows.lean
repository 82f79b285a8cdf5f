import Verif.Show.Model
/-! # Rows of a table shown (C314) -/
namespace Verif.Show

/-- the row of the data behind line `i`: with a sort the rows come in its order -/
def rowOf (sorted : Option (List Nat)) (i : Nat) : Nat :=
  match sorted with
  | none => i
  | some s => s.getD i 0

/-- the cell of a column in a line -/
def cellOf (sorted : Option (List Nat)) (data : List Text) : Option Nat → Text
  | none => dots
  | some i => data.getD (rowOf sorted i) []

theorem pick_map (data : List Text) (f : Nat → Nat) (l : List Nat) : pick data (l.map f) = l.map fun i => data.getD (f i) [] := by
  simp [pick, Function.comp_def]

theorem tail_range (n t : Nat) : (List.range t).map (n - t + ·) = List.range' (n - t) t := by
  rw [List.range'_eq_map_range]

/-- the mask and the break of a table, by what is wanted -/
theorem tableMask_eq (all : Bool) (head tail n : Nat) (sorted : Option (List Nat)) :
    tableMask all head tail n sorted =
      if all = true ∨ n ≤ head + tail then ((List.range n).map (rowOf sorted), none)
      else ((List.range head ++ List.range' (n - tail) tail).map (rowOf sorted), some head) := by
  unfold tableMask rowMask
  have hid : ∀ l : List Nat, l.map (rowOf none) = l := fun l => by
    rw [show (rowOf none) = id from rfl, List.map_id]
  have hs : ∀ s : List Nat, (fun i => s.getD i 0) = rowOf (some s) := fun s => rfl
  have hb : (if (if all = true then n else head) + (if all = true then 0 else tail) ≥ n ∨ all = true then
        (List.range n, (none : Option Nat))
      else (List.range (if all = true then n else head) ++ (List.range (if all = true then 0 else tail)).map (n - (if all = true then 0 else tail) + ·), some (if all = true then n else head))) =
      if all = true ∨ n ≤ head + tail then (List.range n, none) else (List.range head ++ List.range' (n - tail) tail, some head) := by
    cases all
    · simp [tail_range]
    · simp
  dsimp only
  rw [hb]
  cases sorted with
  | none => dsimp only; split <;> simp [hid]
  | some s => dsimp only; rw [hs]; split <;> simp

/-- C314: every column shows, line by line, the rows that are to be shown: all of them, or the first and the last with dots between -/
theorem rows_exact (all : Bool) (head tail n : Nat) (sorted : Option (List Nat)) (data : List Text) :
    columnCells (tableMask all head tail n sorted).1 (tableMask all head tail n sorted).2 false data =
      (wantedRows all head tail n).map (cellOf sorted data) := by
  rw [tableMask_eq]
  unfold wantedRows columnCells
  by_cases h : all = true ∨ n ≤ head + tail
  · simp [pick, cellOf, h]
  · simp only [if_neg h, Bool.false_eq_true, if_false, List.map_append]
    rw [List.take_append_of_le_length (by simp), List.drop_append_of_le_length (by simp), List.take_of_length_le (by simp), List.drop_of_length_le (by simp)]
    have e : (fun i => data[i]?.getD []) ∘ rowOf sorted = cellOf sorted data ∘ some := by
      funext i; simp [cellOf]
    simp [pick, e, cellOf]

/-- C314: the column on the left shows in every line the number of the row shown there (before a sort) -/
theorem numbers_exact (all : Bool) (head tail n : Nat) (sorted : Option (List Nat)) (digits : Nat → Text) :
    columnCells [] (tableMask all head tail n sorted).2 true ((tableMask all head tail n sorted).1.map digits) =
      (wantedRows all head tail n).map fun o => match o with
        | none => dots
        | some i => digits (rowOf sorted i) := by
  rw [tableMask_eq]
  unfold wantedRows columnCells
  by_cases h : all = true ∨ n ≤ head + tail
  · simp only [if_pos h, if_true, List.map_map]
    refine List.ext_getElem (by simp [pick]) ?_
    intro i h1 h2
    simp [pick] at h1
    simp [pick, h1]
  · simp only [if_neg h, if_true, List.map_map, List.map_append, List.length_append, List.length_map, List.length_range, List.length_range']
    have ht : (List.range (head + tail)).take head = List.range head := by
      rw [List.take_range]; congr 1; omega
    have hd : (List.range (head + tail)).drop head = List.range' head tail := by
      rw [List.range_eq_range', List.drop_range']; congr 1 <;> omega
    rw [ht, hd]
    simp only [pick, List.map_cons]
    congr 1
    · refine List.map_congr_left fun i hi => ?_
      simp at hi
      rw [List.getD_eq_getElem?_getD, List.getElem?_append_left (by simpa using hi)]
      simp [hi]
    · congr 1
      refine List.ext_getElem (by simp) ?_
      intro i h1 h2
      simp at h1
      simp [List.getElem_append_right, h1]

/-- the column of dots has as many lines -/
theorem break_cells (all : Bool) (head tail n : Nat) (sorted : Option (List Nat)) (nfoot : Option Nat) :
    (breakColumn (tableMask all head tail n sorted).1.length (tableMask all head tail n sorted).2 nfoot).cells =
      (wantedRows all head tail n).map fun _ => dots := by
  have := numbers_exact all head tail n sorted (fun _ => dots)
  simp only [breakColumn, buildColumn]
  rw [← List.map_const']
  rw [this]
  refine List.map_congr_left fun o _ => ?_
  cases o <;> rfl

example : wantedRows false 1 2 5 = [some 0, none, some 3, some 4] := by decide

example : columnCells (tableMask false 1 2 5 (some [4, 3, 2, 1, 0])).1 (tableMask false 1 2 5 (some [4, 3, 2, 1, 0])).2 false
    [['a'], ['b'], ['c'], ['d'], ['e']] = [['e'], dots, ['b'], ['a']] := by decide

end Verif.Show
