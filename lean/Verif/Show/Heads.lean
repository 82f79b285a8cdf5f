import Verif.Show.Lines
import Mathlib.Data.List.Nodup
/-! # Several lines of headers, transposed tables, and what is shown of a Dataset (C318, C320, C321) -/
namespace Verif.Show

variable {N : Type}

theorem above_append (l r : List (N × Nat)) : above (l ++ r) = above l ++ above r := by simp [above]

theorem above_cons (h : N × Nat) (r : List (N × Nat)) : above (h :: r) = List.replicate h.2 h.1 ++ above r := by simp [above]

theorem leftHeads_exact (brk : N) (n : Nat) (l : List (N × Nat)) (done : List (N × Nat)) (idx : Nat) (hi : idx ≤ n) (hl : l ≠ [])
    (h : n ≤ idx + (above l).length) :
    ∃ X, leftHeads brk n done idx l = some X ∧ above X = above done ++ (above l).take (n - idx) ++ [brk] := by
  induction l generalizing done idx with
  | nil => exact absurd rfl hl
  | cons x r ih =>
    rw [above_cons, List.length_append, List.length_replicate] at h
    simp only [leftHeads]
    by_cases hc : idx + x.2 < n
    · rw [if_pos hc]
      have hr : r ≠ [] := by rintro rfl; simp [above] at h; omega
      obtain ⟨X, h1, h2⟩ := ih (done ++ [x]) (idx + x.2) (by omega) hr (by omega)
      refine ⟨X, h1, ?_⟩
      rw [h2, above_append, above_cons, above_cons, List.take_append]
      simp only [List.length_replicate]
      rw [List.take_of_length_le (l := List.replicate x.2 x.1) (by simp; omega), show n - (idx + x.2) = n - idx - x.2 by omega]
      simp [above]
    · rw [if_neg hc]
      refine ⟨_, rfl, ?_⟩
      rw [above_append, above_cons, above_cons x r, List.take_append_of_le_length (by simp; omega), List.take_replicate]
      by_cases he : idx + x.2 = n
      · rw [if_pos he, show min (n - idx) x.2 = x.2 by omega]; simp [above]
      · rw [if_neg he, show min (n - idx) x.2 = n - idx by omega]; simp [above]

theorem rightHeads_exact (n : Nat) (l : List (N × Nat)) (done : List (N × Nat)) (idx : Nat) (hi : idx ≤ n) (hl : l ≠ [])
    (h : n ≤ idx + (above l.reverse).length) :
    ∃ X, rightHeads n done idx l = some X ∧
      above X = (above l.reverse).drop ((above l.reverse).length - (n - idx)) ++ above done := by
  induction l generalizing done idx with
  | nil => exact absurd rfl hl
  | cons x r ih =>
    have hx : above [x] = List.replicate x.2 x.1 := by simp [above]
    rw [List.reverse_cons, above_append, hx, List.length_append, List.length_replicate] at h
    rw [List.reverse_cons, above_append, hx]
    simp only [rightHeads]
    by_cases hc : idx + x.2 < n
    · rw [if_pos hc]
      have hr : r ≠ [] := by rintro rfl; simp [above] at h; omega
      obtain ⟨X, h1, h2⟩ := ih (x :: done) (idx + x.2) (by omega) hr (by omega)
      refine ⟨X, h1, ?_⟩
      rw [h2, above_cons, List.length_append, List.length_replicate, List.drop_append_of_le_length (by omega), List.append_assoc]
      congr 2
      omega
    · rw [if_neg hc]
      refine ⟨_, rfl, ?_⟩
      rw [above_cons, List.length_append, List.length_replicate, List.drop_append, List.drop_of_length_le (by omega), List.drop_replicate]
      by_cases he : idx + x.2 > n
      · rw [if_pos he]; simp; omega
      · rw [if_neg he]; simp; omega

/-- C318: if columns are left out and some are shown on both sides, the headers above the columns shown are the ones they had, in both
lines, and there are as many below as columns -/
theorem heads_partial (brk : N) (top : List (N × Nat)) (bottom : List N) (a z : Nat) (hz : 0 < z) (hb : bottom.length = (above top).length)
    (h : a + z ≤ bottom.length) :
    ∃ (t : List (N × Nat)) (b : List N), fixHeads brk top bottom (a + 1) z = some (t, b) ∧
      above t = (above top).take a ++ brk :: (above top).drop ((above top).length - z) ∧
      b = bottom.take a ++ brk :: bottom.drop (bottom.length - z) ∧ b.length = a + 1 + z := by
  have hne : top ≠ [] := by rintro rfl; simp [above] at hb; subst hb; simp at h; omega
  obtain ⟨X, h1, h2⟩ := leftHeads_exact brk a top [] 0 (by omega) hne (by omega)
  obtain ⟨Y, h3, h4⟩ := rightHeads_exact z top.reverse [] 0 (by omega) (by simpa using hne) (by rw [List.reverse_reverse]; omega)
  rw [List.reverse_reverse] at h4
  refine ⟨X ++ Y, bottom.take a ++ brk :: bottom.drop (bottom.length - z), ?_, ?_, rfl, ?_⟩
  · unfold fixHeads
    rw [show a + 1 - 1 = a by omega, h1, h3]
    simp only [lastN, if_neg (show z ≠ 0 by omega)]
  · rw [above_append, h2, h4]; simp [above]
  · simp; omega

example : fixHeads "" [("x", 2), ("y", 3)] ["a", "b", "c", "d", "e"] 2 1 = some ([("x", 1), ("", 1), ("y", 1)], ["a", "", "e"]) := by decide +kernel

/-- C318: if no column is shown on the right, all headers come again and the table cannot be shown -/
theorem right_counterexample (brk : N) (top : List (N × Nat)) (bottom : List N) (a : Nat) (hb : bottom.length = (above top).length)
    (h : a < bottom.length) (shown : List Shown) (hs : shown.length = a + 1) :
    ∃ (t : List (N × Nat)) (b : List N), fixHeads brk top bottom (a + 1) 0 = some (t, b) ∧ ∃ e, paintHeads b shown = .error e := by
  have hne : top ≠ [] := by rintro rfl; simp [above] at hb; subst hb; simp at h
  obtain ⟨X, h1, h2⟩ := leftHeads_exact brk a top [] 0 (by omega) hne (by omega)
  obtain ⟨Y, h3, h4⟩ := rightHeads_exact 0 top.reverse [] 0 (by omega) (by simpa using hne) (by omega)
  refine ⟨X ++ Y, bottom.take a ++ brk :: bottom, ?_, _, if_neg ?_⟩
  · unfold fixHeads
    rw [show a + 1 - 1 = a by omega, h1, h3]
    simp [lastN]
  · simp; omega

/-- a console with room for only one column of a Multiset with two -/
example : (fitMax 4 20 false [exCol ['a'] 14, exCol ['b'] 14] 1 (exCol dots 3)).1.length = 1 + 1 ∧
    ["a", "b"].length = (above [("x", 2)]).length := by decide +kernel

/-! ## transposed tables -/

/-- the width counted for the first columns -/
def usedT (start : Nat) (ws : List Nat) (k : Nat) : Nat := start + ((ws.take k).map (· + 3)).sum

theorem fit_stopped (console : Nat) (ws : List Nat) (s : Nat × Nat × Bool) (hs : s.2.2 = true) :
    ws.foldl (fun (s : Nat × Nat × Bool) w =>
      if s.2.2 then s else if s.1 + (w + 3) > console then (s.1 + (w + 3), s.2.1, true) else (s.1 + (w + 3), s.2.1 + 1, false)) s = s := by
  induction ws with
  | nil => rfl
  | cons w ws ih => rw [List.foldl_cons, if_pos hs, ih]

theorem fit_loop (console : Nat) (ws : List Nat) (t k : Nat) :
    ∃ j, j ≤ ws.length ∧ (ws.foldl (fun (s : Nat × Nat × Bool) w =>
      if s.2.2 then s else if s.1 + (w + 3) > console then (s.1 + (w + 3), s.2.1, true) else (s.1 + (w + 3), s.2.1 + 1, false)) (t, k, false)).2.1 = k + j ∧
      (0 < j → usedT t ws j ≤ console) ∧ (j < ws.length → console < usedT t ws (j + 1)) := by
  induction ws generalizing t k with
  | nil => exact ⟨0, by simp, by simp, by simp, by simp⟩
  | cons w ws ih =>
    rw [List.foldl_cons, if_neg (by simp)]
    by_cases hc : t + (w + 3) > console
    · rw [if_pos hc, fit_stopped _ _ _ rfl]
      exact ⟨0, by simp, by simp, by simp, fun _ => by simpa [usedT] using hc⟩
    · rw [if_neg hc]
      obtain ⟨j, h1, h2, h3, h4⟩ := ih (t + (w + 3)) (k + 1)
      have hu : ∀ j, usedT t (w :: ws) (j + 1) = usedT (t + (w + 3)) ws j := by
        intro j; simp [usedT]; omega
      refine ⟨j + 1, by simpa using h1, by rw [h2]; omega, fun _ => ?_, fun hj => ?_⟩
      · rw [hu]
        rcases Nat.eq_zero_or_pos j with rfl | hj
        · simp [usedT]; omega
        · exact h3 hj
      · rw [hu]
        exact h4 (by simpa using hj)

/-- C320: a transposed table has one line per column, with its first `k` cells: at most 15, as many as fit; every cell has room -/
theorem transposed_exact (console start nrows : Nat) (cols : List (List Text)) :
    ∃ (k : Nat) (ws : List Nat), k ≤ min 15 nrows ∧ ws.length = min 15 nrows ∧
      transposed console start nrows cols = (cols.map (·.take k), ws.take k) ∧
      (0 < k → usedT start ws k ≤ console) ∧ (k < min 15 nrows → console < usedT start ws (k + 1)) ∧
      ∀ c ∈ cols, ∀ i t w, i < min 15 nrows → c[i]? = some t → ws[i]? = some w → t.length ≤ w := by
  unfold transposed
  dsimp only
  generalize hws : ((List.range (min 15 nrows)).map fun i => longest ((cols.map fun c => c.take (min 15 nrows)).map fun c => c.getD i [])) = ws
  have hlen : ws.length = min 15 nrows := by rw [← hws]; simp
  obtain ⟨j, h1, h2, h3, h4⟩ := fit_loop console ws start 0
  rw [Nat.zero_add] at h2
  rw [hlen] at h1
  refine ⟨j, ws, h1, hlen, ?_, h3, fun hj => h4 (by omega), ?_⟩
  · rw [h2]
    congr 1
    rw [List.map_map]
    refine List.map_congr_left fun c _ => ?_
    simp only [Function.comp, List.take_take]
    congr 1
    omega
  · intro c hc i t w hi ht hw
    rw [← hws, List.getElem?_map, List.getElem?_range hi] at hw
    cases hw
    refine (longest_loop _ 0).2 t ?_
    rw [List.mem_map]
    refine ⟨c.take (min 15 nrows), List.mem_map_of_mem hc, ?_⟩
    rw [List.getD_eq_getElem?_getD, List.getElem?_take_of_lt hi, ht]
    rfl

example : transposed 20 7 2 [[['a'], ['b', 'b']], [['1'], ['2']]] = ([[['a'], ['b', 'b']], [['1'], ['2']]], [1, 2]) := by decide +kernel

/-- C320: a sort is not heeded: the table sorted by its only column shows `a` before `b`, transposed it shows `b` before `a` -/
theorem sort_counterexample :
    columnCells (tableMask false 15 15 2 (some [1, 0])).1 (tableMask false 15 15 2 (some [1, 0])).2 false [['b'], ['a']] = [['a'], ['b']] ∧
      (transposed 100 7 2 [[['b'], ['a']]]).1 = [[['b'], ['a']]] := by decide +kernel

/-- C320: the number of rows asked for (`COL_T`, which decides the mask) is not heeded -/
theorem limit_counterexample : ∃ l, (transposed 200 7 10 [List.replicate 10 ['x']]).1 = [l] ∧ l.length = 10 ∧ 8 < l.length :=
  ⟨List.replicate 10 ['x'], by decide +kernel, by decide, by decide⟩

/-- rt_display.py 1026-1037: the numbers above a transposed table -/
def transposedHeader (ws : List Nat) : List Text := ws.zipIdx.map fun e => align (toString e.2).toList e.1 .right

/-- C320: a number of two digits above cells of one character is not above its column -/
theorem header_counterexample :
    (beside (transposedHeader (List.replicate 11 1))).length ≠ lineWidth (List.replicate 11 1) := by decide +kernel

/-- C320: with at most ten columns numbers are above their columns -/
theorem header_partial (ws : List Nat) (h : ∀ w ∈ ws, 0 < w) (hl : ws.length ≤ 10) (i w : Nat) (hw : ws[i]? = some w) :
    ∃ p, (transposedHeader ws)[i]? = some p ∧ Padded w (toString i).toList p := by
  refine ⟨align (toString i).toList w .right, by simp [transposedHeader, hw], align_padded _ _ _ ?_⟩
  obtain ⟨hi, he⟩ := List.getElem?_eq_some_iff.1 hw
  have h0 := h w (he ▸ List.getElem_mem hi)
  have : i < 10 := by omega
  have hd : ∀ i < 10, (toString i).toList.length = 1 := by decide
  rw [hd i this]
  exact h0

example : ∀ w ∈ [1, 2], 0 < w := by decide

/-! ## what is shown of a Dataset -/

/-- C321: every column is shown exactly once, if labels, sort columns and columns on the right are different columns and, without labels, none has the name of the row numbers -/
theorem names_partial (cols labels sortkeys right : List Text) (sortOn numbers : Bool) (hc : cols.Nodup)
    (hl : labels.Nodup ∧ ∀ c ∈ labels, c ∈ cols) (hs : sortOn = true → sortkeys.Nodup ∧ ∀ c ∈ sortkeys, c ∈ cols ∧ c ∉ labels ∧ c ∉ right)
    (hr : right.Nodup ∧ ∀ c ∈ right, c ∈ cols ∧ c ∉ labels) (hash : labels = [] → numbers = false → ['#'] ∉ cols) (c : Text) (h : c ∈ cols) :
    ((shownNames cols labels sortkeys right sortOn numbers).1 ++ (shownNames cols labels sortkeys right sortOn numbers).2).count c = 1 := by
  unfold shownNames
  dsimp only
  generalize hleft : (if labels.length = 0 then (if numbers = true then [] else [['#']]) else labels) = left
  generalize hsort : (if sortOn = true then sortkeys else []) = sorts
  have hs' : sorts.Nodup ∧ ∀ c ∈ sorts, c ∈ cols ∧ c ∉ labels ∧ c ∉ right := by
    cases sortOn
    · simp at hsort; subst hsort; simp
    · simp at hsort; subst hsort; exact hs rfl
  have hleft' : left.Nodup ∧ ∀ c ∈ cols, c ∈ left ↔ c ∈ labels := by
    by_cases he : labels = []
    · subst he
      cases numbers
      · simp at hleft; subst hleft
        refine ⟨by simp, fun c hc => ?_⟩
        simp only [List.mem_singleton, List.not_mem_nil, iff_false]
        rintro rfl
        exact hash rfl rfl hc
      · simp at hleft; subst hleft; simp
    · rw [if_neg (by simpa using he)] at hleft
      subst hleft
      exact ⟨hl.1, fun _ _ => Iff.rfl⟩
  have cnt : ∀ l : List Text, l.Nodup → l.count c = if c ∈ l then 1 else 0 := fun l hn => by
    by_cases hm : c ∈ l
    · rw [if_pos hm]; exact List.count_eq_one_of_mem hn hm
    · rw [if_neg hm]; exact List.count_eq_zero_of_not_mem hm
  rw [List.count_append, List.count_append, List.count_append, cnt _ hleft'.1, cnt _ hs'.1, cnt _ hr.1, cnt _ (hc.filter _)]
  have e1 := hleft'.2 c h
  have e2 := hs'.2 c
  have e3 := hr.2 c
  simp only [List.mem_filter, Bool.and_eq_true, decide_eq_true_eq]
  by_cases a1 : c ∈ left <;> by_cases a2 : c ∈ sorts <;> by_cases a3 : c ∈ right <;> simp [a1, a2, a3, h]
  · exact absurd (e1.1 a1) (e2 a2).2.1
  · exact absurd (e1.1 a1) (e2 a2).2.1
  · exact absurd (e1.1 a1) (e3 a3).2
  · exact absurd a3 (e2 a2).2.2

example : shownNames [['a'], ['b'], ['c']] [['b']] [['c']] [] true false = ([['b']], [['c'], ['a']]) := by decide +kernel

/-- C321: a column named `#` is not shown -/
theorem hash_counterexample :
    ∃ l, shownNames [['#'], ['a']] [] [] [] false false = (['#'] :: l, [['a']]) ∧ l = [] := ⟨[], by decide +kernel, rfl⟩

/-- C321: a label that is a sort column too is shown twice -/
theorem twice_counterexample :
    shownNames [['a'], ['b']] [['a']] [['a']] [] true false = ([['a']], [['a'], ['b']]) := by decide +kernel

/-- C321: footers stand below their columns, and the label of the footers below the last column on the left -/
theorem footer_places (nleft : Nat) (label : Text) (foot : Text → Option Text) (main right : List Text) :
    splitFooter (max 1 nleft) right.length (footerRow nleft label foot (main ++ right)) =
      (List.replicate (nleft - 1) [] ++ [label], main.map (fun c => (foot c).getD []), right.map fun c => (foot c).getD []) := by
  have e : footerRow nleft label foot (main ++ right) =
      (List.replicate (nleft - 1) [] ++ [label]) ++ (main.map (fun c => (foot c).getD []) ++ right.map fun c => (foot c).getD []) := by
    unfold footerRow
    split
    · rw [show nleft - 1 = 0 by omega]; simp
    · simp
  have hlen : (List.replicate (nleft - 1) ([] : Text) ++ [label]).length = max 1 nleft := by simp; omega
  rw [e]
  unfold splitFooter
  dsimp only
  rw [← hlen, List.take_left, List.drop_left]
  refine Prod.ext rfl (Prod.ext ?_ ?_)
  · dsimp only
    rw [List.length_append, List.length_map, List.length_map, Nat.add_sub_cancel]
    conv_lhs => rw [← List.length_map (f := fun c => (foot c).getD []) (as := main)]
    rw [List.take_left]
  · dsimp only
    rw [← List.append_assoc]
    rw [List.length_append, List.length_map, Nat.add_sub_cancel, List.drop_left]

end Verif.Show
