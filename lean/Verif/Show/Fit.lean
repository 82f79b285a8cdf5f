import Verif.Show.Rows
import Mathlib.Tactic.Linarith
import Mathlib.Data.List.TakeDrop
/-! # Columns of a table shown (C315, C319) -/
namespace Verif.Show

/-- width counted for columns -/
def counted (pad : Nat) (l : List Shown) : Nat := (l.map fun c => c.width + pad).sum

theorem counted_append (pad : Nat) (l r : List Shown) : counted pad (l ++ r) = counted pad l + counted pad r := by
  simp [counted]

theorem counted_cons (pad : Nat) (c : Shown) (r : List Shown) : counted pad (c :: r) = c.width + pad + counted pad r := by
  simp [counted]

/-- width counted with the first `a` and the last `z` columns -/
def used (pad start : Nat) (cols : List Shown) (a z : Nat) : Nat :=
  start + counted pad (cols.take a) + counted pad (cols.drop (cols.length - z))

theorem used_left {pad start : Nat} {cols : List Shown} {a z : Nat} {c : Shown} (h : cols[a]? = some c) :
    used pad start cols (a + 1) z = used pad start cols a z + (c.width + pad) := by
  have h1 : cols.take (a + 1) = cols.take a ++ [c] := by
    rw [List.take_add_one, h]; rfl
  unfold used
  rw [h1, counted_append, counted_cons]
  simp [counted]
  omega

theorem used_right {pad start : Nat} {cols : List Shown} {a z : Nat} {c : Shown} (hz : z < cols.length)
    (h : cols[cols.length - z - 1]? = some c) :
    used pad start cols a (z + 1) = used pad start cols a z + (c.width + pad) := by
  have h1 : cols.drop (cols.length - (z + 1)) = c :: cols.drop (cols.length - z) := by
    obtain ⟨h2, h3⟩ := List.getElem?_eq_some_iff.1 h
    rw [show cols.length - (z + 1) = cols.length - z - 1 by omega, List.drop_eq_getElem_cons h2, h3]
    congr 2
    omega
  unfold used
  rw [h1, counted_cons]
  omega

/-- the result of the loop, from `b` columns on both sides on -/
theorem fitLoop_exact (pad console start : Nat) (force : Bool) (cols : List Shown) (k b : Nat) (hk : cols.length - 2 * b = k) (hb : 2 * b ≤ cols.length)
    (hfit : used pad start cols b b ≤ console ∨ force = true) :
    ∃ a z : Nat, a + z ≤ cols.length ∧ (a = z ∨ a = z + 1) ∧
      fitLoop pad console force cols b (cols.length - b) (used pad start cols b b) (cols.take b) (cols.drop (cols.length - b)) =
        (cols.take a, cols.drop (cols.length - z), decide (a + z < cols.length), used pad start cols a z) ∧
      (force = true → a + z = cols.length) ∧
      (force = false → used pad start cols a z ≤ console ∧
        (a + z < cols.length → ∃ c, cols[if a = z then a else cols.length - z - 1]? = some c ∧ console < used pad start cols a z + (c.width + pad))) := by
  induction k using Nat.strongRecOn generalizing b with
  | _ k ih =>
    unfold fitLoop
    by_cases he : b < cols.length - b
    · rw [dif_pos ⟨hfit, he⟩]
      have h1 : cols[b]? = some cols[b] := List.getElem?_eq_getElem (by omega)
      have h2 : cols[cols.length - b - 1]? = some cols[cols.length - b - 1] := List.getElem?_eq_getElem (by omega)
      have ht : cols.take b ++ [cols[b]] = cols.take (b + 1) := by rw [List.take_add_one, h1]; rfl
      have hd : cols[cols.length - b - 1] :: cols.drop (cols.length - b) = cols.drop (cols.length - (b + 1)) := by
        rw [show cols.length - (b + 1) = cols.length - b - 1 by omega, List.drop_eq_getElem_cons (show cols.length - b - 1 < cols.length by omega)]
        congr 2
        omega
      rw [h1, h2]
      dsimp only
      rw [ht, ← used_left h1]
      by_cases hc : used pad start cols (b + 1) b > console ∧ force = false
      · rw [if_pos hc]
        refine ⟨b, b, by omega, .inl rfl, ?_, ?_, ?_⟩
        · rw [decide_eq_true (by omega)]
        · intro hf; rw [hf] at hc; simp at hc
        · intro hf
          refine ⟨hfit.resolve_right (by simp [hf]), fun _ => ⟨cols[b], by rw [if_pos rfl]; exact h1, ?_⟩⟩
          rw [← used_left h1]
          exact hc.1
      · rw [if_neg hc]
        have hfit1 : used pad start cols (b + 1) b ≤ console ∨ force = true := by
          cases force
          · left; simpa using hc
          · right; rfl
        by_cases he2 : b + 1 ≥ cols.length - b
        · rw [if_pos he2]
          refine ⟨b + 1, b, by omega, .inr rfl, ?_, ?_, ?_⟩
          · rw [decide_eq_false (by omega)]
          · intro; omega
          · intro hf
            exact ⟨hfit1.resolve_right (by simp [hf]), fun _ => by omega⟩
        · rw [if_neg he2, ← used_right (by omega) h2]
          by_cases hc2 : used pad start cols (b + 1) (b + 1) > console ∧ force = false
          · rw [if_pos hc2]
            refine ⟨b + 1, b, by omega, .inr rfl, ?_, ?_, ?_⟩
            · rw [decide_eq_true (by omega)]
            · intro hf; rw [hf] at hc2; simp at hc2
            · intro hf
              refine ⟨hfit1.resolve_right (by simp [hf]), fun _ => ⟨_, by rw [if_neg (by omega)]; exact h2, ?_⟩⟩
              rw [← used_right (by omega) h2]
              exact hc2.1
          · rw [if_neg hc2, hd]
            have hfit2 : used pad start cols (b + 1) (b + 1) ≤ console ∨ force = true := by
              cases force
              · left; simpa using hc2
              · right; rfl
            have := ih (cols.length - 2 * (b + 1)) (by omega) (b + 1) rfl (by omega) hfit2
            rw [show cols.length - (b + 1) = cols.length - b - 1 by omega] at this
            rw [show cols.length - (b + 1) = cols.length - b - 1 by omega]
            exact this
    · rw [dif_neg (fun h => he h.2)]
      refine ⟨b, b, by omega, .inl rfl, ?_, fun _ => by omega, fun hf => ⟨hfit.resolve_right (by simp [hf]), fun _ => by omega⟩⟩
      rw [decide_eq_false (by omega)]

/-- C315: if the columns on the left and on the right leave room (or all columns are asked for), a table shows its first `a` and its last
`z` columns, as many on both sides, or one more on the left, with a column of dots between them exactly if columns are left out; all
columns if they are asked for; otherwise what is counted is not wider than the console, and the next column would be -/
theorem columns_exact (pad console start : Nat) (force : Bool) (cols : List Shown) (brk : Shown) (h : start ≤ console ∨ force = true) :
    ∃ a z : Nat, a + z ≤ cols.length ∧ (a = z ∨ a = z + 1) ∧
      (fitMax pad console force cols start brk).1 =
        cols.take a ++ (if a + z < cols.length then [brk] else []) ++ cols.drop (cols.length - z) ∧
      (force = true → a + z = cols.length) ∧
      (force = false → start + counted pad (cols.take a) + counted pad (cols.drop (cols.length - z)) ≤ console ∧
        (a + z < cols.length → ∃ c, cols[if a = z then a else cols.length - z - 1]? = some c ∧
          console < start + counted pad (cols.take a) + counted pad (cols.drop (cols.length - z)) + (c.width + pad))) := by
  have hu : used pad start cols 0 0 = start := by simp [used, counted]
  obtain ⟨a, z, h1, h2, h3, h4, h5⟩ := fitLoop_exact pad console start force cols _ 0 rfl (by omega) (by rw [hu]; exact h)
  refine ⟨a, z, h1, h2, ?_, h4, h5⟩
  rw [hu] at h3
  simp only [List.take_zero, Nat.sub_zero, List.drop_length] at h3
  unfold fitMax
  rw [h3]
  dsimp only
  by_cases hc : a + z < cols.length <;> simp [hc]

/-- a column of one cell -/
def exCol (t : Text) (w : Nat) : Shown := { header := t, cells := [t], foot := none, just := .right, width := w }

example : (fitMax 4 20 false [exCol ['a'] 3, exCol ['b'] 3, exCol ['c'] 9, exCol ['d'] 1] 1 (exCol dots 3)).1 =
    [exCol ['a'] 3, exCol ['b'] 3, exCol dots 3, exCol ['d'] 1] := by
  simp [fitMax, fitLoop, exCol, dots]

/-- C315: if the columns on the left do not leave room, all other columns are left out without dots -/
theorem silent_counterexample :
    (fitMax 4 20 false [exCol ['a'] 1, exCol ['b'] 1] 21 (exCol dots 3)) = ([], 0, 0) := by decide +kernel

/-- C315: the column of dots is not counted, nor are the blanks between the columns on the left: with a console of 20 characters the line of a
table with one column on the left of 1 character has 24 characters -/
theorem overflow_counterexample :
    ∃ shown, fitMax 4 20 false [exCol ['a'] 14, exCol ['b'] 14] 1 (exCol dots 3) = (shown, 2, 0) ∧
      lineWidth (1 :: shown.map Shown.width) = 24 := ⟨[exCol ['a'] 14, exCol dots 3], by decide +kernel, by decide⟩

/-- C315: a table sorted by more columns than fit cannot be shown at all -/
theorem sorted_counterexample :
    ∃ (shown : List Shown), (fitMax 4 20 false [exCol ['a'] 14, exCol ['b'] 14, exCol ['c'] 14] 1 (exCol dots 3)).1 = shown ∧
      ∃ e, paintSorted 3 shown = .error e := ⟨[exCol ['a'] 14, exCol dots 3], by decide +kernel, _, rfl⟩

/-- C315: and it can be shown if at least as many columns are shown -/
theorem sorted_partial (nkeys : Nat) (shown : List Shown) (h : nkeys ≤ shown.length) : paintSorted nkeys shown = .ok () := if_pos h

theorem sum_append_le (l : List Nat) : 0 ≤ l.sum := Nat.zero_le _

/-- C315: with one column on the left, padding of at least three, and all columns shown, lines fit in the console -/
theorem width_partial (pad console : Nat) (hp : 3 ≤ pad) (l : Shown) (cols : List Shown)
    (h : l.width + counted pad cols ≤ console) : lineWidth ((l :: cols).map Shown.width) ≤ console := by
  have : ∀ cols : List Shown, (cols.map Shown.width).sum + 3 * cols.length ≤ counted pad cols := by
    intro cols
    induction cols with
    | nil => simp [counted]
    | cons c r ih => rw [counted_cons]; simp only [List.map_cons, List.sum_cons, List.length_cons]; omega
  have := this cols
  simp only [lineWidth, List.map_cons, List.sum_cons, List.length_cons, List.length_map]
  omega

example : (exCol ['a'] 1).width + counted 4 [exCol ['b'] 5, exCol ['c'] 5] ≤ 20 := by decide

/-! ## all columns -/

/-- the loop, for any state -/
theorem sets_loop (pad console offset : Nat) (cols : List Shown) (s : List (List Shown) × List Shown × Nat)
    (hs : s.2.2 = offset + counted pad s.2.1)
    (hw : ∀ l ∈ s.1 ++ [s.2.1], l.length ≤ 1 ∨ offset + counted pad l ≤ console) (hne : ∀ l ∈ s.1.tail ++ (if s.1 = [] then [] else [s.2.1]), l ≠ []) :
    let r := cols.foldl (fun (s : List (List Shown) × List Shown × Nat) c =>
      if s.2.2 + (c.width + pad) > console then (s.1 ++ [s.2.1], [c], offset + (c.width + pad))
      else (s.1, s.2.1 ++ [c], s.2.2 + (c.width + pad))) s
    (r.1 ++ [r.2.1]).flatten = (s.1 ++ [s.2.1]).flatten ++ cols ∧
      (∀ l ∈ r.1 ++ [r.2.1], l.length ≤ 1 ∨ offset + counted pad l ≤ console) ∧
      ∀ l ∈ (r.1 ++ [r.2.1]).tail, l ≠ [] := by
  induction cols generalizing s with
  | nil =>
    refine ⟨by simp, hw, ?_⟩
    obtain ⟨s1, s2, s3⟩ := s
    cases s1 with
    | nil => simp
    | cons x xs => simpa using hne
  | cons c cols ih =>
    rw [List.foldl_cons]
    by_cases hc : s.2.2 + (c.width + pad) > console
    · rw [if_pos hc]
      have := ih (s.1 ++ [s.2.1], [c], offset + (c.width + pad)) (by simp [counted]) ?_ ?_
      · refine ⟨this.1.trans (by simp), this.2⟩
      · intro l hl
        rw [List.mem_append] at hl
        rcases hl with hl | hl
        · exact hw l hl
        · simp only [List.mem_singleton] at hl; subst hl; left; simp
      · intro l hl
        have he : s.1 ++ [s.2.1] ≠ [] := by simp
        rw [if_neg he] at hl
        rw [List.mem_append] at hl
        rcases hl with hl | hl
        · obtain ⟨s1, s2, s3⟩ := s
          cases s1 with
          | nil => simp at hl
          | cons x xs => exact hne l (by simpa using hl)
        · simp only [List.mem_singleton] at hl; subst hl; simp
    · rw [if_neg hc]
      have := ih (s.1, s.2.1 ++ [c], s.2.2 + (c.width + pad)) ?_ ?_ ?_
      · refine ⟨this.1.trans (by simp), this.2⟩
      · rw [counted_append, hs, counted_cons]; simp [counted]; omega
      · intro l hl
        rw [List.mem_append] at hl
        rcases hl with hl | hl
        · exact hw l (by simp [hl])
        · simp only [List.mem_singleton] at hl; subst hl; right
          rw [counted_append, counted_cons]; simp [counted] at hs ⊢; omega
      · intro l hl
        rw [List.mem_append] at hl
        rcases hl with hl | hl
        · exact hne l (by simp [hl])
        · split at hl
          · simp at hl
          · simp only [List.mem_singleton] at hl; subst hl; simp

/-- C319: if all columns are asked for, the tables below each other show every column once, in order; none has nothing to show but perhaps
the first, and what is counted for a table of several columns is not wider than the console -/
theorem sets_exact (pad console offset : Nat) (cols : List Shown) :
    (columnSets pad console offset cols).flatten = cols ∧
      (∀ l ∈ columnSets pad console offset cols, l.length ≤ 1 ∨ offset + counted pad l ≤ console) ∧
      ∀ l ∈ (columnSets pad console offset cols).tail, l ≠ [] := by
  have := sets_loop pad console offset cols ([], [], offset) (by simp [counted]) (by simp) (by simp)
  simpa [columnSets] using this

example : columnSets 4 20 1 [exCol ['a'] 5, exCol ['b'] 5, exCol ['c'] 5] = [[exCol ['a'] 5, exCol ['b'] 5], [exCol ['c'] 5]] := by decide +kernel

/-- C319: a first column that is too wide leaves a first table without columns, and a sort of the table makes showing it fail -/
theorem first_counterexample :
    columnSets 4 20 1 [exCol ['a'] 25, exCol ['b'] 5] = [[], [exCol ['a'] 25], [exCol ['b'] 5]] ∧ ∃ e, paintSorted 1 [] = .error e :=
  ⟨by decide +kernel, _, rfl⟩

end Verif.Show
