import Verif.GbNumba.Lemmas
import Mathlib.Algebra.BigOperators.Group.List.Basic
import Mathlib.Algebra.Order.Group.Int

/-! # C20, C21: numba group-by -/
namespace Verif.GbNumba
open Verif.Par
variable {α β : Type}

/-- **C20**, work split: with at least one core every group belongs to exactly one
core's range, no range leaves `0 … rows`, and the ranges' sizes differ by at most one. -/
theorem core_split_correct (cores rows : Nat) (h : 0 < cores) (bl bh : List Nat) (hl : bl.length = cores) (hh : bh.length = cores) :
    (buildCoreList cores rows bl bh).1.length = cores ∧ (buildCoreList cores rows bl bh).2.length = cores ∧
    (∀ g, g < rows → ∃! i, i < cores ∧ (buildCoreList cores rows bl bh).1.getD i 0 ≤ g ∧ g < (buildCoreList cores rows bl bh).2.getD i 0) ∧
    (∀ i, i < cores → (buildCoreList cores rows bl bh).1.getD i 0 ≤ (buildCoreList cores rows bl bh).2.getD i 0 ∧
      (buildCoreList cores rows bl bh).2.getD i 0 ≤ rows) ∧
    (∀ i, i < cores → (buildCoreList cores rows bl bh).2.getD i 0 - (buildCoreList cores rows bl bh).1.getD i 0 = rows / cores ∨
      (buildCoreList cores rows bl bh).2.getD i 0 - (buildCoreList cores rows bl bh).1.getD i 0 = rows / cores + 1) := by
  rw [buildCoreList_eq cores rows bl bh hl hh]
  have e1 : ∀ i, i < cores → ((List.range cores).map (lowOf (rows / cores) (rows % cores))).getD i 0 = lowOf (rows / cores) (rows % cores) i := by
    intro i hi; simp [hi]
  have e2 : ∀ i, i < cores → ((List.range cores).map (fun i => lowOf (rows / cores) (rows % cores) (i + 1))).getD i 0 =
      lowOf (rows / cores) (rows % cores) (i + 1) := by
    intro i hi; simp [hi]
  dsimp only
  refine ⟨by simp, by simp, ?_, ?_, ?_⟩
  · intro g hg
    obtain ⟨i, h1, h2, h3⟩ := lowOf_find (rows / cores) (rows % cores) cores g (by rw [lowOf_last cores rows h]; exact hg)
    refine ⟨i, ⟨h1, by rw [e1 i h1]; exact h2, by rw [e2 i h1]; exact h3⟩, ?_⟩
    rintro j ⟨j1, j2, j3⟩
    rw [e1 j j1] at j2
    rw [e2 j j1] at j3
    exact lowOf_unique _ _ j2 j3 h2 h3
  · intro i hi
    rw [e1 i hi, e2 i hi]
    refine ⟨lowOf_mono _ _ i, ?_⟩
    have := lowOf_le (rows / cores) (rows % cores) (show i + 1 ≤ cores from hi)
    rw [lowOf_last cores rows h] at this
    exact this
  · intro i hi
    rw [e1 i hi, e2 i hi]
    unfold lowOf
    rw [Nat.succ_mul]
    generalize rows / cores = d
    generalize rows % cores = r
    omega

/-- **C20**: for every core count, every content of the uninitialised buffers and every
interleaving of the cores' memory accesses, the result is the aggregation, group by
group, of the group's values in row order. -/
theorem groupby_schedule_independent (coreCount : Nat) (hcc : 0 < coreCount) (init : β) (upd : β → α → β) (ikey : List Nat)
    (data : List α) (n : Nat) (lowBuf highBuf : List Nat) (hl : lowBuf.length = min coreCount (n + 1))
    (hh : highBuf.length = min coreCount (n + 1)) (ret : List β) (hr : ret.length = n + 1) (r0 : β) (sched : List Nat)
    (hd : Done (runSched (calculateAll coreCount init upd ikey data n lowBuf highBuf ret r0) sched)) :
    (runSched (calculateAll coreCount init upd ikey data n lowBuf highBuf ret r0) sched).mem =
      (List.range (n + 1)).map fun g => (groupVals ikey data g).foldl upd init := by
  have hc : 0 < min coreCount (n + 1) := by omega
  unfold calculateAll at hd ⊢
  dsimp only at hd ⊢
  rw [buildCoreList_eq _ _ _ _ hl hh] at hd ⊢
  generalize hcores : min coreCount (n + 1) = cores at *
  dsimp only at hd ⊢
  have hth : ∀ i, i < cores → (launch init upd ikey data ((List.range cores).map (lowOf ((n + 1) / cores) ((n + 1) % cores)))
      ((List.range cores).map fun i => lowOf ((n + 1) / cores) ((n + 1) % cores) (i + 1)) ret r0).threads[i]? =
      some ⟨r0, coreProg init upd ikey data (lowOf ((n + 1) / cores) ((n + 1) % cores) i) (lowOf ((n + 1) / cores) ((n + 1) % cores) (i + 1))⟩ := by
    intro i hi
    simp [launch, List.getElem?_zip_eq_some, hi]
  have hlen : (launch init upd ikey data ((List.range cores).map (lowOf ((n + 1) / cores) ((n + 1) % cores)))
      ((List.range cores).map fun i => lowOf ((n + 1) / cores) ((n + 1) % cores) (i + 1)) ret r0).threads.length = cores := by
    simp [launch]
  have hmem : (launch init upd ikey data ((List.range cores).map (lowOf ((n + 1) / cores) ((n + 1) % cores)))
      ((List.range cores).map fun i => lowOf ((n + 1) / cores) ((n + 1) % cores) (i + 1)) ret r0).mem = ret := rfl
  generalize launch init upd ikey data ((List.range cores).map (lowOf ((n + 1) / cores) ((n + 1) % cores)))
      ((List.range cores).map fun i => lowOf ((n + 1) / cores) ((n + 1) % cores) (i + 1)) ret r0 = m at *
  have hs : Separate (fun t c => t < cores ∧ lowOf ((n + 1) / cores) ((n + 1) % cores) t ≤ c ∧
      c < lowOf ((n + 1) / cores) ((n + 1) % cores) (t + 1)) m := by
    refine ⟨?_, fun t t' c h h' => lowOf_unique _ _ h.2.1 h.2.2 h'.2.1 h'.2.2⟩
    intro t th ht a ha
    have htl : t < cores := by rw [← hlen]; exact (List.getElem?_eq_some_iff.mp ht).1
    rw [hth t htl] at ht
    rw [← Option.some.inj ht] at ha
    exact ⟨htl, coreProg_own init upd ikey data _ _ a ha⟩
  obtain ⟨_, _, b3, _, _⟩ := runSched_spec sched m hs
  apply List.ext_getElem?
  intro g
  by_cases hg : g < n + 1
  · obtain ⟨t, h1, h2, h3⟩ := lowOf_find ((n + 1) / cores) ((n + 1) % cores) cores g (by rw [lowOf_last cores (n + 1) hc]; exact hg)
    rw [race_free m hs sched hd t g ⟨h1, h2, h3⟩ _ (hth t h1)]
    rw [coreProg_result init upd ikey data _ _ _ _ g h2 h3 (by rw [hmem, hr]; exact hg)]
    simp [hg]
  · rw [List.getElem?_eq_none (by rw [b3, hmem, hr]; omega), List.getElem?_eq_none (by simp; omega)]

/-- the hypotheses are satisfiable for all inputs: buffers and complete schedules exist -/
example (ikey : List Nat) (data : List Int) (n : Nat) (junk : Int) :
    ∃ sched, Done (runSched (calculateAll 12 0 sumUpd ikey data n (List.replicate (min 12 (n + 1)) 7)
      (List.replicate (min 12 (n + 1)) 7) (List.replicate (n + 1) junk) junk) sched) :=
  exists_schedule _

/-- **C21**, sum: for numbers that can be added in any order, the sum of a group is the
sum of its values, and permuting the rows does not change it. -/
theorem nb_sum_correct [AddCommMonoid β] (l : List β) : l.foldl sumUpd 0 = l.sum := by
  rw [List.sum_eq_foldl]; rfl

theorem groupVals_perm {p q : List (Nat × α)} (h : p.Perm q) (g : Nat) :
    (groupVals (p.map Prod.fst) (p.map Prod.snd) g).Perm (groupVals (q.map Prod.fst) (q.map Prod.snd) g) := by
  have e : ∀ p : List (Nat × α), (p.map Prod.fst).zip (p.map Prod.snd) = p := by
    intro p
    rw [List.zip_map']
    simp
  unfold groupVals
  rw [e, e]
  exact (h.filter _).map _

theorem nb_sum_permutation [AddCommMonoid β] {p q : List (Nat × β)} (h : p.Perm q) (g : Nat) :
    (groupVals (p.map Prod.fst) (p.map Prod.snd) g).foldl sumUpd 0 = (groupVals (q.map Prod.fst) (q.map Prod.snd) g).foldl sumUpd 0 := by
  rw [nb_sum_correct, nb_sum_correct]
  exact (groupVals_perm h g).sum_eq

/-- The sum is over *all* values: an integer invalid is added like a number (NaN
likewise makes the sum NaN), so "sum of the valid values" fails. -/
theorem nb_sum_invalid_counterexample : ∃ (inv : Int) (l : List Int),
    l.foldl sumUpd 0 ≠ (l.filter (· ≠ inv)).sum := ⟨-128, [1, -128, 2], by decide⟩

theorem minInt_foldl (inv : Int) (l : List Int) : ∀ r, r ≠ inv → inv ∉ l →
    l.foldl (minUpdInt inv) r ∈ r :: l ∧ ∀ x ∈ r :: l, l.foldl (minUpdInt inv) r ≤ x := by
  induction l with
  | nil => intro r _ _; simp
  | cons x l ih =>
    intro r hr hl
    simp only [List.mem_cons, not_or] at hl
    have hx : minUpdInt inv r x ≠ inv ∧ (minUpdInt inv r x = r ∨ minUpdInt inv r x = x) ∧ minUpdInt inv r x ≤ r ∧ minUpdInt inv r x ≤ x := by
      unfold minUpdInt
      split
      · rename_i h
        refine ⟨fun e => hl.1 e.symm, .inr rfl, ?_, le_rfl⟩
        rcases h with h | h
        · exact absurd h hr
        · omega
      · rename_i h
        rw [not_or, not_not] at h
        exact ⟨hr, .inl rfl, le_rfl, h.2⟩
    obtain ⟨h1, h2⟩ := ih (minUpdInt inv r x) hx.1 hl.2
    rw [List.foldl_cons]
    refine ⟨?_, ?_⟩
    · rcases List.mem_cons.mp h1 with h | h
      · rw [h]; rcases hx.2.1 with e | e <;> rw [e] <;> simp
      · simp [h]
    · intro y hy
      have h0 := h2 _ (by simp : minUpdInt inv r x ∈ minUpdInt inv r x :: l)
      simp only [List.mem_cons] at hy
      rcases hy with rfl | rfl | hy
      · omega
      · omega
      · exact h2 y (by simp [hy])

/-- **C21** (part), integer min: for a group without invalids the least value; an empty
group gives the invalid. -/
theorem nb_min_int_partial (inv : Int) (l : List Int) (h : inv ∉ l) :
    (l = [] → l.foldl (minUpdInt inv) inv = inv) ∧ (l ≠ [] → IsMin (l.foldl (minUpdInt inv) inv) l) := by
  refine ⟨fun e => by rw [e]; rfl, fun hne => ?_⟩
  cases l with
  | nil => exact absurd rfl hne
  | cons x l =>
    simp only [List.mem_cons, not_or] at h
    have : minUpdInt inv inv x = x := by simp [minUpdInt]
    rw [List.foldl_cons, this]
    exact minInt_foldl inv l x (fun e => h.1 e.symm) h.2

theorem minFloat_foldl [LinearOrder α] (l : List α) : ∀ r : α, ∃ m, (l.map some).foldl minUpdFloat (some r) = some m ∧
    m ∈ r :: l ∧ ∀ x ∈ r :: l, m ≤ x := by
  induction l with
  | nil => intro r; exact ⟨r, rfl, by simp, by simp⟩
  | cons x l ih =>
    intro r
    have : minUpdFloat (some r) (some x) = some (if x ≥ r then r else x) := by
      unfold minUpdFloat fge
      by_cases h : x ≥ r <;> simp [h]
    obtain ⟨m, h1, h2, h3⟩ := ih (if x ≥ r then r else x)
    refine ⟨m, by rw [List.map_cons, List.foldl_cons, this]; exact h1, ?_, ?_⟩
    · rcases List.mem_cons.mp h2 with h | h
      · rw [h]; split <;> simp
      · simp [h]
    · have h0 := h3 _ (List.mem_cons_self ..)
      intro y hy
      simp only [List.mem_cons] at hy
      rcases hy with rfl | rfl | hy
      · split at h0
        · exact h0
        · rename_i h; exact h0.trans (le_of_lt (not_le.mp h))
      · split at h0
        · rename_i h; exact h0.trans h
        · exact h0
      · exact h3 y (by simp [hy])

/-- **C21** (part), float min: for a group without NaN the least value; an empty group
gives NaN. -/
theorem nb_min_float_partial [LinearOrder α] (l : List α) :
    (l = [] → (l.map some).foldl minUpdFloat none = none) ∧
    (l ≠ [] → ∃ m, (l.map some).foldl minUpdFloat none = some m ∧ IsMin m l) := by
  refine ⟨fun e => by rw [e]; rfl, fun hne => ?_⟩
  cases l with
  | nil => exact absurd rfl hne
  | cons x l =>
    have : minUpdFloat none (some x) = some x := rfl
    rw [List.map_cons, List.foldl_cons, this]
    exact minFloat_foldl l x

/-- what the code computes in general: everything up to the last NaN is forgotten -/
theorem nb_min_float_after_nan [LinearOrder α] (pre : List (Option α)) (l : List α) :
    (pre ++ none :: l.map some).foldl minUpdFloat none = (l.map some).foldl minUpdFloat none := by
  rw [List.foldl_append, List.foldl_cons]
  congr 1

/-- The full claim fails for min: a NaN (or integer invalid) in the middle of a group
discards the smaller values before it, so the result depends on the row order. -/
theorem nb_min_nan_counterexample : ∃ l l' : List (Option Int), l.Perm l' ∧
    l.foldl minUpdFloat none = some 5 ∧ l'.foldl minUpdFloat none = some 1 :=
  ⟨[some 1, none, some 5], [none, some 1, some 5], by decide, by decide, by decide⟩

theorem nb_min_invalid_counterexample : ∃ (inv : Int) (l l' : List Int), l.Perm l' ∧
    l.foldl (minUpdInt inv) inv = 5 ∧ l'.foldl (minUpdInt inv) inv = 1 :=
  ⟨-128, [1, -128, 5], [-128, 1, 5], by decide, by decide, by decide⟩

/-- **C20, C21** end to end, sum: under every schedule the result array holds the groups' sums. -/
theorem nb_sum_end_to_end [AddCommMonoid β] (coreCount : Nat) (hcc : 0 < coreCount) (ikey : List Nat) (data : List β) (n : Nat)
    (lowBuf highBuf : List Nat) (hl : lowBuf.length = min coreCount (n + 1)) (hh : highBuf.length = min coreCount (n + 1))
    (ret : List β) (hr : ret.length = n + 1) (r0 : β) (sched : List Nat)
    (hd : Done (runSched (calculateAll coreCount 0 sumUpd ikey data n lowBuf highBuf ret r0) sched)) :
    (runSched (calculateAll coreCount 0 sumUpd ikey data n lowBuf highBuf ret r0) sched).mem =
      (List.range (n + 1)).map fun g => (groupVals ikey data g).sum := by
  rw [groupby_schedule_independent coreCount hcc 0 sumUpd ikey data n lowBuf highBuf hl hh ret hr r0 sched hd]
  exact List.map_congr_left fun g _ => nb_sum_correct _

/-- **C20, C21** (part) end to end, integer min: a group that has rows and no invalid gets
its least value, a group without rows the invalid. -/
theorem nb_min_int_end_to_end_partial (coreCount : Nat) (hcc : 0 < coreCount) (inv : Int) (ikey : List Nat) (data : List Int) (n : Nat)
    (lowBuf highBuf : List Nat) (hl : lowBuf.length = min coreCount (n + 1)) (hh : highBuf.length = min coreCount (n + 1))
    (ret : List Int) (hr : ret.length = n + 1) (r0 : Int) (sched : List Nat)
    (hd : Done (runSched (calculateAll coreCount inv (minUpdInt inv) ikey data n lowBuf highBuf ret r0) sched))
    (g : Nat) (hg : g ≤ n) (hinv : inv ∉ groupVals ikey data g) :
    ∃ v, (runSched (calculateAll coreCount inv (minUpdInt inv) ikey data n lowBuf highBuf ret r0) sched).mem[g]? = some v ∧
      (groupVals ikey data g = [] → v = inv) ∧ (groupVals ikey data g ≠ [] → IsMin v (groupVals ikey data g)) := by
  rw [groupby_schedule_independent coreCount hcc inv (minUpdInt inv) ikey data n lowBuf highBuf hl hh ret hr r0 sched hd]
  refine ⟨_, by rw [List.getElem?_map, List.getElem?_range (by omega)]; rfl, ?_⟩
  exact nb_min_int_partial inv _ hinv

/-- three groups over two cores, with junk in the buffers, round-robin schedule -/
example : (runSched (calculateAll 2 0 sumUpd [1, 2, 1, 0] [10, 20, 30, 40] 2 [9, 9] [9, 9] [7, 7, 7] (7 : Int))
    ((List.replicate 12 [0, 1]).flatten)).mem = [40, 40, 20] := by decide

end Verif.GbNumba
