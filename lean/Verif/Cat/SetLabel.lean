import Verif.Cat.Edit
import Mathlib.Data.List.Nodup
/-!
# C29: assigning a label to rows
-/
namespace Verif.Cat

/-! ## Lemmas -/

theorem store_fits {bits : Nat} {x : Int} (hb : 1 ≤ bits) (h0 : 0 ≤ x) (h1 : x < 2 ^ (bits - 1)) : store bits x = x := by
  unfold store
  have h2 : (2 : Int) ^ bits = 2 * 2 ^ (bits - 1) := by
    conv_lhs => rw [show bits = (bits - 1) + 1 by omega]
    rw [Int.pow_succ, Int.mul_comm]
  apply Int.bmod_eq_of_le_mul_two
  · push_cast
    have : (0 : Int) ≤ 2 ^ bits := Int.pow_nonneg (by decide)
    omega
  · push_cast
    omega

theorem mapM_some {α β : Type} (l : List α) (f : α → Option β) (g : α → β) (h : ∀ a ∈ l, f a = some (g a)) :
    l.mapM f = some (l.map g) := by
  induction l with
  | nil => rfl
  | cons a l ih =>
    rw [List.mapM_cons, h a (by simp), ih fun b hb => h b (by simp [hb])]
    rfl

theorem mem_sortedUnique (l : List Label) (x : Label) : x ∈ sortedUnique l ↔ x ∈ l := by
  unfold sortedUnique
  rw [List.mem_insertionSort, List.mem_dedup]

theorem sortedUnique_nodup (l : List Label) : (sortedUnique l).Nodup :=
  (List.perm_insertionSort (· ≤ ·) l.dedup).nodup_iff.2 (List.nodup_dedup l)

theorem sortedUnique_sorted (l : List Label) : (sortedUnique l).Pairwise (· < ·) := by
  have h1 : (sortedUnique l).Pairwise (· ≤ ·) := List.pairwise_insertionSort (· ≤ ·) l.dedup
  have h2 : (sortedUnique l).Pairwise (· ≠ ·) := sortedUnique_nodup l
  exact (h1.and h2).imp fun h => lt_of_le_of_ne h.1 h.2

theorem sortedUnique_length {l : List Label} (h : l.Nodup) : (sortedUnique l).length = l.length := by
  unfold sortedUnique
  rw [List.length_insertionSort, List.dedup_eq_self.2 h]

theorem label?_firstEq {l : List Label} {base : Nat} {s : Label} (h : s ∈ l) : label? base l ((firstEq l s : Int) + base) = some s := by
  unfold label?
  rw [if_neg (by omega), show ((firstEq l s : Int) + base - base).toNat = firstEq l s by omega]
  exact firstEq_get l s h

theorem writeRows_length (fa : List Int) (ps : List Nat) (v : Int) : (writeRows fa ps v).length = fa.length := by
  unfold writeRows
  induction ps generalizing fa with
  | nil => rfl
  | cons p ps ih => rw [List.foldl_cons, ih, List.length_set]

theorem writeRows_get (fa : List Int) (ps : List Nat) (v : Int) (p : Nat) (hp : p < fa.length) :
    (writeRows fa ps v)[p]? = if p ∈ ps then some v else fa[p]? := by
  unfold writeRows
  induction ps generalizing fa with
  | nil => simp
  | cons q ps ih =>
    rw [List.foldl_cons, ih _ (by simpa using hp)]
    by_cases h1 : p ∈ ps
    · simp [h1]
    · rw [if_neg h1]
      by_cases h2 : p = q
      · subst h2; simp [hp]
      · rw [List.getElem?_set_ne (fun h => h2 h.symm)]; simp [h1, h2]

theorem mem_writeRows {fa : List Int} {ps : List Nat} {v x : Int} (h : x ∈ writeRows fa ps v) : x ∈ fa ∨ x = v := by
  unfold writeRows at h
  induction ps generalizing fa with
  | nil => exact .inl h
  | cons q ps ih =>
    rw [List.foldl_cons] at h
    rcases ih h with h | h
    · exact List.mem_or_eq_of_mem_set h
    · exact .inr h

/-! ## Specification -/

/-- the codes of all categories can be stored in the array of codes -/
def CodesFit (bits base n : Nat) : Prop := 1 ≤ bits ∧ (base : Int) + n ≤ 2 ^ (bits - 1)

/-- the rows `ps` have the label `v` after the assignment, the others what they had before -/
def Assigned (before after : List (Option Label)) (ps : List Nat) (v : Label) : Prop :=
  after.length = before.length ∧ ∀ p, p < before.length → after[p]? = if p ∈ ps then some (some v) else before[p]?

theorem assign_rows {c : Cat} (hw : WF c) {i : Nat} {v : Label} (hi : c.list[i]? = some v) (hf : CodesFit c.bits c.base c.list.length)
    {is : List Int} {ps : List Nat} (hp : is.mapM (rowPos c.fa.length) = some ps) :
    (assign c (.rows is) ((i : Int) + c.base)).2 = none ∧ WF (assign c (.rows is) ((i : Int) + c.base)).1 ∧
      Assigned (rows c) (rows (assign c (.rows is) ((i : Int) + c.base)).1) ps v ∧
      (assign c (.rows is) ((i : Int) + c.base)).1.list = c.list := by
  have hlt : i < c.list.length := (List.getElem?_eq_some_iff.1 hi).1
  have hst : store c.bits ((i : Int) + c.base) = (i : Int) + c.base := by
    obtain ⟨h1, h2⟩ := hf
    exact store_fits h1 (by omega) (by omega)
  have hb := hw.base
  simp only [assign, hp, hst]
  refine ⟨trivial, ⟨hw.base, hw.nodup, hw.srt, ?_, ?_, hw.wid⟩, ⟨?_, ?_⟩, trivial⟩
  · intro k hk
    rcases mem_writeRows hk with h | h
    · exact hw.lo k h
    · dsimp only; omega
  · intro k hk
    rcases mem_writeRows hk with h | h
    · exact hw.hi k h
    · dsimp only; omega
  · simp [rows, writeRows_length]
  · intro p hpl
    unfold rows at hpl ⊢
    rw [List.length_map] at hpl
    rw [List.getElem?_map, List.getElem?_map, writeRows_get _ _ _ _ hpl]
    split
    · rw [Option.map_some, (label?_eq_some_iff hw hi _).2 rfl]
    · rfl

/-! ## Theorems -/

/-- **C29** Assigning an existing label: the rows get it, nothing else changes. -/
theorem setLabel_existing {c : Cat} (hw : WF c) (hl : c.locked = false) (hf : CodesFit c.bits c.base c.list.length)
    {v : Label} (hv : v ∈ c.list) {is : List Int} {ps : List Nat} (hp : is.mapM (rowPos c.fa.length) = some ps) :
    (setLabel c (.rows is) v).2 = none ∧ WF (setLabel c (.rows is) v).1 ∧
      Assigned (rows c) (rows (setLabel c (.rows is) v).1) ps v ∧ (setLabel c (.rows is) v).1.list = c.list := by
  obtain ⟨i, hi⟩ := List.getElem?_of_mem hv
  have hs : setLabel c (.rows is) v = assign c (.rows is) ((i : Int) + c.base) := by
    unfold setLabel possiblyAdd
    rw [if_neg (by simp [hl]), if_pos hv]
    dsimp only
    rw [matchIndex_mem hw hi]
  rw [hs]
  exact assign_rows hw hi hf hp

/-- the Categorical after a new category was added and the codes were translated -/
def added (c : Cat) (v : Label) : Cat :=
  { c with
    list := sortedUnique (c.list ++ [v])
    width := max c.width v.length
    shared := false
    sorted := true
    fa := c.fa.map fun k => (firstEq (sortedUnique (c.list ++ [v])) ((label? c.base c.list k).getD v) : Int) + c.base }

theorem added_wf {c : Cat} (hw : WF c) {v : Label} (hv : v ∉ c.list) : WF (added c v) ∧
    rows (added c v) = (rows c).map fun r => some (r.getD v) := by
  have hmem : ∀ k, (label? c.base c.list k).getD v ∈ sortedUnique (c.list ++ [v]) := by
    intro k
    rw [mem_sortedUnique, List.mem_append]
    cases hk : label? c.base c.list k with
    | none => right; simp
    | some l =>
      left
      unfold label? at hk
      split at hk
      · simp at hk
      · exact List.mem_of_getElem? hk
  refine ⟨⟨hw.base, sortedUnique_nodup _, fun _ => sortedUnique_sorted _, ?_, ?_, ?_⟩, ?_⟩
  · intro k hk
    simp only [added, List.mem_map] at hk
    obtain ⟨k0, _, rfl⟩ := hk
    simp only [added]; omega
  · intro k hk
    simp only [added, List.mem_map] at hk
    obtain ⟨k0, _, rfl⟩ := hk
    have := firstEq_lt _ _ (hmem k0)
    simp only [added]; omega
  · intro l hl
    simp only [added] at hl ⊢
    rw [mem_sortedUnique, List.mem_append] at hl
    rcases hl with h | h
    · exact le_trans (hw.wid l h) (Nat.le_max_left _ _)
    · rw [List.mem_singleton.1 h]; exact Nat.le_max_right _ _
  · unfold rows
    simp only [added, List.map_map]
    refine List.map_congr_left fun k _ => ?_
    simp only [Function.comp]
    exact label?_firstEq (hmem k)

/-- what the model computes when a category is added -/
theorem setLabel_new_eq {c : Cat} (hw : WF c) (hl : c.locked = false) (ha : c.autoAdd = true) {v : Label} (hv : v ∉ c.list)
    (hf : CodesFit c.bits c.base (c.list.length + 1)) (idx : Idx) :
    ∃ i : Nat, (added c v).list[i]? = some v ∧ setLabel c idx v = assign (added c v) idx ((i : Int) + c.base) := by
  have hvm : v ∈ sortedUnique (c.list ++ [v]) := by rw [mem_sortedUnique]; simp
  obtain ⟨i, hi⟩ := List.getElem?_of_mem hvm
  refine ⟨i, hi, ?_⟩
  have hnd : (c.list ++ [v]).Nodup := List.Nodup.append hw.nodup (by simp) (by simpa using hv)
  have hlen : (sortedUnique (c.list ++ [v])).length = c.list.length + 1 := by rw [sortedUnique_length hnd]; simp
  have hb := hw.base
  have hget : ∀ k ∈ c.fa, npGet (inverse (c.list ++ [v])) (k - c.base) =
      some (firstEq (sortedUnique (c.list ++ [v])) ((label? c.base c.list k).getD v) : Int) := by
    intro k hk
    have hlo := hw.lo k hk
    have hhi := hw.hi k hk
    have hil : (inverse (c.list ++ [v])).length = c.list.length + 1 := by simp [inverse]
    unfold npGet label?
    by_cases hkb : k < c.base
    · rw [if_neg (by omega), if_pos (by omega), if_pos hkb]
      have : (((inverse (c.list ++ [v])).length : Int) + (k - c.base)).toNat = c.list.length := by omega
      rw [this]
      simp [inverse]
    · rw [if_pos (by omega), if_neg hkb]
      have hkl : (k - (c.base : Int)).toNat < c.list.length := by omega
      unfold inverse
      rw [List.getElem?_map, List.getElem?_append_left hkl, List.getElem?_eq_getElem hkl]
      rfl
  have hst : ∀ k : Int, store c.bits ((firstEq (sortedUnique (c.list ++ [v])) ((label? c.base c.list k).getD v) : Int) + c.base) =
      (firstEq (sortedUnique (c.list ++ [v])) ((label? c.base c.list k).getD v) : Int) + c.base := by
    intro k
    obtain ⟨h1, h2⟩ := hf
    have h3 : (label? c.base c.list k).getD v ∈ sortedUnique (c.list ++ [v]) := by
      rw [mem_sortedUnique, List.mem_append]
      cases hk : label? c.base c.list k with
      | none => right; simp
      | some l =>
        left
        unfold label? at hk
        split at hk
        · simp at hk
        · exact List.mem_of_getElem? hk
    have := firstEq_lt _ _ h3
    push_cast at h2
    exact store_fits h1 (by omega) (by omega)
  have hm : matchIndex (added c v) v = some ((i : Int) + c.base) := matchIndex_mem (c := added c v) (added_wf hw hv).1 hi
  unfold setLabel possiblyAdd
  rw [if_neg (by simp [hl]), if_neg hv, if_pos ha]
  dsimp only
  rw [mapM_some c.fa _ _ hget]
  dsimp only
  have heq : ({ c with
      list := sortedUnique (c.list ++ [v])
      width := max c.width v.length
      shared := false
      sorted := true
      fa := (c.fa.map fun k => (firstEq (sortedUnique (c.list ++ [v])) ((label? c.base c.list k).getD v) : Int)).map fun x => store c.bits (x + c.base) } : Cat)
      = added c v := by
    unfold added
    rw [List.map_map]
    congr 1
    exact List.map_congr_left fun k _ => hst k
  rw [heq, hm]

/-- **C29, exact behaviour** Assigning a new label with automatic creation of the category: the rows get it, *and every
filtered row does too*; the other rows keep their labels. -/
theorem setLabel_new {c : Cat} (hw : WF c) (hl : c.locked = false) (ha : c.autoAdd = true) {v : Label} (hv : v ∉ c.list)
    (hf : CodesFit c.bits c.base (c.list.length + 1)) {is : List Int} {ps : List Nat}
    (hp : is.mapM (rowPos c.fa.length) = some ps) :
    (setLabel c (.rows is) v).2 = none ∧ WF (setLabel c (.rows is) v).1 ∧
      Assigned ((rows c).map fun r => some (r.getD v)) (rows (setLabel c (.rows is) v).1) ps v ∧
      ∀ x, x ∈ (setLabel c (.rows is) v).1.list ↔ x ∈ c.list ∨ x = v := by
  obtain ⟨i, hi, he⟩ := setLabel_new_eq hw hl ha hv hf (.rows is)
  obtain ⟨hw', hr⟩ := added_wf hw hv
  have hnd : (c.list ++ [v]).Nodup := List.Nodup.append hw.nodup (by simp) (by simpa using hv)
  have hlen : (added c v).list.length = c.list.length + 1 := by
    show (sortedUnique (c.list ++ [v])).length = _
    rw [sortedUnique_length hnd]; simp
  obtain ⟨h1, h2, h3, h4⟩ := assign_rows hw' hi (show CodesFit c.bits c.base (added c v).list.length by rw [hlen]; exact hf)
    (is := is) (ps := ps) (by simpa [added] using hp)
  rw [he]
  refine ⟨h1, h2, ?_, ?_⟩
  · rw [← hr]; exact h3
  · intro x
    rw [show (assign (added c v) (.rows is) ((i : Int) + c.base)).1.list = (added c v).list from h4]
    show x ∈ sortedUnique (c.list ++ [v]) ↔ _
    rw [mem_sortedUnique]; simp

/-- **C29** Assigning a new label in a Categorical without filtered rows changes the assigned rows only. -/
theorem setLabel_new_partial {c : Cat} (hw : WF c) (hl : c.locked = false) (ha : c.autoAdd = true) {v : Label} (hv : v ∉ c.list)
    (hf : CodesFit c.bits c.base (c.list.length + 1)) (hn : none ∉ rows c) {is : List Int} {ps : List Nat}
    (hp : is.mapM (rowPos c.fa.length) = some ps) :
    (setLabel c (.rows is) v).2 = none ∧ WF (setLabel c (.rows is) v).1 ∧
      Assigned (rows c) (rows (setLabel c (.rows is) v).1) ps v := by
  obtain ⟨h1, h2, h3, _⟩ := setLabel_new hw hl ha hv hf hp
  refine ⟨h1, h2, ?_⟩
  have : (rows c).map (fun r => some (r.getD v)) = rows c := by
    conv_rhs => rw [← List.map_id (rows c)]
    refine List.map_congr_left fun r hr => ?_
    cases r with
    | none => exact absurd hr hn
    | some l => rfl
  rw [this] at h3
  exact h3

/-- **C29** The assignment raises and changes nothing when the Categorical is locked, or when the label is new and categories
are not added automatically. -/
theorem setLabel_rejected (c : Cat) (idx : Idx) (v : Label) (h : c.locked = true ∨ (v ∉ c.list ∧ c.autoAdd = false)) :
    (setLabel c idx v).1 = c ∧ (setLabel c idx v).2 ≠ none := by
  unfold setLabel
  cases hl : c.locked with
  | true => simp
  | false =>
    rcases h with h | ⟨h1, h2⟩
    · rw [hl] at h; simp at h
    · simp [possiblyAdd, h1, h2]

/-- **C29** `c[l] = v` for two existing labels relabels the rows labelled `l`. -/
theorem setLabel_label {c : Cat} (hw : WF c) (hl : c.locked = false) (hu : c.uniq.length = c.list.length)
    (hf : CodesFit c.bits c.base c.list.length) {l v : Label} (hll : l ∈ c.list) (hv : v ∈ c.list) :
    (setLabel c (.label l) v).2 = none ∧ WF (setLabel c (.label l) v).1 ∧
      rows (setLabel c (.label l) v).1 = (rows c).map (relabel l (some v)) := by
  obtain ⟨i, hi⟩ := List.getElem?_of_mem hv
  obtain ⟨j, hj⟩ := List.getElem?_of_mem hll
  have hilt : i < c.list.length := (List.getElem?_eq_some_iff.1 hi).1
  have hjlt : j < c.list.length := (List.getElem?_eq_some_iff.1 hj).1
  have hfc : fromCategory c l = some ((j : Int) + c.base) := by
    unfold fromCategory
    dsimp only
    rw [categoryIndex2_mem hw hj, if_neg (by omega)]
    congr 1; omega
  have hst : store c.bits ((i : Int) + c.base) = (i : Int) + c.base := by
    obtain ⟨h1, h2⟩ := hf
    exact store_fits h1 (by omega) (by omega)
  have hs : setLabel c (.label l) v =
      ({ c with fa := c.fa.map fun x => if x = (j : Int) + c.base then (i : Int) + c.base else x }, none) := by
    unfold setLabel possiblyAdd
    rw [if_neg (by simp [hl]), if_pos hv]
    dsimp only
    rw [matchIndex_mem hw hi]
    dsimp only [assign]
    rw [hfc]
    dsimp only
    rw [hst]
  rw [hs]
  have hb := hw.base
  refine ⟨rfl, ⟨hw.base, hw.nodup, hw.srt, ?_, ?_, hw.wid⟩, ?_⟩
  · intro k hk
    simp only [List.mem_map] at hk
    obtain ⟨k0, hk0, rfl⟩ := hk
    have := hw.lo k0 hk0
    dsimp only
    split <;> omega
  · intro k hk
    simp only [List.mem_map] at hk
    obtain ⟨k0, hk0, rfl⟩ := hk
    have := hw.hi k0 hk0
    dsimp only
    split <;> omega
  · unfold rows
    dsimp only
    rw [List.map_map, List.map_map]
    refine List.map_congr_left fun k hk => ?_
    simp only [Function.comp, relabel]
    by_cases hki : k = (j : Int) + c.base
    · rw [if_pos hki, (label?_eq_some_iff hw hj k).2 hki, if_pos rfl]
      exact (label?_eq_some_iff hw hi _).2 rfl
    · rw [if_neg hki, if_neg (fun h => hki ((label?_eq_some_iff hw hj k).1 h))]

/-! ## Examples and counterexamples -/

example : CodesFit exC.bits exC.base (exC.list.length + 1) := by unfold CodesFit; decide

/-- row 4 is filtered; `c[0] = "bb"` labels it, too -/
theorem filtered_relabelled_counterexample : ∃ c, c = setLabel exC (.rows [0]) ['b', 'b'] ∧ WF exC ∧ c.2 = none ∧
    (rows exC)[4]? = some none ∧ (rows c.1)[4]? = some (some ['b', 'b']) :=
  ⟨_, rfl, exC_wf, by decide, by decide, by decide⟩

/-- `c[0] = "d"`, and then `c[0]` is not "d" -/
theorem set_then_get_counterexample : ∃ c, c = setLabel exC (.rows [0]) ['d'] ∧ WF exC ∧ c.2 = none ∧
    (rows c.1)[0]? = some (some ['d']) ∧ (items c.1)[0]? = some (.bad 4) :=
  ⟨_, rfl, exC_wf, by decide, by decide, by decide⟩

/-- `c["c"] = "aa"` raises since "c" is the last category of the new list, but the category has been added and the
filtered rows have been labelled -/
theorem set_label_raises_counterexample : ∃ c, c = setLabel exC (.label ['c']) ['a', 'a'] ∧ WF exC ∧
    c.2 = some "ValueError: not found in uniques" ∧ ['a', 'a'] ∈ c.1.list ∧ (rows c.1)[4]? = some (some ['a', 'a']) :=
  ⟨_, rfl, exC_wf, by decide, by decide, by decide⟩

/-- codes of two bits: with the second category the rows of "b" become bad (as with the 128th category for int8) -/
theorem code_overflow_counterexample : ∃ c0 : Cat, WF c0 ∧ c0.base + c0.list.length ≤ 2 ^ (c0.bits - 1) ∧
    (setLabel c0 (.rows [1]) ['b']).2 = none ∧ (setLabel c0 (.rows [1]) ['b']).1.fa = [1, -2] ∧
    rows (setLabel c0 (.rows [1]) ['b']).1 = [some ['a'], none] :=
  ⟨⟨1, 2, [1, 1], [['a']], 1, [['a']], true, true, true, false⟩,
    ⟨by decide, by decide, fun _ => by decide, by decide, by decide, by decide⟩, by decide, by decide, by decide, by decide⟩

end Verif.Cat
