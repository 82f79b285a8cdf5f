import Verif.Cat.Spec
/-! # Lemmas on label lookup -/
namespace Verif.Cat

theorem firstEq_le (l : List Label) (s : Label) : firstEq l s ≤ l.length := by
  induction l with
  | nil => simp [firstEq]
  | cons x xs ih => simp only [firstEq]; split <;> simp <;> omega

theorem firstEq_get (l : List Label) (s : Label) (h : s ∈ l) : l[firstEq l s]? = some s := by
  induction l with
  | nil => simp at h
  | cons x xs ih =>
    simp only [firstEq]
    split
    · rename_i hx; simp [hx]
    · rename_i hx
      simp only [List.getElem?_cons_succ]
      exact ih (by
        rcases List.mem_cons.1 h with h | h
        · exact absurd h.symm hx
        · exact h)

theorem firstEq_not_mem (l : List Label) (s : Label) (h : s ∉ l) : firstEq l s = l.length := by
  induction l with
  | nil => simp [firstEq]
  | cons x xs ih =>
    rw [List.mem_cons, not_or] at h
    simp only [firstEq, List.length_cons]
    rw [if_neg (fun e => h.1 e.symm), ih h.2]

theorem firstEq_lt (l : List Label) (s : Label) (h : s ∈ l) : firstEq l s < l.length := by
  have := firstEq_get l s h
  rw [List.getElem?_eq_some_iff] at this
  exact this.1

theorem searchLeft_le (l : List Label) (s : Label) : searchLeft l s ≤ l.length := by
  unfold searchLeft
  exact List.Sublist.length_le (List.takeWhile_sublist _)

theorem searchLeft_get (l : List Label) (hs : l.Pairwise (· < ·)) (s : Label) (h : s ∈ l) : l[searchLeft l s]? = some s := by
  induction l with
  | nil => simp at h
  | cons x xs ih =>
    rw [List.pairwise_cons] at hs
    unfold searchLeft
    rw [List.takeWhile_cons]
    by_cases hx : x < s
    · rw [if_pos (by simpa using hx), List.length_cons, List.getElem?_cons_succ]
      refine ih hs.2 ?_
      rcases List.mem_cons.1 h with h | h
      · exact absurd hx (by rw [h]; exact lt_irrefl _)
      · exact h
    · rw [if_neg (by simpa using hx)]
      rcases List.mem_cons.1 h with h | h
      · simp [h]
      · exact absurd (hs.1 s h) hx

theorem searchLeft_below (l : List Label) (s : Label) (i : Nat) (x : Label) (hx : l[i]? = some x) (hi : i < searchLeft l s) : x < s := by
  induction l generalizing i with
  | nil => simp at hx
  | cons y ys ih =>
    unfold searchLeft at hi
    rw [List.takeWhile_cons] at hi
    split at hi
    · rename_i hy
      cases i with
      | zero => simp at hx; subst hx; simpa using hy
      | succ i => exact ih i (by simpa using hx) (by simpa [searchLeft] using hi)
    · simp at hi

theorem searchLeft_above (l : List Label) (hs : l.Pairwise (· < ·)) (s : Label) (i : Nat) (x : Label) (hx : l[i]? = some x)
    (hi : searchLeft l s ≤ i) : ¬ x < s := by
  induction l generalizing i with
  | nil => simp at hx
  | cons y ys ih =>
    rw [List.pairwise_cons] at hs
    unfold searchLeft at hi
    rw [List.takeWhile_cons] at hi
    split at hi
    · cases i with
      | zero => simp at hi
      | succ i => exact ih hs.2 i (by simpa using hx) (by simpa [searchLeft] using hi)
    · rename_i hy
      have hy' : ¬ y < s := by simpa using hy
      cases i with
      | zero => simp at hx; subst hx; exact hy'
      | succ i =>
        have hm : x ∈ ys := List.mem_of_getElem? (by simpa using hx)
        exact fun h => hy' (lt_trans (hs.1 x hm) h)

theorem nodup_index {l : List Label} (hn : l.Nodup) {i j : Nat} {s : Label} (hi : l[i]? = some s) (hj : l[j]? = some s) : i = j := by
  obtain ⟨hi1, hi2⟩ := List.getElem?_eq_some_iff.1 hi
  obtain ⟨hj1, hj2⟩ := List.getElem?_eq_some_iff.1 hj
  exact (List.Nodup.getElem_inj_iff hn).1 (hi2.trans hj2.symm)

/-- index of a category in the list -/
theorem categoryIndex2_mem {c : Cat} (hw : WF c) {s : Label} {i : Nat} (hi : c.list[i]? = some s) :
    categoryIndex2 c s = 2 * ((i : Int) + c.base) := by
  have hm : s ∈ c.list := List.mem_of_getElem? hi
  unfold categoryIndex2
  split
  · rename_i hso
    have hg := searchLeft_get c.list (hw.srt hso) s hm
    have := nodup_index hw.nodup hg hi
    dsimp only
    rw [if_pos (Or.inr hg), this]
    omega
  · have := nodup_index hw.nodup (firstEq_get c.list s hm) hi
    rw [this]; omega

/-- index of a label that is no category -/
theorem categoryIndex2_not_mem {c : Cat} {s : Label} (hs : s ∉ c.list) :
    categoryIndex2 c s = 2 * ((c.list.length : Int) + c.base) ∨
      (c.sorted = true ∧ searchLeft c.list s < c.list.length ∧ categoryIndex2 c s = 2 * ((searchLeft c.list s : Int) + c.base) - 1) := by
  unfold categoryIndex2
  split
  · rename_i hso
    dsimp only
    by_cases hlt : searchLeft c.list s < c.list.length
    · right
      refine ⟨hso, hlt, ?_⟩
      rw [if_neg]
      · omega
      · rintro (h | h)
        · rw [List.getElem?_eq_none_iff] at h; omega
        · exact hs (List.mem_of_getElem? h)
    · left
      have hle := searchLeft_le c.list s
      have : searchLeft c.list s = c.list.length := by omega
      rw [this, if_pos (Or.inl (by simp))]
      omega
  · left
    rw [firstEq_not_mem _ _ hs]; omega

theorem matchIndex_mem {c : Cat} (hw : WF c) {s : Label} {i : Nat} (hi : c.list[i]? = some s) :
    matchIndex c s = some ((i : Int) + c.base) := by
  have hlt : i < c.list.length := (List.getElem?_eq_some_iff.1 hi).1
  unfold matchIndex
  dsimp only
  rw [categoryIndex2_mem hw hi, if_pos ⟨by omega, by omega⟩]
  congr 1; omega

theorem matchIndex_not_mem {c : Cat} {s : Label} (hs : s ∉ c.list) : matchIndex c s = none := by
  unfold matchIndex
  dsimp only
  rcases categoryIndex2_not_mem hs with h | ⟨_, _, h⟩ <;> rw [h, if_neg (by omega)]

/-- lookup of a label, in one statement -/
theorem matchIndex_cases {c : Cat} (hw : WF c) (s : Label) :
    (s ∉ c.list ∧ matchIndex c s = none) ∨ ∃ i, c.list[i]? = some s ∧ i < c.list.length ∧ matchIndex c s = some ((i : Int) + c.base) := by
  by_cases h : s ∈ c.list
  · right
    obtain ⟨i, hi⟩ := List.getElem?_of_mem h
    exact ⟨i, hi, (List.getElem?_eq_some_iff.1 hi).1, matchIndex_mem hw hi⟩
  · exact .inl ⟨h, matchIndex_not_mem h⟩

/-- the code of a category is the only one that gives its label -/
theorem label?_eq_some_iff {c : Cat} (hw : WF c) {s : Label} {i : Nat} (hi : c.list[i]? = some s) (k : Int) :
    label? c.base c.list k = some s ↔ k = (i : Int) + c.base := by
  unfold label?
  constructor
  · intro h
    split at h
    · simp at h
    · have := nodup_index hw.nodup h hi
      omega
  · rintro rfl
    rw [if_neg (by omega), show ((i : Int) + c.base - c.base).toNat = i by omega]
    exact hi

end Verif.Cat
