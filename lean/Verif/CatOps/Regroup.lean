import Verif.CatOps.Props
import Verif.Dup.Drop
import Mathlib.Data.List.Perm.Subperm
import Mathlib.Data.List.Range
/-!
# C101: filtering a Categorical and dropping unused categories (`set_valid`, `regroup`)
-/
namespace Verif.CatOps
open Verif.Cat

variable {L : Type}

/-- The contract of `combine_accum1_filter` (C++): rows that are filtered out, or were already, get 0, other rows get equal numbers
exactly if they had, the numbers go up to `n`, and `iFirst` has the first row of every number. The order of the new numbers is left open. -/
structure CombinedOK (keys : List Nat) (filter : List Bool) (cb : Combined) : Prop where
  len : cb.iKey.length = keys.length
  zero : ∀ (i k : Nat), keys[i]? = some k → (cb.iKey[i]? = some 0 ↔ (filter[i]? ≠ some true ∨ k = 0))
  same : ∀ (i j k k' a b : Nat), keys[i]? = some k → keys[j]? = some k' → cb.iKey[i]? = some (a + 1) → cb.iKey[j]? = some (b + 1) →
    (a = b ↔ k = k')
  le : ∀ k ∈ cb.iKey, k ≤ cb.n
  nfirst : cb.iFirst.length = cb.n
  first : ∀ (g p : Nat), cb.iFirst[g]? = some p → cb.iKey[p]? = some (g + 1) ∧ ∀ (j : Nat), j < p → cb.iKey[j]? ≠ some (g + 1)

/-! ## sorting -/

theorem take_length {A : Type} (a : List A) (idx : List Nat) (h : ∀ i ∈ idx, i < a.length) : (take a idx).length = idx.length := by
  unfold take
  induction idx with
  | nil => rfl
  | cons i idx ih =>
    rw [List.filterMap_cons_some (List.getElem?_eq_getElem (h i (by simp))), List.length_cons, ih (fun j hj => h j (by simp [hj])), List.length_cons]

theorem take_get {A : Type} (a : List A) (idx : List Nat) (h : ∀ i ∈ idx, i < a.length) (k i : Nat) (hk : idx[k]? = some i) :
    (take a idx)[k]? = a[i]? :=
  filterMap_some_get _ idx (fun j hj => ⟨_, List.getElem?_eq_getElem (h j hj)⟩) k i hk

theorem argsort_perm (l : List Nat) : (argsort l).Perm (List.range l.length) := List.perm_insertionSort _ _

theorem argsort_lt (l : List Nat) (k : Nat) (h : k ∈ argsort l) : k < l.length := List.mem_range.1 ((argsort_perm l).mem_iff.1 h)

theorem argsort_length (l : List Nat) : (argsort l).length = l.length := by simpa using (argsort_perm l).length_eq

theorem sorted_unique {a b : List Nat} (hp : a.Perm b) (ha : a.Pairwise (· ≤ ·)) (hb : b.Pairwise (· ≤ ·)) : a = b :=
  hp.eq_of_pairwise (fun _ _ _ _ h1 h2 => Nat.le_antisymm h1 h2) ha hb

theorem argsort_sorts (l : List Nat) : (argsort l).map (fun i => l[i]?.getD 0) = l.insertionSort (· ≤ ·) := by
  refine sorted_unique ?_ ?_ (List.pairwise_insertionSort _ _)
  · have h1 : ((argsort l).map fun i => l[i]?.getD 0).Perm ((List.range l.length).map fun i => l[i]?.getD 0) := (argsort_perm l).map _
    have h2 : ((List.range l.length).map fun i => l[i]?.getD 0) = l := by
      apply List.ext_getElem?
      intro i
      by_cases h : i < l.length
      · simp [h]
      · simp [h]
    rw [h2] at h1
    exact h1.trans (List.perm_insertionSort _ _).symm
  · rw [List.pairwise_map]
    have : Std.Total (fun a b : Nat => l[a]?.getD 0 ≤ l[b]?.getD 0) := ⟨fun a b => Nat.le_total _ _⟩
    have : IsTrans Nat (fun a b : Nat => l[a]?.getD 0 ≤ l[b]?.getD 0) := ⟨fun a b c h1 h2 => Nat.le_trans h1 h2⟩
    exact List.pairwise_insertionSort _ _

theorem argsort_get (l : List Nat) (k i : Nat) (h : (argsort l)[k]? = some i) : (l.insertionSort (· ≤ ·))[k]? = l[i]? := by
  rw [← argsort_sorts l, List.getElem?_map, h, Option.map_some]
  have := argsort_lt l i (List.mem_of_getElem? h)
  rw [List.getElem?_eq_getElem this]
  rfl

theorem sort_argsort (l : List Nat) : (argsort l).insertionSort (· ≤ ·) = List.range l.length :=
  sorted_unique ((List.perm_insertionSort _ _).trans (argsort_perm l)) (List.pairwise_insertionSort _ _)
    (List.pairwise_lt_range.imp Nat.le_of_lt)

/-- position of entry `i` among the sorted entries -/
theorem rank_get (l : List Nat) (i t : Nat) (h : (argsort (argsort l))[i]? = some t) : (l.insertionSort (· ≤ ·))[t]? = l[i]? := by
  have hi : i < l.length := by
    have := (List.getElem?_eq_some_iff.1 h).1
    rwa [argsort_length, argsort_length] at this
  have h1 := argsort_get (argsort l) i t h
  rw [sort_argsort, List.getElem?_range hi] at h1
  exact argsort_get l t i h1.symm

theorem rank_perm (l : List Nat) : (argsort (argsort l)).Perm (List.range l.length) := by
  have := argsort_perm (argsort l)
  rwa [argsort_length] at this

theorem reorder_get (iFirst order : List Nat) (hl : iFirst.length = order.length) (hp : order.Perm ((List.range order.length).map (· + 1)))
    (g p : Nat) (h : (reorder iFirst order)[g]? = some p) : ∃ (k : Nat), iFirst[k]? = some p ∧ order[k]? = some (g + 1) := by
  have hsort : order.insertionSort (· ≤ ·) = (List.range order.length).map (· + 1) :=
    sorted_unique ((List.perm_insertionSort _ _).trans hp) (List.pairwise_insertionSort _ _)
      (by rw [List.pairwise_map]; exact List.pairwise_lt_range.imp fun h => Nat.succ_le_succ (Nat.le_of_lt h))
  unfold reorder at h
  split at h
  · rename_i hs
    have he : order = (List.range order.length).map (· + 1) :=
      sorted_unique hp (by simpa [issorted] using hs) (by rw [List.pairwise_map]; exact List.pairwise_lt_range.imp fun h => Nat.succ_le_succ (Nat.le_of_lt h))
    have hg : g < order.length := by rw [← hl]; exact (List.getElem?_eq_some_iff.1 h).1
    refine ⟨g, h, ?_⟩
    rw [he]
    simp [hg]
  · have hlt : ∀ i ∈ argsort order, i < iFirst.length := fun i hi => by rw [hl]; exact argsort_lt order i hi
    have hg : g < (argsort order).length := by
      have := (List.getElem?_eq_some_iff.1 h).1
      rwa [take_length _ _ hlt] at this
    have hk := List.getElem?_eq_getElem hg
    rw [take_get iFirst _ hlt g _ hk] at h
    refine ⟨_, h, ?_⟩
    rw [← argsort_get order g _ hk, hsort]
    rw [argsort_length] at hg
    simp [hg]

/-! ## the new keys -/

section
variable {keys : List Nat} {filter : List Bool} {cb : Combined} {m : Nat}

theorem iFirst_lt (h : CombinedOK keys filter cb) : ∀ p ∈ cb.iFirst, p < keys.length := by
  intro p hp
  obtain ⟨g, hg⟩ := List.mem_iff_getElem?.1 hp
  have := (List.getElem?_eq_some_iff.1 (h.first g p hg).1).1
  rwa [h.len] at this

/-- keys of the groups that are left -/
theorem sortkey_get (h : CombinedOK keys filter cb) (g p : Nat) (hg : cb.iFirst[g]? = some p) : (take keys cb.iFirst)[g]? = keys[p]? :=
  take_get keys cb.iFirst (iFirst_lt h) g p hg

theorem sortkey_length (h : CombinedOK keys filter cb) : (take keys cb.iFirst).length = cb.n := by
  rw [take_length _ _ (iFirst_lt h), h.nfirst]

/-- the key of a row that is left is that of its group -/
theorem row_key (h : CombinedOK keys filter cb) (i k g : Nat) (hk : keys[i]? = some k) (hi : cb.iKey[i]? = some (g + 1)) :
    (take keys cb.iFirst)[g]? = some k := by
  have hle := h.le _ (List.mem_of_getElem? hi)
  have hg : g < cb.iFirst.length := by rw [h.nfirst]; omega
  have hp := List.getElem?_eq_getElem hg
  have hpl := iFirst_lt h _ (List.getElem_mem hg)
  rw [sortkey_get h g _ hp, List.getElem?_eq_getElem hpl]
  congr 1
  exact (h.same _ i _ k g g (List.getElem?_eq_getElem hpl) hk (h.first g _ hp).1 hi).1 rfl

theorem sortkey_row (h : CombinedOK keys filter cb) (g s : Nat) (hs : (take keys cb.iFirst)[g]? = some s) :
    ∃ p, cb.iFirst[g]? = some p ∧ keys[p]? = some s ∧ cb.iKey[p]? = some (g + 1) ∧ filter[p]? = some true ∧ s ≠ 0 := by
  have hg : g < cb.iFirst.length := by
    have := (List.getElem?_eq_some_iff.1 hs).1
    rwa [take_length _ _ (iFirst_lt h)] at this
  have hp := List.getElem?_eq_getElem hg
  have hk : keys[cb.iFirst[g]]? = some s := by rw [← sortkey_get h g _ hp, hs]
  have hi := (h.first g _ hp).1
  have hz := h.zero _ _ hk
  rw [hi] at hz
  simp only [Option.some.injEq, Nat.succ_ne_zero, ne_eq, false_iff, not_or, not_not] at hz
  exact ⟨_, hp, hk, hi, hz.1, hz.2⟩

theorem sortkey_nodup (h : CombinedOK keys filter cb) : (take keys cb.iFirst).Nodup := by
  rw [List.nodup_iff_getElem?_ne_getElem?]
  intro a b hab hb he
  obtain ⟨p, _, k1, i1, _⟩ := sortkey_row h b _ (List.getElem?_eq_getElem hb)
  obtain ⟨q, _, k2, i2, _⟩ := sortkey_row h a _ (he.trans (List.getElem?_eq_getElem hb))
  have := (h.same q p _ _ a b k2 k1 i2 i1).2 rfl
  omega

/-- all groups are left: the keys of the groups are all keys -/
theorem sortkey_perm (h : CombinedOK keys filter cb) (hm : ∀ k ∈ keys, k ≤ m) (hn : m = cb.n) :
    (take keys cb.iFirst).Perm ((List.range m).map (· + 1)) := by
  refine (List.subperm_of_subset (sortkey_nodup h) fun s hs => ?_).perm_of_length_le (by simp [sortkey_length h, hn])
  obtain ⟨g, hg⟩ := List.mem_iff_getElem?.1 hs
  obtain ⟨p, _, hk, _, _, h0⟩ := sortkey_row h g s hg
  have := hm s (List.mem_of_getElem? hk)
  exact List.mem_map.2 ⟨s - 1, List.mem_range.2 (by omega), by omega⟩

end

/-! ## the claims -/

/-- the sorted numbers of the categories that are left -/
theorem sort_pred (l : List Nat) : (l.map (· - 1)).insertionSort (· ≤ ·) = (l.insertionSort (· ≤ ·)).map (· - 1) := by
  refine sorted_unique ((List.perm_insertionSort _ _).trans ((List.perm_insertionSort _ l).symm.map _)) (List.pairwise_insertionSort _ _) ?_
  rw [List.pairwise_map]
  exact (List.pairwise_insertionSort _ l).imp fun h => Nat.sub_le_sub_right h 1

theorem pred_lt {keys : List Nat} {filter : List Bool} {cb : Combined} (h : CombinedOK keys filter cb) (labels : List L)
    (hm : ∀ k ∈ keys, k ≤ labels.length) : ∀ i ∈ ((take keys cb.iFirst).insertionSort (· ≤ ·)).map (· - 1), i < labels.length := by
  intro i hi
  obtain ⟨s, hs, rfl⟩ := List.mem_map.1 hi
  obtain ⟨g, hg⟩ := List.mem_iff_getElem?.1 ((List.perm_insertionSort _ _).mem_iff.1 hs)
  obtain ⟨p, _, hk, _, _, h0⟩ := sortkey_row h g s hg
  have := hm s (List.mem_of_getElem? hk)
  show s - 1 < _
  omega

/-- the order in which the groups of the result are numbered: group `g` of the filtered keys becomes `order[g]` -/
def orderOf (keys : List Nat) (labels : List L) (cb : Combined) : List Nat :=
  if labels.length = cb.n then take keys cb.iFirst else (argsort (argsort (take keys cb.iFirst))).map (· + 1)

theorem order_length {keys : List Nat} {filter : List Bool} {cb : Combined} (h : CombinedOK keys filter cb) (labels : List L) :
    (orderOf keys labels cb).length = cb.n := by
  unfold orderOf
  split
  · exact sortkey_length h
  · simp [argsort_length, sortkey_length h]

theorem order_perm {keys : List Nat} {filter : List Bool} {cb : Combined} (h : CombinedOK keys filter cb) (labels : List L)
    (hm : ∀ k ∈ keys, k ≤ labels.length) : (orderOf keys labels cb).Perm ((List.range cb.n).map (· + 1)) := by
  unfold orderOf
  split
  · rename_i hn
    have := sortkey_perm h hm hn
    rwa [hn] at this
  · have := (rank_perm (take keys cb.iFirst)).map (· + 1)
    rwa [sortkey_length h] at this

theorem regroup_iKey {keys : List Nat} {filter : List Bool} {cb : Combined} (h : CombinedOK keys filter cb) (labels : List L)
    (hasFilter : Bool) (i : Nat) :
    (cb.iKey[i]? = some 0 → (regroup keys labels cb hasFilter).iKey[i]? = some 0) ∧
    ∀ g, cb.iKey[i]? = some (g + 1) → (regroup keys labels cb hasFilter).iKey[i]? = (orderOf keys labels cb)[g]? := by
  have hg' : ∀ g, cb.iKey[i]? = some (g + 1) → g < (orderOf keys labels cb).length := by
    intro g hg
    rw [order_length h]
    have := h.le _ (List.mem_of_getElem? hg)
    omega
  unfold regroup
  unfold orderOf at hg' ⊢
  simp only
  by_cases hn : labels.length = cb.n
  · simp only [if_pos hn] at hg' ⊢
    split
    · rename_i hall
      simp only [Bool.and_eq_true, List.all_eq_true, decide_eq_true_eq] at hall
      refine ⟨fun h0 => ?_, fun g hg => ?_⟩
      · have := hall.2 0 (List.mem_of_getElem? h0)
        omega
      · simp only [List.getElem?_map, hg, Option.map_some, Nat.add_sub_cancel]
        rw [List.getElem?_eq_getElem (hg' g hg)]
        rfl
    · refine ⟨fun h0 => ?_, fun g hg => ?_⟩
      · simp [h0]
      · simp only [List.getElem?_map, hg, Option.map_some, List.getElem?_cons_succ]
        rw [List.getElem?_eq_getElem (hg' g hg)]
        rfl
  · simp only [if_neg hn] at hg' ⊢
    refine ⟨fun h0 => ?_, fun g hg => ?_⟩
    · simp [h0]
    · simp only [List.getElem?_map (f := fun k => _) (l := cb.iKey), hg, Option.map_some, List.getElem?_cons_succ]
      rw [List.getElem?_eq_getElem (hg' g hg)]
      rfl

/-- the label of a group that is left -/
theorem regroup_label {keys : List Nat} {filter : List Bool} {cb : Combined} (h : CombinedOK keys filter cb) (labels : List L)
    (hasFilter : Bool) (hm : ∀ k ∈ keys, k ≤ labels.length) (g s o : Nat) (hs : (take keys cb.iFirst)[g]? = some s)
    (ho : (orderOf keys labels cb)[g]? = some o) : 1 ≤ o ∧ (regroup keys labels cb hasFilter).labels[o - 1]? = labels[s - 1]? := by
  have ho1 : 1 ≤ o := by
    have := (order_perm h labels hm).mem_iff.1 (List.mem_of_getElem? ho)
    obtain ⟨a, _, rfl⟩ := List.mem_map.1 this
    omega
  refine ⟨ho1, ?_⟩
  unfold orderOf at ho
  unfold regroup
  simp only
  by_cases hn : labels.length = cb.n
  · rw [if_pos hn] at ho ⊢
    rw [hs] at ho
    obtain rfl := Option.some.inj ho
    split <;> rfl
  · rw [if_neg hn] at ho ⊢
    rw [List.getElem?_map, Option.map_eq_some_iff] at ho
    obtain ⟨t, ht, rfl⟩ := ho
    have hr := rank_get _ g t ht
    rw [hs] at hr
    simp only [Nat.add_sub_cancel]
    rw [sort_pred]
    exact take_get labels _ (pred_lt h labels hm) t (s - 1) (by rw [List.getElem?_map, hr]; rfl)

/-- **C101** `set_valid(filter)`: every row that passes the filter keeps its label, the other rows are filtered. -/
theorem regroup_rows (keys : List Nat) (filter : List Bool) (cb : Combined) (h : CombinedOK keys filter cb) (labels : List L)
    (hasFilter : Bool) (hm : ∀ k ∈ keys, k ≤ labels.length) :
    Kept filter (keys.map fun (k : Nat) => label? 1 labels k)
      ((regroup keys labels cb hasFilter).iKey.map fun (k : Nat) => label? 1 (regroup keys labels cb hasFilter).labels k) := by
  have hlen : (regroup keys labels cb hasFilter).iKey.length = keys.length := by
    unfold regroup
    simp only
    split
    · split <;> simp [h.len]
    · simp [h.len]
  refine ⟨by simp [hlen], fun i r hr => ?_⟩
  rw [List.getElem?_map, Option.map_eq_some_iff] at hr
  obtain ⟨k, hk, rfl⟩ := hr
  have hil : i < cb.iKey.length := by rw [h.len]; exact (List.getElem?_eq_some_iff.1 hk).1
  obtain ⟨h0, h1⟩ := regroup_iKey h labels hasFilter i
  rw [List.getElem?_map]
  rcases hz : cb.iKey[i] with _ | g
  · have hz' : cb.iKey[i]? = some 0 := by rw [List.getElem?_eq_getElem hil, hz]
    rw [h0 hz', Option.map_some]
    congr 1
    rcases (h.zero i k hk).1 hz' with hf | rfl
    · rw [if_neg hf]; simp [label?]
    · split <;> simp [label?]
  · have hz' : cb.iKey[i]? = some (g + 1) := by rw [List.getElem?_eq_getElem hil, hz]
    have hs := row_key h i k g hk hz'
    obtain ⟨_, _, _, _, _, hk0⟩ := sortkey_row h g k hs
    have hf : filter[i]? = some true := by
      by_contra hc
      have := (h.zero i k hk).2 (.inl hc)
      rw [hz'] at this
      simp at this
    have hgl : g < (orderOf keys labels cb).length := by
      rw [order_length h]
      have := h.le _ (List.mem_of_getElem? hz')
      omega
    have ho := List.getElem?_eq_getElem hgl
    obtain ⟨ho1, hl⟩ := regroup_label h labels hasFilter hm g k _ hs ho
    rw [h1 g hz', ho, Option.map_some, if_pos hf]
    congr 1
    unfold label?
    have e : ∀ n : Nat, ((n : Int) - ((1 : Nat) : Int)).toNat = n - 1 := by omega
    rw [if_neg (by push_cast; omega), if_neg (by push_cast; omega), e, e, hl]

theorem take_sublist {A : Type} (a : List A) (idx : List Nat) (hs : idx.Pairwise (· < ·)) (hlt : ∀ i ∈ idx, i < a.length) :
    (take a idx).Sublist a := by
  have e : idx = (List.range a.length).filter fun i => decide (i ∈ idx) := by
    refine Verif.Dup.sorted_ext hs (List.Pairwise.filter _ List.pairwise_lt_range) fun i => ?_
    simp only [List.mem_filter, List.mem_range, decide_eq_true_eq]
    exact ⟨fun h => ⟨hlt i h, h⟩, fun h => h.2⟩
  have hall : (List.range a.length).filterMap (fun i => a[i]?) = a := by
    apply List.ext_getElem?
    intro i
    by_cases hi : i < a.length
    · rw [filterMap_some_get _ _ (fun j hj => ⟨_, List.getElem?_eq_getElem (List.mem_range.1 hj)⟩) i i (List.getElem?_range hi)]
    · rw [List.getElem?_eq_none (by omega : a.length ≤ i), List.getElem?_eq_none]
      have := List.length_filterMap_le (fun i => a[i]?) (List.range a.length)
      simp at this
      omega
  conv => rhs; rw [← hall]
  unfold take
  rw [e]
  exact List.Sublist.filterMap _ List.filter_sublist

/-- **C101** The categories of the result are categories of the Categorical, in their order, and are exactly the labels of the rows
that are left. -/
theorem regroup_labels (keys : List Nat) (filter : List Bool) (cb : Combined) (h : CombinedOK keys filter cb) (labels : List L)
    (hasFilter : Bool) (hm : ∀ k ∈ keys, k ≤ labels.length) :
    (regroup keys labels cb hasFilter).labels.Sublist labels ∧ ∀ l, l ∈ (regroup keys labels cb hasFilter).labels ↔
      ∃ i : Nat, filter[i]? = some true ∧ (keys.map fun (k : Nat) => label? 1 labels k)[i]? = some (some l) := by
  -- a group that is left has a row that is left
  have hrow : ∀ (g s : Nat) (l : L), (take keys cb.iFirst)[g]? = some s → labels[s - 1]? = some l →
      ∃ i : Nat, filter[i]? = some true ∧ (keys.map fun (k : Nat) => label? 1 labels k)[i]? = some (some l) := by
    intro g s l hs hl
    obtain ⟨p, _, hk, _, hf, h0⟩ := sortkey_row h g s hs
    refine ⟨p, hf, ?_⟩
    rw [List.getElem?_map, hk, Option.map_some]
    congr 1
    unfold label?
    rw [if_neg (by push_cast; omega), show ((s : Int) - ((1 : Nat) : Int)).toNat = s - 1 by omega, hl]
  -- a row that is left belongs to a group that is left
  have hgrp : ∀ (i : Nat) (l : L), filter[i]? = some true → (keys.map fun (k : Nat) => label? 1 labels k)[i]? = some (some l) →
      ∃ g s : Nat, (take keys cb.iFirst)[g]? = some s ∧ labels[s - 1]? = some l := by
    intro i l hf hl
    rw [List.getElem?_map, Option.map_eq_some_iff] at hl
    obtain ⟨k, hk, hl⟩ := hl
    unfold label? at hl
    have hk0 : k ≠ 0 := by
      rintro rfl
      simp at hl
    rw [if_neg (by push_cast; omega), show ((k : Int) - ((1 : Nat) : Int)).toNat = k - 1 by omega] at hl
    have hil : i < cb.iKey.length := by rw [h.len]; exact (List.getElem?_eq_some_iff.1 hk).1
    rcases hz : cb.iKey[i] with _ | g
    · rcases (h.zero i k hk).1 (by rw [List.getElem?_eq_getElem hil, hz]) with hc | hc
      · exact absurd hf hc
      · exact absurd hc hk0
    · exact ⟨g, k, row_key h i k g hk (by rw [List.getElem?_eq_getElem hil, hz]), hl⟩
  by_cases hn : labels.length = cb.n
  · have e : (regroup keys labels cb hasFilter).labels = labels := by
      unfold regroup
      simp only [if_pos hn]
      split <;> rfl
    rw [e]
    refine ⟨List.Sublist.refl _, fun l => ⟨fun hl => ?_, fun ⟨i, hf, hi⟩ => ?_⟩⟩
    · obtain ⟨j, hj⟩ := List.mem_iff_getElem?.1 hl
      have hjl := (List.getElem?_eq_some_iff.1 hj).1
      have := (sortkey_perm h hm hn).mem_iff.2 (List.mem_map.2 ⟨j, List.mem_range.2 hjl, rfl⟩)
      obtain ⟨g, hg⟩ := List.mem_iff_getElem?.1 this
      exact hrow g (j + 1) l hg (by simpa using hj)
    · obtain ⟨g, s, _, hl⟩ := hgrp i l hf hi
      exact List.mem_of_getElem? hl
  · have e : (regroup keys labels cb hasFilter).labels = take labels (((take keys cb.iFirst).insertionSort (· ≤ ·)).map (· - 1)) := by
      unfold regroup
      simp only [if_neg hn]
      rw [sort_pred]
    rw [e]
    have hpos : ∀ s ∈ (take keys cb.iFirst).insertionSort (· ≤ ·), 1 ≤ s := by
      intro s hs
      obtain ⟨g, hg⟩ := List.mem_iff_getElem?.1 ((List.perm_insertionSort _ _).mem_iff.1 hs)
      obtain ⟨_, _, _, _, _, h0⟩ := sortkey_row h g s hg
      omega
    have hstrict : ((take keys cb.iFirst).insertionSort (· ≤ ·)).Pairwise (· < ·) := by
      have h1 := List.pairwise_insertionSort (· ≤ ·) (take keys cb.iFirst)
      have h2 : ((take keys cb.iFirst).insertionSort (· ≤ ·)).Nodup := (List.perm_insertionSort _ _).nodup_iff.2 (sortkey_nodup h)
      exact (h1.and h2).imp fun ⟨a, b⟩ => Nat.lt_of_le_of_ne a b
    refine ⟨take_sublist _ _ ?_ (pred_lt h labels hm), fun l => ⟨fun hl => ?_, fun ⟨i, hf, hi⟩ => ?_⟩⟩
    · rw [List.pairwise_map]
      refine List.Pairwise.imp_of_mem ?_ hstrict
      intro a b ha hb hab
      have := hpos a ha
      have := hpos b hb
      show a - 1 < b - 1
      omega
    · unfold take at hl
      obtain ⟨j, hj, hjl⟩ := List.mem_filterMap.1 hl
      obtain ⟨s, hs, rfl⟩ := List.mem_map.1 hj
      obtain ⟨g, hg⟩ := List.mem_iff_getElem?.1 ((List.perm_insertionSort _ _).mem_iff.1 hs)
      exact hrow g s l hg hjl
    · obtain ⟨g, s, hs, hl⟩ := hgrp i l hf hi
      unfold take
      exact List.mem_filterMap.2 ⟨s - 1, List.mem_map.2 ⟨s, (List.perm_insertionSort _ _).mem_iff.2 (List.mem_of_getElem? hs), rfl⟩, hl⟩

/-- **C101** The first rows of the groups of the result are the first rows of its groups. -/
theorem regroup_first (keys : List Nat) (filter : List Bool) (cb : Combined) (h : CombinedOK keys filter cb) (labels : List L)
    (hasFilter : Bool) (hm : ∀ k ∈ keys, k ≤ labels.length) (g p : Nat) (hg : (regroup keys labels cb hasFilter).iFirst[g]? = some p) :
    (regroup keys labels cb hasFilter).iKey[p]? = some (g + 1) ∧ ∀ j < p, (regroup keys labels cb hasFilter).iKey[j]? ≠ some (g + 1) := by
  have e : (regroup keys labels cb hasFilter).iFirst = reorder cb.iFirst (orderOf keys labels cb) := by
    unfold regroup orderOf
    by_cases hn : labels.length = cb.n
    · simp only [if_pos hn]
      split <;> rfl
    · simp only [if_neg hn]
  have hol := order_length h labels
  rw [e] at hg
  obtain ⟨k, h1, h2⟩ := reorder_get cb.iFirst (orderOf keys labels cb) (by rw [h.nfirst, hol]) (by rw [hol]; exact order_perm h labels hm) g p hg
  obtain ⟨hi, hfirst⟩ := h.first k p h1
  refine ⟨by rw [(regroup_iKey h labels hasFilter p).2 k hi, h2], fun j hj hc => ?_⟩
  obtain ⟨r0, r1⟩ := regroup_iKey h labels hasFilter j
  have hjl : j < cb.iKey.length := by
    have := (List.getElem?_eq_some_iff.1 hi).1
    omega
  rcases hz : cb.iKey[j] with _ | k'
  · rw [r0 (by rw [List.getElem?_eq_getElem hjl, hz])] at hc
    simp at hc
  · have hz' : cb.iKey[j]? = some (k' + 1) := by rw [List.getElem?_eq_getElem hjl, hz]
    rw [r1 k' hz'] at hc
    have hnd : (orderOf keys labels cb).Nodup := (order_perm h labels hm).nodup_iff.2
      ((List.nodup_range).map fun a b h => by simpa using h)
    have hkl := (List.getElem?_eq_some_iff.1 hc).1
    have : k' = k := (List.getElem?_inj hkl hnd).1 (hc.trans h2.symm)
    subst this
    exact hfirst j hj hz'

/-! ## the contract can be met, and the claims for Categoricals -/

/-- reference for `combine_accum1_filter` -/
def refMasked (keys : List Nat) (filter : List Bool) : List Nat :=
  (List.range keys.length).map fun (i : Nat) => if filter[i]? = some true then keys[i]?.getD 0 else 0

def refCombine (keys : List Nat) (filter : List Bool) : Combined :=
  let m := refMasked keys filter
  let u := Verif.Dup.uniq (m.filter fun k => decide (k ≠ 0))
  ⟨m.map fun (k : Nat) => if k = 0 then 0 else u.idxOf k + 1, u.map fun (k : Nat) => m.idxOf k, u.length⟩

theorem refCombine_ok (keys : List Nat) (filter : List Bool) : CombinedOK keys filter (refCombine keys filter) := by
  have hm : ∀ (i k : Nat), keys[i]? = some k → (refMasked keys filter)[i]? = some (if filter[i]? = some true then k else 0) := by
    intro i k hk
    have hi := (List.getElem?_eq_some_iff.1 hk).1
    unfold refMasked
    rw [List.getElem?_map, List.getElem?_range hi, Option.map_some, hk]
    rfl
  have hu : ∀ k, k ∈ Verif.Dup.uniq ((refMasked keys filter).filter fun k => decide (k ≠ 0)) ↔ k ∈ refMasked keys filter ∧ k ≠ 0 := by
    intro k
    rw [Verif.Dup.mem_uniq]
    simp
  have hik : ∀ (i a : Nat), (refCombine keys filter).iKey[i]? = some a ↔ ∃ k, (refMasked keys filter)[i]? = some k ∧
      (if k = 0 then 0 else (Verif.Dup.uniq ((refMasked keys filter).filter fun k => decide (k ≠ 0))).idxOf k + 1) = a := by
    intro i a
    unfold refCombine
    simp only [List.getElem?_map, Option.map_eq_some_iff]
  refine ⟨by simp [refCombine, refMasked], ?_, ?_, ?_, by simp [refCombine], ?_⟩
  · intro i k hk
    rw [hik]
    constructor
    · rintro ⟨k', h1, h2⟩
      rw [hm i k hk] at h1
      have h1 := Option.some.inj h1
      by_cases hf : filter[i]? = some true
      · rw [if_pos hf] at h1
        subst h1
        right
        by_contra h0
        rw [if_neg h0] at h2
        omega
      · exact .inl hf
    · intro h
      refine ⟨_, hm i k hk, ?_⟩
      rcases h with h | h
      · rw [if_neg h]; rfl
      · subst h; simp
  · intro i j k k' a b hk hk' ha hb
    obtain ⟨x, hx, hx'⟩ := (hik _ _).1 ha
    obtain ⟨y, hy, hy'⟩ := (hik _ _).1 hb
    have hx0 : x ≠ 0 := by rintro rfl; simp at hx'
    have hy0 : y ≠ 0 := by rintro rfl; simp at hy'
    rw [if_neg hx0] at hx'
    rw [if_neg hy0] at hy'
    have ex : x = k := by
      have := hx.symm.trans (hm i k hk)
      by_cases hf : filter[i]? = some true
      · rw [if_pos hf] at this; exact Option.some.inj this
      · rw [if_neg hf] at this; exact absurd (Option.some.inj this) hx0
    have ey : y = k' := by
      have := hy.symm.trans (hm j k' hk')
      by_cases hf : filter[j]? = some true
      · rw [if_pos hf] at this; exact Option.some.inj this
      · rw [if_neg hf] at this; exact absurd (Option.some.inj this) hy0
    subst ex; subst ey
    constructor
    · rintro rfl
      exact Verif.Dup.idxOf_inj' ((hu x).2 ⟨List.mem_of_getElem? hx, hx0⟩) (by omega)
    · rintro rfl; omega
  · intro a ha
    obtain ⟨i, hi⟩ := List.mem_iff_getElem?.1 ha
    obtain ⟨x, hx, hx'⟩ := (hik _ _).1 hi
    by_cases h0 : x = 0
    · rw [if_pos h0] at hx'; omega
    · rw [if_neg h0] at hx'
      have := List.idxOf_lt_length_iff.2 ((hu x).2 ⟨List.mem_of_getElem? hx, h0⟩)
      show a ≤ (Verif.Dup.uniq ((refMasked keys filter).filter fun k => decide (k ≠ 0))).length
      omega
  · intro g p hg
    have hg' : ((Verif.Dup.uniq ((refMasked keys filter).filter fun k => decide (k ≠ 0))).map fun (k : Nat) =>
      (refMasked keys filter).idxOf k)[g]? = some p := hg
    rw [List.getElem?_map, Option.map_eq_some_iff] at hg'
    obtain ⟨k, hk, rfl⟩ := hg'
    obtain ⟨hkm, hk0⟩ := (hu k).1 (List.mem_of_getElem? hk)
    have hlt := List.idxOf_lt_length_iff.2 hkm
    have hgk : (Verif.Dup.uniq ((refMasked keys filter).filter fun k => decide (k ≠ 0))).idxOf k = g := by
      obtain ⟨h1, h2⟩ := List.getElem?_eq_some_iff.1 hk
      rw [← h2]
      exact (Verif.Dup.nodup_uniq _).idxOf_getElem g h1
    refine ⟨(hik _ _).2 ⟨k, ?_, by rw [if_neg hk0, hgk]⟩, ?_⟩
    · rw [List.getElem?_eq_getElem hlt, List.getElem_idxOf hlt]
    · intro j hj hc
      obtain ⟨x, hx, hx'⟩ := (hik _ _).1 hc
      have hx0 : x ≠ 0 := by rintro rfl; simp at hx'
      rw [if_neg hx0] at hx'
      have : x = k := Verif.Dup.idxOf_inj' ((hu x).2 ⟨List.mem_of_getElem? hx, hx0⟩) (by omega)
      subst this
      have hjl := (List.getElem?_eq_some_iff.1 hx).1
      have := List.not_of_lt_findIdx (p := (· == x)) (xs := refMasked keys filter) hj
      rw [List.getElem?_eq_getElem hjl] at hx
      simp [Option.some.inj hx] at this

/-- the 1-based keys of a Categorical -/
theorem keys_rows (c : C L) (hc : c.WF) : (c.codes.map fun (k : Int) => (k + (1 - (c.base : Int))).toNat).map (fun (k : Nat) => label? 1 c.labels k) = c.rows := by
  unfold C.rows
  rw [List.map_map]
  refine List.map_congr_left fun k hk => ?_
  have h1 := hc.lo k hk
  have h2 := hc.base
  have h3 : ((k + (1 - (c.base : Int))).toNat : Int) = k + (1 - c.base) := by omega
  show label? 1 c.labels ((k + (1 - (c.base : Int))).toNat : Int) = label? c.base c.labels k
  rw [h3]
  unfold label?
  by_cases hk' : k < (c.base : Int)
  · rw [if_pos hk', if_pos (by push_cast; omega)]
  · rw [if_neg hk', if_neg (by push_cast; omega), show (k + (1 - (c.base : Int)) - ((1 : Nat) : Int)).toNat = (k - c.base).toNat by omega]

theorem keys_le (c : C L) (hc : c.WF) : ∀ k ∈ c.codes.map fun (k : Int) => (k + (1 - (c.base : Int))).toNat, k ≤ c.labels.length := by
  intro x hx
  obtain ⟨k, hk, rfl⟩ := List.mem_map.1 hx
  have := hc.hi k hk
  have := hc.lo k hk
  omega

/-- **C101** `set_valid(filter)` of a Categorical, with base index 1 or 0: rows that pass keep their label, the other rows are filtered;
the categories are exactly the labels left, in their order; and the result is a proper Categorical. `filter` is all True if none was given. -/
theorem setValid_correct (c : C L) (hc : c.WF) (filter : List Bool) (cb : Combined) (hasFilter : Bool)
    (h : CombinedOK (c.codes.map fun (k : Int) => (k + (1 - (c.base : Int))).toNat) filter cb) :
    (setValid c cb hasFilter).WF ∧ Kept filter c.rows (setValid c cb hasFilter).rows ∧
    (setValid c cb hasFilter).labels.Sublist c.labels ∧
    ∀ l, l ∈ (setValid c cb hasFilter).labels ↔ some l ∈ (setValid c cb hasFilter).rows := by
  have hm := keys_le c hc
  have hrows := regroup_rows _ filter cb h c.labels hasFilter hm
  have hlab := regroup_labels _ filter cb h c.labels hasFilter hm
  rw [keys_rows c hc] at hrows hlab
  have e : (setValid c cb hasFilter).rows = (regroup (c.codes.map fun (k : Int) => (k + (1 - (c.base : Int))).toNat) c.labels cb hasFilter).iKey.map
      fun (k : Nat) => label? 1 (regroup (c.codes.map fun (k : Int) => (k + (1 - (c.base : Int))).toNat) c.labels cb hasFilter).labels k := by
    unfold C.rows setValid
    simp only [List.map_map]
    rfl
  rw [← e] at hrows
  refine ⟨⟨Nat.le_refl 1, hlab.1.nodup hc.nodup, ?_, ?_⟩, hrows, hlab.1, fun l => ?_⟩
  · intro k hk
    obtain ⟨x, _, rfl⟩ := List.mem_map.1 hk
    exact Int.natCast_nonneg x
  · intro k hk
    obtain ⟨x, hx, rfl⟩ := List.mem_map.1 hk
    -- the number of a row is 0 or that of a group
    obtain ⟨i, hi⟩ := List.mem_iff_getElem?.1 hx
    obtain ⟨r0, r1⟩ := regroup_iKey h c.labels hasFilter i
    have hil : i < cb.iKey.length := by
      have h1 := (List.getElem?_eq_some_iff.1 hi).1
      have h2 : (regroup (c.codes.map fun (k : Int) => (k + (1 - (c.base : Int))).toNat) c.labels cb hasFilter).iKey.length = cb.iKey.length := by
        unfold regroup
        simp only
        split
        · split <;> simp
        · simp
      omega
    show (x : Int) < 1 + ((regroup _ c.labels cb hasFilter).labels.length : Int)
    rcases hz : cb.iKey[i] with _ | g
    · rw [r0 (by rw [List.getElem?_eq_getElem hil, hz])] at hi
      have := Option.some.inj hi
      omega
    · have hz' : cb.iKey[i]? = some (g + 1) := by rw [List.getElem?_eq_getElem hil, hz]
      rw [r1 g hz'] at hi
      have hgl : g < (take (c.codes.map fun (k : Int) => (k + (1 - (c.base : Int))).toNat) cb.iFirst).length := by
        rw [sortkey_length h]
        have := h.le _ (List.mem_of_getElem? hz')
        omega
      have hs := List.getElem?_eq_getElem hgl
      obtain ⟨ho1, hl⟩ := regroup_label h c.labels hasFilter hm g _ x hs hi
      obtain ⟨p, _, hk, _, _, h0⟩ := sortkey_row h g _ hs
      have hle := hm _ (List.mem_of_getElem? hk)
      rw [List.getElem?_eq_getElem (by omega : _ - 1 < c.labels.length)] at hl
      have := (List.getElem?_eq_some_iff.1 hl).1
      omega
  · show l ∈ (regroup _ c.labels cb hasFilter).labels ↔ _
    rw [hlab.2 l, List.mem_iff_getElem?]
    constructor
    · rintro ⟨i, hf, hi⟩
      refine ⟨i, ?_⟩
      rw [hrows.2 i _ hi, if_pos hf]
    · rintro ⟨i, hi⟩
      have hil : i < c.rows.length := by rw [← hrows.1]; exact (List.getElem?_eq_some_iff.1 hi).1
      have hr := hrows.2 i _ (List.getElem?_eq_getElem hil)
      rw [hi] at hr
      by_cases hf : filter[i]? = some true
      · rw [if_pos hf] at hr
        exact ⟨i, hf, by rw [List.getElem?_eq_getElem hil, ← Option.some.inj hr]⟩
      · rw [if_neg hf] at hr
        simp at hr

example : setValid (⟨1, [3, 0, 1, 3, 2], ["a", "b", "c"]⟩ : C String) (refCombine [3, 0, 1, 3, 2] [true, true, true, true, false]) true
    = ⟨1, [2, 0, 1, 2, 0], ["a", "c"]⟩ := by decide +kernel

example : setValid (⟨0, [2, 0, 0, 1], ["a", "b", "c"]⟩ : C String) (refCombine [3, 1, 1, 2] [true, true, true, true]) false
    = ⟨1, [3, 1, 1, 2], ["a", "b", "c"]⟩ := by decide +kernel

end Verif.CatOps
