import Verif.Sizes.Model
import Mathlib.Data.List.Nodup
import Mathlib.Data.List.Perm.Subperm
/-! # The sizes of a Struct: properties (C340 - C343) -/
namespace Verif.Sizes
open Spec

theorem getD_eq (h : Heap) (s : Nat) : h.getD s [] = (h[s]?).getD [] := by
  rw [List.getD_eq_getElem?_getD]

theorem holds_iff (h : Heap) (s : Nat) (it : Item) : Holds h s it ↔ it ∈ h.getD s [] := by
  rw [getD_eq]
  unfold Holds
  cases h[s]? with
  | none => simp
  | some l => simp

theorem catBytes_eq (n : Nat) (cats : List (Nat × Nat)) : catBytes n cats = n + (cats.map Prod.snd).sum := by
  unfold catBytes
  induction cats generalizing n with
  | nil => simp
  | cons c cats ih =>
    simp only [List.foldl_cons, List.map_cons, List.sum_cons]
    rw [ih]
    omega

/-! ## The part of the state that says where to go -/

theorem count_pending (st : St) (b n : Nat) : (count st b n).pending = st.pending ∧ (count st b n).structs = st.structs ∧
    (count st b n).raised = st.raised := by
  unfold count
  split <;> exact ⟨rfl, rfl, rfl⟩

theorem visit_where (st : St) (it : Item) (hn : st.structs.Nodup) (a : List Nat)
    (r : Nat) (hp : (a ++ st.pending).Perm (r :: st.structs)) :
    (visit st it).structs.Nodup ∧ (a ++ (visit st it).pending).Perm (r :: (visit st it).structs) ∧
    ∀ x, x ∈ (visit st it).structs ↔ x ∈ st.structs ∨ it = .sub x := by
  cases it with
  | array b n =>
    obtain ⟨h1, h2, _⟩ := count_pending st b n
    simp only [visit]
    rw [h1, h2]
    exact ⟨hn, hp, fun x => by simp⟩
  | cat b n cats =>
    obtain ⟨h1, h2, _⟩ := count_pending st b (catBytes n cats)
    simp only [visit]
    rw [h1, h2]
    exact ⟨hn, hp, fun x => by simp⟩
  | int => exact ⟨hn, hp, fun x => by simp [visit]⟩
  | foreign => exact ⟨hn, hp, fun x => by simp [visit]⟩
  | other => exact ⟨hn, hp, fun x => by simp [visit]⟩
  | sub s =>
    simp only [visit]
    by_cases hs : st.structs.contains s = true
    · rw [if_pos hs]
      refine ⟨hn, hp, fun x => ?_⟩
      constructor
      · exact Or.inl
      · rintro (h | h)
        · exact h
        · cases h
          simpa using hs
    · rw [if_neg hs]
      have hs' : s ∉ st.structs := by simpa using hs
      refine ⟨List.nodup_cons.mpr ⟨hs', hn⟩, ?_, fun x => ?_⟩
      · dsimp only
        refine List.perm_middle.trans ?_
        exact (hp.cons s).trans (List.Perm.swap _ _ _)
      · dsimp only
        rw [List.mem_cons]
        constructor
        · rintro (rfl | h)
          · exact Or.inr rfl
          · exact Or.inl h
        · rintro (h | h)
          · exact Or.inr h
          · cases h
            exact Or.inl rfl

/-! ## What has been counted -/

/-- the items seen so far and the state -/
structure Sums (L : List Item) (st : St) : Prop where
  structs : ∀ x, x ∈ st.structs ↔ .sub x ∈ L
  logical : st.logical = (L.map bytesOf).sum
  nodup : st.arrays.Nodup
  arrays : ∀ b, b ∈ st.arrays ↔ ∃ it ∈ L, ∃ n, DataOf it b n
  le : st.physical ≤ st.logical
  physical : ∀ W : Nat → Nat, (∀ it ∈ L, ∀ b n, DataOf it b n → n = W b) →
    st.physical = (st.arrays.map W).sum + 4 * L.countP (fun it => it == .int)
  raised : st.raised = true ↔ .foreign ∈ L

theorem count_sums (L : List Item) (st : St) (hs : Sums L st) (it : Item) (b n : Nat) (hd : DataOf it b n)
    (hb : bytesOf it = n) : Sums (L ++ [it]) (count st b n) := by
  have hu : ∀ b' n', DataOf it b' n' → b' = b ∧ n' = n := by
    intro b' n' h'
    cases hd <;> cases h' <;> exact ⟨rfl, rfl⟩
  have hni : (it == Item.int) = false := by cases hd <;> rfl
  have hns : ∀ x, it ≠ .sub x := by
    intro x h
    rw [h] at hd
    cases hd
  have hnf : it ≠ .foreign := by
    intro h
    rw [h] at hd
    cases hd
  have h1 := count_pending st b n
  refine ⟨?_, ?_, ?_, ?_, ?_, ?_, ?_⟩
  · intro x
    rw [h1.2.1, hs.structs x, List.mem_append, List.mem_singleton]
    constructor
    · exact Or.inl
    · rintro (h | h)
      · exact h
      · exact absurd h.symm (hns x)
  · have : (count st b n).logical = st.logical + n := by
      unfold count
      split <;> rfl
    rw [this, hs.logical]
    simp [hb]
  · unfold count
    split
    · exact hs.nodup
    · rename_i hc
      exact List.nodup_cons.mpr ⟨by simpa using hc, hs.nodup⟩
  · intro b'
    have key : b' ∈ (count st b n).arrays ↔ b' ∈ st.arrays ∨ b' = b := by
      unfold count
      split
      · rename_i hc
        constructor
        · exact Or.inl
        · rintro (h | rfl)
          · exact h
          · simpa using hc
      · dsimp only
        rw [List.mem_cons]
        exact Or.comm
    rw [key, hs.arrays b']
    constructor
    · rintro (⟨i, hi, m, hm⟩ | rfl)
      · exact ⟨i, List.mem_append_left _ hi, m, hm⟩
      · exact ⟨it, by simp, n, hd⟩
    · rintro ⟨i, hi, m, hm⟩
      rw [List.mem_append, List.mem_singleton] at hi
      rcases hi with hi | rfl
      · exact Or.inl ⟨i, hi, m, hm⟩
      · exact Or.inr (hu _ _ hm).1
  · have := hs.le
    unfold count
    split
    · dsimp only
      omega
    · dsimp only
      omega
  · intro W hW
    have hW1 := hs.physical W fun i hi => hW i (List.mem_append_left _ hi)
    have hn : n = W b := hW it (by simp) b n hd
    rw [List.countP_append, List.countP_singleton, hni]
    simp only [Bool.false_eq_true, if_false, Nat.add_zero]
    unfold count
    split
    · exact hW1
    · dsimp only
      rw [hW1, List.map_cons, List.sum_cons]
      omega
  · rw [h1.2.2, hs.raised, List.mem_append, List.mem_singleton]
    constructor
    · exact Or.inl
    · rintro (h | h)
      · exact h
      · exact absurd h.symm hnf

theorem visit_sums (L : List Item) (st : St) (hs : Sums L st) (it : Item) : Sums (L ++ [it]) (visit st it) := by
  cases it with
  | array b n => exact count_sums L st hs _ b n (.array b n) rfl
  | cat b n cats =>
    simp only [visit]
    rw [catBytes_eq]
    exact count_sums L st hs _ b _ (.cat b n cats) rfl
  | sub s =>
    have hv : (visit st (.sub s)).arrays = st.arrays ∧ (visit st (.sub s)).physical = st.physical ∧
        (visit st (.sub s)).logical = st.logical ∧ (visit st (.sub s)).raised = st.raised ∧
        ∀ x, x ∈ (visit st (.sub s)).structs ↔ x ∈ st.structs ∨ x = s := by
      simp only [visit]
      split
      · rename_i hc
        refine ⟨rfl, rfl, rfl, rfl, fun x => ⟨Or.inl, ?_⟩⟩
        rintro (h | rfl)
        · exact h
        · simpa using hc
      · exact ⟨rfl, rfl, rfl, rfl, fun x => by rw [List.mem_cons]; exact Or.comm⟩
    obtain ⟨h1, h2, h3, h4, h5⟩ := hv
    refine ⟨?_, ?_, ?_, ?_, ?_, ?_, ?_⟩
    · intro x
      rw [h5, hs.structs]
      simp
    · rw [h3, hs.logical]
      simp [bytesOf]
    · rw [h1]
      exact hs.nodup
    · intro b
      rw [h1, hs.arrays]
      constructor
      · rintro ⟨i, hi, h⟩
        exact ⟨i, List.mem_append_left _ hi, h⟩
      · rintro ⟨i, hi, n, h⟩
        rw [List.mem_append, List.mem_singleton] at hi
        rcases hi with hi | rfl
        · exact ⟨i, hi, n, h⟩
        · cases h
    · rw [h2, h3]
      exact hs.le
    · intro W hW
      rw [h2, h1, hs.physical W fun i hi => hW i (List.mem_append_left _ hi), List.countP_append]
      simp
    · rw [h4, hs.raised]
      simp
  | int =>
    refine ⟨?_, ?_, hs.nodup, ?_, ?_, ?_, ?_⟩
    · intro x
      simp only [visit, hs.structs]
      simp
    · simp only [visit, hs.logical]
      simp [bytesOf]
    · intro b
      simp only [visit, hs.arrays]
      constructor
      · rintro ⟨i, hi, h⟩
        exact ⟨i, List.mem_append_left _ hi, h⟩
      · rintro ⟨i, hi, n, h⟩
        rw [List.mem_append, List.mem_singleton] at hi
        rcases hi with hi | rfl
        · exact ⟨i, hi, n, h⟩
        · cases h
    · have := hs.le
      simp only [visit]
      omega
    · intro W hW
      have := hs.physical W fun i hi => hW i (List.mem_append_left _ hi)
      simp only [visit]
      rw [this, List.countP_append]
      simp
      omega
    · simp only [visit, hs.raised]
      simp
  | foreign =>
    refine ⟨?_, ?_, hs.nodup, ?_, hs.le, ?_, ?_⟩
    · intro x
      simp only [visit, hs.structs]
      simp
    · simp only [visit, hs.logical]
      simp [bytesOf]
    · intro b
      simp only [visit, hs.arrays]
      constructor
      · rintro ⟨i, hi, h⟩
        exact ⟨i, List.mem_append_left _ hi, h⟩
      · rintro ⟨i, hi, n, h⟩
        rw [List.mem_append, List.mem_singleton] at hi
        rcases hi with hi | rfl
        · exact ⟨i, hi, n, h⟩
        · cases h
    · intro W hW
      have := hs.physical W fun i hi => hW i (List.mem_append_left _ hi)
      simp only [visit]
      rw [this, List.countP_append]
      simp
    · simp [visit]
  | other =>
    refine ⟨?_, ?_, hs.nodup, ?_, hs.le, ?_, ?_⟩
    · intro x
      simp only [visit, hs.structs]
      simp
    · simp only [visit, hs.logical]
      simp [bytesOf]
    · intro b
      simp only [visit, hs.arrays]
      constructor
      · rintro ⟨i, hi, h⟩
        exact ⟨i, List.mem_append_left _ hi, h⟩
      · rintro ⟨i, hi, n, h⟩
        rw [List.mem_append, List.mem_singleton] at hi
        rcases hi with hi | rfl
        · exact ⟨i, hi, n, h⟩
        · cases h
    · intro W hW
      have := hs.physical W fun i hi => hW i (List.mem_append_left _ hi)
      simp only [visit]
      rw [this, List.countP_append]
      simp
    · simp only [visit, hs.raised]
      simp

/-- what holds at the head of the loop, with the Structs done so far -/
structure Inv (h : Heap) (root : Nat) (done : List Nat) (st : St) : Prop where
  nodup : st.structs.Nodup
  perm : (done ++ st.pending).Perm (root :: st.structs)
  sums : Sums (done.flatMap fun s => h.getD s []) st
  inside : ∀ x ∈ st.structs, Inside h root x

theorem flat_mem (h : Heap) (done : List Nat) (it : Item) : (it ∈ done.flatMap fun s => h.getD s []) ↔ ∃ s ∈ done, Holds h s it := by
  rw [List.mem_flatMap]
  constructor
  · rintro ⟨s, hs, hm⟩
    exact ⟨s, hs, (holds_iff h s it).mpr hm⟩
  · rintro ⟨s, hs, hm⟩
    exact ⟨s, hs, (holds_iff h s it).mp hm⟩

theorem fold_inv (root : Nat) (a : List Nat) (l : List Item) (L : List Item) (st : St) (hn : st.structs.Nodup)
    (hp : (a ++ st.pending).Perm (root :: st.structs)) (hs : Sums L st) :
    (l.foldl visit st).structs.Nodup ∧ (a ++ (l.foldl visit st).pending).Perm (root :: (l.foldl visit st).structs) ∧
    Sums (L ++ l) (l.foldl visit st) := by
  induction l generalizing L st with
  | nil => exact ⟨hn, hp, by simpa using hs⟩
  | cons it l ih =>
    obtain ⟨h1, h2, _⟩ := visit_where st it hn a root hp
    have := ih (L ++ [it]) (visit st it) h1 h2 (visit_sums L st hs it)
    simpa using this

theorem step_inv (h : Heap) (root : Nat) (done : List Nat) (st : St) (hi : Inv h root done st) (s : Nat) (rest : List Nat)
    (hst : st.pending = s :: rest) : Inv h root (done ++ [s]) ((h.getD s []).foldl visit { st with pending := rest }) := by
  have hp := hi.perm
  rw [hst] at hp
  have hs : Sums (done.flatMap fun s => h.getD s []) { st with pending := rest } :=
    ⟨hi.sums.structs, hi.sums.logical, hi.sums.nodup, hi.sums.arrays, hi.sums.le, hi.sums.physical, hi.sums.raised⟩
  obtain ⟨h1, h2, h3⟩ := fold_inv root (done ++ [s]) (h.getD s []) _ { st with pending := rest } hi.nodup (by simpa using hp) hs
  have h4 : Sums ((done ++ [s]).flatMap fun s => h.getD s []) ((h.getD s []).foldl visit { st with pending := rest }) := by
    simpa using h3
  refine ⟨h1, h2, h4, ?_⟩
  intro x hx
  obtain ⟨t, ht, hh⟩ := (flat_mem h _ _).mp ((h4.structs x).mp hx)
  have hm : t ∈ root :: st.structs := by
    refine hp.mem_iff.mp ?_
    rw [List.mem_append, List.mem_singleton] at ht
    rcases ht with ht | rfl
    · exact List.mem_append_left _ ht
    · exact List.mem_append_right _ (by simp)
  rcases List.mem_cons.mp hm with rfl | ht
  · exact .item _ _ hh
  · exact .deeper _ _ _ (hi.inside t ht) hh

theorem run_inv (h : Heap) (root k : Nat) (done : List Nat) (st : St) (hi : Inv h root done st) :
    (∃ done' st', run h k st = some st' ∧ st'.pending = [] ∧ Inv h root done' st') ∨
    ∃ done' st', st'.pending ≠ [] ∧ Inv h root done' st' ∧ done'.length = done.length + k := by
  induction k generalizing done st with
  | zero =>
    cases hp : st.pending with
    | nil =>
      refine Or.inl ⟨done, st, ?_, hp, hi⟩
      simp only [run, hp]
    | cons s rest => exact Or.inr ⟨done, st, by rw [hp]; simp, hi, by simp⟩
  | succ k ih =>
    cases hp : st.pending with
    | nil =>
      refine Or.inl ⟨done, st, ?_, hp, hi⟩
      simp only [run, hp]
    | cons s rest =>
      simp only [run, hp]
      rcases ih (done ++ [s]) _ (step_inv h root done st hi s rest hp) with hr | ⟨d, st', h1, h2, h3⟩
      · exact Or.inl hr
      · refine Or.inr ⟨d, st', h1, h2, ?_⟩
        rw [h3]
        simp
        omega

theorem init_inv (h : Heap) (root : Nat) : Inv h root [] (init root) := by
  refine ⟨by simp [init], by simp [init], ⟨?_, ?_, ?_, ?_, ?_, ?_, ?_⟩, by simp [init]⟩ <;> simp [init]

theorem run_ends (h : Heap) (hc : Closed h) (root k : Nat) (hk : h.length + 1 ≤ k) :
    ∃ done st, run h k (init root) = some st ∧ st.pending = [] ∧ Inv h root done st := by
  rcases run_inv h root k [] (init root) (init_inv h root) with hr | ⟨d, st, h1, h2, h3⟩
  · exact hr
  · exfalso
    have hsub : st.structs ⊆ List.range h.length := by
      intro x hx
      obtain ⟨s, _, hs⟩ := (flat_mem h d _).mp ((h2.sums.structs x).mp hx)
      exact List.mem_range.mpr (hc s x hs)
    have hl := (List.subperm_of_subset h2.nodup hsub).length_le
    rw [List.length_range] at hl
    have hp := h2.perm.length_eq
    rw [List.length_append, List.length_cons] at hp
    have : st.pending.length ≠ 0 := fun h => h1 (List.length_eq_zero_iff.mp h)
    simp at h3
    omega

/-- at the end the Structs seen are those inside -/
theorem inv_inside (h : Heap) (root : Nat) (done : List Nat) (st : St) (hi : Inv h root done st) (he : st.pending = []) :
    done.Perm (root :: st.structs) ∧ (∀ x, x ∈ st.structs ↔ Inside h root x) ∧ ∀ s, s ∈ done ↔ InTree h root s := by
  have hp := hi.perm
  rw [he, List.append_nil] at hp
  have hmem : ∀ x, x ∈ done ↔ x = root ∨ x ∈ st.structs := fun x => by rw [hp.mem_iff, List.mem_cons]
  have hst : ∀ x, x ∈ st.structs ↔ ∃ s ∈ done, Holds h s (.sub x) := fun x => (hi.sums.structs x).trans (flat_mem h done _)
  have h2 : ∀ x, Inside h root x → x ∈ st.structs := by
    intro x hx
    induction hx with
    | item _ hh => exact (hst _).mpr ⟨_, (hmem _).mpr (Or.inl rfl), hh⟩
    | deeper t u _ hh ih => exact (hst _).mpr ⟨t, (hmem _).mpr (Or.inr ih), hh⟩
  have h3 : ∀ x, x ∈ st.structs ↔ Inside h root x := fun x => ⟨hi.inside x, h2 x⟩
  exact ⟨hp, h3, fun s => by rw [hmem, h3]; rfl⟩

theorem own_bytes (h : Heap) (done : List Nat) : ((done.flatMap fun s => h.getD s []).map bytesOf).sum = (done.map (ownBytes h)).sum := by
  induction done with
  | nil => rfl
  | cons s done ih =>
    simp only [List.flatMap_cons, List.map_append, List.sum_append, ih, List.map_cons, List.sum_cons]
    rw [getD_eq]
    rfl

theorem own_ints (h : Heap) (done : List Nat) :
    (done.flatMap fun s => h.getD s []).countP (fun it => it == .int) = (done.map (ownInts h)).sum := by
  induction done with
  | nil => rfl
  | cons s done ih =>
    simp only [List.flatMap_cons, List.countP_append, ih, List.map_cons, List.sum_cons]
    rw [getD_eq]
    rfl

/-- **C340** The loop ends, after at most one Struct more than there are, whatever holds what - also when Structs hold each other; it raises
exactly when some Struct of the tree has an array over memory that is no array. -/
theorem ends (h : Heap) (hc : Closed h) (root k : Nat) (hk : h.length + 1 ≤ k) :
    (totalSizes h root k = .attributeError ∧ ∃ s, InTree h root s ∧ Holds h s .foreign) ∨
    ((∃ p l, totalSizes h root k = .sizes p l) ∧ ¬ ∃ s, InTree h root s ∧ Holds h s .foreign) := by
  obtain ⟨done, st, hr, he, hi⟩ := run_ends h hc root k hk
  obtain ⟨_, _, h3⟩ := inv_inside h root done st hi he
  have hf : st.raised = true ↔ ∃ s, InTree h root s ∧ Holds h s .foreign := by
    rw [hi.sums.raised, flat_mem]
    constructor
    · rintro ⟨s, hs, hh⟩
      exact ⟨s, (h3 s).mp hs, hh⟩
    · rintro ⟨s, hs, hh⟩
      exact ⟨s, (h3 s).mpr hs, hh⟩
  unfold totalSizes
  rw [hr]
  dsimp only
  by_cases hb : st.raised = true
  · rw [if_pos hb]
    exact Or.inl ⟨rfl, hf.mp hb⟩
  · rw [if_neg hb]
    exact Or.inr ⟨⟨_, _, rfl⟩, fun h => hb (hf.mpr h)⟩

theorem sizes_inv (h : Heap) (hc : Closed h) (root k p l : Nat) (hk : h.length + 1 ≤ k) (ht : totalSizes h root k = .sizes p l) :
    ∃ done st, st.pending = [] ∧ Inv h root done st ∧ st.physical = p ∧ st.logical = l := by
  obtain ⟨done, st, hr, he, hi⟩ := run_ends h hc root k hk
  unfold totalSizes at ht
  rw [hr] at ht
  dsimp only at ht
  by_cases hb : st.raised = true
  · rw [if_pos hb] at ht
    cases ht
  · rw [if_neg hb] at ht
    cases ht
    exact ⟨done, st, he, hi, rfl, rfl⟩

/-- **C341** The logical size is at least the physical size. -/
theorem logical_ge (h : Heap) (hc : Closed h) (root k p l : Nat) (hk : h.length + 1 ≤ k) (ht : totalSizes h root k = .sizes p l) : p ≤ l := by
  obtain ⟨_, st, _, hi, rfl, rfl⟩ := sizes_inv h hc root k p l hk ht
  exact hi.sums.le

/-- **C342** (partial: items over the same memory have the same bytes, and the Struct is not inside itself) The physical size counts each
memory once, and four bytes for each integer. -/
theorem physical_partial (h : Heap) (hc : Closed h) (root k p l : Nat) (hk : h.length + 1 ≤ k) (ht : totalSizes h root k = .sizes p l)
    (W : Nat → Nat) (hW : ∀ s it b n, InTree h root s → Holds h s it → DataOf it b n → n = W b) (hr : ¬ Inside h root root) :
    ∃ memory structs : List Nat, memory.Nodup ∧ (∀ b, b ∈ memory ↔ ∃ s it n, InTree h root s ∧ Holds h s it ∧ DataOf it b n) ∧
      structs.Nodup ∧ (∀ s, s ∈ structs ↔ InTree h root s) ∧
      p = (memory.map W).sum + 4 * (structs.map (ownInts h)).sum := by
  obtain ⟨done, st, he, hi, rfl, rfl⟩ := sizes_inv h hc root k p l hk ht
  obtain ⟨h1, h2, h3⟩ := inv_inside h root done st hi he
  refine ⟨st.arrays, done, hi.sums.nodup, ?_, ?_, h3, ?_⟩
  · intro b
    rw [hi.sums.arrays]
    constructor
    · rintro ⟨it, hm, n, hd⟩
      obtain ⟨s, hs, hh⟩ := (flat_mem h done it).mp hm
      exact ⟨s, it, n, (h3 s).mp hs, hh, hd⟩
    · rintro ⟨s, it, n, hs, hh, hd⟩
      exact ⟨it, (flat_mem h done it).mpr ⟨s, (h3 s).mpr hs, hh⟩, n, hd⟩
  · rw [h1.nodup_iff, List.nodup_cons]
    exact ⟨fun hm => hr ((h2 root).mp hm), hi.nodup⟩
  · rw [← own_ints]
    refine hi.sums.physical W ?_
    intro it hm b n hd
    obtain ⟨s, hs, hh⟩ := (flat_mem h done it).mp hm
    exact hW s it b n ((h3 s).mp hs) hh hd

/-- **C343** (exact) The logical size is the bytes of the items of the Struct and of every Struct inside it, each Struct once; the Struct
itself again if it is inside itself. -/
theorem logical_exact (h : Heap) (hc : Closed h) (root k p l : Nat) (hk : h.length + 1 ≤ k) (ht : totalSizes h root k = .sizes p l) :
    ∃ inside : List Nat, inside.Nodup ∧ (∀ s, s ∈ inside ↔ Inside h root s) ∧
      l = ownBytes h root + (inside.map (ownBytes h)).sum := by
  obtain ⟨done, st, he, hi, rfl, rfl⟩ := sizes_inv h hc root k p l hk ht
  obtain ⟨h1, h2, _⟩ := inv_inside h root done st hi he
  refine ⟨st.structs, hi.nodup, h2, ?_⟩
  rw [hi.sums.logical, own_bytes, (h1.map (ownBytes h)).sum_nat]
  simp

/-- a Struct with an array, a view of it, an integer and a Dataset with the array again; the Dataset holds an empty Struct -/
def small : Heap := [[.array 7 80, .array 7 80, .int, .sub 1], [.array 7 80, .array 8 40, .sub 2], []]

/-- the hypotheses can be met -/
example : Closed small ∧ totalSizes small 0 4 = .sizes 124 284 := by
  refine ⟨?_, by decide +kernel⟩
  intro s t h
  rw [holds_iff] at h
  match s, h with
  | 0, h => simp [small] at h; subst h; decide
  | 1, h => simp [small] at h; subst h; decide
  | 2, h => simp [small] at h
  | s + 3, h => simp [small] at h
/-- Structs that hold each other -/
example : totalSizes [[.array 7 80, .sub 1], [.sub 0]] 0 3 = .sizes 80 160 := by decide +kernel

/-- **C342** (counterexample) A column that is the codes of a Categorical, beside it: the sizes depend on which comes first; two
Categoricals with the same category array have it counted twice; the integers of a Struct that is inside itself are counted twice. -/
theorem physical_counterexample :
    totalSizes [[.cat 1 10 [(2, 500)], .array 1 10]] 0 2 = .sizes 510 520 ∧
    totalSizes [[.array 1 10, .cat 1 10 [(2, 500)]]] 0 2 = .sizes 10 520 ∧
    totalSizes [[.cat 1 10 [(2, 500)], .cat 3 10 [(2, 500)]]] 0 2 = .sizes 1020 1020 ∧
    totalSizes [[.int, .sub 0]] 0 2 = .sizes 8 8 := by decide +kernel

/-- **C343** (counterexample) A Dataset under two names is counted once, though arrays under two names are counted twice. -/
theorem logical_counterexample :
    totalSizes [[.sub 1, .sub 1], [.array 1 80]] 0 3 = .sizes 80 80 ∧ totalSizes [[.array 1 80, .array 1 80]] 0 2 = .sizes 80 160 := by
  decide +kernel

/-- **C340** (counterexample) An array over a buffer of bytes raises. -/
theorem ends_counterexample : totalSizes [[.array 1 80, .foreign]] 0 2 = .attributeError := by decide +kernel
end Verif.Sizes
