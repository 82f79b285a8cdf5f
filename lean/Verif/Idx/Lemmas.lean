import Verif.Idx.Spec
import Verif.Idx.Model
import Verif.Items.Dict
import Mathlib.Data.Int.Basic
import Mathlib.Tactic.Ring
import Mathlib.Tactic.Linarith
/-! # Indexing: lemmas about numpy indexing -/
namespace Verif.Idx
open Verif.Items (Dict)

theorem pos_eq (n : Nat) (k : Int) : pos n k = meant n k := by
  unfold pos meant
  split_ifs <;> first | rfl | omega | (congr 1; omega)

theorem meant_lt {n : Nat} {k : Int} {i : Nat} (h : meant n k = some i) : i < n := by
  unfold meant at h
  split at h
  · cases h; omega
  · split at h
    · cases h; omega
    · simp at h

/-! ## slices -/

theorem walk_up (stop step : Int) (hs : 0 < step) : ∀ (fuel : Nat) (i : Int), 0 ≤ i → stop - i ≤ fuel →
    (walk stop step fuel i).Pairwise (· < ·) ∧
    ∀ (j : Nat), j ∈ walk stop step fuel i ↔ i ≤ j ∧ (j : Int) < stop ∧ step ∣ (j : Int) - i := by
  intro fuel
  induction fuel with
  | zero =>
    intro i hi hf
    refine ⟨List.Pairwise.nil, fun j => ?_⟩
    simp only [walk, List.not_mem_nil, false_iff]
    omega
  | succ fuel ih =>
    intro i hi hf
    rw [walk]
    by_cases hc : i < stop
    · rw [if_pos (Or.inl ⟨hs, hc⟩)]
      obtain ⟨h1, h2⟩ := ih (i + step) (by omega) (by push_cast at hf; omega)
      refine ⟨List.pairwise_cons.2 ⟨fun j hj => ?_, h1⟩, fun j => ?_⟩
      · have := (h2 j).1 hj
        omega
      · rw [List.mem_cons, h2]
        constructor
        · rintro (rfl | ⟨a, b, c⟩)
          · rw [Int.toNat_of_nonneg hi]
            exact ⟨Int.le_refl _, hc, by simp⟩
          · refine ⟨by omega, b, ?_⟩
            have : (j : Int) - i = (j - (i + step)) + step := by ring
            rw [this]
            exact Int.dvd_add c (Int.dvd_refl _)
        · rintro ⟨a, b, c⟩
          by_cases he : (j : Int) = i
          · left; omega
          · right
            have hle : step ≤ (j : Int) - i := Int.le_of_dvd (by omega) c
            refine ⟨by omega, b, ?_⟩
            have : (j : Int) - (i + step) = (j - i) - step := by ring
            rw [this]
            exact Int.dvd_sub c (Int.dvd_refl _)
    · rw [if_neg (by omega)]
      refine ⟨List.Pairwise.nil, fun j => ?_⟩
      simp only [List.not_mem_nil, false_iff]
      omega

theorem walk_down (stop step : Int) (hs : step < 0) (hstop : -1 ≤ stop) : ∀ (fuel : Nat) (i : Int), i - stop ≤ fuel →
    (walk stop step fuel i).Pairwise (· > ·) ∧
    ∀ (j : Nat), j ∈ walk stop step fuel i ↔ stop < j ∧ (j : Int) ≤ i ∧ step ∣ i - (j : Int) := by
  intro fuel
  induction fuel with
  | zero =>
    intro i hf
    refine ⟨List.Pairwise.nil, fun j => ?_⟩
    simp only [walk, List.not_mem_nil, false_iff]
    omega
  | succ fuel ih =>
    intro i hf
    rw [walk]
    by_cases hc : stop < i
    · rw [if_pos (Or.inr ⟨hs, hc⟩)]
      obtain ⟨h1, h2⟩ := ih (i + step) (by push_cast at hf; omega)
      refine ⟨List.pairwise_cons.2 ⟨fun j hj => ?_, h1⟩, fun j => ?_⟩
      · have := (h2 j).1 hj
        omega
      · rw [List.mem_cons, h2]
        constructor
        · rintro (rfl | ⟨a, b, c⟩)
          · rw [Int.toNat_of_nonneg (by omega)]
            exact ⟨hc, Int.le_refl _, by simp⟩
          · refine ⟨a, by omega, ?_⟩
            have : i - (j : Int) = (i + step - j) - step := by ring
            rw [this]
            exact Int.dvd_sub c (Int.dvd_refl _)
        · rintro ⟨a, b, c⟩
          by_cases he : (j : Int) = i
          · left; omega
          · right
            have hle : -step ≤ i - (j : Int) := Int.le_of_dvd (by omega) (Int.neg_dvd.2 c)
            refine ⟨a, by omega, ?_⟩
            have : i + step - (j : Int) = (i - j) + step := by ring
            rw [this]
            exact Int.dvd_add c (Int.dvd_refl _)
    · rw [if_neg (by omega)]
      refine ⟨List.Pairwise.nil, fun j => ?_⟩
      simp only [List.not_mem_nil, false_iff]
      omega

theorem adjust_up (n : Nat) (x : Option Int) (step : Int) (hs : 0 < step) (d : Int) :
    adjust n x step d = bound n 0 n d x := by
  unfold adjust bound
  rw [if_neg (by omega), if_neg (by omega)]
  cases x with
  | none => rfl
  | some s =>
    dsimp only
    split_ifs <;> omega

theorem adjust_down (n : Nat) (x : Option Int) (step : Int) (hs : step < 0) (d : Int) :
    adjust n x step d = bound n (-1) ((n : Int) - 1) d x := by
  unfold adjust bound
  rw [if_pos hs, if_pos hs]
  cases x with
  | none => rfl
  | some s =>
    dsimp only
    split_ifs <;> omega

theorem sliceRows_isSlice (n : Nat) (a b : Option Int) (step : Int) (hs : step ≠ 0) : IsSlice n a b step (sliceRows n a b step) := by
  unfold IsSlice sliceRows
  by_cases h : 0 < step
  · rw [if_pos h]
    dsimp only
    rw [if_neg (by omega), if_neg (by omega), adjust_up n b step h, adjust_up n a step h]
    refine walk_up _ _ h _ _ ?_ ?_
    · unfold bound; cases a <;> dsimp only <;> omega
    · unfold bound; cases a <;> cases b <;> dsimp only <;> omega
  · rw [if_neg h]
    dsimp only
    have h' : step < 0 := by omega
    rw [if_pos h', if_pos h', adjust_down n b step h', adjust_down n a step h']
    refine ⟨hs, walk_down _ _ h' ?_ _ _ ?_⟩
    · unfold bound; cases b <;> dsimp only <;> omega
    · unfold bound; cases a <;> cases b <;> dsimp only <;> omega

theorem IsSlice.lt {n : Nat} {a b : Option Int} {step : Int} {L : List Nat} (h : IsSlice n a b step L) : ∀ i ∈ L, i < n := by
  intro i hi
  unfold IsSlice at h
  split at h
  · have := (h.2 i).1 hi
    have hb : bound n 0 n n b ≤ n := by unfold bound; cases b <;> dsimp only <;> omega
    omega
  · have := (h.2.2 i).1 hi
    have hb : bound n (-1) ((n : Int) - 1) ((n : Int) - 1) a ≤ (n : Int) - 1 := by unfold bound; cases a <;> dsimp only <;> omega
    omega

theorem IsSlice.nodup {n : Nat} {a b : Option Int} {step : Int} {L : List Nat} (h : IsSlice n a b step L) : L.Nodup := by
  unfold IsSlice at h
  split at h
  · exact h.1.imp fun h => Nat.ne_of_lt h
  · exact h.2.1.imp fun h => Nat.ne_of_gt h

/-! ## masks -/

theorem mem_trueRows {m : List Bool} {i : Nat} : i ∈ trueRows m ↔ m[i]? = some true := by
  unfold trueRows
  rw [List.mem_filter, List.mem_range, beq_iff_eq]
  constructor
  · exact fun h => h.2
  · intro h
    refine ⟨?_, h⟩
    by_contra hn
    rw [List.getElem?_eq_none (by omega)] at h
    simp at h

theorem trueRows_sorted (m : List Bool) : (trueRows m).Pairwise (· < ·) := List.Pairwise.filter _ List.pairwise_lt_range

theorem sorted_ext {a b : List Nat} (ha : a.Pairwise (· < ·)) (hb : b.Pairwise (· < ·)) (h : ∀ (i : Nat), i ∈ a ↔ i ∈ b) : a = b := by
  have na : a.Nodup := ha.imp fun h => Nat.ne_of_lt h
  have nb : b.Nodup := hb.imp fun h => Nat.ne_of_lt h
  refine List.Perm.eq_of_pairwise (fun x y _ _ h1 h2 => ?_) ha hb ((List.perm_ext_iff_of_nodup na nb).2 h)
  omega

theorem nonzero_spec : ∀ (m : List Bool) (s : Nat), (nonzero s m).Pairwise (· < ·) ∧
    ∀ (i : Nat), i ∈ nonzero s m ↔ s ≤ i ∧ m[i - s]? = some true := by
  intro m
  induction m with
  | nil => intro s; exact ⟨List.Pairwise.nil, by simp [nonzero]⟩
  | cons b m ih =>
    intro s
    obtain ⟨h1, h2⟩ := ih (s + 1)
    rw [nonzero]
    have key : ∀ (i : Nat), (s + 1 ≤ i ∧ m[i - (s + 1)]? = some true) ↔ (s + 1 ≤ i ∧ (b :: m)[i - s]? = some true) := by
      intro i
      constructor
      · rintro ⟨a, c⟩
        refine ⟨a, ?_⟩
        rw [show i - s = (i - (s + 1)) + 1 by omega, List.getElem?_cons_succ]
        exact c
      · rintro ⟨a, c⟩
        refine ⟨a, ?_⟩
        rw [show i - s = (i - (s + 1)) + 1 by omega, List.getElem?_cons_succ] at c
        exact c
    cases b with
    | true =>
      rw [if_pos rfl]
      refine ⟨List.pairwise_cons.2 ⟨fun i hi => ?_, h1⟩, fun i => ?_⟩
      · have := ((h2 i).1 hi).1; omega
      · rw [List.mem_cons, h2, key]
        constructor
        · rintro (rfl | ⟨a, c⟩)
          · exact ⟨Nat.le_refl _, by simp⟩
          · exact ⟨by omega, c⟩
        · rintro ⟨a, c⟩
          by_cases he : i = s
          · exact Or.inl he
          · exact Or.inr ⟨by omega, c⟩
    | false =>
      rw [if_neg (by simp)]
      refine ⟨h1, fun i => ?_⟩
      rw [h2, key]
      constructor
      · rintro ⟨a, c⟩; exact ⟨by omega, c⟩
      · rintro ⟨a, c⟩
        refine ⟨?_, c⟩
        by_contra hn
        have : i = s := by omega
        subst this
        simp at c

theorem nonzero_eq (m : List Bool) : nonzero 0 m = trueRows m := by
  obtain ⟨h1, h2⟩ := nonzero_spec m 0
  refine sorted_ext h1 (trueRows_sorted m) fun i => ?_
  rw [h2, mem_trueRows]
  simp

theorem compress_nonzero {V : Type} : ∀ (col : List V) (m : List Bool) (s : Nat) (all : List V), all.drop s = col →
    m.length = col.length → compress col m = (nonzero s m).filterMap fun (i : Nat) => all[i]? := by
  intro col
  induction col with
  | nil =>
    intro m s all _ hl
    have : m = [] := List.length_eq_zero_iff.1 hl
    subst this
    rfl
  | cons x col ih =>
    intro m s all hd hl
    cases m with
    | nil => simp at hl
    | cons b m =>
      have hx : all[s]? = some x := by
        have := congrArg (fun l => l[0]?) hd
        simpa using this
      have hd' : all.drop (s + 1) = col := by
        rw [← List.drop_drop, hd]; rfl
      have := ih m (s + 1) all hd' (by simpa using hl)
      rw [compress, nonzero]
      cases b
      · simpa using this
      · simp [this, hx]

/-! ## the rows an index stands for -/

/-- rows of an index; `none` stands for an invalid row -/
def idxRows (n : Nat) : Idx → Option (List (Option Nat))
  | .all => some ((List.range n).map some)
  | .slice a b s => if s = 0 then none else some ((sliceRows n a b s).map some)
  | .ints ks => if none ∈ ks.map (meant n) then none else some (ks.map (meant n))
  | .mbints ks => some (ks.map (meant n))
  | .mask m => if m.length = n then some ((trueRows m).map some) else none

/-- item of a column for a row -/
def pick {V : Type} (inv : V) (col : List V) (o : Option Nat) : V := (o.bind fun (i : Nat) => col[i]?).getD inv

theorem idxRows_lt {n : Nat} {ix : Idx} {L : List (Option Nat)} (h : idxRows n ix = some L) : ∀ (i : Nat), some i ∈ L → i < n := by
  intro i hi
  cases ix with
  | all => simp only [idxRows, Option.some.injEq] at h; subst h; simpa using hi
  | slice a b s =>
    simp only [idxRows] at h
    split at h
    · simp at h
    · rename_i hs
      cases h
      rw [List.mem_map] at hi
      obtain ⟨j, hj, he⟩ := hi
      cases he
      exact (sliceRows_isSlice n a b s hs).lt _ hj
  | ints ks =>
    simp only [idxRows] at h
    split at h
    · simp at h
    · cases h
      obtain ⟨k, _, hk⟩ := List.mem_map.1 hi
      exact meant_lt hk
  | mbints ks =>
    simp only [idxRows, Option.some.injEq] at h
    subst h
    obtain ⟨k, _, hk⟩ := List.mem_map.1 hi
    exact meant_lt hk
  | mask m =>
    simp only [idxRows] at h
    split at h
    · rename_i hl
      cases h
      obtain ⟨j, hj, he⟩ := List.mem_map.1 hi
      cases he
      rw [mem_trueRows] at hj
      rw [← hl]
      by_contra hn
      rw [List.getElem?_eq_none (by omega)] at hj
      simp at hj
    · simp at h

/-- entries of a `filterMap` that never drops -/
theorem filterMap_total {A B : Type} (f : A → Option B) (l : List A) : (∀ a ∈ l, ∃ b, f a = some b) → ∀ (k : Nat),
    (l.filterMap f)[k]? = (l[k]?).bind f := by
  induction l with
  | nil => intro _ k; simp
  | cons a l ih =>
    intro h k
    obtain ⟨b, hb⟩ := h a (by simp)
    rw [List.filterMap_cons, hb]
    dsimp only
    cases k with
    | zero => simp [hb]
    | succ k =>
      rw [List.getElem?_cons_succ, List.getElem?_cons_succ]
      exact ih (fun x hx => h x (List.mem_cons_of_mem _ hx)) k

theorem filterMap_pick {V : Type} (inv : V) (col : List V) (R : List Nat) : (∀ i ∈ R, i < col.length) →
    R.filterMap (fun (i : Nat) => col[i]?) = (R.map some).map (pick inv col) := by
  induction R with
  | nil => intro _; rfl
  | cons i R ih =>
    intro h
    have hi := h i (by simp)
    rw [List.filterMap_cons, List.getElem?_eq_getElem hi, List.map_cons, List.map_cons, ih fun j hj => h j (List.mem_cons_of_mem _ hj)]
    simp [pick, List.getElem?_eq_getElem hi]

theorem mapM_pos {V : Type} (inv : V) (col : List V) (ks : List Int) :
    (ks.mapM fun (k : Int) => (pos col.length k).bind fun (i : Nat) => col[i]?) =
      if none ∈ ks.map (meant col.length) then none else some ((ks.map (meant col.length)).map (pick inv col)) := by
  induction ks with
  | nil => simp
  | cons k ks ih =>
    rw [List.mapM_cons, ih, pos_eq]
    cases hm : meant col.length k with
    | none => simp [hm]
    | some i =>
      have hi := meant_lt hm
      rw [Option.bind_some, List.getElem?_eq_getElem hi]
      by_cases hn : none ∈ ks.map (meant col.length)
      · rw [if_pos hn, if_pos (by rw [List.map_cons]; exact List.mem_cons_of_mem _ hn)]
        rfl
      · rw [if_neg hn, if_neg (by rw [List.map_cons, hm]; simpa using hn)]
        simp [hm, pick, List.getElem?_eq_getElem hi]

/-- numpy indexing takes the rows of the index -/
theorem take_eq {V : Type} (inv : V) (col : List V) (ix : Idx) :
    (take inv col ix).toOption = (idxRows col.length ix).map fun L => L.map (pick inv col) := by
  cases ix with
  | all =>
    simp only [take, idxRows, Except.toOption, Option.map_some, Option.some.injEq]
    rw [← filterMap_pick inv col _ (by simp)]
    refine List.ext_getElem? fun k => ?_
    rw [Verif.Idx.filterMap_total _ _ fun i hi => ⟨_, List.getElem?_eq_getElem (List.mem_range.1 hi)⟩]
    by_cases hk : k < col.length
    · rw [List.getElem?_range hk]; rfl
    · rw [List.getElem?_eq_none (by omega), List.getElem?_eq_none (by rw [List.length_range]; omega)]
      rfl
  | slice a b s =>
    simp only [take, idxRows]
    split
    · rfl
    · rename_i hs
      simp only [Except.toOption, Option.map_some, Option.some.injEq]
      exact filterMap_pick inv col _ (sliceRows_isSlice _ a b s hs).lt
  | ints ks =>
    simp only [take, idxRows, mapM_pos inv]
    split <;> simp_all [Except.toOption]
  | mbints ks =>
    simp only [take, idxRows, Except.toOption, Option.map_some, Option.some.injEq, List.map_map]
    refine List.map_congr_left fun k _ => ?_
    simp [pick, pos_eq]
  | mask m =>
    simp only [take, idxRows]
    split
    · rename_i hl
      simp only [Except.toOption, Option.map_some, Option.some.injEq]
      rw [compress_nonzero col m 0 col (by simp) hl, nonzero_eq]
      refine filterMap_pick inv col _ fun i hi => ?_
      rw [mem_trueRows] at hi
      rw [← hl]
      by_contra hn
      rw [List.getElem?_eq_none (by omega)] at hi
      simp at hi
    · rfl

end Verif.Idx
