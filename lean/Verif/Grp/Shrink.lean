import Verif.Grp.Keys
import Mathlib.Data.List.Dedup
import Mathlib.Data.List.Sort
/-!
# C56 `shrink`, C57 `regroup`, C58 `take_groups` and `extract_groups`, C59 `count_uniques`
-/
namespace Verif.Grp

variable {K V : Type}

/-- the label that a code of a base-1 categorical stands for: 0 is the filtered row -/
def labelAt (cats : List K) (c : Int) : Option K := if 1 ≤ c then cats[(c - 1).toNat]? else none

theorem labelAt_nat (cats : List K) (k : Nat) : labelAt cats ((k + 1 : Nat) : Int) = cats[k]? := by
  unfold labelAt
  rw [if_pos (by omega)]
  congr 1
  omega

theorem memberIdx_get [DecidableEq K] (sent : Int) (old new : List K) (k : Nat) :
    (memberIdx sent old new)[k]? = old[k]?.map fun u => if u ∈ new then (new.idxOf u : Int) else sent := by
  unfold memberIdx
  rw [List.getElem?_map]

/-- **C56** `shrink` keeps the label of every row whose label is among the new categories, and makes the other rows filtered rows -/
theorem shrink_correct [DecidableEq K] (sent : Int) (old new : List K) (codes : List Nat) (hk : ∀ k ∈ codes, k ≤ old.length)
    (i k : Nat) (hi : codes[i]? = some k) :
    ∃ c : Int, (shrink sent old codes new).1[i]? = some (some c) ∧ (shrink sent old codes new).2 = new ∧ 0 ≤ c ∧ c ≤ new.length ∧
      labelAt new c = (labelAt old k).filter (· ∈ new) ∧ (c = 0 ↔ (labelAt old k).filter (· ∈ new) = none) := by
  have hkl := hk k (List.mem_of_getElem? hi)
  unfold shrink
  dsimp only
  rw [List.getElem?_map, hi, Option.map_some, mbget_nat]
  cases k with
  | zero =>
    refine ⟨0, rfl, rfl, by omega, by omega, ?_, ?_⟩
    · unfold labelAt; rfl
    · unfold labelAt; simp
  | succ k =>
    rw [List.getElem?_cons_succ, List.getElem?_zipWith, List.getElem?_map, memberIdx_get, labelAt_nat]
    have hko : old[k]? = some (old[k]'(by omega)) := List.getElem?_eq_getElem _
    rw [hko]
    simp only [Option.map_some, Option.filter_some, decide_eq_true_eq]
    by_cases hm : old[k]'(by omega) ∈ new
    · simp only [if_pos hm]
      refine ⟨_, rfl, trivial, by omega, ?_, ?_, ?_⟩
      · have := List.idxOf_lt_length_of_mem hm
        omega
      · have := labelAt_nat new (new.idxOf (old[k]'(by omega)))
        push_cast at this
        rw [this, List.getElem?_eq_getElem (List.idxOf_lt_length_of_mem hm), List.getElem_idxOf]
      · simp; omega
    · simp only [if_neg hm]
      refine ⟨_, rfl, trivial, by omega, by omega, ?_, ?_⟩
      · unfold labelAt; rfl
      · simp

/-- non-vacuity -/
example : shrink (-128) ["a", "b", "c"] [1, 2, 3, 0, 2] ["c", "b"] = ([some 0, some 2, some 1, some 0, some 2], ["c", "b"]) := by decide

theorem max?_eq_of {l : List Int} {m : Int} (hm : m ∈ l) (h : ∀ x ∈ l, x ≤ m) : l.max? = some m := by
  rw [List.max?_eq_some_iff]
  exact ⟨hm, h⟩

/-- **C56** (partial: the last of the new categories must be one of the old) `shrink` with a label for the remaining rows: rows keep their
label when it is among the new categories, and get the `misc` label otherwise; filtered rows stay filtered -/
theorem shrinkMisc_partial [DecidableEq K] (sent : Int) (hsent : sent < 0) (old new : List K) (hnew : new.Nodup) (last : K)
    (hlast : new.getLast? = some last) (hold : last ∈ old) (misc : K) (codes : List Nat) (hk : ∀ k ∈ codes, k ≤ old.length) :
    ∃ out, shrinkMisc sent old codes new misc = some (out, new ++ [misc]) ∧ out.length = codes.length ∧
      ∀ (i k : Nat), codes[i]? = some k → ∃ c : Int, out[i]? = some (some c) ∧
        labelAt (new ++ [misc]) c = (labelAt old k).map (fun u => if u ∈ new then u else misc) ∧ (c = 0 ↔ k = 0) := by
  have hlm : last ∈ new := List.mem_of_getLast? hlast
  have hpos : 0 < new.length := List.length_pos_of_mem hlm
  have hidx : new.idxOf last = new.length - 1 := by
    rw [List.getLast?_eq_getElem?] at hlast
    obtain ⟨h1, h2⟩ := List.getElem?_eq_some_iff.mp hlast
    have := hnew.idxOf_getElem _ h1
    rw [h2] at this
    exact this
  have hmax : ((memberIdx sent old new).map (· + 1)).max? = some (new.length : Int) := by
    refine max?_eq_of ?_ ?_
    · unfold memberIdx
      rw [List.map_map, List.mem_map]
      refine ⟨last, hold, ?_⟩
      simp only [Function.comp]
      rw [if_pos hlm, hidx]
      omega
    · intro x hx
      unfold memberIdx at hx
      rw [List.map_map, List.mem_map] at hx
      obtain ⟨u, _, rfl⟩ := hx
      simp only [Function.comp]
      split
      · rename_i hm
        have := List.idxOf_lt_length_of_mem hm
        omega
      · omega
  unfold shrinkMisc
  dsimp only
  rw [hmax]
  dsimp only
  refine ⟨_, rfl, by simp, ?_⟩
  intro i k hi
  have hkl := hk k (List.mem_of_getElem? hi)
  rw [List.getElem?_zipWith, List.getElem?_map, hi, Option.map_some]
  dsimp only
  cases k with
  | zero =>
    refine ⟨0, rfl, ?_, by simp⟩
    unfold labelAt; rfl
  | succ k =>
    rw [if_neg (by omega), mbget_nat, labelAt_nat, List.cons_append, List.getElem?_cons_succ]
    have hko : old[k]? = some (old[k]'(by omega)) := List.getElem?_eq_getElem _
    rw [List.getElem?_append_left (by simp [memberIdx]; omega), List.getElem?_zipWith, List.getElem?_map, memberIdx_get, hko]
    simp only [Option.map_some]
    by_cases hm : old[k]'(by omega) ∈ new
    · simp only [if_pos hm]
      have hlt := List.idxOf_lt_length_of_mem hm
      refine ⟨_, rfl, ?_, by simp; omega⟩
      have := labelAt_nat (new ++ [misc]) (new.idxOf (old[k]'(by omega)))
      push_cast at this
      rw [this, List.getElem?_append_left hlt, List.getElem?_eq_getElem hlt, List.getElem_idxOf]
    · simp only [if_neg hm]
      refine ⟨_, rfl, ?_, by simp; omega⟩
      have := labelAt_nat (new ++ [misc]) new.length
      push_cast at this
      rw [this, List.getElem?_append_right (by omega)]
      simp

/-- non-vacuity -/
example : shrinkMisc (-128) ["a", "b", "c"] [1, 2, 3, 0, 2] ["c", "b"] "other" =
    some ([some 3, some 2, some 1, some 0, some 2], ["c", "b", "other"]) := by decide

/-- **C56** (counterexample) when the last new category is not among the old ones, the rows that should get the `misc` label get the
label of a new category instead: the rows `b` become `z` -/
theorem shrinkMisc_counterexample :
    shrinkMisc (-128) ["a", "b"] [1, 2] ["a", "z"] "other" = some ([some 1, some 2], ["a", "z", "other"]) ∧
    labelAt ["a", "z", "other"] 2 = some "z" := by decide

/-- **C56** (counterexample) when none of the new categories is among the old ones the codes are not codes at all -/
theorem shrinkMisc_none_counterexample :
    shrinkMisc (-128) ["a", "b"] [1, 2] ["y", "z"] "other" = some ([some (-126), some (-126)], ["y", "z", "other"]) := by decide

/-! ## C57: `regroup` -/

theorem appearing_spec (keys : List Nat) : ∀ acc : List Nat, acc.Nodup → (∀ k ∈ acc, k ≠ 0) →
    (keys.foldl (fun acc k => if k = 0 ∨ k ∈ acc then acc else acc ++ [k]) acc).Nodup ∧
    ∀ k, k ∈ keys.foldl (fun acc k => if k = 0 ∨ k ∈ acc then acc else acc ++ [k]) acc ↔ k ∈ acc ∨ (k ∈ keys ∧ k ≠ 0) := by
  induction keys with
  | nil => intro acc h1 h2; simp [h1]
  | cons x keys ih =>
    intro acc h1 h2
    rw [List.foldl_cons]
    by_cases hx : x = 0 ∨ x ∈ acc
    · rw [if_pos hx]
      obtain ⟨i1, i2⟩ := ih acc h1 h2
      refine ⟨i1, fun k => ?_⟩
      rw [i2]
      simp only [List.mem_cons]
      constructor
      · rintro (h | h)
        · exact Or.inl h
        · exact Or.inr ⟨Or.inr h.1, h.2⟩
      · rintro (h | ⟨rfl | h, h0⟩)
        · exact Or.inl h
        · exact Or.inl (hx.resolve_left h0)
        · exact Or.inr ⟨h, h0⟩
    · rw [if_neg hx]
      push Not at hx
      obtain ⟨i1, i2⟩ := ih (acc ++ [x]) (by
        rw [List.nodup_append]
        refine ⟨h1, by simp, ?_⟩
        intro a ha b hb
        simp only [List.mem_singleton] at hb
        subst hb
        rintro rfl
        exact hx.2 ha) (by
        intro k hk
        rcases List.mem_append.mp hk with h | h
        · exact h2 k h
        · simp only [List.mem_singleton] at h; subst h; exact hx.1)
      refine ⟨i1, fun k => ?_⟩
      rw [i2]
      simp only [List.mem_append, List.mem_cons, List.not_mem_nil, or_false]
      constructor
      · rintro ((h | rfl) | h)
        · exact Or.inl h
        · exact Or.inr ⟨Or.inl rfl, hx.1⟩
        · exact Or.inr ⟨Or.inr h.1, h.2⟩
      · rintro (h | ⟨rfl | h, h0⟩)
        · exact Or.inl (Or.inl h)
        · exact Or.inl (Or.inr rfl)
        · exact Or.inr ⟨h, h0⟩

/-- contract of `lexsort` on one column: the order is a rearrangement of the rows and puts the values in ascending order -/
def SortsColumn (argsort : List Nat → List Nat) : Prop :=
  ∀ l, (argsort l).Perm (List.range l.length) ∧ (reorder l (argsort l)).Pairwise (· ≤ ·)

theorem reorder_perm {A : Type} (v : List A) {idx : List Nat} (h : idx.Perm (List.range v.length)) : (reorder v idx).Perm v := by
  unfold reorder
  have := h.filterMap fun i => v[i]?
  refine this.trans ?_
  have e := reorder_range v
  unfold reorder at e
  rw [e]

theorem argsort_perm_inverse {argsort : List Nat → List Nat} (h : SortsColumn argsort) {l : List Nat} {m : Nat}
    (hl : l.Perm (List.range m)) : reorder l (argsort l) = List.range m := by
  obtain ⟨h1, h2⟩ := h l
  have hp : (reorder l (argsort l)).Perm (List.range m) := (reorder_perm l h1).trans hl
  refine List.Perm.eq_of_pairwise ?_ h2 (List.pairwise_le_range) hp
  intro a b _ _ hab hba
  exact Nat.le_antisymm hab hba

theorem rank_spec {argsort : List Nat → List Nat} (h : SortsColumn argsort) (a : List Nat) (j : Nat) (hj : j < a.length) :
    ∃ r, (argsort (argsort a))[j]? = some r ∧ (argsort a)[r]? = some j := by
  have h1 := (h a).1
  have hl : (argsort a).length = a.length := by rw [h1.length_eq, List.length_range]
  have h2 := (h (argsort a)).1
  have hl2 : (argsort (argsort a)).length = a.length := by rw [h2.length_eq, List.length_range, hl]
  have inv := argsort_perm_inverse h h1
  have hr : (argsort (argsort a))[j]? = some ((argsort (argsort a))[j]'(by omega)) := List.getElem?_eq_getElem _
  refine ⟨_, hr, ?_⟩
  have hlt : ∀ x ∈ argsort (argsort a), x < (argsort a).length := fun x hx => List.mem_range.mp (h2.mem_iff.mp hx)
  have := reorder_get (argsort a) _ hlt j _ hr
  rw [inv, List.getElem?_range hj] at this
  exact this.symm

theorem masked_le {keys : List Nat} {n : Nat} (h : ∀ k ∈ keys, k ≤ n) (f : Option (List Bool)) : ∀ k ∈ masked keys f, k ≤ n := by
  intro k hk
  cases f with
  | none => exact h k hk
  | some f =>
    unfold masked at hk
    obtain ⟨i, hi⟩ := List.getElem?_of_mem hk
    rw [List.getElem?_zipWith] at hi
    cases h1 : keys[i]? with
    | none => rw [h1] at hi; simp at hi
    | some x =>
      cases h2 : f[i]? with
      | none => rw [h1, h2] at hi; simp at hi
      | some b =>
        rw [h1, h2] at hi
        simp only [Option.some.injEq] at hi
        subst hi
        split
        · exact h x (List.mem_of_getElem? h1)
        · omega

/-- **C57** `regroup`: rows that are kept keep their label, and rows removed by the filter become filtered rows -/
theorem regroup_rows {argsort : List Nat → List Nat} (hs : SortsColumn argsort) (old : List K) (keys : List Nat)
    (hk : ∀ k ∈ keys, k ≤ old.length) (filter : Option (List Bool)) (hne : keys ≠ []) :
    ∃ codes labels, regroup argsort old keys old.length filter = some (codes, labels) ∧ codes.length = (masked keys filter).length ∧
      ∀ (i k : Nat), (masked keys filter)[i]? = some k → ∃ c : Nat, codes[i]? = some (some c) ∧
        labelAt labels c = labelAt old k ∧ (c = 0 ↔ k = 0) := by
  have hle := masked_le hk filter
  obtain ⟨hnd, hmem⟩ := appearing_spec (masked keys filter) [] List.nodup_nil (by simp)
  change (appearing (masked keys filter)).Nodup at hnd
  change ∀ k, k ∈ appearing (masked keys filter) ↔ _ at hmem
  unfold regroup
  dsimp only
  generalize hE : masked keys filter = eff at hle hnd hmem ⊢
  generalize hA : appearing eff = a at hnd hmem ⊢
  have hin : ∀ {i k : Nat}, eff[i]? = some (k + 1) → k + 1 ∈ a := fun hi =>
    (hmem _).mpr (Or.inr ⟨List.mem_of_getElem? hi, by omega⟩)
  by_cases hn : a.length = old.length
  · rw [if_pos hn, if_neg (fun h => hne h.1)]
    refine ⟨_, _, rfl, by simp, ?_⟩
    intro i k hi
    rw [List.getElem?_map, List.getElem?_map, hi, Option.map_some, Option.map_some, mbget_nat]
    cases k with
    | zero => exact ⟨0, rfl, rfl, by simp⟩
    | succ k =>
      have hm := hin hi
      rw [if_neg (by omega), List.getElem?_cons_succ, List.getElem?_eq_getElem (List.idxOf_lt_length_of_mem hm), List.getElem_idxOf]
      exact ⟨k + 1, rfl, rfl, by simp⟩
  · rw [if_neg hn]
    refine ⟨_, _, rfl, by simp, ?_⟩
    intro i k hi
    rw [List.getElem?_map, List.getElem?_map, hi, Option.map_some, Option.map_some, mbget_nat]
    cases k with
    | zero => exact ⟨0, rfl, by unfold labelAt; rfl, by simp⟩
    | succ k =>
      have hm := hin hi
      have hj := List.idxOf_lt_length_of_mem hm
      obtain ⟨r, hr1, hr2⟩ := rank_spec hs a (a.idxOf (k + 1)) hj
      rw [if_neg (by omega), List.getElem?_cons_succ, List.getElem?_map, hr1]
      refine ⟨r + 1, rfl, ?_, by simp⟩
      rw [labelAt_nat, labelAt_nat]
      have hp := (hs a).1
      have hlt1 : ∀ x ∈ argsort a, x < (a.map (· - 1)).length := fun x hx => by
        rw [List.length_map]; exact List.mem_range.mp (hp.mem_iff.mp hx)
      have hidx := reorder_get (a.map (· - 1)) (argsort a) hlt1 r _ hr2
      rw [List.getElem?_map, List.getElem?_eq_getElem hj, List.getElem_idxOf] at hidx
      refine reorder_get old _ ?_ r k hidx
      intro x hx
      have := (reorder_perm (a.map (· - 1)) (by rw [List.length_map]; exact hp)).mem_iff.mp hx
      rw [List.mem_map] at this
      obtain ⟨y, hy, rfl⟩ := this
      have hy' := (hmem y).mp hy
      simp only [List.not_mem_nil, false_or] at hy'
      have := hle y hy'.1
      omega

theorem mem_masked_rows {eff : List Nat} {g : Nat} : rowsOf eff g ≠ [] ↔ g ∈ eff := by
  constructor
  · intro h
    obtain ⟨i, hi⟩ := List.exists_mem_of_ne_nil _ h
    exact List.mem_of_getElem? (mem_rowsOf.mp hi)
  · intro h
    obtain ⟨i, hi⟩ := List.getElem?_of_mem h
    exact List.ne_nil_of_mem (mem_rowsOf.mpr hi)

/-- **C57** `regroup`: the categories afterwards are exactly those of the old categories that still have rows, in the old order
(and all old ones if all still have rows) -/
theorem regroup_labels {argsort : List Nat → List Nat} (hs : SortsColumn argsort) (old : List K) (keys : List Nat)
    (hk : ∀ k ∈ keys, k ≤ old.length) (filter : Option (List Bool)) (hne : keys ≠ []) (codes : List (Option Nat)) (labels : List K)
    (h : regroup argsort old keys old.length filter = some (codes, labels)) :
    labels = valuesAt old ((List.range old.length).filter fun j => decide (rowsOf (masked keys filter) (j + 1) ≠ [])) := by
  have hle := masked_le hk filter
  obtain ⟨hnd, hmem⟩ := appearing_spec (masked keys filter) [] List.nodup_nil (by simp)
  change (appearing (masked keys filter)).Nodup at hnd
  change ∀ k, k ∈ appearing (masked keys filter) ↔ _ at hmem
  unfold regroup at h
  dsimp only at h
  generalize masked keys filter = eff at hle hnd hmem h ⊢
  generalize appearing eff = a at hnd hmem h
  have hmem' : ∀ k, k ∈ a ↔ k ∈ eff ∧ k ≠ 0 := fun k => by simpa using hmem k
  have hsub : (a.map (· - 1)).Nodup := by
    refine List.Nodup.map_on ?_ hnd
    intro x hx y hy hxy
    have h1 := ((hmem' x).mp hx).2
    have h2 := ((hmem' y).mp hy).2
    omega
  have hset : ∀ j, j ∈ a.map (· - 1) ↔ j ∈ (List.range old.length).filter fun j => decide (rowsOf eff (j + 1) ≠ []) := by
    intro j
    rw [List.mem_map, List.mem_filter, List.mem_range, decide_eq_true_iff, mem_masked_rows]
    constructor
    · rintro ⟨k, hka, rfl⟩
      obtain ⟨h1, h2⟩ := (hmem' k).mp hka
      have := hle k h1
      refine ⟨by omega, ?_⟩
      rw [show k - 1 + 1 = k by omega]
      exact h1
    · rintro ⟨_, h2⟩
      exact ⟨j + 1, (hmem' _).mpr ⟨h2, by omega⟩, by omega⟩
  have hperm : (a.map (· - 1)).Perm ((List.range old.length).filter fun j => decide (rowsOf eff (j + 1) ≠ [])) :=
    (List.perm_ext_iff_of_nodup hsub (List.Nodup.filter _ List.nodup_range)).mpr hset
  by_cases hn : a.length = old.length
  · rw [if_pos hn, if_neg (fun h => hne h.1)] at h
    have h2 := (Prod.mk.inj (Option.some.inj h)).2
    subst h2
    have hall : ((List.range old.length).filter fun j => decide (rowsOf eff (j + 1) ≠ [])) = List.range old.length := by
      have hl := hperm.length_eq
      rw [List.length_map, hn] at hl
      exact List.Sublist.eq_of_length List.filter_sublist (by rw [← hl, List.length_range])
    rw [hall]
    exact (reorder_range old).symm
  · rw [if_neg hn] at h
    have h2 := (Prod.mk.inj (Option.some.inj h)).2
    rw [← h2]
    show valuesAt old _ = _
    congr 1
    have hp := (hs a).1
    have hperm2 : (reorder (a.map (· - 1)) (argsort a)).Perm ((List.range old.length).filter fun j => decide (rowsOf eff (j + 1) ≠ [])) :=
      (reorder_perm _ (by rw [List.length_map]; exact hp)).trans hperm
    have hsorted : (reorder (a.map (· - 1)) (argsort a)).Pairwise (· ≤ ·) := by
      have e : reorder (a.map (· - 1)) (argsort a) = (reorder a (argsort a)).map (· - 1) := by
        unfold reorder
        rw [List.map_filterMap]
        congr 1
        funext i
        rw [List.getElem?_map]
      rw [e, List.pairwise_map]
      exact (hs a).2.imp fun h => by omega
    refine List.Perm.eq_of_pairwise ?_ hsorted ?_ hperm2
    · intro x y _ _ hxy hyx; exact Nat.le_antisymm hxy hyx
    · exact List.Pairwise.filter _ List.pairwise_le_range

/-- a sort that meets the contract -/
def refSort (l : List Nat) : List Nat := (List.range l.length).insertionSort fun i j => l.getD i 0 ≤ l.getD j 0

theorem refSort_ok : SortsColumn refSort := by
  intro l
  have hp : (refSort l).Perm (List.range l.length) := List.perm_insertionSort _ _
  refine ⟨hp, ?_⟩
  have hso : (refSort l).Pairwise fun i j => l.getD i 0 ≤ l.getD j 0 := by
    haveI : IsTrans Nat (fun i j : Nat => l.getD i 0 ≤ l.getD j 0) := ⟨fun _ _ _ h1 h2 => Nat.le_trans h1 h2⟩
    haveI : Std.Total (fun i j : Nat => l.getD i 0 ≤ l.getD j 0) := ⟨fun a b => Nat.le_total _ _⟩
    exact List.pairwise_insertionSort _ _
  have hlt : ∀ i ∈ refSort l, i < l.length := fun i hi => List.mem_range.mp (hp.mem_iff.mp hi)
  generalize refSort l = r at hso hlt
  have e : reorder l r = r.map fun i => l.getD i 0 := by
    unfold reorder
    clear hso
    induction r with
    | nil => rfl
    | cons i r ih =>
      rw [List.filterMap_cons, List.getElem?_eq_getElem (hlt i (by simp)), List.map_cons, ih fun j hj => hlt j (List.mem_cons_of_mem _ hj)]
      congr 1
      rw [List.getD_eq_getElem?_getD, List.getElem?_eq_getElem (hlt i (by simp))]
      rfl
  rw [e, List.pairwise_map]
  exact hso

/-- non-vacuity -/
example : regroup refSort ["a", "b", "c"] [3, 1, 2, 3, 0] 3 (some [true, true, false, true, true]) =
    some ([some 2, some 1, some 0, some 2, some 0], ["a", "c"]) := by decide

/-! ## C58: `take_groups`, `extract_groups` -/

/-- **C58** `take_groups` gives the values of the rows of the wanted groups, group after group in the wanted order, each in row order -/
theorem takeGroups_correct (keys : List Nat) (n : Nat) (col : List V) (hl : col.length = keys.length) (indices : List Nat)
    (hi : ∀ g ∈ indices, g ≤ n) :
    takeGroups (valuesAt col (pack keys n).iGroup) indices (pack keys n).nCount (pack keys n).iFirst =
      some (indices.flatMap fun g => valuesAt col (rowsOf keys g)) := by
  unfold takeGroups
  rw [List.flatMap_def]
  have hone : ∀ g, g ≤ n → (do
      let c ← (pack keys n).nCount[g]?
      let s ← (pack keys n).iFirst[g]?
      return ((valuesAt col (pack keys n).iGroup).drop s).take c) = some (valuesAt col (rowsOf keys g)) := by
    intro g hg
    rw [pack_count keys n g hg, pack_first keys n g hg]
    have hs := slice_pack keys n g hg
    unfold Packing.slice at hs
    rw [List.getD_eq_getElem?_getD, List.getD_eq_getElem?_getD, pack_first keys n g hg, pack_count keys n g hg] at hs
    simp only [Option.getD_some] at hs
    have hig : ∀ i ∈ (pack keys n).iGroup, i < col.length := fun i hi => by rw [hl]; exact iGroup_lt hi
    show some _ = some _
    rw [valuesAt_drop _ _ hig, valuesAt_take _ _ (fun i hi => hig i (List.mem_of_mem_drop hi)), hs]
  have hm : (indices.mapM fun g => do
      let c ← (pack keys n).nCount[g]?
      let s ← (pack keys n).iFirst[g]?
      return ((valuesAt col (pack keys n).iGroup).drop s).take c) = some (indices.map fun g => valuesAt col (rowsOf keys g)) := by
    induction indices with
    | nil => rfl
    | cons g gs ih =>
      rw [List.mapM_cons, hone g (hi g (by simp)), ih fun k hk => hi k (List.mem_cons_of_mem _ hk)]
      rfl
  rw [hm]
  rfl

/-- **C58** `extract_groups` gives the values of the rows of the groups for which the condition holds -/
theorem extractGroups_correct (keys : List Nat) (n : Nat) (col : List V) (hl : col.length = keys.length) (cond : List Bool)
    (hc : cond.length = n + 1) :
    extractGroups cond (valuesAt col (pack keys n).iGroup) (pack keys n).nCount (pack keys n).iFirst =
      some (((List.range (n + 1)).filter fun g => cond.getD g false).flatMap fun g => valuesAt col (rowsOf keys g)) := by
  unfold extractGroups
  have h1 : (pack keys n).nCount.length = n + 1 := by unfold pack; simp
  have h2 : (pack keys n).iFirst.length = n + 1 := by unfold pack; dsimp only; rw [starts_length]; simp
  rw [if_pos ⟨by rw [hc, h1], by rw [h1, h2]⟩, hc]
  refine takeGroups_correct keys n col hl _ fun g hg => ?_
  have := List.mem_range.mp (List.mem_of_mem_filter hg)
  omega

/-- **C58** a group that does not exist is an IndexError, not other data -/
theorem takeGroups_out_of_range (keys : List Nat) (n : Nat) (data : List V) (indices : List Nat) (g : Nat) (hg : g ∈ indices)
    (hn : n < g) : takeGroups data indices (pack keys n).nCount (pack keys n).iFirst = none := by
  have h1 : (pack keys n).nCount[g]? = none := by
    rw [List.getElem?_eq_none_iff]; unfold pack; simp; omega
  unfold takeGroups
  rw [Option.map_eq_none_iff]
  induction indices with
  | nil => simp at hg
  | cons x xs ih =>
    rw [List.mapM_cons]
    rcases List.mem_cons.mp hg with rfl | h
    · rw [h1]; rfl
    · rw [ih h]
      cases (pack keys n).nCount[x]? <;> cases (pack keys n).iFirst[x]? <;> rfl

/-- non-vacuity -/
example : takeGroups (valuesAt ["p", "q", "r", "s"] (pack [2, 1, 0, 2] 2).iGroup) [2, 1, 2] (pack [2, 1, 0, 2] 2).nCount
    (pack [2, 1, 0, 2] 2).iFirst = some ["p", "s", "q", "p", "s"] ∧
  extractGroups [true, false, true] (valuesAt ["p", "q", "r", "s"] (pack [2, 1, 0, 2] 2).iGroup) (pack [2, 1, 0, 2] 2).nCount
    (pack [2, 1, 0, 2] 2).iFirst = some ["r", "p", "s"] := by decide

/-! ## C59: `count_uniques` -/

theorem foldl_unique {A : Type} [DecidableEq A] (l : List A) : ∀ acc : List A, acc.Nodup →
    (l.foldl (fun acc r => if r ∈ acc then acc else acc ++ [r]) acc).Nodup ∧
    ∀ x, x ∈ l.foldl (fun acc r => if r ∈ acc then acc else acc ++ [r]) acc ↔ x ∈ acc ∨ x ∈ l := by
  induction l with
  | nil => intro acc h; simp [h]
  | cons y l ih =>
    intro acc h
    rw [List.foldl_cons]
    by_cases hy : y ∈ acc
    · rw [if_pos hy]
      obtain ⟨i1, i2⟩ := ih acc h
      refine ⟨i1, fun x => ?_⟩
      rw [i2, List.mem_cons]
      constructor
      · rintro (h | h)
        · exact Or.inl h
        · exact Or.inr (Or.inr h)
      · rintro (h | rfl | h)
        · exact Or.inl h
        · exact Or.inl hy
        · exact Or.inr h
    · rw [if_neg hy]
      obtain ⟨i1, i2⟩ := ih (acc ++ [y]) (by
        rw [List.nodup_append]
        refine ⟨h, by simp, ?_⟩
        intro a ha b hb
        simp only [List.mem_singleton] at hb
        subst hb
        rintro rfl
        exact hy ha)
      refine ⟨i1, fun x => ?_⟩
      rw [i2, List.mem_cons, List.mem_append, List.mem_singleton]
      tauto

/-- a row passes the filter -/
def passes : Option (List Bool) → Nat → Prop
  | none, _ => True
  | some f, i => f[i]? = some true

/-- **C59** (in terms of the codes) the entry `g - 1` of `count_uniques` is the number of different values among the kept rows with code
`g` -/
theorem countUniques_exact {A : Type} [DecidableEq A] (codes : List Nat) (vals : List A)
    (filter : Option (List Bool)) (n : Nat) (hk : ∀ k ∈ codes, k ≤ n) :
    ∃ out, countUniques codes vals filter n = some out ∧ out.length = n ∧
      ∀ g, g < n → out[g]? = some (valuesAt vals (rowsOf (masked codes filter) (g + 1))).dedup.length := by
  unfold countUniques
  dsimp only
  -- the kept rows
  have hkept : ∀ (c : Nat) (v : A), (c, v) ∈ keptRows (List.zip codes vals) filter ↔
      ∃ i : Nat, codes[i]? = some c ∧ vals[i]? = some v ∧ passes filter i := by
    intro c v
    cases filter with
    | none =>
      unfold keptRows passes
      rw [List.mem_iff_getElem?]
      simp only [List.getElem?_zip_eq_some, and_true]
    | some f =>
      unfold keptRows passes
      rw [List.mem_filterMap]
      constructor
      · rintro ⟨⟨r, b⟩, hm, hb⟩
        obtain ⟨i, hi⟩ := List.getElem?_of_mem hm
        rw [List.getElem?_zip_eq_some] at hi
        obtain ⟨h1, h2⟩ := hi
        dsimp only at h1 h2 hb
        cases b with
        | false => simp at hb
        | true =>
          simp only [if_true, Option.some.injEq] at hb
          subst hb
          rw [List.getElem?_zip_eq_some] at h1
          exact ⟨i, h1.1, h1.2, h2⟩
      · rintro ⟨i, h1, h2, h3⟩
        refine ⟨((c, v), true), List.mem_of_getElem? (i := i) ?_, rfl⟩
        rw [List.getElem?_zip_eq_some]
        exact ⟨by rw [List.getElem?_zip_eq_some]; exact ⟨h1, h2⟩, h3⟩
  generalize keptRows (List.zip codes vals) filter = kept at hkept
  obtain ⟨hnd, hmem⟩ := foldl_unique kept [] List.nodup_nil
  change (uniqueRows kept).Nodup at hnd
  change ∀ x, x ∈ uniqueRows kept ↔ _ at hmem
  generalize uniqueRows kept = pairs at hnd hmem
  have hall : (pairs.all fun r => decide (r.1 ≤ n)) = true := by
    rw [List.all_eq_true]
    rintro ⟨c, v⟩ hr
    have := (hmem _).mp hr
    simp only [List.not_mem_nil, false_or] at this
    obtain ⟨i, h1, _⟩ := (hkept c v).mp this
    simpa using hk c (List.mem_of_getElem? h1)
  rw [if_pos hall]
  refine ⟨_, rfl, by simp, ?_⟩
  intro g hg
  rw [List.getElem?_drop, List.getElem?_map, List.getElem?_range (by omega), Option.map_some, Nat.add_comm 1 g]
  congr 1
  have hperm : ((pairs.filter fun r => decide (r.1 = g + 1)).map Prod.snd).Perm
      (valuesAt vals (rowsOf (masked codes filter) (g + 1))).dedup := by
    rw [List.perm_ext_iff_of_nodup ?_ (List.nodup_dedup _)]
    · intro v
      rw [List.mem_dedup, List.mem_map]
      have hv : v ∈ valuesAt vals (rowsOf (masked codes filter) (g + 1)) ↔
          ∃ i : Nat, codes[i]? = some (g + 1) ∧ vals[i]? = some v ∧ passes filter i := by
        unfold valuesAt
        rw [List.mem_filterMap]
        constructor
        · rintro ⟨i, h1, h2⟩
          rw [mem_rowsOf] at h1
          refine ⟨i, ?_⟩
          cases filter with
          | none => exact ⟨h1, h2, trivial⟩
          | some f =>
            unfold masked at h1
            rw [List.getElem?_zipWith] at h1
            cases hc : codes[i]? with
            | none => rw [hc] at h1; simp at h1
            | some c =>
              cases hb : f[i]? with
              | none => rw [hc, hb] at h1; simp at h1
              | some b =>
                rw [hc, hb] at h1
                cases b with
                | true => simp at h1; subst h1; exact ⟨rfl, h2, hb⟩
                | false => simp at h1
        · rintro ⟨i, h1, h2, h3⟩
          refine ⟨i, ?_, h2⟩
          rw [mem_rowsOf]
          cases filter with
          | none => exact h1
          | some f =>
            unfold masked
            rw [List.getElem?_zipWith, h1, h3]
            rfl
      rw [hv]
      constructor
      · rintro ⟨⟨c, v'⟩, hm, rfl⟩
        rw [List.mem_filter, decide_eq_true_iff] at hm
        obtain ⟨h1, h2⟩ := hm
        dsimp only at h2
        subst h2
        have := (hmem _).mp h1
        simp only [List.not_mem_nil, false_or] at this
        exact (hkept _ _).mp this
      · intro h
        refine ⟨(g + 1, v), ?_, rfl⟩
        rw [List.mem_filter]
        exact ⟨(hmem _).mpr (Or.inr ((hkept _ _).mpr h)), by simp⟩
    · refine List.Nodup.map_on ?_ (List.Nodup.filter _ hnd)
      rintro ⟨c, v⟩ h1 ⟨c', v'⟩ h2 hv
      rw [List.mem_filter, decide_eq_true_iff] at h1 h2
      obtain ⟨_, h1⟩ := h1
      obtain ⟨_, h2⟩ := h2
      dsimp only at h1 h2 hv
      rw [h1, h2, hv]
  rw [← hperm.length_eq, List.length_map]

/-- non-vacuity: three groups, one row filtered -/
example : countUniques [1, 1, 2, 0, 1] ["x", "y", "x", "x", "x"] (some [true, true, true, true, false]) 3 = some [2, 1, 0] := by decide

/-- **C59** (counterexample) The codes of a categorical with base index 0 start at 0, so the count of the first group is lost and every
other count is shown one group early: group 0 has the values `x` and `y`, group 1 has `z` -/
theorem countUniques_base0_counterexample :
    countUniques [0, 0, 1] ["x", "y", "z"] none 2 = some [1, 0] ∧
    (valuesAt ["x", "y", "z"] (rowsOf [0, 0, 1] 0)).dedup.length = 2 ∧
    (valuesAt ["x", "y", "z"] (rowsOf [0, 0, 1] 1)).dedup.length = 1 := by decide

end Verif.Grp
