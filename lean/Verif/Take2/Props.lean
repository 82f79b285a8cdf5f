import Verif.Take2.Lemmas
import Mathlib.Tactic.Positivity

namespace Verif.Take2
open Spec

/-- the position can be scaled without leaving 64 bits -/
def Fits (ncols : Nat) (i : Int) : Prop := -(2 ^ 63) ≤ i * ncols ∧ i * ncols + ncols ≤ 2 ^ 63

/-- Taking rows of a matrix by position gives for every position that row, and a row of invalid values for positions that do not
exist and for invalid positions.  Partial: positions so large that position times columns leaves 64 bits are excluded
(`far_counterexample`), and the invalid marker in a plain ndarray (`marker_counterexample`). -/
theorem rows_partial {V : Type} (fromEnd fast : Bool) (inv : V) (m : List (List V)) (ncols : Nat) (idx : List Int) (d : Option V)
    (hm : ∀ r ∈ m, r.length = ncols) (hsize : (m.length + 1) * ncols ≤ 2 ^ 63)
    (hi : ∀ i ∈ idx, Fits ncols i ∨ (fast = true ∧ i = -(2 ^ 63))) :
    mbget fromEnd fast inv (.two ncols m) idx d = .two (idx.map (shown fromEnd inv m ncols)) := by
  unfold mbget
  simp only [mbget2_eq, Out.two.injEq]
  apply List.map_congr_left
  intro i him
  rw [← row_shown fromEnd inv m ncols hm i]
  apply List.map_congr_left
  intro j hj
  have hj : j < ncols := by simpa using hj
  have hsz : ((m.length : Int) + 1) * ncols ≤ 2 ^ 63 := by exact_mod_cast hsize
  by_cases hmark : fast = true ∧ i = inv64
  · obtain ⟨hf, hie⟩ := hmark
    have hmn : (m.length : Int) * ncols + ncols ≤ 2 ^ 63 := by linarith
    have hmn0 : (0 : Int) ≤ (m.length : Int) * ncols := by positivity
    have hml : (m.length : Int) < 2 ^ 63 := by
      by_contra hc
      have : (2 ^ 63 : Int) * 1 ≤ (m.length : Int) * ncols := by
        apply mul_le_mul <;> omega
      omega
    have hs : scaled fast ncols i = inv64 := by simp [scaled, hf, hie]
    have hr : rowOf fromEnd m i = none := by
      unfold rowOf
      rw [if_neg (by rw [hie]; decide), if_neg]
      rintro ⟨_, h⟩
      rw [hie] at h; unfold inv64 at h; omega
    rw [hs, wrap_id _ (by unfold inv64; omega) (by unfold inv64; omega), hr]
    unfold mbget1
    have h1 : ¬ 0 ≤ inv64 + (j : Int) := by unfold inv64; omega
    have h2 : ¬ 0 ≤ inv64 + (j : Int) + (m.flatten.length : Int) := by
      rw [flatten_len ncols m hm]; push_cast; unfold inv64; omega
    rw [if_neg h1]
    simp only [h2, decide_false, Bool.and_false, Option.bind_none, Option.getD_none]
    rfl
  · have hfit : Fits ncols i := by
      rcases hi i him with h | h
      · exact h
      · exact absurd h hmark
    have hs : scaled fast ncols i = i * ncols := by
      have : (fast && decide (i = inv64)) = false := by
        rw [Bool.and_eq_false_iff]
        by_cases hf : fast = true
        · right; simpa using fun h => hmark ⟨hf, h⟩
        · left; simpa using hf
      unfold scaled
      rw [this, if_neg (by simp), wrap_id _ hfit.1 (by have := hfit.2; omega)]
    have h1 := hfit.1
    have h2 := hfit.2
    rw [hs, wrap_id _ (by omega) (by omega), cell_eq fromEnd inv m ncols hm i j hj]

/-- three rows, positions from both ends, a missing one and one too many -/
example : mbget true true (-1 : Int) (.two 2 [[1, 2], [3, 4], [5, 6]]) [2, 0, -1, -(2 ^ 63), 3] none =
    .two [[5, 6], [1, 2], [5, 6], [-1, -1], [-1, -1]] := by
  rw [rows_partial]
  · decide +kernel
  · decide
  · decide
  · intro i hi
    simp only [List.mem_cons, List.not_mem_nil, or_false] at hi
    unfold Fits
    rcases hi with rfl | rfl | rfl | rfl | rfl <;> decide +kernel

/-- An invalid position in a plain numpy array of int64 gives the first row if the number of columns is even, although in one dimension it
gives the invalid value. -/
theorem marker_counterexample :
    ∃ (m : List (List Int)) (idx : List Int),
      mbget true false (-1) (.two 2 m) idx none ≠ .two (idx.map (shown true (-1) m 2)) ∧
      mbget true false (-1) (.two 2 m) idx none = .two [[1, 2]] ∧
      mbget true false (-1) (.one [1, 2]) idx none = .one [-1] :=
  ⟨[[1, 2], [3, 4]], [-(2 ^ 63)], by decide +kernel, by decide +kernel, by decide +kernel⟩

/-- A position that is far outside gives a row of the matrix, also in a FastArray. -/
theorem far_counterexample :
    ∃ (m : List (List Int)) (idx : List Int),
      mbget true true (-1) (.two 4 m) idx none ≠ .two (idx.map (shown true (-1) m 4)) ∧
      mbget true true (-1) (.two 4 m) idx none = .two [[5, 6, 7, 8]] :=
  ⟨[[1, 2, 3, 4], [5, 6, 7, 8]], [2 ^ 62 + 1], by decide +kernel, by decide +kernel⟩

/-- In one dimension positions that do not exist give the default that was passed. -/
theorem default_one {V : Type} (fromEnd fast : Bool) (inv : V) (vals : List V) (idx : List Int) (d : V) :
    ∃ out : List V, mbget fromEnd fast inv (.one vals) idx (some d) = .one out ∧ out.length = idx.length ∧
      ∀ (k : Nat) (i : Int), idx[k]? = some i →
        (∀ (n : Nat) (v : V), i = n → vals[n]? = some v → out[k]? = some v) ∧
        ((vals.length : Int) ≤ i ∨ i < -(vals.length : Int) → out[k]? = some d) := by
  refine ⟨_, rfl, by simp, ?_⟩
  intro k i hk
  constructor
  · rintro n v rfl hv
    simp [hk, mbget1, hv]
  · intro h
    simp only [List.getElem?_map, hk, Option.map_some, Option.some.injEq, mbget1, Option.getD_some]
    rcases h with h | h
    · rw [if_pos (by omega), List.getElem?_eq_none (by omega)]; rfl
    · rw [if_neg (by omega)]
      have : ¬ 0 ≤ i + (vals.length : Int) := by omega
      simp [this]

example : mbget true true (-1 : Int) (.one [10, 20, 30]) [1, 3, -7] (some 0) = .one [20, 0, 0] := by decide +kernel

/-- In two dimensions the default is ignored. -/
theorem default_counterexample :
    ∃ (m : List (List Int)) (idx : List Int) (d : Int),
      mbget true true (-1) (.two 2 m) idx (some d) ≠ .two (idx.map (shown true d m 2)) ∧
      ∀ d', mbget true true (-1) (.two 2 m) idx d' = .two [[-1, -1]] :=
  ⟨[[1, 2]], [5], 0, by decide +kernel, fun _ =>
    (by decide +kernel : Out.two (mbget2 true true (-1 : Int) [[1, 2]] 2 [5]) = Out.two [[-1, -1]])⟩

/-! ## str_replace -/

variable {S : Type} [LinearOrder S]

open Verif.CatNew in
/-- If `old` has every text of `arr` and `new` is as long as `old`, every text is replaced by the one at the same place. -/
theorem replace_exact (filtered missing : S) (arr old new : List S) (hlen : old.length = new.length) (hne : old ≠ [])
    (hall : ∀ v ∈ arr, v ∈ old) :
    ∃ out, strReplace filtered arr old new missing = .ok out ∧ Replaced arr old new out := by
  have hnew : new ≠ [] := by rintro rfl; simp at hlen; exact hne (by simpa using hlen)
  have hc : memberCodes 1 arr old = arr.map fun v => (old.idxOf v : Int) + 1 := by
    apply List.map_congr_left
    intro v hv
    simp [hall v hv]
  have h1 : newOfMembers arr old ({ invalid := some missing } : Opts S) =
      .ok (ofGrouping (groupingOfMembers arr old none 1 none) (some missing) false) := by
    unfold newOfMembers
    rw [if_neg (by simp), if_neg (by simp), if_neg hne, if_neg (by simp [filterFits])]
    simp only [Option.getD_none]
    rw [if_neg]
    simp only [unknown, groupingOfMembers, combineFilter, recastIfAsked, hc, Bool.not_eq_true]
    simp
    intros; omega
  have hcodes : (ofGrouping (groupingOfMembers arr old none 1 none) (some missing) false).g.codes =
      arr.map fun v => (old.idxOf v : Int) + 1 := by
    simp [ofGrouping, groupingOfMembers, combineFilter, recastIfAsked, hc]
  have hout : outside 1 new.length (arr.map fun v => (old.idxOf v : Int) + 1) = false := by
    simp only [outside, List.any_map, List.any_eq_false, Function.comp]
    intro v hv
    have := List.idxOf_lt_length_of_mem (hall v hv)
    simp only [Bool.or_eq_true, decide_eq_true_eq, not_or]
    push_cast
    omega
  refine ⟨expandCat filtered (arr.map fun v => (old.idxOf v : Int) + 1) new, ?_, ?_⟩
  · unfold strReplace
    rw [if_pos hlen, h1]
    simp only [hcodes]
    unfold newOfCodes
    rw [if_neg (by simp), if_neg (by simp), if_neg hnew, if_neg (by simp [filterFits])]
    simp only [Option.getD_none, groupingOfCodes, flipUnsigned, if_neg (Bool.false_ne_true), hout]
    simp [ofGrouping, combineFilter, recastIfAsked]
  · refine ⟨by simp [expandCat], ?_⟩
    intro i v hv
    have hm := hall v (List.mem_of_getElem? hv)
    have hj := List.idxOf_lt_length_of_mem hm
    have hj' : old.idxOf v < new.length := by omega
    refine ⟨old.idxOf v, new[old.idxOf v], ?_, ?_, by simp [hj'], ?_⟩
    · rw [List.getElem?_eq_getElem hj]; simp
    · intro k hk h
      obtain ⟨hkl, he⟩ := List.getElem?_eq_some_iff.1 h
      have := List.not_of_lt_findIdx (p := fun x => x == v) (xs := old) hk
      simp [he] at this
    · simp only [expandCat, List.map_map, List.getElem?_map, hv, Option.map_some, Function.comp, Option.some.injEq]
      have : ((old.idxOf v : Int) + 1).toNat = old.idxOf v + 1 := by omega
      rw [this, List.getElem?_cons_succ, List.getElem?_eq_getElem hj']
      rfl

open Verif.CatNew in
/-- A text that `old` does not have makes `str_replace` raise ValueError, whatever `missing` is. -/
theorem missing_exact (filtered missing : S) (arr old new : List S) (h : ∃ v ∈ arr, v ∉ old) :
    strReplace filtered arr old new missing = .error .valueError := by
  unfold strReplace
  split
  · have h1 : newOfMembers arr old ({ invalid := some missing } : Opts S) = .error .valueError := by
      unfold newOfMembers
      rw [if_neg (by simp), if_neg (by simp)]
      split
      · rfl
      · rw [if_neg (by simp [filterFits])]
        simp only [Option.getD_none]
        rw [if_pos]
        obtain ⟨v, hv, hn⟩ := h
        simp only [unknown, groupingOfMembers, combineFilter, recastIfAsked, memberCodes]
        simp
        exact ⟨v, hv, Or.inl hn⟩
    rw [h1]
  · rfl

/-- two texts, one replaced by the other -/
example : ∃ out, strReplace 9 [1, 2, 1] [2, 1] [5, 6] (0 : Nat) = .ok out ∧ Replaced [1, 2, 1] [2, 1] [5, 6] out :=
  replace_exact 9 0 [1, 2, 1] [2, 1] [5, 6] rfl (by simp) (by decide)

/-- The documented text for values that are not found is never used. -/
theorem missing_counterexample :
    ∃ (arr old new : List Nat) (missing : Nat), old.length = new.length ∧ old.Nodup ∧ new.Nodup ∧
      strReplace 9 arr old new missing ≠ .ok (arr.map fun v => (new[old.idxOf v]?).getD missing) ∧
      strReplace 9 arr old new missing = .error .valueError :=
  ⟨[1, 3], [1, 2], [5, 6], 0, rfl, by decide, by decide, by
    rw [missing_exact 9 0 [1, 3] [1, 2] [5, 6] ⟨3, by decide, by decide⟩]; exact fun h => (by cases h),
    missing_exact 9 0 [1, 3] [1, 2] [5, 6] ⟨3, by decide, by decide⟩⟩

end Verif.Take2
