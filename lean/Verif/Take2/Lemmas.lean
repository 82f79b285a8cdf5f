import Verif.Take2.Model
import Verif.Take2.Spec
import Mathlib.Tactic.Linarith
import Mathlib.Tactic.Ring

namespace Verif.Take2
open Spec

theorem zip_replicate (n : Nat) (a : Int) (l : List Int) (h : l.length = n) :
    List.zipWith (fun a b => wrap64 (a + b)) (List.replicate n a) l = l.map fun b => wrap64 (a + b) := by
  induction l generalizing n with
  | nil => subst h; rfl
  | cons x t ih =>
    subst h
    simp [List.replicate_succ, ih t.length rfl]

theorem expand_eq (fast : Bool) (ncols : Nat) (idx : List Int) :
    expandIdx fast ncols idx =
      idx.flatMap fun i => (List.range ncols).map fun (j : Nat) => wrap64 (scaled fast ncols i + (j : Int)) := by
  induction idx with
  | nil => rfl
  | cons i t ih =>
    have h : tiled ncols (i :: t).length = (List.range ncols).map (fun (j : Nat) => (j : Int)) ++ tiled ncols t.length := by
      simp [tiled, List.replicate_succ]
    have h2 : repeatEach ncols ((i :: t).map (scaled fast ncols)) =
        List.replicate ncols (scaled fast ncols i) ++ repeatEach ncols (t.map (scaled fast ncols)) := by
      simp [repeatEach]
    unfold expandIdx at ih ⊢
    rw [h, h2, List.zipWith_append (by simp), ih, zip_replicate _ _ _ (by simp)]
    simp [Function.comp_def]

theorem reshape_flatMap {A B : Type} (n : Nat) (g : A → List B) (l : List A) (h : ∀ a ∈ l, (g a).length = n) :
    reshape l.length n (l.flatMap g) = l.map g := by
  induction l with
  | nil => rfl
  | cons a t ih =>
    have ha := h a (by simp)
    have := ih fun b hb => h b (by simp [hb])
    unfold reshape at this ⊢
    rw [List.length_cons, List.range_succ_eq_map, List.map_cons, List.map_map, List.map_cons, ← this]
    congr 1
    · simp [← ha]
    · apply List.map_congr_left
      intro r _
      simp only [Function.comp]
      rw [List.flatMap_cons, List.drop_append]
      have : (r + 1) * n - (g a).length = r * n := by rw [ha]; rw [Nat.succ_mul]; omega
      have h2 : (g a).drop ((r + 1) * n) = [] := by
        apply List.drop_eq_nil_of_le; rw [ha, Nat.succ_mul]; omega
      simp [this, h2]

theorem flatten_get {V : Type} (n : Nat) (m : List (List V)) (h : ∀ r ∈ m, r.length = n) (r j : Nat) (hj : j < n) :
    m.flatten[r * n + j]? = (m[r]?).bind fun (row : List V) => row[j]? := by
  induction m generalizing r with
  | nil => simp
  | cons a t ih =>
    have ha := h a (by simp)
    cases r with
    | zero => simp [List.getElem?_append_left, ha, hj]
    | succ r =>
      rw [List.flatten_cons, List.getElem?_append_right (by rw [ha, Nat.succ_mul]; omega)]
      have : (r + 1) * n + j - a.length = r * n + j := by rw [ha, Nat.succ_mul]; omega
      rw [this, ih (fun b hb => h b (by simp [hb]))]
      simp

theorem flatten_len {V : Type} (n : Nat) (m : List (List V)) (h : ∀ r ∈ m, r.length = n) :
    m.flatten.length = m.length * n := by
  induction m with
  | nil => simp
  | cons a t ih =>
    rw [List.flatten_cons, List.length_append, ih (fun b hb => h b (by simp [hb])), h a (by simp), List.length_cons, Nat.succ_mul]
    omega

theorem wrap_id (x : Int) (h1 : -(2 ^ 63) ≤ x) (h2 : x < 2 ^ 63) : wrap64 x = x := by
  unfold wrap64
  rw [Int.bmod_eq_of_le] <;> omega

theorem mbget2_eq {V : Type} (fromEnd fast : Bool) (inv : V) (m : List (List V)) (ncols : Nat) (idx : List Int) :
    mbget2 fromEnd fast inv m ncols idx = idx.map fun i => (List.range ncols).map fun (j : Nat) =>
      mbget1 fromEnd m.flatten inv (wrap64 (scaled fast ncols i + (j : Int))) := by
  unfold mbget2
  rw [expand_eq, List.map_flatMap, reshape_flatMap]
  · simp [Function.comp_def]
  · simp

/-- one cell, from the position in the flattened matrix -/
theorem cell_eq {V : Type} (fromEnd : Bool) (inv : V) (m : List (List V)) (ncols : Nat) (hm : ∀ r ∈ m, r.length = ncols)
    (i : Int) (j : Nat) (hj : j < ncols) :
    mbget1 fromEnd m.flatten inv (i * ncols + j) =
      ((rowOf fromEnd m i).bind fun (row : List V) => row[j]?).getD inv := by
  have hl := flatten_len ncols m hm
  unfold mbget1 rowOf
  by_cases hi : 0 ≤ i
  · obtain ⟨r, rfl⟩ := Int.eq_ofNat_of_zero_le hi
    have h0 : 0 ≤ (r : Int) * ncols + j := by positivity
    have h1 : ((r : Int) * ncols + j).toNat = r * ncols + j := by
      have : ((r : Int) * ncols + j) = ((r * ncols + j : Nat) : Int) := by push_cast; ring
      rw [this, Int.toNat_natCast]
    rw [if_pos h0, if_pos hi, h1, flatten_get ncols m hm r j hj]
    simp
  · have hneg : i * (ncols : Int) + j < 0 := by
      have : i * (ncols : Int) ≤ -1 * ncols := by
        apply mul_le_mul_of_nonneg_right <;> omega
      omega
    rw [if_neg (by omega), if_neg hi, hl]
    cases fromEnd with
    | false => simp
    | true =>
      have key : i * (ncols : Int) + j + ((m.length * ncols : Nat) : Int) = (i + m.length) * ncols + j := by
        push_cast; ring
      rw [key]
      by_cases hs : 0 ≤ i + m.length
      · obtain ⟨r, hr⟩ := Int.eq_ofNat_of_zero_le hs
        rw [hr]
        have h0 : 0 ≤ (r : Int) * ncols + j := by positivity
        have h1 : ((r : Int) * ncols + j).toNat = r * ncols + j := by
          have : ((r : Int) * ncols + j) = ((r * ncols + j : Nat) : Int) := by push_cast; ring
          rw [this, Int.toNat_natCast]
        simp only [h0, h1, decide_true, Bool.and_true, Bool.true_and, if_true, flatten_get ncols m hm r j hj]
        simp
      · have : (i + m.length) * (ncols : Int) + j < 0 := by
          have : (i + m.length) * (ncols : Int) ≤ -1 * ncols := by
            apply mul_le_mul_of_nonneg_right <;> omega
          omega
        simp [hs, this]

theorem row_shown {V : Type} (fromEnd : Bool) (inv : V) (m : List (List V)) (ncols : Nat) (hm : ∀ r ∈ m, r.length = ncols) (i : Int) :
    ((List.range ncols).map fun (j : Nat) => ((rowOf fromEnd m i).bind fun (row : List V) => row[j]?).getD inv) =
      shown fromEnd inv m ncols i := by
  unfold shown
  cases h : rowOf fromEnd m i with
  | none =>
    apply List.ext_getElem? ; intro k
    by_cases hk : k < ncols <;> simp [List.getElem?_replicate, hk]
  | some row =>
    have hr : row.length = ncols := by
      apply hm
      unfold rowOf at h
      split at h
      · exact List.mem_of_getElem? h
      · split at h
        · exact List.mem_of_getElem? h
        · cases h
    apply List.ext_getElem? ; intro k
    by_cases hk : k < ncols
    · simp [hk, hr]
    · simp [hk, hr]

end Verif.Take2
