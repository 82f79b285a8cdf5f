import Verif.DateOps.Model
import Mathlib.Tactic.Linarith

/-! # Lemmas for the arithmetic of dates and times -/
namespace Verif.DateOps
open Spec

theorem w32_eq {x : Int} (h1 : -(2 ^ 31) ≤ x) (h2 : x < 2 ^ 31) : w32 x = x := by
  unfold w32
  apply Int.bmod_eq_of_le_mul_two <;> omega

theorem w64_eq {x : Int} (h1 : -(2 ^ 63) ≤ x) (h2 : x < 2 ^ 63) : w64 x = x := by
  unfold w64
  apply Int.bmod_eq_of_le_mul_two <;> omega

theorem w64_add_left (x y : Int) : w64 (w64 x + y) = w64 (x + y) := by
  unfold w64; exact Int.bmod_add_bmod

theorem w64_add_right (x y : Int) : w64 (x + w64 y) = w64 (x + y) := by
  unfold w64; exact Int.add_bmod_bmod

theorem w64_sub_left (x y : Int) : w64 (w64 x - y) = w64 (x - y) := by
  unfold w64; exact Int.bmod_sub_bmod

theorem w64_sub_right (x y : Int) : w64 (x - w64 y) = w64 (x - y) := by
  unfold w64; exact Int.sub_bmod_bmod

theorem w64_on_left (op : Op) (x y : Int) : w64 (op.on (w64 x) y) = w64 (op.on x y) := by
  cases op
  · exact w64_add_left x y
  · exact w64_sub_left x y

theorem w64_on_right (op : Op) (x y : Int) : w64 (op.on x (w64 y)) = w64 (op.on x y) := by
  cases op
  · exact w64_add_right x y
  · exact w64_sub_right x y

theorem entry_map {α β : Type} (g : α → β) (xs : List α) (i : Nat) : entry (xs.map g) i = (entry xs i).map g := by
  unfold entry
  by_cases h : xs.length = 1 <;> simp [h]

theorem entry_mem {α : Type} {xs : List α} {i : Nat} {a : α} (h : entry xs i = some a) : a ∈ xs := by
  unfold entry at h
  split at h <;> exact List.mem_of_getElem? h

/-- the length of the combined column -/
def outLen {α β : Type} (xs : List α) (ys : List β) : Nat := if xs.length = 1 then ys.length else xs.length

theorem entry_some_left {α β : Type} {xs : List α} {ys : List β} {i : Nat} (hf : Fit xs ys) (hi : i < outLen xs ys) :
    ∃ a, entry xs i = some a := by
  unfold outLen at hi
  unfold entry
  by_cases h : xs.length = 1
  · simp [h]
  · simp only [h, if_false] at hi ⊢
    exact ⟨xs[i], List.getElem?_eq_getElem hi⟩

theorem entry_some_right {α β : Type} {xs : List α} {ys : List β} {i : Nat} (hf : Fit xs ys) (hi : i < outLen xs ys) :
    ∃ b, entry ys i = some b := by
  unfold outLen at hi
  unfold entry
  by_cases h : ys.length = 1
  · simp [h]
  · simp only [h, if_false]
    have hy : i < ys.length := by
      rcases hf with h1 | h1 | h1
      · split at hi <;> omega
      · simpa [h1] using hi
      · exact absurd h1 h
    exact ⟨ys[i], List.getElem?_eq_getElem hy⟩

theorem one_eq {α : Type} {xs : List α} (h : xs.length = 1) : ∃ x, xs = [x] := by
  match xs, h with
  | [x], _ => exact ⟨x, rfl⟩

/-- broadcasting, entry by entry -/
theorem bcast_entry {α β γ : Type} (f : α → β → γ) {xs : List α} {ys : List β} (hf : Fit xs ys) :
    ∃ r, bcast f xs ys = .ok r ∧ r.length = outLen xs ys ∧
      ∀ (i : Nat) (a : α) (b : β), i < outLen xs ys → entry xs i = some a → entry ys i = some b → r[i]? = some (f a b) := by
  by_cases h : xs.length = ys.length
  · refine ⟨List.zipWith f xs ys, by simp [bcast, h], ?_, ?_⟩
    · simp only [List.length_zipWith, outLen]; split <;> omega
    · intro i a b hi ha hb
      have hx : xs[i]? = some a := by
        unfold entry at ha; split at ha
        · have : i = 0 := by unfold outLen at hi; split at hi <;> omega
          subst this; exact ha
        · exact ha
      have hy : ys[i]? = some b := by
        unfold entry at hb; split at hb
        · have : i = 0 := by unfold outLen at hi; split at hi <;> omega
          subst this; exact hb
        · exact hb
      simp [List.getElem?_zipWith, hx, hy]
  · by_cases h1 : xs.length = 1
    · obtain ⟨x, rfl⟩ := one_eq h1
      have hy : ys.length ≠ 1 := fun e => h (by simp [e])
      refine ⟨ys.map (f x), ?_, by simp [outLen], ?_⟩
      · unfold bcast; rw [if_neg h, if_pos h1]; simp
      · intro i a b hi ha hb
        simp [entry] at ha
        simp only [entry, hy, if_false] at hb
        subst ha
        simp [hb]
    · rcases hf with h2 | h2 | h2
      · exact absurd h2 h
      · exact absurd h2 h1
      · obtain ⟨y, rfl⟩ := one_eq h2
        refine ⟨xs.map (fun x => f x y), ?_, by simp [outLen, h1], ?_⟩
        · simp only [bcast, h, h1, if_false, List.length_singleton, if_true]; simp
        · intro i a b hi ha hb
          simp [entry] at hb
          simp only [entry, h1, if_false] at ha
          subst hb
          simp [ha]

/-- broadcasting raises when the lengths do not fit -/
theorem bcast_misfit {α β γ : Type} (f : α → β → γ) {xs : List α} {ys : List β} (hf : ¬ Fit xs ys) :
    bcast f xs ys = .error .value := by
  unfold Fit at hf
  push Not at hf
  simp [bcast, hf.1, hf.2.1, hf.2.2]

theorem putmask_get {γ : Type} (arr : List γ) (mask : List Bool) (v : γ) (i : Nat) (x : γ) (m : Bool)
    (hx : arr[i]? = some x) (hm : mask[i]? = some m) : (putmask arr mask v)[i]? = some (if m then v else x) := by
  simp [putmask, List.getElem?_zipWith, hx, hm]

theorem putmask_length {γ : Type} (arr : List γ) (mask : List Bool) (v : γ) (h : arr.length = mask.length) :
    (putmask arr mask v).length = arr.length := by
  simp [putmask, h]

/-- the masks do their work when the first operand has not one entry -/
theorem applyInv_entry {γ β : Type} (self' xs : List Int) (p : Int → Bool) (ys : List β) (q : β → Bool) (r : List γ) (inv fill : γ)
    (hl : self'.length = xs.length) (h1 : xs.length ≠ 1) (hf : Fit xs ys) (hr : r.length = outLen xs ys) :
    (applyInv self' (xs.map p) r inv fill (some (ys.map q))).length = outLen xs ys ∧
    ∀ (i : Nat) (a : Int) (b : β) (c : γ), i < outLen xs ys → entry xs i = some a → entry ys i = some b → r[i]? = some c →
      (applyInv self' (xs.map p) r inv fill (some (ys.map q)))[i]? = some (if p a || q b then fill else c) := by
  have hr' : r.length = xs.length := by rw [hr]; simp [outLen, h1]
  have hpl : (putmask r (xs.map p) fill).length = xs.length := by rw [putmask_length _ _ _ (by simp [hr']), hr']
  have hout : outLen xs ys = xs.length := by simp [outLen, h1]
  have hget : ∀ (i : Nat) (a : Int) (c : γ), entry xs i = some a → r[i]? = some c →
      (putmask r (xs.map p) fill)[i]? = some (if p a then fill else c) := by
    intro i a c ha hc
    simp only [entry, h1, if_false] at ha
    exact putmask_get _ _ _ _ _ _ hc (by simp [ha])
  unfold applyInv
  rw [if_neg (by omega)]
  simp only [List.length_map]
  by_cases hy : ys.length = 1
  · rw [if_pos hy]
    obtain ⟨y, rfl⟩ := one_eq hy
    simp only [List.map_cons, List.map_nil, List.headD_cons]
    by_cases hq : q y
    · rw [if_pos hq]
      refine ⟨by simp [hpl, hout], ?_⟩
      intro i a b c _ ha hb hc
      simp [entry] at hb; subst hb
      rw [List.getElem?_map, hget i a c ha hc]
      simp [hq]
    · rw [if_neg hq]
      refine ⟨by rw [hpl, hout], ?_⟩
      intro i a b c _ ha hb hc
      simp [entry] at hb; subst hb
      simp [hget i a c ha hc, hq]
  · rw [if_neg hy]
    have hxy : xs.length = ys.length := by
      rcases hf with h | h | h
      · exact h
      · exact absurd h h1
      · exact absurd h hy
    refine ⟨by rw [putmask_length _ _ _ (by simp [hpl, hxy]), hpl, hout], ?_⟩
    intro i a b c _ ha hb hc
    have hb' : ys[i]? = some b := by simpa [entry, hy] using hb
    rw [putmask_get _ _ _ _ _ _ (hget i a c ha hc) (by simp [hb'] : (ys.map q)[i]? = some (q b))]
    cases p a <;> cases q b <;> simp

theorem applyInv_none {γ : Type} (self' xs : List Int) (p : Int → Bool) (g : Int → γ) (inv fill : γ)
    (hl : self'.length = xs.length) (h1 : xs.length ≠ 1) :
    applyInv self' (xs.map p) (xs.map g) inv fill none = xs.map fun x => if p x then fill else g x := by
  unfold applyInv
  rw [if_neg (by omega)]
  simp only [putmask]
  induction xs generalizing self' with
  | nil => simp
  | cons x xs ih =>
    simp only [List.map_cons, List.zipWith_cons_cons, List.cons.injEq, true_and]
    clear ih hl h1
    induction xs with
    | nil => simp
    | cons y ys ih => simp [ih]

/-- from the entries to the meanings -/
theorem pointwise_of {α β γ : Type} (f : Option Int → Option Int → Option Int) (mv : α → Option Int) (mw : β → Option Int)
    (mr : γ → Option Int) (xs : List α) (ys : List β) (r : List γ) (g : α → β → γ) (hf : Fit xs ys)
    (hl : r.length = outLen xs ys)
    (hr : ∀ (i : Nat) (a : α) (b : β), i < outLen xs ys → entry xs i = some a → entry ys i = some b → r[i]? = some (g a b))
    (hg : ∀ a ∈ xs, ∀ b ∈ ys, mr (g a b) = f (mv a) (mw b)) :
    Pointwise f (xs.map mv) (ys.map mw) (r.map mr) := by
  refine ⟨by simp [hl, outLen], ?_⟩
  intro i a b hi ha hb
  have hi' : i < outLen xs ys := by simpa [hl] using hi
  obtain ⟨x, hx⟩ := entry_some_left hf hi'
  obtain ⟨y, hy⟩ := entry_some_right hf hi'
  rw [entry_map, hx] at ha
  rw [entry_map, hy] at hb
  cases ha
  cases hb
  simp [hr i x y hi' hx hy, hg x (entry_mem hx) y (entry_mem hy)]

end Verif.DateOps
