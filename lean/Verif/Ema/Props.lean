import Verif.Ema.Model
import Verif.Ema.Spec
import Mathlib.Algebra.BigOperators.Group.List.Basic
import Mathlib.Algebra.Order.Ring.Int
import Mathlib.Analysis.SpecialFunctions.Exp
import Mathlib.Tactic.Ring
import Mathlib.Tactic.NormNum
import Mathlib.Tactic.Linarith
/-!
# `ema_decay` (C266 - C270)
-/
namespace Verif.Ema
open Spec

section
variable {R T : Type} [CommRing R] [LinearOrder R]

/-- The state invariant: the register holds the sum of the observations so far, decayed to the last time. -/
theorem decayedSum_move (w : T → T → R) (hw : Weight w) (obs : List (R × T)) (t u : T) :
    decayedSum w obs u * w t u = decayedSum w obs t := by
  induction obs with
  | nil => simp [decayedSum]
  | cons o os ih =>
    simp only [decayedSum, List.map_cons, List.sum_cons] at ih ⊢
    rw [add_mul, ih, mul_assoc, mul_comm (w u o.2), hw.comp]

theorem decayedSum_snoc (w : T → T → R) (hw : Weight w) (obs : List (R × T)) (v : R) (t : T) :
    decayedSum w (obs ++ [(v, t)]) t = v + decayedSum w obs t := by
  simp [decayedSum, hw.self, add_comm]

theorem masked_cons (f : Bool) (fs : List Bool) (o : R × T) (os : List (R × T)) :
    masked (f :: fs) (o :: os) = (if f then [o] else []) ++ masked fs os := by
  cases f <;> simp [masked]

theorem next_fin (E : T → T → F R) (w : T → T → R) (t u : T) (h : E t u = .fin (w t u)) (v e : R) :
    next E (.fin v) (.fin e) t u = .fin (v + e * w t u) := by
  simp [next, h, F.mul, F.add]

/-- The general step for the loop with filter and reset, from the registers that `obs` leave. -/
theorem resetLoop_sum (E : T → T → F R) (w : T → T → R) (hw : Weight w) (t0 : T) :
    ∀ (arr : List (F R)) (xs : List R) (time : List T) (fs rs : List Bool) (obs : List (R × T)) (e : R) (last : T) (i : Nat) (t : T),
    arr.length = time.length → fs.length = time.length → rs.length = time.length → xs.length = time.length →
    (∀ a ∈ time, ∀ b ∈ last :: t0 :: time, E a b = .fin (w a b)) →
    (∀ j, j ≤ i → fs[j]? = some true → ∀ x, xs[j]? = some x → arr[j]? = some (.fin x)) →
    (∀ j, j ≤ i → fs[j]? = some true → rs[j]? = some false) →
    (∀ a ∈ time, e * w a last = decayedSum w obs a) →
    time[i]? = some t →
    (resetLoop E t0 (.fin e) last arr time fs rs)[i]? =
      some (.fin (decayedSum w (obs ++ masked (fs.take (i + 1)) ((xs.zip time).take (i + 1))) t)) := by
  intro arr
  induction arr with
  | nil =>
    intro xs time fs rs obs e last i t hl _ _ _ _ _ _ _ ht
    cases time with
    | nil => simp at ht
    | cons _ _ => simp at hl
  | cons a as ih =>
    intro xs time fs rs obs e last i t hl hf hr hx hE hv hrs he ht
    match time, fs, rs, xs with
    | [], _, _, _ => simp at hl
    | u :: us, [], _, _ => simp at hf
    | u :: us, f :: fs', [], _ => simp at hr
    | u :: us, f :: fs', r :: rs', [] => simp at hx
    | u :: us, f :: fs', r :: rs', x :: xs' =>
      simp only [List.length_cons, Nat.add_right_cancel_iff] at hl hf hr hx
      have hfr : (f && r) = false := by
        cases f with
        | false => rfl
        | true =>
          have h0 := hrs 0 (Nat.zero_le i) (by simp)
          simpa using h0
      have hval : (if f then a else F.fin 0) = F.fin (if f then x else 0) := by
        cases f with
        | false => rfl
        | true =>
          have h0 := hv 0 (Nat.zero_le i) (by simp) x (by simp)
          simpa using h0
      have hEu : E u last = .fin (w u last) := hE u (by simp) last (by simp)
      have hstep : next E (if f then a else F.fin 0) (.fin e) u last =
          .fin ((if f then x else 0) + decayedSum w obs u) := by
        rw [hval, next_fin E w u last hEu, he u (by simp)]
      have hobs : (if f then x else 0) + decayedSum w obs u = decayedSum w (obs ++ (if f then [(x, u)] else [])) u := by
        cases f with
        | false => simp
        | true => simp only [if_true]; exact (decayedSum_snoc w hw obs x u).symm
      simp only [resetLoop, hfr, Bool.false_eq_true, if_false]
      rw [hstep, hobs]
      cases i with
      | zero =>
        simp only [List.getElem?_cons_zero, Option.some.injEq] at ht
        subst ht
        simp only [List.zip_cons_cons, List.take_succ_cons, List.take_zero, masked_cons]
        simp [masked]
      | succ i =>
        simp only [List.getElem?_cons_succ] at ht ⊢
        have := ih xs' us fs' rs' (obs ++ (if f then [(x, u)] else [])) (decayedSum w (obs ++ (if f then [(x, u)] else [])) u) u i t
          hl hf hr hx
          (fun p hp q hq => hE p (by simp [hp]) q (by
            simp only [List.mem_cons] at hq ⊢
            rcases hq with h | h | h
            · exact Or.inr (Or.inr (Or.inl h))
            · exact Or.inr (Or.inl h)
            · exact Or.inr (Or.inr (Or.inr h))))
          (fun j hj hfj y hy => by simpa using hv (j + 1) (by omega) (by simpa using hfj) y (by simpa using hy))
          (fun j hj hfj => by simpa using hrs (j + 1) (by omega) (by simpa using hfj))
          (fun p hp => decayedSum_move w hw _ p u)
          ht
        rw [this]
        simp [masked_cons]

/-- Rows before position `k` only decide the registers at `k`. -/
theorem resetLoop_drop (E : T → T → F R) (t0 : T) :
    ∀ (k : Nat) (arr : List (F R)) (time : List T) (fs rs : List Bool) (e : F R) (last : T),
    arr.length = time.length → fs.length = time.length → rs.length = time.length → k < time.length →
    ∃ (e' : F R) (last' : T), ∀ i, (resetLoop E t0 e last arr time fs rs)[k + i]? =
      (resetLoop E t0 e' last' (arr.drop k) (time.drop k) (fs.drop k) (rs.drop k))[i]? := by
  intro k
  induction k with
  | zero => intro arr time fs rs e last _ _ _ _; exact ⟨e, last, fun i => by simp⟩
  | succ k ih =>
    intro arr time fs rs e last hl hf hr hk
    match arr, time, fs, rs with
    | _, [], _, _ => simp at hk
    | [], u :: us, _, _ => simp at hl
    | _ :: _, u :: us, [], _ => simp at hf
    | _ :: _, u :: us, f :: fs', [] => simp at hr
    | a :: as, u :: us, f :: fs', r :: rs' =>
      simp only [List.length_cons, Nat.add_right_cancel_iff, Nat.add_lt_add_iff_right] at hl hf hr hk
      obtain ⟨e', last', h⟩ := ih as us fs' rs'
        (next E (if f then a else F.fin 0) (if f && r then F.fin 0 else e) u (if f && r then t0 else last)) u hl hf hr hk
      refine ⟨e', last', fun i => ?_⟩
      rw [show k + 1 + i = (k + i) + 1 by omega]
      simp only [resetLoop, List.getElem?_cons_succ, List.drop_succ_cons]
      exact h i

/-- A row that resets restarts the loop, whatever the registers hold. -/
theorem resetLoop_restart (E : T → T → F R) (t0 : T) (arr : List (F R)) (time : List T) (fs rs : List Bool) (e : F R) (last : T)
    (hf : fs[0]? = some true) (hr : rs[0]? = some true) :
    resetLoop E t0 e last arr time fs rs = resetLoop E t0 (.fin 0) t0 arr time fs (false :: rs.drop 1) := by
  match arr, time, fs, rs with
  | [], _, _, _ => simp [resetLoop]
  | _ :: _, [], _, _ => simp [resetLoop]
  | _, _, [], _ => simp at hf
  | _, _, _ :: _, [] => simp at hr
  | a :: as, u :: us, f :: fs', r :: rs' =>
    simp only [List.getElem?_cons_zero, Option.some.injEq] at hf hr
    subst hf hr
    simp [resetLoop]

theorem filterLoop_eq (E : T → T → F R) (t0 : T) :
    ∀ (arr : List (F R)) (time : List T) (fs rs : List Bool) (e : F R) (last : T),
    fs.length = rs.length → (∀ r ∈ rs, r = false) →
    filterLoop E e last arr time fs = resetLoop E t0 e last arr time fs rs := by
  intro arr
  induction arr with
  | nil => intros; simp [filterLoop, resetLoop]
  | cons a as ih =>
    intro time fs rs e last hl hr
    match time, fs, rs with
    | [], _, _ => simp [filterLoop, resetLoop]
    | u :: us, [], [] => simp [filterLoop, resetLoop]
    | u :: us, [], _ :: _ => simp at hl
    | u :: us, f :: fs', [] => simp at hl
    | u :: us, f :: fs', r :: rs' =>
      have h0 : r = false := hr r (by simp)
      subst h0
      simp only [filterLoop, resetLoop, Bool.and_false, Bool.false_eq_true, if_false, List.cons.injEq, true_and]
      exact ih us fs' rs' _ _ (by simpa using hl) (fun q hq => hr q (by simp [hq]))

/-- NaN read as zero. -/
theorem plainLoop_eq (E : T → T → F R) :
    ∀ (arr : List (F R)) (time : List T) (fs : List Bool) (e : F R) (last : T),
    arr.length = fs.length → (∀ f ∈ fs, f = true) →
    plainLoop E e last arr time = filterLoop E e last (arr.map fun x => if x.isNan then F.fin 0 else x) time fs := by
  intro arr
  induction arr with
  | nil => intros; simp [filterLoop, plainLoop]
  | cons a as ih =>
    intro time fs e last hl hf
    match time, fs with
    | [], _ => simp [filterLoop, plainLoop]
    | u :: us, [] => simp at hl
    | u :: us, f :: fs' =>
      have h0 : f = true := hf f (by simp)
      subst h0
      simp only [filterLoop, plainLoop, List.map_cons, if_true, List.cons.injEq, true_and]
      exact ih us fs' _ _ (by simpa using hl) (fun q hq => hf q (by simp [hq]))

theorem masked_true (n : Nat) (obs : List (R × T)) (h : obs.length ≤ n) : masked (List.replicate n true) obs = obs := by
  induction obs generalizing n with
  | nil => simp [masked]
  | cons o os ih =>
    cases n with
    | zero => simp at h
    | succ n => simp only [List.replicate_succ, masked_cons, if_true, ih n (by simpa using h)]; rfl

/-- **C266** (with finite weights). Without a filter, entry `i` of the result is the sum of the values of rows `0 … i`, NaN counted as
zero, each decayed from its time to the time of row `i`. -/
theorem plain_partial (E : T → T → F R) (w : T → T → R) (hw : Weight w) (t0 : T) (arr : List (F R)) (xs : List R) (time : List T)
    (hlen : arr.length = time.length) (hxl : xs.length = time.length)
    (hE : ∀ a ∈ time, ∀ b ∈ t0 :: time, E a b = .fin (w a b))
    (hv : ∀ (j : Nat) (x : R), xs[j]? = some x → arr[j]? = some (.fin x) ∨ (arr[j]? = some .nan ∧ x = 0)) :
    ∃ out, emaDecay E t0 arr time none none = .ok out ∧ out.length = arr.length ∧
      ∀ (i : Nat) (t : T), time[i]? = some t → out[i]? = some (.fin (decayedSum w ((xs.zip time).take (i + 1)) t)) := by
  have hp := plainLoop_eq E arr time (List.replicate arr.length true) (.fin 0) t0 (by simp) (by simp)
  have hf := filterLoop_eq E t0 (arr.map fun x => if x.isNan then F.fin 0 else x) time (List.replicate arr.length true)
    (List.replicate arr.length false) (.fin 0) t0 (by simp) (by simp)
  have key : ∀ (i : Nat) (t : T), time[i]? = some t → (plainLoop E (.fin 0) t0 arr time)[i]? =
      some (.fin (decayedSum w ((xs.zip time).take (i + 1)) t)) := by
    intro i t ht
    rw [hp, hf, resetLoop_sum E w hw t0 _ xs time _ _ [] 0 t0 i t (by simp [hlen]) (by simp [hlen]) (by simp [hlen]) hxl
      (by
        intro a ha b hb
        refine hE a ha b ?_
        simp only [List.mem_cons] at hb ⊢
        rcases hb with h | h | h
        · exact Or.inl h
        · exact Or.inl h
        · exact Or.inr h)
      (by
        intro j hj hfj x hx
        rcases hv j x hx with h | ⟨h, h0⟩
        · simp [h, F.isNan]
        · simp [h, F.isNan, h0])
      (by
        intro j hj hfj
        rw [List.getElem?_replicate] at hfj ⊢
        split_ifs at hfj ⊢ with hc
        rfl)
      (by intro a ha; simp [decayedSum])
      ht]
    have hi : i < time.length := (List.getElem?_eq_some_iff.mp ht).1
    rw [List.take_replicate, masked_true _ _ (by simp [hlen, hxl])]
    rfl
  refine ⟨plainLoop E (.fin 0) t0 arr time, by simp [emaDecay, hlen], ?_, key⟩
  clear key hp hf hv hE hxl
  have : ∀ (arr : List (F R)) (time : List T) (e : F R) (last : T), arr.length = time.length →
      (plainLoop E e last arr time).length = arr.length := by
    intro arr
    induction arr with
    | nil => intros; simp [plainLoop]
    | cons a as ih =>
      intro time e last hl
      cases time with
      | nil => simp at hl
      | cons u us => simp [plainLoop, ih us _ _ (by simpa using hl)]
  exact this arr time _ _ hlen

/-- **C268** (with finite weights and no NaN). With a filter, entry `i` is the sum of the values of the rows `0 … i` in the filter,
each decayed to the time of row `i`; values of the other rows are never looked at. -/
theorem filter_partial (E : T → T → F R) (w : T → T → R) (hw : Weight w) (t0 : T) (arr : List (F R)) (xs : List R) (time : List T)
    (fs : List Bool) (hlen : arr.length = time.length) (hfl : fs.length = time.length) (hxl : xs.length = time.length)
    (hE : ∀ a ∈ time, ∀ b ∈ t0 :: time, E a b = .fin (w a b))
    (hv : ∀ (j : Nat) (x : R), fs[j]? = some true → xs[j]? = some x → arr[j]? = some (.fin x)) :
    ∃ out, emaDecay E t0 arr time (some fs) none = .ok out ∧
      ∀ (i : Nat) (t : T), time[i]? = some t →
        out[i]? = some (.fin (decayedSum w (masked (fs.take (i + 1)) ((xs.zip time).take (i + 1))) t)) := by
  refine ⟨filterLoop E (.fin 0) t0 arr time fs, by simp [emaDecay, hlen, hfl], fun i t ht => ?_⟩
  rw [filterLoop_eq E t0 arr time fs (List.replicate fs.length false) (.fin 0) t0 (by simp) (by simp),
    resetLoop_sum E w hw t0 arr xs time fs _ [] 0 t0 i t hlen hfl (by simp [hfl]) hxl
      (by
        intro a ha b hb
        refine hE a ha b ?_
        simp only [List.mem_cons] at hb ⊢
        rcases hb with h | h | h
        · exact Or.inl h
        · exact Or.inl h
        · exact Or.inr h)
      (fun j _ hfj x hx => hv j x hfj hx)
      (by
        intro j hj hfj
        rw [List.getElem?_replicate]
        have := (List.getElem?_eq_some_iff.mp hfj).1
        simp [this])
      (by intro a ha; simp [decayedSum])
      ht]
  rfl

/-- **C269** (with finite weights). With a filter and a reset mask, let `k ≤ i` be row `0` or a row that is in both masks, with no
row after it up to `i` in both. Then entry `i` is the decayed sum of the rows `k … i` in the filter, whatever rows before `k`
hold: NaN included. -/
theorem reset_partial (E : T → T → F R) (w : T → T → R) (hw : Weight w) (t0 : T) (arr : List (F R)) (xs : List R) (time : List T)
    (fs rs : List Bool) (hlen : arr.length = time.length) (hfl : fs.length = time.length) (hrl : rs.length = time.length)
    (hxl : xs.length = time.length)
    (hE : ∀ a ∈ time, ∀ b ∈ t0 :: time, E a b = .fin (w a b)) (k i : Nat) (t : T) (hki : k ≤ i) (ht : time[i]? = some t)
    (hk : k = 0 ∨ (fs[k]? = some true ∧ rs[k]? = some true))
    (hno : ∀ (j : Nat), k < j → j ≤ i → fs[j]? = some true → rs[j]? = some false)
    (hv : ∀ (j : Nat) (x : R), k ≤ j → j ≤ i → fs[j]? = some true → xs[j]? = some x → arr[j]? = some (.fin x)) :
    ∃ out, emaDecay E t0 arr time (some fs) (some rs) = .ok out ∧
      out[i]? = some (.fin (decayedSum w (masked ((fs.take (i + 1)).drop k) (((xs.zip time).take (i + 1)).drop k)) t)) := by
  refine ⟨resetLoop E t0 (.fin 0) t0 arr time fs rs, by simp [emaDecay, hlen, hfl, hrl], ?_⟩
  have hi : i < time.length := (List.getElem?_eq_some_iff.mp ht).1
  have hkn : k < time.length := by omega
  -- the loop from row `k`, with registers as after a reset
  have hstart : (resetLoop E t0 (.fin 0) t0 arr time fs rs)[k + (i - k)]? =
      (resetLoop E t0 (.fin 0) t0 (arr.drop k) (time.drop k) (fs.drop k) (false :: (rs.drop k).drop 1))[i - k]? := by
    by_cases hb : fs[k]? = some true ∧ rs[k]? = some true
    · obtain ⟨e', last', h⟩ := resetLoop_drop E t0 k arr time fs rs (.fin 0) t0 hlen hfl hrl hkn
      rw [h, resetLoop_restart E t0 _ _ _ _ e' last' (by simp [hb.1]) (by simp [hb.2])]
    · have hk0 : k = 0 := by
        rcases hk with h | h
        · exact h
        · exact absurd h hb
      subst hk0
      simp only [Nat.zero_add, Nat.sub_zero, List.drop_zero]
      match arr, time, fs, rs with
      | _, [], _, _ => simp at hi
      | [], _ :: _, _, _ => simp at hlen
      | _ :: _, _ :: _, [], _ => simp at hfl
      | _ :: _, _ :: _, _ :: _, [] => simp at hrl
      | a :: as, u :: us, f :: fs', r :: rs' =>
        have hfr : (f && r) = false := by
          simp only [List.getElem?_cons_zero, Option.some.injEq] at hb
          cases f <;> cases r <;> simp_all
        simp only [List.drop_succ_cons, List.drop_zero]
        simp [resetLoop, hfr]
  have hdrop : ∀ {α : Type} (l : List α) (j : Nat), (l.drop k)[j]? = l[k + j]? := fun l j => by simp
  rw [show i = k + (i - k) by omega, hstart,
    resetLoop_sum E w hw t0 _ (xs.drop k) (time.drop k) (fs.drop k) _ [] 0 t0 (i - k) t (by simp [hlen]) (by simp [hfl])
      (by simp [hrl]; omega) (by simp [hxl])
      (by
        intro a ha b hb
        refine hE a (List.mem_of_mem_drop ha) b ?_
        simp only [List.mem_cons] at hb ⊢
        rcases hb with h | h | h
        · exact Or.inl h
        · exact Or.inl h
        · exact Or.inr (List.mem_of_mem_drop h))
      (by
        intro j hj hfj x hx
        rw [hdrop] at hfj hx ⊢
        exact hv (k + j) x (by omega) (by omega) hfj hx)
      (by
        intro j hj hfj
        cases j with
        | zero => rfl
        | succ j =>
          rw [hdrop] at hfj
          have := hno (k + (j + 1)) (by omega) (by omega) hfj
          simpa [Nat.add_assoc, Nat.add_comm, Nat.add_left_comm] using this)
      (by intro a ha; simp [decayedSum])
      (by rw [hdrop, show k + (i - k) = i by omega]; exact ht)]
  simp only [List.nil_append]
  rw [show k + (i - k) = i by omega, List.drop_take, List.drop_take, show ((xs.zip time).drop k) = (xs.drop k).zip (time.drop k) by simp [List.zip, List.drop_zipWith], show i + 1 - k = i - k + 1 by omega]

/-- **C267.** With decay rate `0`, every weight is one: the result is the running sum of the values, NaN counted as zero. -/
theorem cumsum (t0 : T) (arr : List (F R)) (xs : List R) (time : List T) (hlen : arr.length = time.length)
    (hxl : xs.length = arr.length)
    (hv : ∀ (j : Nat) (x : R), xs[j]? = some x → arr[j]? = some (.fin x) ∨ (arr[j]? = some .nan ∧ x = 0)) :
    ∃ out, emaDecay (fun _ _ => F.fin 1) t0 arr time none none = .ok out ∧ out.length = arr.length ∧
      ∀ (i : Nat), i < arr.length → out[i]? = some (.fin (xs.take (i + 1)).sum) := by
  obtain ⟨out, h1, h2, h3⟩ := plain_partial (fun _ _ => F.fin 1) (fun _ _ => (1 : R)) ⟨fun _ => rfl, fun _ _ _ => by simp⟩ t0 arr xs time
    hlen (by omega) (fun _ _ _ _ => rfl) hv
  refine ⟨out, h1, h2, fun i hi => ?_⟩
  rw [h3 i (time[i]'(by omega)) (List.getElem?_eq_getElem (by omega))]
  have : (xs.zip time).map (fun o : R × T => o.1) = xs := by
    apply List.map_fst_zip
    omega
  congr 2
  simp only [decayedSum, mul_one]
  rw [List.map_take, this]

theorem next_nan_left (E : T → T → F R) (e : F R) (t u : T) : next E .nan e t u = .nan := by
  cases h : F.mul e (E t u) <;> simp [next, h, F.add]

theorem next_nan_right (E : T → T → F R) (v : F R) (t u : T) : next E v .nan t u = .nan := by
  cases v <;> cases h : E t u <;> simp [next, F.mul, F.add]

theorem filterLoop_nan (E : T → T → F R) :
    ∀ (arr : List (F R)) (time : List T) (fs : List Bool) (last : T) (i : Nat),
    i < (filterLoop E .nan last arr time fs).length → (filterLoop E .nan last arr time fs)[i]? = some .nan := by
  intro arr
  induction arr with
  | nil => intro _ _ _ _ h; simp [filterLoop] at h
  | cons a as ih =>
    intro time fs last i h
    match time, fs with
    | [], _ => simp [filterLoop] at h
    | u :: us, [] => simp [filterLoop] at h
    | u :: us, f :: fs' =>
      simp only [filterLoop, next_nan_right] at h ⊢
      cases i with
      | zero => rfl
      | succ i => exact ih us fs' u i (by simpa using h)

/-- **C268**, where the code fails: a NaN in a row of the filter makes every later entry NaN. -/
theorem filter_nan_exact (E : T → T → F R) (t0 : T) (arr : List (F R)) (time : List T) (fs : List Bool)
    (hlen : arr.length = time.length) (hfl : fs.length = time.length) (j : Nat) (hf : fs[j]? = some true)
    (hn : arr[j]? = some .nan) :
    ∃ out, emaDecay E t0 arr time (some fs) none = .ok out ∧ ∀ (i : Nat), j ≤ i → i < arr.length → out[i]? = some .nan := by
  refine ⟨filterLoop E (.fin 0) t0 arr time fs, by simp [emaDecay, hlen, hfl], ?_⟩
  have : ∀ (j : Nat) (arr : List (F R)) (time : List T) (fs : List Bool) (e : F R) (last : T), arr.length = time.length →
      fs.length = time.length → fs[j]? = some true → arr[j]? = some .nan →
      ∀ i, j ≤ i → i < arr.length → (filterLoop E e last arr time fs)[i]? = some .nan := by
    intro j
    induction j with
    | zero =>
      intro arr time fs e last hl hf h1 h2 i _ hi
      match arr, time, fs with
      | [], _, _ => simp at h2
      | _ :: _, [], _ => simp at hl
      | _ :: _, _ :: _, [] => simp at h1
      | a :: as, u :: us, f :: fs' =>
        simp only [List.getElem?_cons_zero, Option.some.injEq] at h1 h2
        subst h1 h2
        simp only [filterLoop, if_true, next_nan_left]
        cases i with
        | zero => rfl
        | succ i =>
          have hlen' : ∀ (arr : List (F R)) (time : List T) (fs : List Bool) (e : F R) (last : T), arr.length = time.length →
              fs.length = time.length → (filterLoop E e last arr time fs).length = arr.length := by
            intro arr
            induction arr with
            | nil => intros; simp [filterLoop]
            | cons a as ih =>
              intro time fs e last h1 h2
              match time, fs with
              | [], _ => simp at h1
              | _ :: _, [] => simp at h2
              | u :: us, f :: fs' =>
                simp only [filterLoop, List.length_cons, Nat.add_right_cancel_iff] at h1 h2 ⊢
                exact ih us fs' _ _ h1 h2
          refine filterLoop_nan E as us fs' u i ?_
          rw [hlen' as us fs' _ _ (by simpa using hl) (by simpa using hf)]
          simpa using hi
    | succ j ih =>
      intro arr time fs e last hl hf h1 h2 i hji hi
      match arr, time, fs, i with
      | [], _, _, _ => simp at h2
      | _ :: _, [], _, _ => simp at hl
      | _ :: _, _ :: _, [], _ => simp at h1
      | _ :: _, _ :: _, _ :: _, 0 => omega
      | a :: as, u :: us, f :: fs', i + 1 =>
        simp only [filterLoop, List.getElem?_cons_succ]
        exact ih as us fs' _ _ (by simpa using hl) (by simpa using hf) (by simpa using h1) (by simpa using h2) i (by omega)
          (by simpa using hi)
  exact this j arr time fs _ _ hlen hfl hf hn

theorem plainLoop_nan (E : T → T → F R) :
    ∀ (arr : List (F R)) (time : List T) (last : T), ∀ x ∈ plainLoop E .nan last arr time, x = .nan := by
  intro arr
  induction arr with
  | nil => intro _ _ x h; simp [plainLoop] at h
  | cons a as ih =>
    intro time last x h
    cases time with
    | nil => simp [plainLoop] at h
    | cons u us =>
      simp only [plainLoop, next_nan_right, List.mem_cons] at h
      rcases h with h | h
      · exact h
      · exact ih us u x h

/-- **C266/C270**, where the code fails: if the weight from the first time back to time `0` is not a finite number, every entry of
the result is NaN, although the first row has nothing before it. -/
theorem overflow_exact (E : T → T → F R) (t0 : T) (x : F R) (xs : List (F R)) (t : T) (ts : List T) (hlen : xs.length = ts.length)
    (hE : ∀ v : R, E t t0 ≠ .fin v) :
    ∃ out, emaDecay E t0 (x :: xs) (t :: ts) none none = .ok out ∧ ∀ y ∈ out, y = .nan := by
  refine ⟨plainLoop E (.fin 0) t0 (x :: xs) (t :: ts), by simp [emaDecay, hlen], ?_⟩
  have h0 : F.mul (.fin (0 : R)) (E t t0) = .nan := by
    cases h : E t t0 with
    | fin v => exact absurd h (hE v)
    | inf s => simp [F.mul, F.mulInf]
    | nan => rfl
  have h1 : ∀ v : F R, next E v (.fin 0) t t0 = .nan := by
    intro v
    cases v <;> simp [next, h0, F.add]
  intro y hy
  simp only [plainLoop, h1, List.mem_cons] at hy
  rcases hy with h | h
  · exact h
  · exact plainLoop_nan E xs ts t y h

/-- **C269**, the other half: an entry out of the filter is the entry before it, decayed; a reset there is ignored. -/
theorem masked_row_exact (E : T → T → F R) (t0 : T) (arr : List (F R)) (time : List T) (fs rs : List Bool)
    (hlen : arr.length = time.length) (hfl : fs.length = time.length) (hrl : rs.length = time.length) (i : Nat) (t u : T)
    (hf : fs[i + 1]? = some false) (hu : time[i]? = some u) (ht : time[i + 1]? = some t) :
    ∃ out e, emaDecay E t0 arr time (some fs) (some rs) = .ok out ∧ out[i]? = some e ∧
      out[i + 1]? = some (F.add (.fin 0) (F.mul e (E t u))) := by
  have key : ∀ (i : Nat) (arr : List (F R)) (time : List T) (fs rs : List Bool) (e : F R) (last : T), arr.length = time.length →
      fs.length = time.length → rs.length = time.length → fs[i + 1]? = some false → time[i]? = some u → time[i + 1]? = some t →
      ∃ e', (resetLoop E t0 e last arr time fs rs)[i]? = some e' ∧
        (resetLoop E t0 e last arr time fs rs)[i + 1]? = some (F.add (.fin 0) (F.mul e' (E t u))) := by
    intro i
    induction i with
    | zero =>
      intro arr time fs rs e last h1 h2 h3 hf hu ht
      match arr, time, fs, rs with
      | a :: b :: as, p :: q :: us, f :: g :: fs', r :: s :: rs' =>
        simp only [List.getElem?_cons_succ, List.getElem?_cons_zero, Option.some.injEq] at hf hu ht
        subst hf hu ht
        exact ⟨_, rfl, by simp [resetLoop, next]⟩
      | [], [], _, _ => simp at hu
      | [_], [_], _, _ => simp at ht
      | _, _ :: _ :: _, [], _ => simp at h2
      | _, _ :: _ :: _, [_], _ => simp at h2
      | _, _ :: _ :: _, _, [] => simp at h3
      | _, _ :: _ :: _, _, [_] => simp at h3
    | succ i ih =>
      intro arr time fs rs e last h1 h2 h3 hf hu ht
      match arr, time, fs, rs with
      | _, [], _, _ => simp at hu
      | [], _ :: _, _, _ => simp at h1
      | _ :: _, _ :: _, [], _ => simp at h2
      | _ :: _, _ :: _, _ :: _, [] => simp at h3
      | a :: as, p :: us, f :: fs', r :: rs' =>
        obtain ⟨e', he1, he2⟩ := ih as us fs' rs'
          (next E (if f then a else F.fin 0) (if f && r then F.fin 0 else e) p (if f && r then t0 else last)) p
          (by simpa using h1) (by simpa using h2) (by simpa using h3) (by simpa using hf) (by simpa using hu) (by simpa using ht)
        exact ⟨e', by simpa [resetLoop] using he1, by simpa [resetLoop] using he2⟩
  obtain ⟨e', h1, h2⟩ := key i arr time fs rs (.fin 0) t0 hlen hfl hrl hf hu ht
  exact ⟨_, e', by simp [emaDecay, hlen, hfl, hrl], h1, h2⟩

/-- **C270** (with finite weights). Only differences of times matter: times moved by a constant give the same result, for all values
but infinities. -/
theorem shift_partial [AddCommGroup T] (E : T → T → F R) (g : T → R) (hg0 : g 0 = 1) (hg : ∀ a b, g (a + b) = g a * g b)
    (arr : List (F R)) (xs : List R) (time : List T) (c : T) (hlen : arr.length = time.length) (hxl : xs.length = arr.length)
    (hE : ∀ a ∈ time ++ time.map (· + c), ∀ b ∈ (0 : T) :: (time ++ time.map (· + c)), E a b = .fin (g (a - b)))
    (hv : ∀ (j : Nat) (x : R), xs[j]? = some x → arr[j]? = some (.fin x) ∨ (arr[j]? = some .nan ∧ x = 0)) :
    emaDecay E 0 arr (time.map (· + c)) none none = emaDecay E 0 arr time none none := by
  have hw : Weight (fun a b : T => g (a - b)) := ⟨fun a => by simp [hg0], fun a b d => by rw [← hg]; congr 1; abel⟩
  obtain ⟨o1, h1, l1, k1⟩ := plain_partial E (fun a b => g (a - b)) hw 0 arr xs time hlen (by omega)
    (fun a ha b hb => hE a (by simp [ha]) b (by simp only [List.mem_cons, List.mem_append] at hb ⊢; tauto)) hv
  obtain ⟨o2, h2, l2, k2⟩ := plain_partial E (fun a b => g (a - b)) hw 0 arr xs (time.map (· + c)) (by simp [hlen]) (by simp [hxl, hlen])
    (fun a ha b hb => hE a (by simp only [List.mem_append]; exact Or.inr ha) b
      (by simp only [List.mem_cons, List.mem_append] at hb ⊢; tauto)) hv
  rw [h1, h2]
  congr 1
  apply List.ext_getElem?
  intro i
  by_cases hi : i < time.length
  · rw [k1 i time[i] (List.getElem?_eq_getElem hi), k2 i (time[i] + c) (by simp [hi])]
    congr 2
    simp only [decayedSum]
    congr 1
    rw [List.zip_map_right, ← List.map_take, List.map_map]
    apply List.map_congr_left
    intro p _
    simp
  · rw [List.getElem?_eq_none (by omega), List.getElem?_eq_none (by omega)]

end

/-! ## Concrete cases -/

/-- Halving per unit of time, on rationals. -/
def half (a b : Int) : ℚ := (1 / 2 : ℚ) ^ (a - b)

theorem half_weight : Weight half :=
  ⟨fun a => by simp [half], fun a b c => by
    unfold half
    rw [← zpow_add₀ (by norm_num)]
    congr 1
    ring⟩

/-- The hypotheses of `plain_partial` hold for real exponentials with any rate. -/
theorem exp_weight (rate : ℝ) : Weight (fun a b : ℝ => Real.exp (-rate * (a - b))) :=
  ⟨fun a => by simp, fun a b c => by rw [← Real.exp_add]; congr 1; ring⟩

example : ∃ out, emaDecay (fun a b => F.fin (half a b)) 0 [.fin 4, .nan, .fin 1] [10, 11, 12] none none = .ok out ∧
    out[2]? = some (.fin 2) := by
  obtain ⟨out, h1, _, h3⟩ := plain_partial (fun a b => F.fin (half a b)) half half_weight 0 [.fin 4, .nan, .fin 1] [4, 0, 1] [10, 11, 12]
    rfl rfl (fun _ _ _ _ => rfl) (by
      intro j x hx
      match j with
      | 0 => simp_all
      | 1 => simp_all
      | 2 => simp_all
      | j + 3 => simp at hx)
  refine ⟨out, h1, ?_⟩
  rw [h3 2 12 rfl]
  simp [decayedSum, half]
  norm_num

/-- Integers suffice for the weight one. -/
example : emaDecay (R := Int) (T := Int) (fun _ _ => F.fin 1) 0 [.fin 4, .nan, .fin 1] [10, 11, 12] none none =
    .ok [.fin 4, .fin 4, .fin 5] := by decide

/-- `np.exp` on float64: infinite beyond its largest argument. -/
noncomputable def expF (x : ℝ) : F ℝ := if 709.79 < x then .inf false else .fin (Real.exp x)

/-- **C266/C270**: times far below zero give only NaN, while the same times counted from the first one give numbers. -/
theorem overflow_counterexample :
    ∃ out, emaDecay (fun a b : ℝ => expF (-1 * (a - b))) 0 [.fin 1, .fin 1] [-1000, -999] none none = .ok out ∧
      (∀ y ∈ out, y = .nan) ∧
      ∃ out', emaDecay (fun a b : ℝ => expF (-1 * (a - b))) 0 [.fin 1, .fin 1] [0, 1] none none = .ok out' ∧
        out'[0]? = some (.fin 1) := by
  obtain ⟨out, h1, h2⟩ := overflow_exact (R := ℝ) (fun a b : ℝ => expF (-1 * (a - b))) 0 (.fin 1) [.fin 1] (-1000) [-999] rfl (by
    intro v
    simp only [expF]
    rw [if_pos (by norm_num)]
    simp)
  refine ⟨out, h1, h2, _, rfl, ?_⟩
  have h0 : expF (-1 * (0 - 0)) = .fin 1 := by
    unfold expF
    rw [if_neg (by norm_num)]
    simp
  simp only [plainLoop, List.getElem?_cons_zero, next, h0, F.mul, F.isNan]
  simp [F.add]

/-- **C268**: a filter that keeps every row changes the result where there is a NaN. -/
theorem filter_nan_counterexample :
    emaDecay (R := Int) (T := Int) (fun _ _ => F.fin 1) 0 [.nan, .fin 1] [0, 1] (some [true, true]) none = .ok [.nan, .nan] ∧
    emaDecay (R := Int) (T := Int) (fun _ _ => F.fin 1) 0 [.nan, .fin 1] [0, 1] none none = .ok [.fin 0, .fin 1] := by decide

/-- **C269**: the documentation says that a row out of the filter repeats the entry before it; it is decayed (rate `log 2`). -/
theorem masked_row_counterexample :
    ∃ out, emaDecay (fun a b => F.fin (half a b)) 0 [.fin 4, .fin 7] [0, 1] (some [true, false]) none = .ok out ∧
      out[0]? = some (.fin 4) ∧ out[1]? = some (.fin 2) := by
  refine ⟨_, rfl, ?_, ?_⟩
  · simp [filterLoop, next, F.mul, F.add]
  · simp [filterLoop, next, F.mul, F.add, half]
    norm_num

/-- **C269**: the documentation says that each position where the reset mask is True starts anew; out of the filter it does not. -/
theorem reset_counterexample :
    emaDecay (R := Int) (T := Int) (fun _ _ => F.fin 1) 0 [.fin 4, .fin 7, .fin 1] [0, 1, 2] (some [true, false, true])
      (some [false, true, false]) = .ok [.fin 4, .fin 4, .fin 5] := by decide

example : emaDecay (R := Int) (T := Int) (fun _ _ => F.fin 1) 0 [.nan, .fin 7, .fin 1] [0, 1, 2] (some [true, true, true])
    (some [false, true, false]) = .ok [.nan, .fin 7, .fin 8] := by decide

/-- A reset mask without filter is refused. -/
theorem reset_needs_filter {R T : Type} [CommRing R] [LinearOrder R] (E : T → T → F R) (t0 : T) (arr : List (F R)) (time : List T)
    (rs : List Bool) (h : arr.length = time.length) : emaDecay E t0 arr time none (some rs) = .error .resetWithoutFilter := by
  simp [emaDecay, h]

end Verif.Ema
