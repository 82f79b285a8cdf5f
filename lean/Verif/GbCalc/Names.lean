import Verif.GbCalc.Model
import Verif.PDs.Names
import Mathlib.Data.List.Perm.Subperm
/-!
# Dictionaries and names of arrays: lemmas
-/
namespace Verif.GbCalc
open Verif.PDs (toDigits_inj)

variable {A : Type}

theorem at?_nil (k : Name) : at? ([] : List (Name × A)) k = none := rfl

theorem at?_cons (p : Name × A) (d : List (Name × A)) (k : Name) :
    at? (p :: d) k = if p.1 = k then some p.2 else at? d k := by
  by_cases h : p.1 = k <;> simp [at?, h]

theorem at?_append (d e : List (Name × A)) (k : Name) : at? (d ++ e) k = (at? d k).or (at? e k) := by
  induction d with
  | nil => simp [at?_nil]
  | cons p d ih =>
    rw [List.cons_append, at?_cons, at?_cons, ih]
    by_cases h : p.1 = k <;> simp [h]

theorem at?_eq_none (d : List (Name × A)) (k : Name) : at? d k = none ↔ k ∉ names d := by
  induction d with
  | nil => simp [at?_nil, names]
  | cons p d ih =>
    rw [at?_cons]
    by_cases h : p.1 = k
    · simp [h, names]
    · simp only [h, if_false, ih, names, List.map_cons, List.mem_cons, not_or]
      exact ⟨fun h' => ⟨fun e => h e.symm, h'⟩, fun h' => h'.2⟩

theorem at?_isSome (d : List (Name × A)) (k : Name) : (∃ v, at? d k = some v) ↔ k ∈ names d := by
  have := at?_eq_none d k
  cases h : at? d k with
  | none => simp only [h, true_iff] at this; simp [this]
  | some v => simp only [h, reduceCtorEq, false_iff, not_not] at this; simp [this]

theorem mem_of_at? {d : List (Name × A)} {k : Name} {v : A} (h : at? d k = some v) : (k, v) ∈ d := by
  induction d with
  | nil => simp [at?_nil] at h
  | cons p d ih =>
    rw [at?_cons] at h
    by_cases hp : p.1 = k
    · rw [if_pos hp] at h
      simp only [Option.some.injEq] at h
      rw [← hp, ← h]; exact List.mem_cons_self
    · rw [if_neg hp] at h
      exact List.mem_cons_of_mem _ (ih h)

theorem at?_of_mem {d : List (Name × A)} {k : Name} {v : A} (hn : (names d).Nodup) (h : (k, v) ∈ d) : at? d k = some v := by
  induction d with
  | nil => simp at h
  | cons p d ih =>
    rw [at?_cons]
    simp only [names, List.map_cons, List.nodup_cons] at hn
    rcases List.mem_cons.1 h with h | h
    · rw [← h]; simp
    · have : p.1 ≠ k := fun e => hn.1 (e ▸ List.mem_map_of_mem (f := Prod.fst) h)
      rw [if_neg this]
      exact ih hn.2 h

theorem at?_put (d : List (Name × A)) (k : Name) (v : A) (k' : Name) :
    at? (put d k v) k' = if k = k' then some v else at? d k' := by
  unfold put
  split
  · rename_i hk
    induction d with
    | nil => simp [names] at hk
    | cons p d ih =>
      rw [List.map_cons, at?_cons, at?_cons]
      by_cases hp : p.1 = k
      · simp only [hp, if_true]
        by_cases hkk : k = k'
        · simp [hkk]
        · simp only [hkk, if_false]
          by_cases hkd : k ∈ names d
          · have := ih hkd
            rw [if_neg hkk] at this
            exact this
          · congr 1
            have : ∀ q ∈ d, ¬ q.1 = k := fun q hq e => hkd (e ▸ List.mem_map_of_mem (f := Prod.fst) hq)
            calc _ = d.map id := List.map_congr_left fun q hq => by simp [this q hq]
              _ = d := by simp
      · simp only [hp, if_false]
        have hkd : k ∈ names d := by
          simp only [names, List.map_cons, List.mem_cons] at hk
          rcases hk with hk | hk
          · exact absurd hk.symm hp
          · exact hk
        rw [ih hkd]
        by_cases h1 : p.1 = k' <;> by_cases h2 : k = k'
        · exact absurd (h1.trans h2.symm) hp
        all_goals simp [h1, h2]
  · rename_i hk
    rw [at?_append, at?_cons, at?_nil]
    by_cases h : k = k'
    · subst h
      rw [(at?_eq_none d k).2 hk]; simp
    · simp only [h, if_false]
      cases at? d k' <;> rfl

theorem names_put (d : List (Name × A)) (k : Name) (v : A) :
    names (put d k v) = if k ∈ names d then names d else names d ++ [k] := by
  unfold put
  split
  · simp only [names, List.map_map]
    refine List.map_congr_left fun p _ => ?_
    by_cases h : p.1 = k <;> simp [h]
  · simp [names]

theorem nodup_put {d : List (Name × A)} {k : Name} {v : A} (h : (names d).Nodup) : (names (put d k v)).Nodup := by
  rw [names_put]
  split
  · exact h
  · rename_i hk
    rw [List.nodup_append]
    exact ⟨h, by simp, fun a ha b hb => by simp only [List.mem_singleton] at hb; subst hb; exact fun e => hk (e ▸ ha)⟩

theorem mem_names_put (d : List (Name × A)) (k : Name) (v : A) (k' : Name) :
    k' ∈ names (put d k v) ↔ k' = k ∨ k' ∈ names d := by
  rw [names_put]
  split
  · rename_i h
    exact ⟨Or.inr, fun h' => h'.elim (fun e => e ▸ h) id⟩
  · simp [or_comm]

theorem put_new {d : List (Name × A)} {k : Name} {v : A} (h : k ∉ names d) : put d k v = d ++ [(k, v)] := by
  simp [put, h]

/-- adding entries with new, distinct names appends them -/
theorem foldl_put_new (l d : List (Name × A)) (hn : (names l).Nodup) (hd : ∀ k ∈ names l, k ∉ names d) :
    l.foldl (fun d p => put d p.1 p.2) d = d ++ l := by
  induction l generalizing d with
  | nil => simp
  | cons p l ih =>
    simp only [names, List.map_cons, List.nodup_cons] at hn
    rw [List.foldl_cons, put_new (hd p.1 (by simp [names])), ih _ hn.2]
    · simp
    · intro k hk hk'
      simp only [names, List.map_append, List.map_cons, List.map_nil, List.mem_append, List.mem_singleton] at hk'
      rcases hk' with hk' | hk'
      · exact hd k (by simp only [names, List.map_cons, List.mem_cons]; exact Or.inr hk) hk'
      · exact hn.1 (hk' ▸ hk)

theorem dictOf_nodup {l : List (Name × A)} (hn : (names l).Nodup) : dictOf l = l := by
  unfold dictOf
  rw [foldl_put_new l [] hn (by simp [names])]; simp

/-- the last entry of a name wins -/
theorem at?_foldl_put (l d : List (Name × A)) (k : Name) :
    at? (l.foldl (fun d p => put d p.1 p.2) d) k = (at? l.reverse k).or (at? d k) := by
  induction l generalizing d with
  | nil => simp [at?_nil]
  | cons p l ih =>
    rw [List.foldl_cons, ih, at?_put, List.reverse_cons, at?_append, at?_cons, at?_nil]
    cases at? l.reverse k with
    | some v => rfl
    | none => by_cases h : p.1 = k <;> simp [h]

theorem at?_reverse {l : List (Name × A)} (hn : (names l).Nodup) (k : Name) : at? l.reverse k = at? l k := by
  have hr : (names l.reverse).Nodup := by
    have : names l.reverse = (names l).reverse := by simp [names, List.map_reverse]
    rw [this]; exact (List.nodup_reverse).2 hn
  cases h : at? l k with
  | some v => exact at?_of_mem hr (List.mem_reverse.2 (mem_of_at? h))
  | none =>
    rw [at?_eq_none] at h ⊢
    simpa [names] using h

theorem names_foldl_put_mem (l d : List (Name × A)) (k : Name) :
    k ∈ names (l.foldl (fun d p => put d p.1 p.2) d) ↔ k ∈ names l ∨ k ∈ names d := by
  induction l generalizing d with
  | nil => simp [names]
  | cons p l ih =>
    rw [List.foldl_cons, ih, mem_names_put]
    simp only [names, List.map_cons, List.mem_cons]
    constructor
    · rintro (h | h | h)
      · exact Or.inl (Or.inr h)
      · exact Or.inl (Or.inl h)
      · exact Or.inr h
    · rintro ((h | h) | h)
      · exact Or.inr (Or.inl h)
      · exact Or.inl h
      · exact Or.inr (Or.inr h)

theorem nodup_foldl_put (l d : List (Name × A)) (h : (names d).Nodup) :
    (names (l.foldl (fun d p => put d p.1 p.2) d)).Nodup := by
  induction l generalizing d with
  | nil => exact h
  | cons p l ih => exact ih _ (nodup_put h)

/-! ## Names of arrays -/

theorem str_inj {a b : Nat} (h : str a = str b) : a = b := toDigits_inj h

theorem str_ne_nil (a : Nat) : str a ≠ [] := by
  unfold str
  intro h
  have := Nat.length_toDigits_pos (b := 10) (n := a)
  rw [h] at this; simp at this

theorem str_digits (a : Nat) : ∀ c ∈ str a, c.isDigit = true := by
  intro c hc
  exact Nat.isDigit_of_mem_toDigits (by decide) (by decide) hc

theorem free_isSome (H : List Name) (n : Name) (c : Nat) :
    ∃ k, free H n c = some k ∧ c ≤ k ∧ n ++ str k ∉ H := by
  cases h : free H n c with
  | some k =>
    refine ⟨k, rfl, ?_, ?_⟩
    · have := List.mem_of_find?_eq_some h
      simp only [List.mem_map, List.mem_range] at this
      obtain ⟨a, _, rfl⟩ := this
      omega
    · have := List.find?_some h
      simpa using this
  | none =>
    exfalso
    unfold free at h
    rw [List.find?_eq_none] at h
    have hsub : (((List.range (H.length + 1)).map (c + ·)).map fun k => n ++ str k) ⊆ H := by
      intro x hx
      obtain ⟨k, hk, rfl⟩ := List.mem_map.1 hx
      have := h k hk
      simpa using this
    have hnd : (((List.range (H.length + 1)).map (c + ·)).map fun k => n ++ str k).Nodup := by
      refine List.Nodup.map ?_ (List.Nodup.map ?_ List.nodup_range)
      · intro a b hab
        exact str_inj (List.append_cancel_left hab)
      · intro a b hab
        simpa using hab
    have := (List.subperm_of_subset hnd hsub).length_le
    simp only [List.length_map, List.length_range] at this
    omega

/-- what has been established after the names `pre` -/
structure Inv (H pre : List Name) (d : List (Name × Nat)) (out : List Name) : Prop where
  len : out.length = pre.length
  cnt : ∀ n, at? d n = none ↔ n ∉ pre
  ent : ∀ (i : Nat) (n o : Name), pre[i]? = some n → out[i]? = some o →
    (o = n ∧ n ∉ pre.take i) ∨ (n ∈ pre.take i ∧ ∃ k c, o = n ++ str k ∧ o ∉ H ∧ at? d n = some c ∧ k < c)
  dis : ∀ (i j : Nat) (n o : Name), i < j → pre[i]? = some n → pre[j]? = some n → out[i]? = some o → out[j]? ≠ some o

theorem inv_step {H pre : List Name} {d : List (Name × Nat)} {out : List Name} (h : Inv H pre d out) (n : Name) :
    Inv H (pre ++ [n]) (headerStep H (d, out) n).1 (headerStep H (d, out) n).2 := by
  have htk : ∀ i, i < pre.length → (pre ++ [n]).take i = pre.take i := fun i hi => by
    rw [List.take_append_of_le_length (by omega)]
  have hget : ∀ {x : List Name} {y : Name} {i : Nat} {z : Name}, (x ++ [y])[i]? = some z →
      (i < x.length ∧ x[i]? = some z) ∨ (i = x.length ∧ y = z) := by
    intro x y i z hz
    rw [List.getElem?_append] at hz
    by_cases hi : i < x.length
    · rw [if_pos hi] at hz; exact Or.inl ⟨hi, hz⟩
    · rw [if_neg hi] at hz
      have : i - x.length = 0 := by
        by_contra hne
        rw [List.getElem?_eq_none (by simp; omega)] at hz; simp at hz
      rw [this] at hz; simp only [List.getElem?_cons_zero, Option.some.injEq] at hz
      exact Or.inr ⟨by omega, hz⟩
  cases hc : at? d n with
  | none =>
    have hn : n ∉ pre := (h.cnt n).1 hc
    have e : headerStep H (d, out) n = (put d n 1, out ++ [n]) := by simp [headerStep, hc]
    rw [e]
    refine ⟨by simp [h.len], ?_, ?_, ?_⟩
    · intro m
      rw [at?_put]
      by_cases hm : n = m
      · simp [hm]
      · simp only [hm, if_false, h.cnt m, List.mem_append, List.mem_singleton, not_or]
        exact ⟨fun x => ⟨x, fun e => hm e.symm⟩, fun x => x.1⟩
    · intro i m o hm ho
      rcases hget hm with ⟨hi, hm⟩ | ⟨hi, rfl⟩
      · rcases hget ho with ⟨_, ho⟩ | ⟨hi', _⟩
        · rw [htk i hi]
          rcases h.ent i m o hm ho with h1 | ⟨h1, k, c, h2, h3, h4, h5⟩
          · exact Or.inl h1
          · refine Or.inr ⟨h1, k, c, h2, h3, ?_, h5⟩
            rw [at?_put, if_neg (fun e : n = m => hn (e ▸ List.mem_of_mem_take h1))]; exact h4
        · have := h.len; omega
      · rcases hget ho with ⟨hi', _⟩ | ⟨_, rfl⟩
        · have := h.len; omega
        · left
          refine ⟨rfl, fun hmem => hn ?_⟩
          rw [hi, List.take_append_of_le_length (by omega), List.take_length] at hmem
          exact hmem
    · intro i j m o hij hmi hmj hoi hoj
      rcases hget hmi with ⟨hi, hmi⟩ | ⟨hi, rfl⟩
      · rcases hget hmj with ⟨hj, hmj⟩ | ⟨hj, rfl⟩
        · rcases hget hoi with ⟨_, hoi⟩ | ⟨hi', _⟩
          · rcases hget hoj with ⟨_, hoj⟩ | ⟨hj', _⟩
            · exact h.dis i j m o hij hmi hmj hoi hoj
            · have := h.len; omega
          · have := h.len; omega
        · exact hn (List.mem_of_getElem? hmi)
      · rcases hget hmj with ⟨hj, _⟩ | ⟨hj, _⟩ <;> omega
  | some c =>
    obtain ⟨k, hk, hck, hkH⟩ := free_isSome H n c
    have hn : n ∈ pre := by
      by_contra hx
      rw [(h.cnt n).2 hx] at hc; simp at hc
    have e : headerStep H (d, out) n = (put d n (k + 1), out ++ [n ++ str k]) := by simp [headerStep, hc, hk]
    rw [e]
    refine ⟨by simp [h.len], ?_, ?_, ?_⟩
    · intro m
      rw [at?_put]
      by_cases hm : n = m
      · simp [hm]
      · simp only [hm, if_false, h.cnt m, List.mem_append, List.mem_singleton, not_or]
        exact ⟨fun x => ⟨x, fun e => hm e.symm⟩, fun x => x.1⟩
    · intro i m o hm ho
      rcases hget hm with ⟨hi, hm⟩ | ⟨hi, rfl⟩
      · rcases hget ho with ⟨_, ho⟩ | ⟨hi', _⟩
        · rw [htk i hi]
          rcases h.ent i m o hm ho with h1 | ⟨h1, k0, c0, h2, h3, h4, h5⟩
          · exact Or.inl h1
          · refine Or.inr ⟨h1, ?_⟩
            by_cases hmn : n = m
            · refine ⟨k0, k + 1, h2, h3, by rw [at?_put, if_pos hmn], ?_⟩
              rw [← hmn, hc] at h4
              simp only [Option.some.injEq] at h4; omega
            · exact ⟨k0, c0, h2, h3, by rw [at?_put, if_neg hmn]; exact h4, h5⟩
        · have := h.len; omega
      · rcases hget ho with ⟨hi', _⟩ | ⟨_, rfl⟩
        · have := h.len; omega
        · right
          rw [hi, List.take_append_of_le_length (by omega), List.take_length]
          exact ⟨hn, k, k + 1, rfl, hkH, by rw [at?_put, if_pos rfl], by omega⟩
    · intro i j m o hij hmi hmj hoi hoj
      rcases hget hmi with ⟨hi, hmi⟩ | ⟨hi, rfl⟩
      · rcases hget hmj with ⟨hj, hmj⟩ | ⟨hj, rfl⟩
        · rcases hget hoi with ⟨_, hoi⟩ | ⟨hi', _⟩
          · rcases hget hoj with ⟨_, hoj⟩ | ⟨hj', _⟩
            · exact h.dis i j m o hij hmi hmj hoi hoj
            · have := h.len; omega
          · have := h.len; omega
        · rcases hget hoi with ⟨_, hoi⟩ | ⟨hi', _⟩
          · rcases hget hoj with ⟨hj', _⟩ | ⟨_, rfl⟩
            · have := h.len; omega
            · rcases h.ent i n _ hmi hoi with ⟨h1, _⟩ | ⟨_, k0, c0, h2, _, h4, h5⟩
              · exact str_ne_nil k (by simpa using h1)
              · have := str_inj (List.append_cancel_left h2)
                rw [hc] at h4
                simp only [Option.some.injEq] at h4; omega
          · have := h.len; omega
      · rcases hget hmj with ⟨hj, _⟩ | ⟨hj, _⟩ <;> omega

theorem inv_foldl (H : List Name) (rest pre : List Name) (s : List (Name × Nat) × List Name) (h : Inv H pre s.1 s.2) :
    Inv H (pre ++ rest) (rest.foldl (headerStep H) s).1 (rest.foldl (headerStep H) s).2 := by
  induction rest generalizing pre s with
  | nil => simpa using h
  | cons n rest ih =>
    have := ih (pre ++ [n]) (headerStep H s n) (inv_step h n)
    simpa using this

theorem header_inv (l : List (Option Name)) :
    Inv (rawNames l) (rawNames l) ((rawNames l).foldl (headerStep (rawNames l)) ([], [])).1 (headerNames l) := by
  have := inv_foldl (rawNames l) (rawNames l) [] ([], []) ⟨rfl, by simp [at?_nil], by simp, by simp⟩
  simpa [headerNames] using this

theorem times_two {l : List Name} {n : Name} {i j : Nat} (hij : i < j) (hi : l[i]? = some n) (hj : l[j]? = some n) :
    2 ≤ times l n := by
  induction l generalizing i j with
  | nil => simp at hi
  | cons x l ih =>
    cases i with
    | zero =>
      cases j with
      | zero => omega
      | succ j =>
        simp only [List.getElem?_cons_zero, Option.some.injEq] at hi
        simp only [List.getElem?_cons_succ] at hj
        have hm : n ∈ l.filter fun x => decide (x = n) := List.mem_filter.2 ⟨List.mem_of_getElem? hj, by simp⟩
        have := List.length_pos_of_mem hm
        simp only [times, List.filter_cons, hi, decide_true, if_true, List.length_cons]
        omega
    | succ i =>
      cases j with
      | zero => omega
      | succ j =>
        simp only [List.getElem?_cons_succ] at hi hj
        have := ih (by omega) hi hj
        unfold times at this ⊢
        rw [List.filter_cons]
        split
        · simp only [List.length_cons]; omega
        · exact this

theorem mem_take_idx {l : List Name} {n : Name} {i : Nat} (h : n ∈ l.take i) : ∃ j, j < i ∧ l[j]? = some n := by
  obtain ⟨j, hj⟩ := List.getElem?_of_mem h
  rw [List.getElem?_take] at hj
  by_cases hji : j < i
  · exact ⟨j, hji, by rw [if_pos hji] at hj; exact hj⟩
  · rw [if_neg hji] at hj; simp at hj

end Verif.GbCalc
