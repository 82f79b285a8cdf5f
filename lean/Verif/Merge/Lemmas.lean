import Verif.Merge.Spec
import Mathlib.Data.List.Basic
import Mathlib.Data.List.Nodup
import Mathlib.Data.List.Range

/-! Helper lemmas about arrays, masks and groupings. -/
namespace Verif.Merge

/-! ### writes -/

@[simp] theorem applyWrites_nil {β : Type} (out : List β) : applyWrites out [] = out := rfl

@[simp] theorem applyWrites_cons {β : Type} (out : List β) (p : Nat × β) (w : List (Nat × β)) :
    applyWrites out (p :: w) = applyWrites (out.set p.1 p.2) w := rfl

theorem applyWrites_append {β : Type} (out : List β) (v w : List (Nat × β)) :
    applyWrites out (v ++ w) = applyWrites (applyWrites out v) w := by
  simp [applyWrites, List.foldl_append]

@[simp] theorem applyWrites_length {β : Type} (w : List (Nat × β)) :
    ∀ out : List β, (applyWrites out w).length = out.length := by
  induction w with
  | nil => simp
  | cons p w ih => intro out; simp [ih]

/-- Writes to distinct cells may be performed in any order. -/
theorem applyWrites_perm {β : Type} {v w : List (Nat × β)} (h : v.Perm w)
    (hn : (v.map Prod.fst).Nodup) : ∀ out : List β, applyWrites out v = applyWrites out w := by
  induction h with
  | nil => simp
  | cons x _ ih =>
    intro out
    simp only [List.map_cons, List.nodup_cons] at hn
    simp [ih hn.2]
  | swap x y l =>
    intro out
    simp only [List.map_cons, List.nodup_cons, List.mem_cons, not_or] at hn
    simp [List.set_comm _ _ hn.1.1]
  | trans h1 _ ih1 ih2 =>
    intro out
    rw [ih1 hn, ih2 ((h1.map Prod.fst).nodup_iff.mp hn)]

theorem applyWrites_getElem?_notMem {β : Type} (w : List (Nat × β)) (p : Nat)
    (h : p ∉ w.map Prod.fst) : ∀ out : List β, (applyWrites out w)[p]? = out[p]? := by
  induction w with
  | nil => simp
  | cons q w ih =>
    intro out
    simp only [List.map_cons, List.mem_cons, not_or] at h
    rw [applyWrites_cons, ih h.2, List.getElem?_set_ne (Ne.symm h.1)]

theorem applyWrites_getElem?_mem {β : Type} (w : List (Nat × β)) (p : Nat) (v : β)
    (hn : (w.map Prod.fst).Nodup) (h : (p, v) ∈ w) :
    ∀ out : List β, p < out.length → (applyWrites out w)[p]? = some v := by
  induction w with
  | nil => simp at h
  | cons q w ih =>
    intro out hp
    simp only [List.map_cons, List.nodup_cons] at hn
    rcases List.mem_cons.mp h with h | h
    · subst h
      rw [applyWrites_cons, applyWrites_getElem?_notMem _ _ hn.1]
      simp [hp]
    · rw [applyWrites_cons]
      exact ih hn.2 h _ (by simpa using hp)

/-- Consecutive writes of `c` cells after a finished prefix. -/
theorem applyWrites_block {β : Type} (pre : List β) (f : Nat → β) (c : Nat) :
    ∀ rest : List β, c ≤ rest.length →
      applyWrites (pre ++ rest) ((List.range c).map fun j => (pre.length + j, f j)) =
        pre ++ (List.range c).map f ++ rest.drop c := by
  induction c with
  | zero => simp
  | succ c ih =>
    intro rest h
    rw [List.range_succ, List.map_append, applyWrites_append, ih rest (by omega)]
    have hd : rest.drop c = rest[c] :: rest.drop (c + 1) := (List.getElem_cons_drop (by omega)).symm
    simp only [List.length_append, List.length_map, List.length_range, List.map_cons, List.map_nil,
      applyWrites_cons, applyWrites_nil, List.map_append, List.append_assoc]
    rw [← List.append_assoc, List.set_append_right _ _ (by simp)]
    simp only [List.length_append, List.length_map, List.length_range, Nat.sub_self, hd,
      List.set_cons_zero, List.append_assoc, List.singleton_append]

/-- A loop whose iteration `i` completes block `i` behind the blocks already
written builds the concatenation of the blocks. -/
theorem fold_blocks {β : Type} (out : List β) (iter : Nat → List (Nat × β)) (blk : Nat → List β)
    (n : Nat)
    (hstep : ∀ i, i < n → ∀ pre rest, pre = (List.range i).flatMap blk →
      pre.length + rest.length = out.length →
      ∃ rest', applyWrites (pre ++ rest) (iter i) = pre ++ blk i ++ rest') :
    ∃ rest, applyWrites out ((List.range n).flatMap iter) = (List.range n).flatMap blk ++ rest := by
  induction n with
  | zero => exact ⟨out, by simp⟩
  | succ n ih =>
    obtain ⟨rest, hr⟩ := ih fun i hi => hstep i (by omega)
    have hlen : ((List.range n).flatMap blk).length + rest.length = out.length := by
      have := congrArg List.length hr
      simp only [applyWrites_length, List.length_append] at this
      omega
    obtain ⟨rest', hr'⟩ := hstep n (by omega) _ rest rfl hlen
    refine ⟨rest', ?_⟩
    rw [List.range_succ, List.flatMap_append, List.flatMap_append, applyWrites_append, hr]
    simpa using hr'

/-! ### running sums -/

@[simp] theorem cumsumFrom_length (l : List Nat) : ∀ a, (cumsumFrom a l).length = l.length := by
  induction l with
  | nil => simp [cumsumFrom]
  | cons x xs ih => intro a; simp [cumsumFrom, ih]

theorem cumsumFrom_getD (l : List Nat) :
    ∀ a i, i < l.length → (cumsumFrom a l).getD i 0 = a + (l.take (i + 1)).sum := by
  induction l with
  | nil => simp
  | cons x xs ih =>
    intro a i hi
    cases i with
    | zero => simp [cumsumFrom]
    | succ i =>
      have := ih (a + x) i (by simpa using hi)
      simp only [cumsumFrom, List.getD_cons_succ, this, List.take_succ_cons, List.sum_cons]
      omega

theorem cumsum_getD (l : List Nat) (i : Nat) (h : i < l.length) :
    (cumsum l).getD i 0 = (l.take (i + 1)).sum := by
  rw [cumsum, cumsumFrom_getD _ _ _ h, Nat.zero_add]

theorem blockStart_cumsum (l : List Nat) (i : Nat) (h : i ≤ l.length) :
    blockStart (cumsum l) i = (l.take i).sum := by
  unfold blockStart
  split
  · simp_all
  · rw [cumsum_getD _ _ (by omega)]
    congr 2; omega

theorem cumsumFrom_getLast (l : List Nat) (h : l ≠ []) :
    ∀ a, (cumsumFrom a l).getLast?.getD 0 = a + l.sum := by
  induction l with
  | nil => simp at h
  | cons x xs ih =>
    intro a
    cases xs with
    | nil => simp [cumsumFrom]
    | cons y ys =>
      have := ih (by simp) (a + x)
      simp only [cumsumFrom, List.getLast?_cons_cons, List.sum_cons] at this ⊢
      omega

theorem cumsum_last (l : List Nat) : (cumsum l).getLast?.getD 0 = l.sum := by
  cases l with
  | nil => rfl
  | cons x xs => simpa [cumsum] using cumsumFrom_getLast (x :: xs) (by simp) 0

theorem length_flatMap_range {β : Type} (blk : Nat → List β) (cs : List Nat)
    (h : ∀ i, i < cs.length → (blk i).length = cs.getD i 0) :
    ∀ n, n ≤ cs.length → ((List.range n).flatMap blk).length = (cs.take n).sum := by
  intro n
  induction n with
  | zero => simp
  | succ n ih =>
    intro hn
    rw [List.range_succ, List.flatMap_append, List.length_append, ih (by omega)]
    have hc : cs[n]? = some (cs.getD n 0) := by
      simp [List.getD_eq_getElem?_getD, List.getElem?_eq_getElem (show n < cs.length by omega)]
    rw [List.take_succ, hc]
    simp [h n (by omega)]

/-- Both repeat kernels: block `i` of `cs[i]` cells all holding `v i`, for every
order of the iterations. -/
theorem repeat_blocks {β : Type} (order : List Nat) (cs : List Nat) (v : Nat → β) (out : List β)
    (ho : order.Perm (List.range cs.length)) (hout : out.length = cs.sum) :
    applyWrites out (order.flatMap fun i =>
      (List.range ((cumsum cs).getD i 0 - blockStart (cumsum cs) i)).map fun j =>
        (blockStart (cumsum cs) i + j, v i)) =
    (List.range cs.length).flatMap fun i => List.replicate (cs.getD i 0) (v i) := by
  set iter : Nat → List (Nat × β) := fun i =>
      (List.range ((cumsum cs).getD i 0 - blockStart (cumsum cs) i)).map fun j =>
        (blockStart (cumsum cs) i + j, v i) with hiter
  have hcount : ∀ i, i < cs.length →
      (cumsum cs).getD i 0 - blockStart (cumsum cs) i = cs.getD i 0 := by
    intro i hi
    have hc : cs[i]? = some (cs.getD i 0) := by
      simp [List.getD_eq_getElem?_getD, List.getElem?_eq_getElem hi]
    rw [cumsum_getD _ _ hi, blockStart_cumsum _ _ (by omega), List.take_succ, hc]
    simp
  have hsum : ∀ n, n ≤ cs.length →
      ((List.range n).flatMap fun i => List.replicate (cs.getD i 0) (v i)).length = (cs.take n).sum :=
    length_flatMap_range _ cs (by simp)
  -- the writes of the sequential order hit distinct cells
  have hpos : ∀ n, n ≤ cs.length →
      (((List.range n).flatMap iter).map Prod.fst) = List.range (cs.take n).sum := by
    intro n
    induction n with
    | zero => simp
    | succ n ih =>
      intro hn
      have hc : cs[n]? = some (cs.getD n 0) := by
        simp [List.getD_eq_getElem?_getD, List.getElem?_eq_getElem (show n < cs.length by omega)]
      rw [List.range_succ, List.flatMap_append, List.map_append, ih (by omega), List.take_succ, hc]
      simp only [hiter, List.flatMap_cons, List.flatMap_nil, List.append_nil, List.map_map,
        Option.toList_some, List.sum_append, List.sum_cons, List.sum_nil, Nat.add_zero]
      rw [hcount n (by omega), blockStart_cumsum _ _ (by omega), List.range_add]
      congr 1
  have hperm : (order.flatMap iter).Perm ((List.range cs.length).flatMap iter) := ho.flatMap_right _
  rw [applyWrites_perm hperm]
  · obtain ⟨rest, hr⟩ := fold_blocks out iter (fun i => List.replicate (cs.getD i 0) (v i)) cs.length (by
      intro i hi pre rest hpre hlen
      have hp : pre.length = (cs.take i).sum := by rw [hpre]; exact hsum i (by omega)
      have hle : (cs.take (i + 1)).sum ≤ cs.sum := by
        conv_rhs => rw [← List.take_append_drop (i + 1) cs, List.sum_append]
        omega
      have hc : cs[i]? = some (cs.getD i 0) := by
        simp [List.getD_eq_getElem?_getD, List.getElem?_eq_getElem hi]
      rw [List.take_succ, hc] at hle
      simp only [Option.toList_some, List.sum_append, List.sum_cons, List.sum_nil] at hle
      refine ⟨rest.drop (cs.getD i 0), ?_⟩
      rw [hiter]
      simp only [hcount i hi]
      rw [blockStart_cumsum cs i (by omega), ← hp]
      rw [applyWrites_block pre (fun _ => v i) _ rest (by omega)]
      simp)
    rw [hr]
    have := congrArg List.length hr
    rw [applyWrites_length, List.length_append, hsum _ le_rfl, List.take_length] at this
    have : rest = [] := List.length_eq_zero_iff.mp (by omega)
    simp [this]
  · rw [(hperm.map Prod.fst).nodup_iff, hpos _ le_rfl]
    exact List.nodup_range

end Verif.Merge
