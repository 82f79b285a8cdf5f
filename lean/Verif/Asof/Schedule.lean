import Verif.Asof.Grouped

/-!
# C38: grouped as-of merge does not depend on the order of the parallel iterations

Unlike `asof_grouped_backward_correct`, nothing is assumed about the key columns: NaN,
unsorted and out of range keys are allowed, and the error behaviour is included.
-/
namespace Verif.Asof
open Verif.Merge

section
variable {α : Type} [LinearOrder α] {K : Type} [DecidableEq K]

/-- all cells written so far belong to the group -/
def Own (r : Run α) (w : List (Nat × Option Nat)) : Prop :=
  ∀ p ∈ w, ∃ t, t < r.nlen ∧ p.1 = r.nIdx t

theorem Own.append {r : Run α} {v w : List (Nat × Option Nat)} (h : Own r v) (h' : Own r w) : Own r (v ++ w) := by
  intro p hp
  rcases List.mem_append.mp hp with hp | hp
  · exact h p hp
  · exact h' p hp

theorem Own.single {r : Run α} {t : Nat} (h : t < r.nlen) (x : Option Nat) : Own r [(r.nIdx t, x)] := by
  intro p hp
  rw [List.mem_singleton] at hp
  subst hp
  exact ⟨t, h, rfl⟩

theorem bwdStep_own (r : Run α) (s : St α) (hi : s.i < r.nlen) (h : Own r s.w) : Own r (bwdStep r s).w := by
  unfold bwdStep
  dsimp only
  repeat' split
  all_goals first | exact h | exact h.append (Own.single hi _)

theorem bwdLoop_own (r : Run α) : ∀ fuel (s : St α), Own r s.w → Own r (bwdLoop r fuel s).w := by
  intro fuel
  induction fuel with
  | zero => intro s h; exact h
  | succ n ih =>
    intro s h
    unfold bwdLoop
    split
    · rename_i hc; exact ih _ (bwdStep_own r s hc.1 h)
    · exact h

theorem bwdKernel_own (r : Run α) (lo lo' : α) : Own r (bwdKernel r lo lo').w := by
  have := bwdLoop_own r (r.nlen + r.hlen) ⟨0, 0, some lo, some lo', [], none, none⟩ (by intro p hp; simp at hp)
  unfold bwdKernel
  dsimp only
  split
  · refine this.append fun p hp => ?_
    obtain ⟨t, ht, rfl⟩ := List.mem_map.mp hp
    rw [List.mem_range'_1] at ht
    exact ⟨t, by omega, rfl⟩
  · exact this

theorem fwdStep_own (r : Run α) (s : St α) (hi : s.i ≤ r.nlen) (h0 : 0 < s.i) (h : Own r s.w) :
    Own r (fwdStep r s).w ∧ (fwdStep r s).i ≤ r.nlen := by
  unfold fwdStep
  dsimp only
  repeat' split
  all_goals first
    | exact ⟨h, hi⟩ | exact ⟨h, Nat.zero_le _⟩
    | exact ⟨h.append (Own.single (by omega) _), by dsimp only; omega⟩

theorem fwdLoop_own (r : Run α) : ∀ fuel (s : St α), Own r s.w → s.i ≤ r.nlen →
    Own r (fwdLoop r fuel s).w ∧ (fwdLoop r fuel s).i ≤ r.nlen := by
  intro fuel
  induction fuel with
  | zero => intro s h h'; exact ⟨h, h'⟩
  | succ n ih =>
    intro s h h'
    unfold fwdLoop
    split
    · rename_i hc
      obtain ⟨a, b⟩ := fwdStep_own r s h' hc.1 h
      exact ih _ a b
    · exact ⟨h, h'⟩

theorem fwdKernel_own (r : Run α) (hi hi' : α) : Own r (fwdKernel r hi hi').w := by
  have := fwdLoop_own r (r.nlen + r.hlen) ⟨r.nlen, r.hlen, some hi, some hi', [], none, none⟩
    (by intro p hp; simp at hp) (le_refl _)
  unfold fwdKernel
  dsimp only
  split
  · refine this.1.append fun p hp => ?_
    obtain ⟨t, ht, rfl⟩ := List.mem_map.mp hp
    rw [List.mem_range] at ht
    exact ⟨t, by omega, rfl⟩
  · exact this.1

/-- group `g` writes only to rows of group `g` -/
theorem own_rows (exact : Bool) (tl : Option α → Option α → Bool) (L R : Grouping K) (left right : List (Option α))
    (g h : Nat) (hg : g < L.gbkeys.length) (w : List (Nat × Option Nat))
    (hw : Own (groupRun exact tl L R left right g h) w) : ∀ p ∈ w, L.ikey[p.1]? = some (g + 1) := by
  intro p hp
  obtain ⟨t, ht, e⟩ := hw p hp
  rw [← mem_rowsOf, ← map_idx_rows L (g + 1) (by omega)]
  exact List.mem_map.mpr ⟨t, List.mem_range.mpr ht, e.symm⟩

theorem absent_rows (L : Grouping K) (g : Nat) (hg : g < L.gbkeys.length) (s : St α) :
    ∀ p ∈ (absentGroup L g s).w, L.ikey[p.1]? = some (g + 1) := by
  intro p hp
  unfold absentGroup at hp
  simp only at hp
  rw [ncount_getD L (g + 1) (by omega), igroup_slice L (g + 1) (by omega)] at hp
  obtain ⟨q, hq, rfl⟩ := List.mem_map.mp hp
  exact (mem_rowsOf _ _ _).mp hq

theorem bwdGroup_rows (b : Bounds α) (exact : Bool) (tl : Option α → Option α → Bool) (L R : Grouping K)
    (left right : List (Option α)) (map : List (Option Nat)) (g : Nat) (hg : g < L.gbkeys.length) :
    ∀ p ∈ (bwdGroup b exact tl L R left right map g).w, L.ikey[p.1]? = some (g + 1) := by
  unfold bwdGroup
  split
  · exact absent_rows L g hg _
  · exact own_rows exact tl L R left right g _ hg _ (bwdKernel_own _ _ _)

theorem fwdGroup_rows (b : Bounds α) (exact : Bool) (tl : Option α → Option α → Bool) (L R : Grouping K)
    (left right : List (Option α)) (map : List (Option Nat)) (g : Nat) (hg : g < L.gbkeys.length) :
    ∀ p ∈ (fwdGroup b exact tl L R left right map g).w, L.ikey[p.1]? = some (g + 1) := by
  unfold fwdGroup
  split
  · exact absent_rows L g hg _
  · exact own_rows exact tl L R left right g _ hg _ (fwdKernel_own _ _ _)

/-- the last write to a cell wins -/
theorem applyWrites_last {β : Type} (p : Nat) : ∀ (w w' : List (Nat × β)) (out out' : List β), out[p]? = out'[p]? →
    w.filter (fun q => q.1 = p) = w'.filter (fun q => q.1 = p) →
    (applyWrites out w)[p]? = (applyWrites out' w')[p]? := by
  have skip : ∀ (w : List (Nat × β)) (out : List β),
      (applyWrites out w)[p]? = (applyWrites out (w.filter fun q => q.1 = p))[p]? := by
    intro w
    induction w using List.reverseRecOn with
    | nil => intro out; rfl
    | append_singleton l q ih =>
      intro out
      rw [List.filter_append, applyWrites_append, applyWrites_append]
      by_cases hq : q.1 = p
      · simp [hq, List.getElem?_set, applyWrites_length]
      · simp only [hq, List.filter_cons, List.filter_nil, decide_false, Bool.false_eq_true, if_false, applyWrites_nil,
          applyWrites_cons]
        rw [List.getElem?_set_ne hq, ih]
  intro w w' out out' h0 h
  rw [skip w, skip w', h]
  generalize w'.filter (fun q => decide (q.1 = p)) = v
  induction v using List.reverseRecOn with
  | nil => exact h0
  | append_singleton l q ih =>
    rw [applyWrites_append, applyWrites_append]
    simp only [applyWrites_cons, applyWrites_nil, List.getElem?_set, applyWrites_length]
    have hl : (p < out.length) ↔ (p < out'.length) := by
      rw [← not_iff_not]; simp only [not_lt, ← List.getElem?_eq_none_iff, h0]
    split
    · rename_i e; subst e; simp only [hl]
    · exact ih

/-- blocks with disjoint cells may be applied in any order -/
theorem applyWrites_blocks (ikey : List Nat) (w : Nat → List (Nat × Option Nat)) (n : Nat) (order order' : List Nat)
    (ho : order.Perm (List.range n)) (ho' : order'.Perm (List.range n))
    (hw : ∀ g, g < n → ∀ p ∈ w g, ikey[p.1]? = some (g + 1)) (out : List (Option Nat)) :
    applyWrites out (order.flatMap w) = applyWrites out (order'.flatMap w) := by
  have one : ∀ (o : List Nat), o.Perm (List.range n) → ∀ p : Nat, (o.flatMap w).filter (fun q => q.1 = p) =
      match ikey[p]? with
      | some (g + 1) => if g < n then (w g).filter (fun q => q.1 = p) else []
      | _ => [] := by
    intro o ho p
    rw [List.filter_flatMap]
    have key : ∀ g ∈ o, (∀ hp : ikey[p]? = some (g + 1), True) →
        ikey[p]? ≠ some (g + 1) → (w g).filter (fun q => decide (q.1 = p)) = [] := by
      intro g hg _ hne
      rw [List.filter_eq_nil_iff]
      intro q hq hc
      have := hw g (List.mem_range.mp (ho.mem_iff.mp hg)) q hq
      rw [of_decide_eq_true hc] at this
      exact hne this
    have allnil : (∀ g ∈ o, ikey[p]? ≠ some (g + 1)) → (o.flatMap fun g => (w g).filter fun q => decide (q.1 = p)) = [] := by
      intro h
      rw [List.flatMap_eq_nil_iff]
      intro g hg
      exact key g hg (fun _ => trivial) (h g hg)
    match hp : ikey[p]? with
    | none => exact allnil (by intro g _; rw [hp]; simp)
    | some 0 => exact allnil (by intro g _; rw [hp]; simp)
    | some (g + 1) =>
      dsimp only
      split
      · rename_i hg
        have hgo : g ∈ o := ho.mem_iff.mpr (List.mem_range.mpr hg)
        have hnd : o.Nodup := ho.nodup_iff.mpr List.nodup_range
        obtain ⟨a, b, rfl⟩ := List.append_of_mem hgo
        rw [List.nodup_append] at hnd
        obtain ⟨_, h2, h3⟩ := hnd
        rw [List.nodup_cons] at h2
        rw [List.flatMap_append, List.flatMap_cons]
        have za : (a.flatMap fun g => (w g).filter fun q => decide (q.1 = p)) = [] := by
          rw [List.flatMap_eq_nil_iff]
          intro x hx
          refine key x (by simp [hx]) (fun _ => trivial) ?_
          rw [hp]
          intro e
          have e : g = x := Nat.succ.inj (Option.some.inj e)
          exact h3 x hx g (by simp) e.symm
        have zb : (b.flatMap fun g => (w g).filter fun q => decide (q.1 = p)) = [] := by
          rw [List.flatMap_eq_nil_iff]
          intro x hx
          refine key x (by simp [hx]) (fun _ => trivial) ?_
          rw [hp]
          intro e
          have e : g = x := Nat.succ.inj (Option.some.inj e)
          exact h2.1 (e ▸ hx)
        rw [za, zb]
        simp
      · rename_i hg
        refine allnil fun x hx => ?_
        rw [hp]
        intro e
        have e : g = x := Nat.succ.inj (Option.some.inj e)
        exact hg (e ▸ List.mem_range.mp (ho.mem_iff.mp hx))
  apply List.ext_getElem?
  intro p
  exact applyWrites_last p _ _ _ _ rfl ((one order ho p).trans (one order' ho' p).symm)

theorem any_perm {β : Type} {a b : List β} (h : a.Perm b) (f : β → Bool) : a.any f = b.any f := by
  rw [Bool.eq_iff_iff, List.any_eq_true, List.any_eq_true]
  simp only [h.mem_iff]

/-- C38. -/
theorem asof_grouped_schedule_independent [Sub α] (order order' : List Nat) (b : Bounds α) (tol : Option α)
    (exact : Bool) (dir : Dir) (L R : Grouping K) (left right : List (Option α))
    (ho : order.Perm (List.range L.gbkeys.length)) (ho' : order'.Perm (List.range L.gbkeys.length)) :
    asofGrouped order b tol exact dir L R left right = asofGrouped order' b tol exact dir L R left right := by
  have hp := ho.trans ho'.symm
  have eb := fun (out : List (Option Nat)) => applyWrites_blocks L.ikey
    (fun g => (bwdGroup b exact (tolBwd tol) L R left right (ismember L.gbkeys R.gbkeys) g).w) _ order order' ho ho'
    (bwdGroup_rows b exact (tolBwd tol) L R left right _) out
  have ef := fun (out : List (Option Nat)) => applyWrites_blocks L.ikey
    (fun g => (fwdGroup b exact (tolFwd tol) L R left right (ismember L.gbkeys R.gbkeys) g).w) _ order order' ho ho'
    (fwdGroup_rows b exact (tolFwd tol) L R left right _) out
  unfold asofGrouped
  dsimp only
  simp only [List.flatMap_map]
  cases dir <;> dsimp only <;>
    simp only [any_perm (hp.map _), eb, ef]

example : asofGrouped [1, 0] ⟨-100, -100, 100, 100⟩ (none : Option Int) true .backward
    (Grouping.ofKeys [some 'b', some 'a']) (Grouping.ofKeys [some 'a', some 'b', some 'b', some 'a'])
    [some 5, some 6] [some 1, some 4, some 2, none] =
    .error "ValueError: right not sorted" := by decide

end
end Verif.Asof
