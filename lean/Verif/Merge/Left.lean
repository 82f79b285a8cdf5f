import Verif.Merge.Build
import Mathlib.Data.List.Perm.Subperm
import Mathlib.Data.List.Perm.Basic

/-! The left index builder. -/
namespace Verif.Merge
section
variable {K : Type} [DecidableEq K] {lkeys rkeys : List (Option K)} {L R : Grouping K}

/-- number of output rows for left group number `c` -/
def cnt (L R : Grouping K) (inner : Bool) (keepR : Option Keep) (c : Nat) : Nat :=
  (pad inner (sel keepR (rowsFor L R c))).length

theorem sel_some_length (k : Keep) (js : List Nat) : (sel (some k) js).length ≤ 1 := by
  cases k
  · cases js <;> simp [sel]
  · cases h : js.getLast? <;> simp [sel, h]

/-- as many distinct keys as rows: no key repeats (and no row is null) -/
theorem rowsOf_length_le_one (hR : R.WF rkeys) (hu : R.gbkeys.length = R.ikey.length) (c : Nat) :
    (rowsOf R.ikey c).length ≤ 1 := by
  have hsub : (List.range' 1 R.gbkeys.length).Subperm R.ikey :=
    List.subperm_of_subset List.nodup_range' fun c hc => by
      rw [List.mem_range'_1] at hc
      exact hR.used c (by omega) (by omega)
  have hperm := hsub.perm_of_length_le (by simp [hu])
  have hnd : R.ikey.Nodup := hperm.nodup_iff.mp List.nodup_range'
  by_contra hlt
  have h2 : 1 < (rowsOf R.ikey c).length := by omega
  have hrn : (rowsOf R.ikey c).Nodup := List.nodup_range.filter _
  have m0 : (rowsOf R.ikey c)[0] ∈ rowsOf R.ikey c := List.getElem_mem _
  have m1 : (rowsOf R.ikey c)[1] ∈ rowsOf R.ikey c := List.getElem_mem _
  rw [mem_rowsOf] at m0 m1
  obtain ⟨l0, e0⟩ := List.getElem?_eq_some_iff.mp m0
  obtain ⟨l1, e1⟩ := List.getElem?_eq_some_iff.mp m1
  have := (List.Nodup.getElem_inj_iff hnd).mp (e0.trans e1.symm)
  have := (List.Nodup.getElem_inj_iff hrn).mp this
  omega

theorem rowsFor_length_le_one (hR : R.WF rkeys) (hu : R.gbkeys.length = R.ikey.length) (c : Nat) :
    (rowsFor L R c).length ≤ 1 := by
  unfold rowsFor
  split
  · simp
  · exact rowsOf_length_le_one hR hu _

/-- at most one partner per row: each left row gives one output row, or none when
an inner join finds no partner -/
theorem cnt_single (hR : R.WF rkeys) (inner : Bool) (keepR : Option Keep)
    (h : keepR.isSome || (R.gbkeys.length == R.ikey.length)) (c : Nat) :
    cnt L R inner keepR c = if inner && (partner L R c).isNone then 0 else 1 := by
  have hle : (sel keepR (rowsFor L R c)).length ≤ 1 := by
    cases keepR with
    | none => exact rowsFor_length_le_one hR (by simpa using h) c
    | some k => exact sel_some_length k _
  unfold cnt pad
  by_cases hn : sel keepR (rowsFor L R c) = []
  · have hp := (rowsFor_eq_nil hR c).mp ((sel_eq_nil _ _).mp hn)
    cases inner <;> simp [hn, hp]
  · have hp : partner L R c ≠ none := fun h0 =>
      hn ((sel_eq_nil _ _).mpr ((rowsFor_eq_nil hR c).mpr h0))
    have hpos := List.length_pos_iff.mpr hn
    have hq : (partner L R c).isNone = false := by
      cases h : partner L R c with
      | none => exact absurd h hp
      | some => rfl
    simp only [hn, if_false, List.length_map, hq, Bool.and_false, Bool.false_eq_true]
    omega

/-- the group-level mask of `rt_merge.py:1074-1075` -/
def leftMask (L R : Grouping K) : List Bool :=
  let targets := (maskSel (keyMaps L R).2.1 (keyMaps L R).1).map fun o => o.getD 0 + 1
  scatter (List.replicate L.ncountgroup.length false) targets (List.replicate targets.length true)

theorem leftMask_getElem? (hL : L.WF lkeys) (hR : R.WF rkeys) (hl : L.ikey ≠ []) (hr : R.ikey ≠ [])
    (c : Nat) (hc : c ≤ L.gbkeys.length) : (leftMask L R)[c]? = some (partner L R c).isSome := by
  obtain ⟨e1, e2⟩ := keyMaps_r2l hL hR hl hr
  unfold leftMask
  simp only [e1, e2]
  rw [List.length_map, replicate_maskSel]
  rcases Nat.eq_zero_or_pos c with h0 | h0
  · subst h0
    rw [scatter, applyWrites_getElem?_notMem]
    · simp [partner]
    · intro hm
      simp only [List.mem_map] at hm
      obtain ⟨⟨p, v⟩, hpv, h0⟩ := hm
      have := (List.of_mem_zip hpv).1
      simp only [List.mem_map] at this
      obtain ⟨o, _, ho⟩ := this
      simp at h0; omega
  · have h := scatter_partner hL.nodup hR.nodup 1 (List.replicate L.ncountgroup.length false)
      (List.replicate (ismember R.gbkeys L.gbkeys).length true) (by simp [ismember]) (by simp)
      (c - 1) (by omega)
    rw [show c - 1 + 1 = c by omega] at h
    rw [h]
    cases hp : partner L R c with
    | none => simp [List.getElem?_replicate]; omega
    | some r =>
      have := partner_lt hR hp
      simp [List.getElem?_replicate, ismember, this]

/-- the repeat counts of `rt_merge.py:1142-1146` -/
def leftMult (L R : Grouping K) (inner : Bool) : List Nat :=
  scatter (List.replicate L.ncountgroup.length (if inner then 0 else 1))
    ((maskSel (keyMaps L R).2.1 (keyMaps L R).1).map fun o => o.getD 0 + 1)
    (maskSel (R.ncountgroup.drop 1) (keyMaps L R).1)

theorem leftMult_getElem? (hL : L.WF lkeys) (hR : R.WF rkeys) (hl : L.ikey ≠ []) (hr : R.ikey ≠ [])
    (inner : Bool) (c : Nat) (hc : c ≤ L.gbkeys.length) :
    (leftMult L R inner)[c]? = some (cnt L R inner none c) := by
  obtain ⟨e1, e2⟩ := keyMaps_r2l hL hR hl hr
  unfold leftMult
  simp only [e1, e2]
  rcases Nat.eq_zero_or_pos c with h0 | h0
  · subst h0
    rw [scatter, applyWrites_getElem?_notMem]
    · cases inner <;> simp [cnt, pad, sel, rowsFor, partner]
    · intro hm
      simp only [List.mem_map] at hm
      obtain ⟨⟨p, v⟩, hpv, h0⟩ := hm
      have := (List.of_mem_zip hpv).1
      simp only [List.mem_map] at this
      obtain ⟨o, _, ho⟩ := this
      simp at h0; omega
  · have h := scatter_partner hL.nodup hR.nodup 1
      (List.replicate L.ncountgroup.length (if inner then 0 else 1))
      (R.ncountgroup.drop 1) (by simp) (by simp) (c - 1) (by omega)
    rw [show c - 1 + 1 = c by omega] at h
    rw [h]
    cases hp : partner L R c with
    | none =>
      have : c < L.gbkeys.length + 1 := by omega
      cases inner <;> simp [List.getElem?_replicate, cnt, pad, sel, rowsFor, hp, this]
    | some r =>
      have hlt := partner_lt hR hp
      have hne := rowsOf_ne_nil hR r hlt
      show (R.ncountgroup.drop 1)[r]? = _
      rw [List.getElem?_drop, Nat.add_comm, ncountgroup_getElem? R (r + 1) (by omega)]
      simp [cnt, pad, sel, rowsFor, hp, hne]

theorem flatMap_replicate_if {β : Type} (l : List β) (p : β → Bool) :
    (l.flatMap fun i => List.replicate (if p i then 0 else 1) i) = l.filter fun i => !p i := by
  induction l with
  | nil => rfl
  | cons x xs ih =>
    rw [List.flatMap_cons, ih, List.filter_cons]
    cases p x <;> simp

theorem boolToFancy_eq (f : Nat → Bool) (n : Nat) :
    boolToFancy ((List.range n).map f) = (List.range n).filter f := by
  unfold boolToFancy
  rw [List.length_map, List.length_range]
  generalize List.range n = l
  induction l with
  | nil => rfl
  | cons x xs ih => rw [List.map_cons, maskSel_cons, ih, List.filter_cons]

theorem map_range_getD {β : Type} (l : List Nat) (f : Nat → β) :
    l.map f = (List.range l.length).map fun i => f (l.getD i 0) := by
  apply List.ext_getElem (by simp)
  intro i h1 h2
  simp [List.getElem?_eq_getElem (show i < l.length by simpa using h1)]

/-- Left selector without `keep` on the left. -/
theorem buildLeft_none (hL : L.WF lkeys) (hR : R.WF rkeys) (sched : Nat → List Nat)
    (hs : ∀ n, (sched n).Perm (List.range n)) (g0 : Nat) (inner : Bool) (keepR : Option Keep) :
    ∃ o, buildLeft sched g0 (keyMaps L R).2.1 (keyMaps L R).1 L R inner none keepR = .ok o ∧
      o.getD (List.range L.ikey.length) =
        (List.range L.ikey.length).flatMap fun i =>
          List.replicate (cnt L R inner keepR (L.ikey.getD i 0)) i := by
  unfold buildLeft
  by_cases hr : R.ikey = []
  · have hg := WF.gbkeys_nil hR hr
    have hp : ∀ c, partner L R c = none := by intro c; unfold partner; split <;> simp [hg]
    have hcnt : ∀ c, cnt L R inner keepR c = if inner then 0 else 1 := by
      intro c
      have : rowsFor L R c = [] := by simp [rowsFor, hp]
      have : sel keepR (rowsFor L R c) = [] := (sel_eq_nil _ _).mpr this
      cases inner <;> simp [cnt, pad, this]
    simp only [hr, List.length_nil, if_true, hcnt]
    cases inner
    · exact ⟨none, rfl, by simp⟩
    · exact ⟨some [], rfl, by simp⟩
  · by_cases hl : L.ikey = []
    · simp only [hl, List.length_nil, if_true]
      rw [if_neg (by simpa using hr)]
      exact ⟨some [], rfl, by simp⟩
    · rw [if_neg (by simpa using hr), if_neg (by simpa using hl)]
      simp only
      have hin : ∀ i, i < L.ikey.length → L.ikey.getD i 0 ≤ L.gbkeys.length := fun i hi =>
        hL.inRange _ (by simp [List.getElem?_eq_getElem hi])
      by_cases hsingle : (keepR.isSome || R.gbkeys.length == R.ikey.length) = true
      · rw [if_pos hsingle]
        have hc := cnt_single (L := L) hR inner keepR hsingle
        cases inner
        · refine ⟨none, rfl, ?_⟩
          simp [hc]
        · refine ⟨_, rfl, ?_⟩
          have hm := leftMask_getElem? hL hR hl hr
          unfold leftMask at hm
          simp only at hm
          rw [Option.getD_some, map_range_getD, boolToFancy_eq]
          simp only [hc, Bool.true_and]
          rw [flatMap_replicate_if]
          apply List.filter_congr
          intro i hi
          rw [List.getD_eq_getElem?_getD (l := scatter _ _ _), hm _ (hin i (List.mem_range.mp hi))]
          cases partner L R (L.ikey.getD i 0) <;> rfl
      · rw [if_neg hsingle]
        have hk : keepR = none := by cases keepR <;> simp at hsingle ⊢
        subst hk
        rw [if_neg (by simpa [keepIkey] using hl)]
        refine ⟨_, rfl, ?_⟩
        have hm := leftMult_getElem? hL hR hl hr inner
        unfold leftMult at hm
        set mult := scatter (List.replicate L.ncountgroup.length (if inner then 0 else 1))
          ((maskSel (keyMaps L R).2.1 (keyMaps L R).1).map fun o => o.getD 0 + 1)
          (maskSel (R.ncountgroup.drop 1) (keyMaps L R).1) with hmult
        have hrep : (L.ikey.map fun c => mult.getD c 0) = L.ikey.map fun c => cnt L R inner none c := by
          apply List.map_congr_left
          intro c hc
          rw [List.getD_eq_getElem?_getD, hm c (hL.inRange c hc)]; rfl
        simp only [keepIkey, Option.getD_some, fusedArange, hrep]
        set cs := L.ikey.map fun c => cnt L R inner none c with hcs
        have := repeat_blocks (sched (cumsum cs).length) cs (fun i => i)
          (List.replicate ((cumsum cs).getLast?.getD 0) g0)
          (by simpa [cumsum] using hs (cumsum cs).length) (by simp [cumsum_last])
        unfold fusedArangeIter
        rw [this]
        have hlen : cs.length = L.ikey.length := by simp [hcs]
        rw [hlen]
        apply List.flatMap_congr
        intro i hi
        congr 1
        have hi' := List.mem_range.mp hi
        simp [hcs, List.getElem?_eq_getElem hi']

theorem gather_keepRows (hL : L.WF lkeys) (k : Keep) (g : Nat) (hg : g < L.gbkeys.length) :
    ∃ i, (keepRows L k)[g]? = some i ∧ L.ikey[i]? = some (g + 1) := by
  have hne := rowsOf_ne_nil hL g hg
  refine ⟨_, keepRows_getElem? hL k g hg, ?_⟩
  rw [← mem_rowsOf]
  cases k
  · cases hh : rowsOf L.ikey (g + 1) with
    | nil => exact absurd hh hne
    | cons a l => simp [sel]
  · have h1 := List.getLast?_eq_some_getLast hne
    simp only [sel, h1]
    exact List.getLast_mem hne

@[simp] theorem keepRows_length (k : Keep) : (keepRows L k).length = L.gbkeys.length := by
  cases k <;> simp [keepRows, Grouping.ifirstkey, Grouping.ilastkey]

/-- Left selector with `keep` on the left when each key has at most one right row. -/
theorem buildLeft_some_single (hL : L.WF lkeys) (hR : R.WF rkeys) (sched : Nat → List Nat)
    (g0 : Nat) (inner : Bool) (k : Keep) (keepR : Option Keep)
    (hsingle : R.ikey = [] ∨ (keepR.isSome || R.gbkeys.length == R.ikey.length) = true)
    (hl : L.ikey ≠ []) :
    buildLeft sched g0 (keyMaps L R).2.1 (keyMaps L R).1 L R inner (some k) keepR =
      .ok (some ((if inner then keepRows L k else keepRowsWithNull L k).flatMap fun i =>
        List.replicate (cnt L R inner keepR (L.ikey.getD i 0)) i)) := by
  unfold buildLeft
  by_cases hr : R.ikey = []
  · have hg := WF.gbkeys_nil hR hr
    have hp : ∀ c, partner L R c = none := by intro c; unfold partner; split <;> simp [hg]
    have hcnt : ∀ c, cnt L R inner keepR c = if inner then 0 else 1 := by
      intro c
      have : rowsFor L R c = [] := by simp [rowsFor, hp]
      have : sel keepR (rowsFor L R c) = [] := (sel_eq_nil _ _).mpr this
      cases inner <;> simp [cnt, pad, this]
    simp only [hr, List.length_nil, if_true, hcnt]
    cases inner <;> simp
  · have hsingle := hsingle.resolve_left hr
    rw [if_neg (by simpa using hr), if_neg (by simpa using hl)]
    simp only
    rw [if_pos hsingle]
    have hc := cnt_single (L := L) hR inner keepR hsingle
    cases inner
    · simp [hc]
    · simp only [if_true, hc, Bool.true_and]
      rw [flatMap_replicate_if]
      congr 2
      have hm := leftMask_getElem? hL hR hl hr
      unfold leftMask at hm
      simp only at hm
      set mask := scatter (List.replicate L.ncountgroup.length false)
        ((maskSel (keyMaps L R).2.1 (keyMaps L R).1).map fun o => o.getD 0 + 1)
        (List.replicate ((maskSel (keyMaps L R).2.1 (keyMaps L R).1).map fun o => o.getD 0 + 1).length true)
      have hd : mask.drop 1 = (keepRows L k).map fun i => !(partner L R (L.ikey.getD i 0)).isNone := by
        apply List.ext_getElem?
        intro g
        by_cases hg : g < L.gbkeys.length
        · obtain ⟨i, h1, h2⟩ := gather_keepRows hL k g hg
          rw [List.getElem?_drop, hm _ (by omega), List.getElem?_map, h1, Option.map_some,
            List.getD_eq_getElem?_getD, h2, Option.getD_some, Nat.add_comm]
          cases partner L R (g + 1) <;> rfl
        · rw [List.getElem?_eq_none, List.getElem?_eq_none]
          · simp; omega
          · simp [mask, scatter]; omega
      rw [hd]
      generalize keepRows L k = l
      induction l with
      | nil => rfl
      | cons x xs ih => rw [List.map_cons, maskSel_cons, ih, List.filter_cons]

/-- Left selector with `keep` on the left only, some right key repeated: built from
the non-null groups, and an exception when there are none. -/
theorem buildLeft_some_multi (hL : L.WF lkeys) (hR : R.WF rkeys) (sched : Nat → List Nat)
    (hs : ∀ n, (sched n).Perm (List.range n)) (g0 : Nat) (inner : Bool) (k : Keep)
    (hr : R.ikey ≠ []) (hmulti : R.gbkeys.length ≠ R.ikey.length)
    (hl : L.ikey ≠ []) :
    buildLeft sched g0 (keyMaps L R).2.1 (keyMaps L R).1 L R inner (some k) none =
      if L.gbkeys = [] then .error "min of an empty array" else
      .ok (some ((keepRows L k).flatMap fun i =>
        List.replicate (cnt L R inner none (L.ikey.getD i 0)) i)) := by
  unfold buildLeft
  rw [if_neg (by simpa using hr), if_neg (by simpa using hl)]
  simp only
  rw [if_neg (by simpa using hmulti)]
  simp only [keepIkey, gather, List.length_map, keepRows_length, List.length_eq_zero_iff]
  split
  · rfl
  · have hm := leftMult_getElem? hL hR hl hr inner
    unfold leftMult at hm
    set mult := scatter (List.replicate L.ncountgroup.length (if inner then 0 else 1))
      ((maskSel (keyMaps L R).2.1 (keyMaps L R).1).map fun o => o.getD 0 + 1)
      (maskSel (R.ncountgroup.drop 1) (keyMaps L R).1) with hmult
    have hrep : (((keepRows L k).map fun i => L.ikey.getD i 0).map fun c => mult.getD c 0) =
        (keepRows L k).map fun i => cnt L R inner none (L.ikey.getD i 0) := by
      rw [List.map_map]
      apply List.map_congr_left
      intro i hi
      obtain ⟨g, hg⟩ := List.getElem?_of_mem hi
      have hg' : g < L.gbkeys.length := by
        have := (List.getElem?_eq_some_iff.mp hg).1; simpa using this
      obtain ⟨i', h1, h2⟩ := gather_keepRows hL k g hg'
      obtain rfl := Option.some.inj (hg.symm.trans h1)
      simp only [Function.comp_apply]
      rw [List.getD_eq_getElem?_getD (l := mult), hm]
      · rfl
      · rw [List.getD_eq_getElem?_getD, h2]; exact hg'
    simp only [hrep]
    set ks := keepRows L k with hks
    set cs := ks.map fun i => cnt L R inner none (L.ikey.getD i 0) with hcs
    have hcl : cs.length = ks.length := by simp [hcs]
    have := repeat_blocks (sched L.gbkeys.length) cs (fun i => ks.getD i 0)
      (List.replicate ((cumsum cs).getLast?.getD 0) g0)
      (by rw [hcl, hks, keepRows_length]; exact hs _) (by simp [cumsum_last])
    unfold partialRepeat partialRepeatIter
    rw [this, hcl]
    congr 2
    have h2 : ∀ f : Nat → List Nat, ks.flatMap f = (List.range ks.length).flatMap fun i => f (ks.getD i 0) := by
      intro f
      have h3 := map_range_getD ks id
      rw [List.map_id] at h3
      conv_lhs => rw [h3]
      rw [List.flatMap_map]; rfl
    rw [h2]
    apply List.flatMap_congr
    intro i hi
    congr 1
    have hi' := List.mem_range.mp hi
    simp [hcs, List.getElem?_eq_getElem hi']

end
end Verif.Merge
