import Verif.Merge.Left
import Mathlib.Data.List.Sort
import Mathlib.Data.List.Perm.Lattice

/-!
# C01-C04: joins return exactly the matching row pairs

`env` holds the contents of uninitialised buffers and the schedules of the
parallel loops; the theorems hold for all of them.
-/
namespace Verif.Merge
section
variable {K : Type} [DecidableEq K] {lkeys rkeys : List (Option K)} {L R : Grouping K}

theorem zip_flatMap {α β γ : Type} (l : List α) (f : α → List β) (v : α → γ) :
    (l.flatMap fun i => List.replicate (f i).length (v i)).zip (l.flatMap f) =
      l.flatMap fun i => (f i).map fun b => (v i, b) := by
  induction l with
  | nil => rfl
  | cons x xs ih =>
    simp only [List.flatMap_cons]
    rw [List.zip_append (by simp), ih]
    congr 1
    generalize f x = b
    induction b with
    | nil => rfl
    | cons y ys ih => simp [List.replicate_succ, ih]

theorem length_flatMap_replicate {α β γ : Type} (l : List α) (f : α → List β) (v : α → γ) :
    (l.flatMap fun i => List.replicate (f i).length (v i)).length = (l.flatMap f).length := by
  simp [List.length_flatMap]

theorem decode_getD (h : L.WF lkeys) (i : Nat) (hi : i < L.ikey.length) :
    lkeys.getD i none = keyOf L (L.ikey.getD i 0) := by
  rw [List.getD_eq_getElem?_getD, decode_getElem? h, List.getElem?_eq_getElem hi]
  simp [keyOf, List.getElem?_eq_getElem hi]

theorem rowsFor_eq_matching (hL : L.WF lkeys) (hR : R.WF rkeys) (i : Nat) (hi : i < L.ikey.length) :
    rowsFor L R (L.ikey.getD i 0) = matching rkeys (lkeys.getD i none) := by
  rw [decode_getD hL i hi]
  exact (matching_eq_rowsFor hR _ (hL.inRange _ (by simp [List.getElem?_eq_getElem hi]))).symm

theorem wf_mem_iff (hL : L.WF lkeys) (i : Nat) : i < L.ikey.length ↔ i < lkeys.length := by
  rw [WF.length hL]

/-- one left row's output in a join -/
def outRows (inner : Bool) (i : Nat) (js : List Nat) : List (Option Nat × Option Nat) :=
  (pad inner js).map fun o => (some i, o)

theorem outRows_left (i : Nat) (js : List Nat) : outRows false i js = padded i js := by
  unfold outRows pad padded
  split <;> simp

theorem outRows_inner (i : Nat) (js : List Nat) :
    outRows true i js = js.map fun j => (some i, some j) := by
  unfold outRows pad
  split
  · simp_all
  · simp

/-- Without `keep` on the left: left rows in order, with their kept partners. -/
theorem leftOrInner_none (hL : L.WF lkeys) (hR : R.WF rkeys) (env : Env) (he : env.Fair)
    (inner : Bool) (keepR : Option Keep) :
    ∃ j, leftOrInner env L R inner none keepR = .ok j ∧ j.rows lkeys.length rkeys.length =
      some ((List.range lkeys.length).flatMap fun i =>
        outRows inner i (sel keepR (matching rkeys (lkeys.getD i none)))) := by
  obtain ⟨o, ho, hrows⟩ := buildLeft_none hL hR env.sched he env.g0 inner keepR
  have hright := buildRight_eq hL hR env.g1 inner none keepR L.ikey rfl
    hL.inRange id
  refine ⟨⟨o.map (List.map some), some (buildRight env.g1 (keyMaps L R).2.2 L R inner none keepR), none⟩, ?_, ?_⟩
  · unfold leftOrInner
    simp only [ho]
    rfl
  · have hl : (o.map (List.map some)).getD ((List.range lkeys.length).map some) =
        (List.range L.ikey.length).flatMap fun i =>
          List.replicate (pad inner (sel keepR (rowsFor L R (L.ikey.getD i 0)))).length (some i) := by
      have : (o.map (List.map some)).getD ((List.range lkeys.length).map some) =
          (o.getD (List.range L.ikey.length)).map some := by
        rw [← WF.length hL]; cases o <;> rfl
      rw [this, hrows, List.map_flatMap]
      simp [cnt]
    have hr : buildRight env.g1 (keyMaps L R).2.2 L R inner none keepR =
        (List.range L.ikey.length).flatMap fun i => pad inner (sel keepR (rowsFor L R (L.ikey.getD i 0))) := by
      rw [hright]
      have h3 := map_range_getD L.ikey id
      rw [List.map_id] at h3
      conv_lhs => rw [h3]
      rw [List.flatMap_map]; rfl
    unfold JoinIndices.rows
    simp only [hl, Option.getD_some, hr]
    rw [if_pos (length_flatMap_replicate _ _ _), zip_flatMap]
    congr 1
    rw [WF.length hL]
    apply List.flatMap_congr
    intro i hi
    have hi' : i < L.ikey.length := (wf_mem_iff hL i).mpr (List.mem_range.mp hi)
    rw [rowsFor_eq_matching hL hR i hi']
    rfl

/-- **C01** Left join, any grouping of the key columns. -/
theorem left_join_correct (hL : L.WF lkeys) (hR : R.WF rkeys) (env : Env) (he : env.Fair)
    (RG : Option (Grouping K)) :
    ∃ j, createIndices env L R RG .left none none = .ok j ∧
      j.rows lkeys.length rkeys.length = some (leftJoinSpec lkeys rkeys) := by
  obtain ⟨j, h1, h2⟩ := leftOrInner_none hL hR env he false none
  refine ⟨j, h1, ?_⟩
  rw [h2]
  simp [leftJoinSpec, outRows_left, sel]

/-- **C02** Inner join, any grouping of the key columns. -/
theorem inner_join_correct (hL : L.WF lkeys) (hR : R.WF rkeys) (env : Env) (he : env.Fair)
    (RG : Option (Grouping K)) :
    ∃ j, createIndices env L R RG .inner none none = .ok j ∧
      j.rows lkeys.length rkeys.length = some (innerJoinSpec lkeys rkeys) := by
  obtain ⟨j, h1, h2⟩ := leftOrInner_none hL hR env he true none
  refine ⟨j, h1, ?_⟩
  rw [h2]
  simp [innerJoinSpec, outRows_inner, sel]

theorem rows_swap (nl nr : Nat) (j : JoinIndices) (o : Option Nat) :
    JoinIndices.rows nr nl ⟨j.right, j.left, o⟩ = (j.rows nl nr).map (List.map Prod.swap) := by
  unfold JoinIndices.rows
  simp only
  split <;> rename_i h
  · rw [if_pos h.symm]
    rw [Option.map_some]
    congr 1
    generalize j.left.getD _ = a
    generalize j.right.getD _ = b
    induction a generalizing b with
    | nil => simp
    | cons x xs ih => cases b with
      | nil => simp
      | cons y ys => simp [ih]
  · rw [if_neg (fun h' => h h'.symm)]
    rfl

theorem rightJoin_ok (env : Env) (keepL keepR : Option Keep) {j : JoinIndices}
    (h : leftOrInner env R L false keepR keepL = .ok j) :
    rightJoin env L R keepL keepR = .ok ⟨j.right, j.left, none⟩ := by
  unfold rightJoin; rw [h]; rfl

/-- **C03** Right join. -/
theorem right_join_correct (hL : L.WF lkeys) (hR : R.WF rkeys) (env : Env) (he : env.Fair)
    (RG : Option (Grouping K)) :
    ∃ j, createIndices env L R RG .right none none = .ok j ∧
      j.rows lkeys.length rkeys.length = some (rightJoinSpec lkeys rkeys) := by
  obtain ⟨j, h1, h2⟩ := left_join_correct hR hL env he none
  refine ⟨_, rightJoin_ok env none none h1, ?_⟩
  rw [rows_swap, h2]
  rfl

/-! ### the rows only on the right -/

theorem extractGroups_eq (R : Grouping K) (mask : List Bool) (hm : mask.length = R.gbkeys.length + 1) :
    extractGroups mask R.igroup R.ncountgroup R.ifirstgroup =
      ((List.range (R.gbkeys.length + 1)).filter fun c => mask.getD c false).flatMap (rowsOf R.ikey) := by
  unfold extractGroups
  rw [hm]
  have : ∀ l : List Nat, (∀ c ∈ l, c ≤ R.gbkeys.length) →
      (l.flatMap fun c => if mask.getD c false = true then
        (R.igroup.drop (R.ifirstgroup.getD c 0)).take (R.ncountgroup.getD c 0) else []) =
      (l.filter fun c => mask.getD c false).flatMap (rowsOf R.ikey) := by
    intro l hl
    induction l with
    | nil => rfl
    | cons c l ih =>
      have hc := hl c (by simp)
      rw [List.flatMap_cons, ih fun d hd => hl d (by simp [hd]), List.filter_cons]
      have : R.ncountgroup.getD c 0 = (rowsOf R.ikey c).length := by
        rw [List.getD_eq_getElem?_getD, ncountgroup_getElem? R c hc]; rfl
      rw [this, igroup_slice R c hc]
      split <;> simp
  exact this _ fun c hc => by have := List.mem_range.mp hc; omega

theorem nodup_rows_flatMap (ikey : List Nat) (l : List Nat) (hl : l.Nodup) :
    (l.flatMap (rowsOf ikey)).Nodup := by
  rw [List.nodup_flatMap]
  refine ⟨fun c _ => List.nodup_range.filter _, ?_⟩
  refine List.Pairwise.imp_of_mem ?_ hl
  intro a b _ _ hab
  simp only [Function.onFun, List.disjoint_left, mem_rowsOf]
  intro i h1 h2
  rw [h1] at h2
  exact hab (Option.some.inj h2)

theorem sortRows_eq {l m : List Nat} (hp : l.Perm m) (hm : m.Pairwise (· < ·)) : sortRows l = m := by
  unfold sortRows
  exact List.Perm.eq_of_pairwise' (List.pairwise_insertionSort (· ≤ ·) l) (hm.imp fun h => Nat.le_of_lt h)
    ((List.perm_insertionSort _ _).trans hp)

theorem mem_matching (keys : List (Option K)) (k : Option K) (j : Nat) :
    j ∈ matching keys k ↔ ∃ k', k = some k' ∧ keys[j]? = some (some k') := by
  unfold matching
  cases k with
  | none => simp
  | some k =>
    simp only [List.mem_filter, List.mem_range, beq_iff_eq, Option.some.injEq, exists_eq_left', and_iff_right_iff_imp]
    intro h
    exact (List.getElem?_eq_some_iff.mp h).1

/-- a right group exists on the left iff its rows match some left row -/
theorem exist_iff (hL : L.WF lkeys) (hR : R.WF rkeys) (hl : L.ikey ≠ []) (hr : R.ikey ≠ [])
    (j c : Nat) (hc : R.ikey[j]? = some (c + 1)) :
    (keyMaps L R).1[c]? = some true ↔ matching lkeys (rkeys.getD j none) ≠ [] := by
  obtain ⟨e1, e2⟩ := keyMaps_r2l hL hR hl hr
  have hcl : c < R.gbkeys.length := by
    have := hR.inRange _ (List.mem_of_getElem? hc); omega
  have hkey : rkeys.getD j none = some R.gbkeys[c] := by
    rw [List.getD_eq_getElem?_getD, decode_getElem? hR, hc]
    simp [List.getElem?_eq_getElem hcl]
  rw [e2, hkey]
  have : matching lkeys (some R.gbkeys[c]) ≠ [] ↔ R.gbkeys[c] ∈ L.gbkeys := by
    constructor
    · intro h
      by_contra h'
      exact h (matching_absent hL _ h')
    · intro h
      obtain ⟨l, hl⟩ := List.getElem?_of_mem h
      rw [matching_keyOf hL l _ hl]
      exact rowsOf_ne_nil hL l (List.getElem?_eq_some_iff.mp hl).1
  rw [this]
  simp only [ismember, List.map_map, List.getElem?_map, List.getElem?_eq_getElem hcl, Option.map_some,
    Option.some.injEq, Function.comp_apply]
  rw [List.findIdx?_isSome]
  simp only [List.any_eq_true, decide_eq_true_eq, exists_eq_right]

theorem rightOnly_mask (hL : L.WF lkeys) (hR : R.WF rkeys) (hl : L.ikey ≠ []) (hr : R.ikey ≠ [])
    (j c : Nat) (hc : R.ikey[j]? = some c) :
    (decide (R.ncountgroup.getD 0 0 > 0) :: (keyMaps L R).1.map not).getD c false = true ↔
      matching lkeys (rkeys.getD j none) = [] := by
  have hlen : (keyMaps L R).1.length = R.gbkeys.length := by
    rw [(keyMaps_r2l hL hR hl hr).2]; simp [ismember]
  have hle := hR.inRange _ (List.mem_of_getElem? hc)
  cases c with
  | zero =>
    have hkey : rkeys.getD j none = none := by
      rw [List.getD_eq_getElem?_getD, decode_getElem? hR, hc]; simp
    have hm : j ∈ rowsOf R.ikey 0 := (mem_rowsOf _ _ _).mpr hc
    have hpos : 0 < (rowsOf R.ikey 0).length := List.length_pos_of_mem hm
    rw [hkey, List.getD_cons_zero, List.getD_eq_getElem?_getD, ncountgroup_getElem? R 0 (by omega)]
    simpa [matching] using hpos
  | succ c =>
    have h := exist_iff hL hR hl hr j c hc
    rw [List.getD_cons_succ, List.getD_eq_getElem?_getD, List.getElem?_map]
    have hcl : c < (keyMaps L R).1.length := by omega
    rw [List.getElem?_eq_getElem hcl] at h ⊢
    simp only [Option.some.injEq, ne_eq] at h
    simp only [Option.map_some, Option.getD_some, Bool.not_eq_true']
    rw [← Bool.not_eq_true, h, not_not]

theorem rightOnlyRows_eq (hL : L.WF lkeys) (hR : R.WF rkeys) (hl : L.ikey ≠ []) (hr : R.ikey ≠ [])
    (RG : Option (Grouping K)) :
    rightOnlyRows (keyMaps L R).1 R RG none = some (unmatchedRight lkeys rkeys) := by
  unfold rightOnlyRows
  simp only
  congr 1
  have hlen : (keyMaps L R).1.length = R.gbkeys.length := by
    rw [(keyMaps_r2l hL hR hl hr).2]; simp [ismember]
  rw [extractGroups_eq _ _ (by simp [hlen])]
  have hsorted : (unmatchedRight lkeys rkeys).Pairwise (· < ·) :=
    List.Pairwise.filter _ List.pairwise_lt_range
  apply sortRows_eq _ hsorted
  unfold unmatchedRight
  rw [List.perm_ext_iff_of_nodup (nodup_rows_flatMap _ _ (List.nodup_range.filter _))
    (List.nodup_range.filter _)]
  intro j
  simp only [List.mem_flatMap, List.mem_filter, List.mem_range, mem_rowsOf,
    decide_eq_true_eq]
  constructor
  · rintro ⟨c, ⟨_, h1⟩, h2⟩
    refine ⟨(wf_mem_iff hR j).mp (List.getElem?_eq_some_iff.mp h2).1, ?_⟩
    exact (rightOnly_mask hL hR hl hr j c h2).mp h1
  · rintro ⟨h1, h2⟩
    have hj := (wf_mem_iff hR j).mpr h1
    have hc := List.getElem?_eq_getElem hj
    refine ⟨R.ikey[j], ⟨?_, (rightOnly_mask hL hR hl hr j _ hc).mpr h2⟩, hc⟩
    have := hR.inRange _ (List.getElem_mem hj)
    omega

/-- an outer join appends the right-only rows to a left join -/
theorem outerJoin_eq (env : Env) (RG : Option (Grouping K)) (keepL keepR : Option Keep)
    (nl nr : Nat) (hnl : nl = L.ikey.length) {j : JoinIndices} {ro : List Nat}
    {rows : List (Option Nat × Option Nat)}
    (h : leftOrInner env L R false keepL keepR = .ok j) (hrows : j.rows nl nr = some rows)
    (hro : rightOnlyRows (keyMaps L R).1 R RG keepR = some ro) :
    ∃ j', outerJoin env L R RG keepL keepR = .ok j' ∧
      j'.rows nl nr = some (rows ++ ro.map fun r => (none, some r)) := by
  unfold leftOrInner at h
  unfold outerJoin
  simp only [hro]
  simp only at h
  cases hb : buildLeft env.sched env.g0 (keyMaps L R).2.1 (keyMaps L R).1 L R false keepL keepR with
  | error e => rw [hb] at h; cases h
  | ok li =>
    rw [hb] at h
    obtain rfl := Except.ok.inj h
    simp only [bind, Except.bind, pure, Except.pure]
    unfold JoinIndices.rows at hrows
    simp only [Option.getD_some] at hrows
    split at hrows
    · rename_i hlen
      have hz := Option.some.inj hrows
      by_cases h0 : ro.length > 0
      · rw [if_pos h0]
        refine ⟨_, rfl, ?_⟩
        subst hnl
        unfold JoinIndices.rows
        cases li with
        | none =>
          simp only [Option.map_none, Option.getD_none] at hlen hz
          simp only [Option.getD_some, List.length_append, hlen, List.length_map, if_true]
          rw [List.zip_append hlen, hz]
          congr 2
          clear hro h0
          induction ro with
          | nil => rfl
          | cons x xs ih => simpa using ih
        | some l =>
          simp only [Option.map_some, Option.getD_some] at hlen hz
          simp only [Option.getD_some, List.length_append, hlen, List.length_map, if_true]
          rw [List.zip_append hlen, hz]
          congr 2
          clear hro h0
          induction ro with
          | nil => rfl
          | cons x xs ih => simpa using ih
      · rw [if_neg h0]
        refine ⟨_, rfl, ?_⟩
        have : ro = [] := List.length_eq_zero_iff.mp (by omega)
        subst this
        unfold JoinIndices.rows
        simp only [Option.getD_some, hlen, if_true, hz, List.map_nil, List.append_nil]
    · simp at hrows

/-- **C03** Outer join. -/
theorem outer_join_correct (hL : L.WF lkeys) (hR : R.WF rkeys) (env : Env) (he : env.Fair)
    (RG : Option (Grouping K)) :
    ∃ j, createIndices env L R RG .outer none none = .ok j ∧
      j.rows lkeys.length rkeys.length = some (outerJoinSpec lkeys rkeys) := by
  by_cases hr : R.ikey = []
  · obtain ⟨j, h1, h2⟩ := left_join_correct hL hR env he none
    refine ⟨⟨j.left, j.right, some 0⟩, ?_, ?_⟩
    · simp only [createIndices] at h1 ⊢
      simp only [hr, List.length_nil, or_true, if_true, h1]; rfl
    · have hrk : rkeys = [] := by rw [← List.length_eq_zero_iff, ← WF.length hR, hr]; rfl
      have : JoinIndices.rows lkeys.length rkeys.length ⟨j.left, j.right, some 0⟩ =
        j.rows lkeys.length rkeys.length := rfl
      rw [this, h2]
      simp [outerJoinSpec, unmatchedRight, hrk]
  · by_cases hl : L.ikey = []
    · obtain ⟨j, h1, h2⟩ := right_join_correct hL hR env he none
      have hlk : lkeys = [] := by rw [← List.length_eq_zero_iff, ← WF.length hL, hl]; rfl
      refine ⟨⟨j.left, j.right, some ((j.right.map List.length).getD 0)⟩, ?_, ?_⟩
      · simp only [createIndices] at h1 ⊢
        simp only [hl, List.length_nil, true_or, if_true, h1, List.length_eq_zero_iff, hr, if_false]; rfl
      · have : JoinIndices.rows lkeys.length rkeys.length
            ⟨j.left, j.right, some ((j.right.map List.length).getD 0)⟩ =
          j.rows lkeys.length rkeys.length := rfl
        rw [this, h2]
        have hm : ∀ k : Option K, matching ([] : List (Option K)) k = [] := by
          intro k; cases k <;> rfl
        simp only [outerJoinSpec, unmatchedRight, rightJoinSpec, leftJoinSpec, hlk, hm, padded]
        have hf : (List.range rkeys.length).filter (fun _ => true) = List.range rkeys.length := by simp
        simp [hf, List.map_flatMap, ← List.map_eq_flatMap]
    · obtain ⟨j, h1, h2⟩ := left_join_correct hL hR env he none
      have h1' : leftOrInner env L R false none none = .ok j := h1
      obtain ⟨j', h3, h4⟩ := outerJoin_eq env RG none none lkeys.length rkeys.length (WF.length hL).symm
        h1' h2 (rightOnlyRows_eq hL hR hl hr RG)
      refine ⟨j', ?_, h4⟩
      simp only [createIndices, List.length_eq_zero_iff, hl, hr, or_self, if_false]
      exact h3

end
end Verif.Merge
