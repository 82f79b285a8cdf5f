import Verif.Merge.Keep
import Verif.Basic

/-!
# C01-C04 on key columns; C37; counterexamples
-/
namespace Verif.Merge
section
variable {K : Type} [DecidableEq K]

/-! ### the contract can be met: grouping by first occurrence -/

theorem mem_eraseDups' (l : List K) (x : K) : x ∈ l.eraseDups ↔ x ∈ l := by
  simp [List.mem_eraseDups]

theorem nodup_eraseDups' (l : List K) : l.eraseDups.Nodup := by
  generalize hn : l.length = n
  induction n using Nat.strongRecOn generalizing l with
  | ind n ih =>
    cases l with
    | nil => simp
    | cons a l =>
      rw [List.eraseDups_cons, List.nodup_cons]
      refine ⟨by simp [List.mem_eraseDups], ?_⟩
      refine ih _ ?_ _ rfl
      have := List.length_filter_le (fun b => !b == a) l
      simp only [List.length_cons] at hn
      omega

theorem ofKeys_wf (keys : List (Option K)) : (Grouping.ofKeys keys).WF keys := by
  have hmem : ∀ k, some k ∈ keys → k ∈ (keys.filterMap id).eraseDups := by
    intro k hk
    rw [mem_eraseDups', List.mem_filterMap]
    exact ⟨some k, hk, rfl⟩
  refine ⟨nodup_eraseDups' _, ?_, ?_, ?_⟩
  · simp only [Grouping.ofKeys, List.map_map]
    conv_lhs => rw [← List.map_id keys]
    apply List.map_congr_left
    intro o ho
    cases o with
    | none => simp
    | some k =>
      have hk := hmem k ho
      have hlt := List.idxOf_lt_length_of_mem hk
      generalize (keys.filterMap id).eraseDups = u at hlt
      simp [List.getElem?_eq_getElem hlt]
  · intro c hc
    simp only [Grouping.ofKeys, List.mem_map] at hc ⊢
    obtain ⟨o, ho, rfl⟩ := hc
    cases o with
    | none => simp
    | some k => exact List.idxOf_lt_length_of_mem (hmem k ho)
  · intro c h1 h2
    simp only [Grouping.ofKeys, List.mem_map] at h2 ⊢
    have hlt : c - 1 < (keys.filterMap id).eraseDups.length := by omega
    refine ⟨some (keys.filterMap id).eraseDups[c - 1], ?_, ?_⟩
    · have := List.getElem_mem hlt
      rw [mem_eraseDups', List.mem_filterMap] at this
      obtain ⟨o, ho, h⟩ := this
      change o = _ at h
      rw [← h]; exact ho
    · simp only
      rw [(nodup_eraseDups' _).idxOf_getElem]
      omega

/-! ### key columns -/

/-- the key of each row; a null value is no key -/
def columnKeys (isnull : K → Bool) (col : List K) : List (Option K) :=
  col.map fun v => if isnull v then none else some v

theorem maskKeys_true (isnull : K → Bool) (col : List K) : maskKeys isnull true col = columnKeys isnull col := by
  simp [maskKeys, columnKeys]

theorem maskKeys_false (isnull : K → Bool) (col : List K) : maskKeys isnull false col = col.map some := by
  simp [maskKeys]

theorem matching_unmasked (isnull : K → Bool) (lcol rcol : List K) (i : Nat) :
    matching (columnKeys isnull rcol) ((maskKeys isnull false lcol).getD i none) =
      matching (columnKeys isnull rcol) ((columnKeys isnull lcol).getD i none) := by
  rw [maskKeys_false]
  simp only [columnKeys, List.getD_eq_getElem?_getD, List.getElem?_map]
  cases lcol[i]? with
  | none => rfl
  | some v =>
    simp only [Option.map_some, Option.getD_some]
    split
    · rename_i hv
      rw [show matching _ (none : Option K) = [] from rfl]
      simp only [matching, List.filter_eq_nil_iff]
      intro j _
      simp only [List.getElem?_map, beq_iff_eq, Option.map_eq_some_iff]
      rintro ⟨w, _, hw⟩
      split at hw
      · simp at hw
      · simp only [Option.some.injEq] at hw; simp_all
    · rfl

variable (isnull : K → Bool) (mk : List (Option K) → Grouping K) (hmk : ∀ keys, (mk keys).WF keys)
  (env : Env) (he : env.Fair) (lcol rcol : List K)
include hmk he

/-- **C01** `merge_indices(how='left')` on a key column whose nulls are `isnull`. -/
theorem merge_indices_left :
    ∃ j, mergeIndices env mk isnull .left none none lcol rcol = .ok j ∧
      j.rows lcol.length rcol.length =
        some (leftJoinSpec (columnKeys isnull lcol) (columnKeys isnull rcol)) := by
  obtain ⟨j, h1, h2⟩ := left_join_correct (hmk (maskKeys isnull false lcol)) (hmk (maskKeys isnull true rcol))
    env he none
  refine ⟨j, ?_, ?_⟩
  · simpa [mergeIndices] using h1
  · simp only [maskKeys, List.length_map] at h2
    rw [h2]
    simp only [leftJoinSpec]
    congr 1
    rw [show (columnKeys isnull lcol).length = lcol.length by simp [columnKeys], List.length_map]
    apply List.flatMap_congr
    intro i _
    congr 1
    have := matching_unmasked isnull lcol rcol i
    simpa only [maskKeys, columnKeys, Bool.true_and, Bool.false_and] using this

/-- **C02** `merge_indices(how='inner')`. -/
theorem merge_indices_inner :
    ∃ j, mergeIndices env mk isnull .inner none none lcol rcol = .ok j ∧
      j.rows lcol.length rcol.length =
        some (innerJoinSpec (columnKeys isnull lcol) (columnKeys isnull rcol)) := by
  obtain ⟨j, h1, h2⟩ := inner_join_correct (hmk (columnKeys isnull lcol)) (hmk (columnKeys isnull rcol))
    env he none
  refine ⟨j, by simpa [mergeIndices, maskKeys_true] using h1, ?_⟩
  simpa [columnKeys] using h2

/-- **C03** `merge_indices(how='right')` is the left join with sides exchanged. -/
theorem merge_indices_right :
    ∃ j, mergeIndices env mk isnull .right none none lcol rcol = .ok j ∧
      j.rows lcol.length rcol.length =
        some ((leftJoinSpec (columnKeys isnull rcol) (columnKeys isnull lcol)).map Prod.swap) := by
  obtain ⟨j, h1, h2⟩ := merge_indices_left isnull mk hmk env he rcol lcol
  have h1' : leftOrInner env (mk (maskKeys isnull false rcol)) (mk (maskKeys isnull true lcol)) false none none
      = .ok j := by simpa [mergeIndices, createIndices] using h1
  refine ⟨⟨j.right, j.left, none⟩, ?_, ?_⟩
  · have := rightJoin_ok env none none h1'
    simpa [mergeIndices, createIndices] using this
  · rw [rows_swap, h2]; rfl

/-- **C03** `merge_indices(how='outer')`: the left-join rows, then each right row no
left row matched. -/
theorem merge_indices_outer :
    ∃ j, mergeIndices env mk isnull .outer none none lcol rcol = .ok j ∧
      j.rows lcol.length rcol.length =
        some (outerJoinSpec (columnKeys isnull lcol) (columnKeys isnull rcol)) := by
  obtain ⟨j, h1, h2⟩ := outer_join_correct (hmk (columnKeys isnull lcol)) (hmk (columnKeys isnull rcol))
    env he none
  refine ⟨j, by simpa [mergeIndices, maskKeys_true] using h1, ?_⟩
  simpa [columnKeys] using h2

/-- **C04** `merge_indices(how='left', keep=(None, k))`, the call made by
`merge_lookup`: every left row exactly once, in order, with the first (last)
matching right row. -/
theorem merge_indices_keep_right (k : Keep) :
    ∃ j, mergeIndices env mk isnull .left none (some k) lcol rcol = .ok j ∧
      j.rows lcol.length rcol.length = some ((List.range lcol.length).map fun i =>
        (some i, match k with
          | .first => (matching (columnKeys isnull rcol) ((columnKeys isnull lcol).getD i none)).head?
          | .last => (matching (columnKeys isnull rcol) ((columnKeys isnull lcol).getD i none)).getLast?)) := by
  obtain ⟨j, h1, h2⟩ := keep_right_left_join (hmk (maskKeys isnull false lcol)) (hmk (maskKeys isnull true rcol))
    env he none k
  refine ⟨j, ?_, ?_⟩
  · simpa [mergeIndices] using h1
  · rw [show (maskKeys isnull false lcol).length = lcol.length by simp [maskKeys],
      show (maskKeys isnull true rcol).length = rcol.length by simp [maskKeys]] at h2
    rw [h2]
    congr 1
    apply List.map_congr_left
    intro i _
    simp only [maskKeys_true, matching_unmasked]
    cases k <;> rfl

end

/-! ### what the specifications say, pair by pair -/
section
variable {K : Type} [DecidableEq K] (lkeys rkeys : List (Option K))

theorem mem_matching_iff (keys : List (Option K)) (k : K) (j : Nat) :
    j ∈ matching keys (some k) ↔ keys[j]? = some (some k) := by
  rw [mem_matching]; simp

/-- A pair of rows occurs in the left join iff both have the same non-null key. -/
theorem leftJoinSpec_pair (i j : Nat) :
    (some i, some j) ∈ leftJoinSpec lkeys rkeys ↔
      ∃ k, lkeys[i]? = some (some k) ∧ rkeys[j]? = some (some k) := by
  simp only [leftJoinSpec, List.mem_flatMap, List.mem_range]
  constructor
  · rintro ⟨i', hi', h⟩
    unfold padded at h
    split at h
    · simp at h
    · simp only [List.mem_map, Prod.mk.injEq, Option.some.injEq] at h
      obtain ⟨j', hj', rfl, rfl⟩ := h
      obtain ⟨k, h1, h2⟩ := (mem_matching _ _ _).mp hj'
      refine ⟨k, ?_, h2⟩
      rw [List.getD_eq_getElem?_getD, List.getElem?_eq_getElem hi'] at h1
      rw [List.getElem?_eq_getElem hi']
      simpa using h1
  · rintro ⟨k, h1, h2⟩
    obtain ⟨hi, e⟩ := List.getElem?_eq_some_iff.mp h1
    refine ⟨i, hi, ?_⟩
    have hk : lkeys.getD i none = some k := by rw [List.getD_eq_getElem?_getD, h1]; rfl
    have hm : j ∈ matching rkeys (some k) := (mem_matching_iff _ _ _).mpr h2
    unfold padded
    rw [hk, if_neg (by intro h; simp [h] at hm)]
    exact List.mem_map.mpr ⟨j, hm, rfl⟩

/-- A left row occurs without partner iff no right row has its key. -/
theorem leftJoinSpec_alone (i : Nat) :
    (some i, none) ∈ leftJoinSpec lkeys rkeys ↔
      i < lkeys.length ∧ ∀ (k : K) (j : Nat), lkeys[i]? = some (some k) → rkeys[j]? ≠ some (some k) := by
  simp only [leftJoinSpec, List.mem_flatMap, List.mem_range]
  constructor
  · rintro ⟨i', hi', h⟩
    unfold padded at h
    split at h
    · rename_i hm
      simp at h; subst h
      refine ⟨hi', fun k j h1 h2 => ?_⟩
      have hk : lkeys.getD i none = some k := by rw [List.getD_eq_getElem?_getD, h1]; rfl
      have : j ∈ matching rkeys (some k) := (mem_matching_iff _ _ _).mpr h2
      rw [hk] at hm; simp [hm] at this
    · simp at h
  · rintro ⟨hi, h⟩
    refine ⟨i, hi, ?_⟩
    have : matching rkeys (lkeys.getD i none) = [] := by
      rw [List.eq_nil_iff_forall_not_mem]
      intro j hj
      obtain ⟨k, h1, h2⟩ := (mem_matching _ _ _).mp hj
      refine h k j ?_ h2
      rw [List.getD_eq_getElem?_getD, List.getElem?_eq_getElem hi] at h1
      rw [List.getElem?_eq_getElem hi]; simpa using h1
    rw [this]; simp [padded]

theorem nodup_matching (keys : List (Option K)) (k : Option K) : (matching keys k).Nodup := by
  cases k with
  | none => simp [matching]
  | some k => exact List.nodup_range.filter _

/-- No row pair occurs twice. -/
theorem leftJoinSpec_nodup : (leftJoinSpec lkeys rkeys).Nodup := by
  unfold leftJoinSpec
  rw [List.nodup_flatMap]
  constructor
  · intro i _
    unfold padded
    split
    · simp
    · exact (nodup_matching _ _).map (fun a b h => by simpa using h)
  · refine List.Pairwise.imp_of_mem ?_ (List.pairwise_lt_range (n := lkeys.length))
    intro a b _ _ hab
    simp only [Function.onFun, List.disjoint_left]
    have hfst : ∀ i js p, p ∈ padded i js → p.1 = some i := by
      intro i js p hp
      unfold padded at hp
      split at hp
      · simp at hp; simp [hp]
      · obtain ⟨_, _, rfl⟩ := List.mem_map.mp hp; rfl
    intro p h1 h2
    have := (hfst _ _ _ h1).symm.trans (hfst _ _ _ h2)
    simp at this; omega

theorem innerJoinSpec_pair (p : Option Nat × Option Nat) :
    p ∈ innerJoinSpec lkeys rkeys ↔
      ∃ i j k, p = (some i, some j) ∧ lkeys[i]? = some (some k) ∧ rkeys[j]? = some (some k) := by
  simp only [innerJoinSpec, List.mem_flatMap, List.mem_range, List.mem_map]
  constructor
  · rintro ⟨i, hi, j, hj, rfl⟩
    obtain ⟨k, h1, h2⟩ := (mem_matching _ _ _).mp hj
    refine ⟨i, j, k, rfl, ?_, h2⟩
    rw [List.getD_eq_getElem?_getD, List.getElem?_eq_getElem hi] at h1
    rw [List.getElem?_eq_getElem hi]; simpa using h1
  · rintro ⟨i, j, k, rfl, h1, h2⟩
    obtain ⟨hi, _⟩ := List.getElem?_eq_some_iff.mp h1
    refine ⟨i, hi, j, ?_, rfl⟩
    rw [List.getD_eq_getElem?_getD, h1]
    exact (mem_matching_iff _ _ _).mpr h2

end

/-! ### C37: schedules and buffer contents do not matter -/
section
variable {K : Type} [DecidableEq K]

theorem buildLeft_env (e e' : Env) (h : e.Fair) (h' : e'.Fair) (r2l : List (Option Nat)) (exist : List Bool)
    (L R : Grouping K) (inner : Bool) (keepL keepR : Option Keep) :
    buildLeft e.sched e.g0 r2l exist L R inner keepL keepR =
      buildLeft e'.sched e'.g0 r2l exist L R inner keepL keepR := by
  unfold buildLeft
  cases keepL with
  | none =>
    simp only [fusedArange]
    unfold fusedArangeIter
    rw [repeat_blocks _ _ (fun i => i) _ (by simpa [cumsum] using h _) (by simp [cumsum_last]),
      repeat_blocks _ _ (fun i => i) _ (by simpa [cumsum] using h' _) (by simp [cumsum_last])]
  | some k =>
    simp only [partialRepeat]
    unfold partialRepeatIter
    rw [repeat_blocks _ _ (fun i => (keepRows L k).getD i 0) _ (by simpa [keepIkey, gather] using h _)
        (by simp [cumsum_last]),
      repeat_blocks _ _ (fun i => (keepRows L k).getD i 0) _ (by simpa [keepIkey, gather] using h' _)
        (by simp [cumsum_last])]

theorem buildRight_env {lkeys rkeys : List (Option K)} {L R : Grouping K}
    (hL : L.WF lkeys) (hR : R.WF rkeys) (a b : Option Nat) (inner : Bool) (keepL keepR : Option Keep) :
    buildRight a (keyMaps L R).2.2 L R inner keepL keepR =
      buildRight b (keyMaps L R).2.2 L R inner keepL keepR := by
  cases keepL with
  | none =>
    rw [buildRight_eq hL hR a inner none keepR L.ikey rfl hL.inRange id,
      buildRight_eq hL hR b inner none keepR L.ikey rfl hL.inRange id]
  | some k => rw [buildRight_kept hL hR, buildRight_kept hL hR]

theorem leftOrInner_env {lkeys rkeys : List (Option K)} {L R : Grouping K}
    (hL : L.WF lkeys) (hR : R.WF rkeys) (e e' : Env) (h : e.Fair) (h' : e'.Fair)
    (inner : Bool) (keepL keepR : Option Keep) :
    leftOrInner e L R inner keepL keepR = leftOrInner e' L R inner keepL keepR := by
  unfold leftOrInner
  simp only [buildLeft_env e e' h h', buildRight_env hL hR e.g1 e'.g1]

/-- **C37** The join indices do not depend on the order in which the parallel loops
run their iterations nor on what freshly allocated buffers contain. -/
theorem join_schedule_independent {lkeys rkeys : List (Option K)} {L R : Grouping K}
    (hL : L.WF lkeys) (hR : R.WF rkeys) (RG : Option (Grouping K)) (e e' : Env)
    (h : e.Fair) (h' : e'.Fair) (how : How) (keepL keepR : Option Keep) :
    createIndices e L R RG how keepL keepR = createIndices e' L R RG how keepL keepR := by
  cases how with
  | left => exact leftOrInner_env hL hR e e' h h' _ _ _
  | right => simp only [createIndices, rightJoin, leftOrInner_env hR hL e e' h h']
  | inner => exact leftOrInner_env hL hR e e' h h' _ _ _
  | outer =>
    simp only [createIndices, rightJoin, leftOrInner_env hL hR e e' h h', leftOrInner_env hR hL e e' h h',
      outerJoin, buildLeft_env e e' h h', buildRight_env hL hR e.g1 e'.g1]

end

/-! ### concrete cases -/

/-- a schedule that runs backwards, and visible garbage in buffers -/
def exEnv : Env := ⟨77, some 99, fun n => (List.range n).reverse⟩

theorem exEnv_fair : exEnv.Fair := fun n => List.reverse_perm _

def exIsnull (n : Nat) : Bool := n == 0

example : mergeIndices exEnv Grouping.ofKeys exIsnull .left none none [2, 0, 1, 2, 3] [1, 2, 2, 0] =
    .ok ⟨some [some 0, some 0, some 1, some 2, some 3, some 3, some 4],
      some [some 1, some 2, none, some 0, some 1, some 2, none], none⟩ := by decide

example : mergeIndices exEnv Grouping.ofKeys exIsnull .outer none none [2, 0, 5] [1, 2, 2, 0] =
    .ok ⟨some [some 0, some 0, some 1, some 2, none, none],
      some [some 1, some 2, none, none, some 0, some 3], some 2⟩ := by decide

example : mergeIndices exEnv Grouping.ofKeys exIsnull .inner none none [2, 0, 1, 2] [1, 2, 2, 0] =
    .ok ⟨some [some 0, some 0, some 2, some 3, some 3], some [some 1, some 2, some 0, some 1, some 2], none⟩ := by
  decide

example : mergeIndices exEnv Grouping.ofKeys exIsnull .left (some .last) (some .first) [2, 7, 1, 2] [1, 2, 2, 0] =
    .ok ⟨some [some 3, some 1, some 2], some [some 1, none, some 0], none⟩ := by decide

example : mergeIndices exEnv Grouping.ofKeys exIsnull .outer none (some .last) [2, 0, 5] [1, 2, 2, 0, 1, 0] =
    .ok ⟨some [some 0, some 1, some 2, none, none], some [some 2, none, none, some 4, some 5], some 2⟩ := by decide

example : mergeIndices exEnv Grouping.ofKeys exIsnull .inner (some .first) none [2, 0, 5, 2] [1, 2, 2, 0, 1, 0] =
    .ok ⟨some [some 0, some 0], some [some 1, some 2], none⟩ := by decide

/-- **C04** fails for `keep=('first', None)` on a left join when the left key has
null rows (a Categorical with filtered rows) and a right key repeats: the two
selectors have different lengths, so no result Dataset can be built. -/
theorem keep_left_null_counterexample :
    ∃ j, createIndices exEnv (Grouping.ofKeys [none, some 1]) (Grouping.ofKeys [some 1, some 1]) none
        .left (some .first) none = .ok j ∧ j.rows 2 2 = none := by
  refine ⟨⟨some [some 1, some 1], some [none, some 0, some 1], none⟩, by decide, by decide⟩

/-- **C04** fails for `keep=('first', None)` on an inner join when every left key is
null and a right key repeats: the call raises instead of returning no rows. -/
theorem keep_left_all_null_counterexample :
    mergeIndices exEnv Grouping.ofKeys exIsnull .inner (some .first) none [0, 0] [1, 1] =
      .error "min of an empty array" := by decide

/-- **C03/C04** fail for a two-column key, `how='outer'`, `keep=(None, 'first')`: right
rows `(1, null)` and `(2, 5)`, left row `(2, 5)`.  The unmatched right row 0 is
lost and the matched row 1 is repeated as unmatched, because the table with one entry
per non-null group is indexed by 1-based group numbers.  The second grouping
(`GROUP BY` semantics) has no null group here. -/
theorem outer_multikey_keep_counterexample :
    ∃ j, createIndices exEnv (Grouping.ofKeys [some (2, some 5)])
        (Grouping.ofKeys [none, some (2, some 5)])
        (some (Grouping.ofKeys [some (1, none), some (2, some 5)])) .outer none (some .first) = .ok j ∧
      j.rows 1 2 = some [(some 0, some 1), (none, some 1)] := by
  refine ⟨⟨some [some 0, none], some [some 1, some 1], some 1⟩, by decide, by decide⟩

end Verif.Merge
