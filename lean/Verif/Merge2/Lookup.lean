import Verif.Merge2.Props
import Verif.Basic

/-!
# C44, C45: `validate`, `merge_lookup`, `require_match`; disagreements
-/
namespace Verif.Merge2
open Verif.Merge Verif.Items

section
variable {K : Type} [DecidableEq K]

theorem foldl_max_gt (l : List Nat) (a b : Nat) : l.foldl max a > b ↔ a > b ∨ ∃ x ∈ l, x > b := by
  induction l generalizing a with
  | nil => simp
  | cons x l ih =>
    rw [List.foldl_cons, ih]
    simp only [List.mem_cons, exists_eq_or_imp]
    rw [← or_assoc]
    exact or_congr (by omega) Iff.rfl

theorem matching_two (keys : List (Option K)) (k : K) :
    (matching keys (some k)).length > 1 ↔
      ∃ i j : Nat, i < j ∧ keys[i]? = some (some k) ∧ keys[j]? = some (some k) := by
  have hsorted : (matching keys (some k)).Pairwise (· < ·) := by
    simp only [matching]
    exact List.Pairwise.filter _ List.pairwise_lt_range
  constructor
  · intro h
    refine ⟨(matching keys (some k))[0], (matching keys (some k))[1], ?_, ?_, ?_⟩
    · exact List.pairwise_iff_getElem.mp hsorted 0 1 _ _ (by omega)
    · exact (mem_matching_iff _ _ _).mp (List.getElem_mem _)
    · exact (mem_matching_iff _ _ _).mp (List.getElem_mem _)
  · rintro ⟨i, j, hij, h1, h2⟩
    have m1 := (mem_matching_iff _ _ _).mpr h1
    have m2 := (mem_matching_iff _ _ _).mpr h2
    match h : matching keys (some k) with
    | [] => rw [h] at m1; simp at m1
    | [a] => rw [h] at m1 m2; simp at m1 m2; omega
    | a :: b :: l => simp

theorem hasRepeatedKey_iff {g : Grouping K} {keys : List (Option K)} (h : g.WF keys) :
    hasRepeatedKey g = true ↔ RepeatedKey keys := by
  unfold hasRepeatedKey
  rw [decide_eq_true_eq, foldl_max_gt]
  have key : (∃ x ∈ g.ncountgroup.drop 1, x > 1) ↔ ∃ (r : Nat) (k : K), g.gbkeys[r]? = some k ∧
      (matching keys (some k)).length > 1 := by
    simp only [Grouping.ncountgroup, List.range_succ_eq_map, List.map_cons, List.drop_succ_cons, List.drop_zero,
      List.map_map, List.mem_map, List.mem_range]
    constructor
    · rintro ⟨x, ⟨r, hr, rfl⟩, hx⟩
      have hk := List.getElem?_eq_getElem hr
      refine ⟨r, _, hk, ?_⟩
      rw [matching_keyOf h r _ hk]
      exact hx
    · rintro ⟨r, k, hk, hx⟩
      refine ⟨_, ⟨r, (List.getElem?_eq_some_iff.mp hk).1, rfl⟩, ?_⟩
      rw [matching_keyOf h r _ hk] at hx
      exact hx
  rw [key]
  constructor
  · rintro (h0 | ⟨r, k, _, hk⟩)
    · omega
    · obtain ⟨i, j, hij, h1, h2⟩ := (matching_two keys k).mp hk
      exact ⟨i, j, k, hij, h1, h2⟩
  · rintro ⟨i, j, k, hij, h1, h2⟩
    right
    have hk : k ∈ g.gbkeys := by
      rw [decode_getElem? h] at h1
      cases hc : g.ikey[i]? with
      | none => rw [hc] at h1; cases h1
      | some c =>
        rw [hc] at h1
        simp only [Option.map_some, Option.some.injEq] at h1
        split at h1
        · cases h1
        · exact List.mem_of_getElem? h1
    obtain ⟨r, hr⟩ := List.getElem?_of_mem hk
    exact ⟨r, k, hr, (matching_two keys k).mpr ⟨i, j, hij, h1, h2⟩⟩

/-- **C44** Without `keep`, `validate` lets the merge proceed iff no key repeats on the side(s)
declared unique. -/
theorem validate_correct {L R : Grouping K} {lk rk : List (Option K)} (hL : L.WF lk) (hR : R.WF rk) (v : Validate) :
    validateGroupings L R v none none = .ok () ↔
      (needsUniqueLeft v = true → ¬ RepeatedKey lk) ∧ (needsUniqueRight v = true → ¬ RepeatedKey rk) := by
  rw [← hasRepeatedKey_iff hL, ← hasRepeatedKey_iff hR]
  unfold validateGroupings
  cases v <;> cases hasRepeatedKey L <;> cases hasRepeatedKey R <;>
    simp [needsUniqueLeft, needsUniqueRight, requireUniqueLeft, requireUniqueRight]

end

section
variable {V : Type} [DecidableEq V]

theorem rowKeys_length (inv : V) (isnull : V → Bool) (ds : DS V) (on : List Name) :
    (rowKeys inv isnull ds on).length = ds.nrows := by simp [rowKeys]

theorem lookup_pair (keep : Keep) (lk rk : List (Option (List V))) (i k : Nat)
    (h : (some i, some k) ∈ lookupRows keep lk rk) :
    (some i, some k) ∈ joinRows .left lk rk := by
  simp only [lookupRows, List.mem_map, List.mem_range, Prod.mk.injEq, Option.some.injEq] at h
  obtain ⟨i', hi, rfl, h⟩ := h
  have hm : k ∈ matching rk (lk.getD i' none) := by
    cases keep with
    | first => exact List.mem_of_mem_head? h
    | last => exact List.mem_of_mem_getLast? h
  simp only [joinRows, leftJoinSpec, List.mem_flatMap, List.mem_range]
  refine ⟨i', hi, ?_⟩
  unfold padded
  rw [if_neg (by intro e; rw [e] at hm; simp at hm)]
  exact List.mem_map.mpr ⟨k, hm, rfl⟩

theorem mergeIndices2_keep_rows (w : World V) (hw : w.OK) (left right : DS V) (on : List (Name × Name)) (k : Keep) :
    ∃ j, mergeIndices2 w left right on .left none none (some k) = .ok j ∧
      j.rows left.nrows right.nrows = some (lookupRows k (rowKeys w.inv w.isnull left (on.map Prod.fst))
        (rowKeys w.inv w.isnull right (on.map Prod.snd))) ∧ j.right ≠ none := by
  rw [mergeIndices2_eq _ _ _ _ _ _ _ (Or.inl (by simp)), ← columnKeys_keyTuples, ← columnKeys_keyTuples]
  have len : ∀ (ds : DS V) (o : List Name), (keyTuples w.inv ds o).length = ds.nrows := by
    intro ds o; simp [keyTuples]
  obtain ⟨j, h1, h2⟩ := merge_indices_keep_right (tupleNull w.isnull) w.group hw.grp w.env hw.fair
      (keyTuples w.inv left (on.map Prod.fst)) (keyTuples w.inv right (on.map Prod.snd)) k
  refine ⟨j, h1, ?_, ?_⟩
  · rw [len, len] at h2
    rw [h2]
    have e : (columnKeys (tupleNull w.isnull) (keyTuples w.inv left (on.map Prod.fst))).length = left.nrows := by
      simp [columnKeys, len]
    unfold lookupRows
    rw [e]
    rfl
  · unfold mergeIndices at h1
    rw [if_neg (by simp)] at h1
    exact (leftOrInner_left_shape h1).2.1

/-- **C45** `merge_lookup(keep='first'|'last')`: the result has exactly the left rows, in order; each
is extended by the first (last) right row with its key, by missing values if there is none. -/
theorem merge_lookup_keep (w : World V) (hw : w.OK) (left right : DS V) (leftOn rightOn : List Name)
    (suffixes : Suffixes) (colsL colsR : Option (List Name)) (keep : Keep) (requireMatch : Bool)
    (ha : (lookupArgs left right leftOn rightOn suffixes colsL colsR (some keep) requireMatch).Checked)
    (hnames : ∃ m, colnameMapping w.ord leftOn rightOn suffixes (colsL.getD left.cols.keys)
      (colsR.getD right.cols.keys) = .ok m)
    (hreq : requireMatch = true → ∀ p ∈ lookupRows keep (rowKeys w.inv w.isnull left leftOn)
      (rowKeys w.inv w.isnull right rightOn), p.2.isSome) :
    ∃ out, mergeLookup w left right leftOn rightOn suffixes colsL colsR (some keep) requireMatch = .ok out ∧
      IsMerged w.inv w.cat (lookupArgs left right leftOn rightOn suffixes colsL colsR (some keep) requireMatch)
        (lookupRows keep (rowKeys w.inv w.isnull left leftOn) (rowKeys w.inv w.isnull right rightOn)) out := by
  set a := lookupArgs left right leftOn rightOn suffixes colsL colsR (some keep) requireMatch with hadef
  obtain ⟨m, hm⟩ := hnames
  obtain ⟨j, hj, hrows, hright⟩ := mergeIndices2_keep_rows w hw left right (leftOn.zip rightOn) keep
  have z1 : (leftOn.zip rightOn).map Prod.fst = leftOn := List.map_fst_zip ha.len.le
  have z2 : (leftOn.zip rightOn).map Prod.snd = rightOn := List.map_snd_zip ha.len.ge
  have agree := fun (c : Name) (hc : common leftOn rightOn c) =>
    key_agree (inv := w.inv) (isnull := w.isnull) (left := left) (right := right) (how := .left)
      (ha.paired c hc)
  have z1' : (a.leftOn.zip a.rightOn).map Prod.fst = leftOn := z1
  have z2' : (a.leftOn.zip a.rightOn).map Prod.snd = rightOn := z2
  rw [z1, z2] at hrows
  rw [z1', z2'] at agree
  have hshape : KeyShape a.how left.nrows j
      (lookupRows keep (rowKeys w.inv w.isnull left leftOn) (rowKeys w.inv w.isnull right rightOn)) := by
    unfold KeyShape
    rw [if_neg (by simp [hadef, lookupArgs])]
    split
    · trivial
    · rw [if_neg (by simp [hadef, lookupArgs])]
      intro p hp
      simp only [lookupRows, List.mem_map] at hp
      obtain ⟨i, _, rfl⟩ := hp
      rfl
  obtain ⟨out, ds, h1, h2, h3⟩ := assemble_ok w a m (merge_names_correct hw.ord hm) ha.left ha.right
    ha.selL ha.selR ha.leftOn ha.rightOn j _ hrows hshape (Or.inr hright)
    (fun c hc i k h => agree c hc i k (lookup_pair keep _ _ i k h)) hreq ha.ind
  refine ⟨ds, ?_, h3⟩
  show merge2 w a = .ok ds
  unfold merge2
  rw [ha.present, show colnameMapping w.ord a.leftOn a.rightOn a.suffixes a.selL a.selR = .ok m from hm]
  simp only [Bool.not_true, Bool.false_eq_true, if_false,
    show mergeIndices2 w a.left a.right (a.leftOn.zip a.rightOn) a.how a.validate a.keepL a.keepR = .ok j from hj,
    h1, h2]

theorem maskKeys_rowKeys (w : World V) (ds : DS V) (on : List Name) :
    maskKeys (tupleNull w.isnull) true (keyTuples w.inv ds on) = rowKeys w.inv w.isnull ds on := by
  rw [maskKeys_true, columnKeys_keyTuples]

/-- **C45** `merge_lookup(keep=None)` raises when a key repeats in `right`. -/
theorem merge_lookup_repeated (w : World V) (hw : w.OK) (left right : DS V) (leftOn rightOn : List Name)
    (suffixes : Suffixes) (colsL colsR : Option (List Name)) (requireMatch : Bool)
    (hlen : leftOn.length = rightOn.length) (h : RepeatedKey (rowKeys w.inv w.isnull right rightOn)) :
    ∃ e, mergeLookup w left right leftOn rightOn suffixes colsL colsR none requireMatch = .error e := by
  unfold mergeLookup merge2
  split
  · exact ⟨_, rfl⟩
  split
  · exact ⟨_, rfl⟩
  split
  · exact ⟨_, rfl⟩
  rename_i j hj
  exfalso
  change mergeIndices2 w left right (leftOn.zip rightOn) .left (some .manyToOne) none none = .ok j at hj
  unfold mergeIndices2 at hj
  rw [if_neg (by simp)] at hj
  have z2 : (leftOn.zip rightOn).map Prod.snd = rightOn := List.map_snd_zip hlen.ge
  have hrep := (hasRepeatedKey_iff (hw.grp _)).mpr h
  dsimp only at hj
  rw [z2, show decide (How.left ≠ How.right) = true from rfl, maskKeys_rowKeys] at hj
  simp [optValidate, validateGroupings, hrep, requireUniqueLeft, requireUniqueRight] at hj

/-- **C45** `merge_lookup(keep=None)` without repeated keys in `right`: each left row once, with the
only right row that has its key. -/
theorem merge_lookup_unique (w : World V) (hw : w.OK) (left right : DS V) (leftOn rightOn : List Name)
    (suffixes : Suffixes) (colsL colsR : Option (List Name)) (requireMatch : Bool)
    (ha : (lookupArgs left right leftOn rightOn suffixes colsL colsR none requireMatch).Checked)
    (hnames : ∃ m, colnameMapping w.ord leftOn rightOn suffixes (colsL.getD left.cols.keys)
      (colsR.getD right.cols.keys) = .ok m)
    (huniq : ¬ RepeatedKey (rowKeys w.inv w.isnull right rightOn))
    (hreq : requireMatch = true → ∀ p ∈ lookupRows .first (rowKeys w.inv w.isnull left leftOn)
      (rowKeys w.inv w.isnull right rightOn), p.2.isSome) :
    ∃ out, mergeLookup w left right leftOn rightOn suffixes colsL colsR none requireMatch = .ok out ∧
      IsMerged w.inv w.cat (lookupArgs left right leftOn rightOn suffixes colsL colsR none requireMatch)
        (lookupRows .first (rowKeys w.inv w.isnull left leftOn) (rowKeys w.inv w.isnull right rightOn)) out := by
  set a := lookupArgs left right leftOn rightOn suffixes colsL colsR none requireMatch with hadef
  set lk := rowKeys w.inv w.isnull left leftOn with hlk
  set rk := rowKeys w.inv w.isnull right rightOn with hrk
  have hsame : joinRows .left lk rk = lookupRows .first lk rk := by
    simp only [joinRows, leftJoinSpec, lookupRows]
    rw [show (List.range lk.length).map (fun i => (some i, (matching rk (lk.getD i none)).head?)) =
      (List.range lk.length).flatMap fun i => [(some i, (matching rk (lk.getD i none)).head?)] from by
        rw [← List.map_eq_flatMap]]
    apply List.flatMap_congr
    intro i _
    cases hkey : lk.getD i none with
    | none => simp [matching, padded]
    | some k =>
      have h1 : ¬ (matching rk (some k)).length > 1 := by
        intro h
        obtain ⟨x, y, hxy, e1, e2⟩ := (matching_two rk k).mp h
        exact huniq ⟨x, y, k, hxy, e1, e2⟩
      match hm : matching rk (some k) with
      | [] => simp [padded]
      | [x] => simp [padded]
      | x :: y :: l => rw [hm] at h1; simp at h1
  have ha' : { a with validate := none }.Checked :=
    ⟨ha.left, ha.right, ha.leftOn, ha.rightOn, ha.selL, ha.selR, ha.len, ha.paired, ha.ind⟩
  obtain ⟨out, h1, h2⟩ := merge2_correct w hw { a with validate := none } ha' rfl rfl rfl hnames (by
    intro hq
    show ∀ p ∈ joinRows .left lk rk, _
    rw [hsame]
    exact hreq hq)
  refine ⟨out, ?_, ?_⟩
  · rw [← h1]
    show merge2 w a = _
    unfold merge2
    have hv : mergeIndices2 w a.left a.right (a.leftOn.zip a.rightOn) a.how a.validate a.keepL a.keepR =
        mergeIndices2 w a.left a.right (a.leftOn.zip a.rightOn) a.how none a.keepL a.keepR := by
      unfold mergeIndices2
      rw [if_neg (by simp [hadef, lookupArgs]), if_neg (by simp [hadef, lookupArgs])]
      have hnr := mt (hasRepeatedKey_iff (hw.grp _)).mp huniq
      have z2 : (a.leftOn.zip a.rightOn).map Prod.snd = rightOn := List.map_snd_zip ha.len.ge
      have hR : maskKeys (tupleNull w.isnull) (decide (a.how ≠ .right)) (keyTuples w.inv a.right
          ((a.leftOn.zip a.rightOn).map Prod.snd)) = rk := by
        rw [z2]; exact maskKeys_rowKeys w right rightOn
      dsimp only
      rw [hR]
      have : optValidate (w.group (maskKeys (tupleNull w.isnull) (decide (a.how ≠ .left)) (keyTuples w.inv a.left
          ((a.leftOn.zip a.rightOn).map Prod.fst)))) (w.group rk) a.validate a.keepL a.keepR = .ok () := by
        simp [hadef, lookupArgs, optValidate, validateGroupings, hnr, requireUniqueLeft]
      rw [this]
      rfl
    rw [hv]
    rfl
  · have h2' : IsMerged w.inv w.cat { a with validate := none } (joinRows .left lk rk) out := h2
    rw [hsame] at h2'
    exact ⟨h2'.key, h2'.left, h2'.right, h2'.ind, h2'.only, h2'.nodup, h2'.nrows⟩

/-- **C45** `require_match`: any left row without a partner makes the merge raise. -/
theorem merge_lookup_require_match (w : World V) (hw : w.OK) (left right : DS V) (leftOn rightOn : List Name)
    (suffixes : Suffixes) (colsL colsR : Option (List Name)) (keep : Keep)
    (hlen : leftOn.length = rightOn.length) (i : Nat)
    (h : (some i, none) ∈ lookupRows keep (rowKeys w.inv w.isnull left leftOn)
      (rowKeys w.inv w.isnull right rightOn)) :
    ∃ e, mergeLookup w left right leftOn rightOn suffixes colsL colsR (some keep) true = .error e := by
  unfold mergeLookup merge2
  split
  · exact ⟨_, rfl⟩
  split
  · exact ⟨_, rfl⟩
  obtain ⟨j, hj, hrows, hright⟩ := mergeIndices2_keep_rows w hw left right (leftOn.zip rightOn) keep
  have z1 : (leftOn.zip rightOn).map Prod.fst = leftOn := List.map_fst_zip hlen.le
  have z2 : (leftOn.zip rightOn).map Prod.snd = rightOn := List.map_snd_zip hlen.ge
  rw [z1, z2] at hrows
  have hj' : mergeIndices2 w left right (leftOn.zip rightOn) .left
      (if (some keep).isNone = true then some Validate.manyToOne else none) none (some keep) = .ok j := hj
  simp only [lookupArgs]
  rw [hj']
  dsimp only
  have hany : (j.right.getD []).any Option.isNone = true := by
    unfold JoinIndices.rows at hrows
    dsimp only at hrows
    split at hrows
    · rw [Option.some.injEq] at hrows
      rw [← hrows] at h
      have := (List.of_mem_zip h).2
      cases hr : j.right with
      | none => exact absurd hr hright
      | some r =>
        rw [hr] at this
        rw [List.any_eq_true]
        exact ⟨none, this, rfl⟩
    · cases hrows
  unfold assemble finish
  rw [hany]
  split
  · rename_i hh
    exact ⟨_, rfl⟩
  · rename_i out hh
    split at hh
    · cases hh
    · simp at hh

theorem addKeys_keys (inv : V) (how : How) (j : JoinIndices) (left right : DS V) (cs : List Name) :
    ∀ (out o : Dict Name (List V)), addKeys inv how j left right cs out = .ok o →
      ∀ k, k ∈ o.keys ↔ k ∈ cs ∨ k ∈ out.keys := by
  induction cs with
  | nil => intro out o h k; cases h; simp
  | cons c cs ih =>
    intro out o h k
    unfold addKeys at h
    split at h
    · cases h
    · rw [ih _ _ h, Dict.mem_keys_set, List.mem_cons]; tauto

/-- **C43** An indicator name that is also the name of an output column is refused. -/
theorem merge2_indicator_collision (w : World V) (hw : w.OK) (a : Args V) (n : Name)
    (hn : a.indicator.name = some n)
    (hc : common a.leftOn a.rightOn n ∨
      (∃ c ∈ a.selL, ¬ common a.leftOn a.rightOn c ∧
        n = outName a.leftOn a.rightOn a.selL a.selR (sufL a.suffixes) c) ∨
      (∃ c ∈ a.selR, ¬ common a.leftOn a.rightOn c ∧
        n = outName a.leftOn a.rightOn a.selL a.selR (sufR a.suffixes) c)) :
    ∃ e, merge2 w a = .error e := by
  unfold merge2
  split
  · exact ⟨_, rfl⟩
  split
  · exact ⟨_, rfl⟩
  rename_i m hm
  have hnames := merge_names_correct hw.ord hm
  split
  · exact ⟨_, rfl⟩
  rename_i j hj
  split
  · exact ⟨_, rfl⟩
  rename_i out hout
  exfalso
  unfold assemble at hout
  split at hout
  · cases hout
  rename_i out0 h0
  unfold finish at hout
  dsimp only at hout
  split at hout
  · cases hout
  rw [hn] at hout
  dsimp only at hout
  rw [hnames.newL, hnames.newR, addCols_eq, addCols_eq] at hout
  rw [if_pos] at hout
  · cases hout
  rw [Dict.has_iff, keys_setAll, keys_setAll, addKeys_keys _ _ _ _ _ _ _ _ h0, hnames.inter]
  rcases hc with h | ⟨c, h1, h2, h3⟩ | ⟨c, h1, h2, h3⟩
  · exact Or.inr (Or.inr (Or.inl h))
  · right; left
    rw [List.map_map, List.mem_map]
    exact ⟨c, (hnames.oldL c).mpr ⟨h1, h2⟩, h3.symm⟩
  · left
    rw [List.map_map, List.mem_map]
    exact ⟨c, (hnames.oldR c).mpr ⟨h1, h2⟩, h3.symm⟩

/-- **C43** A key or requested column that is not there is refused. -/
theorem merge2_missing_column (w : World V) (a : Args V) (c : Name)
    (h : (c ∈ a.leftOn ∨ c ∈ a.selL) ∧ c ∉ a.left.cols.keys ∨
      (c ∈ a.rightOn ∨ c ∈ a.selR) ∧ c ∉ a.right.cols.keys) :
    ∃ e, merge2 w a = .error e := by
  have key : ∀ (ds : DS V) (l : List Name), c ∈ l → c ∉ ds.cols.keys → present ds l = false := by
    intro ds l h1 h2
    unfold present
    rw [List.all_eq_false]
    exact ⟨c, h1, by rw [(Dict.has_false_iff _ _).mpr h2]; simp⟩
  unfold merge2
  rw [if_pos]
  · exact ⟨_, rfl⟩
  rcases h with ⟨h | h, h'⟩ | ⟨h | h, h'⟩ <;> rw [key _ _ h h'] <;> simp

end

/-! ### concrete cases and disagreements -/

/-- numbers, `0` is null; category `n` is `1000 + n` -/
def exWorld : World Nat :=
  { env := exEnv, group := Grouping.ofKeys, inv := 0, isnull := fun n => n == 0, isStr := fun _ => false
    ord := id, cat := fun n => 1000 + n }

/-- sets iterated the other way round -/
def exWorld' : World Nat := { exWorld with ord := List.reverse }

theorem exWorld_ok : exWorld.OK := ⟨exEnv_fair, ofKeys_wf, fun _ => List.Perm.refl _⟩

theorem exWorld'_ok : exWorld'.OK := ⟨exEnv_fair, ofKeys_wf, fun l => List.reverse_perm l⟩

deriving instance DecidableEq for DS

def exLeft : DS Nat := ⟨4, [(['k'], [2, 0, 1, 2]), (['v'], [10, 11, 12, 13])]⟩
def exRight : DS Nat := ⟨3, [(['k'], [1, 5, 2]), (['v'], [20, 21, 22]), (['u'], [30, 31, 32])]⟩

def exArgs (how : How) : Args Nat :=
  { left := exLeft, right := exRight, leftOn := [['k']], rightOn := [['k']], how
    suffixes := some (some ['_', 'x'], some ['_', 'y']), indicator := .yes }

theorem exArgs_checked (how : How) : (exArgs how).Checked := by
  refine ⟨⟨by simp [exArgs, exLeft], by cases how <;> decide⟩, ⟨by simp [exArgs, exRight], by cases how <;> decide⟩,
    by cases how <;> decide, by cases how <;> decide, by cases how <;> decide, by cases how <;> decide, rfl, ?_, ?_⟩
  · intro c hc
    have : c = ['k'] := by simpa [common, exArgs] using hc
    subst this
    simp [exArgs]
  · intro n hn
    cases hn
    refine ⟨by cases how <;> decide, by cases how <;> decide, by cases how <;> decide⟩

example : (colnameMapping exWorld.ord [['k']] [['k']] (exArgs .outer).suffixes (exArgs .outer).selL
    (exArgs .outer).selR).isOk = true := by decide

example : merge2 exWorld (exArgs .outer) = .ok ⟨5,
    [(['k'], [2, 0, 1, 2, 5]), (['v', '_', 'x'], [10, 11, 12, 13, 0]), (['v', '_', 'y'], [22, 0, 20, 22, 21]),
     (['u'], [32, 0, 30, 32, 31]), ("merge_indicator".toList, [1003, 1001, 1003, 1003, 1002])]⟩ := by decide

example : merge2 exWorld (exArgs .right) = .ok ⟨4,
    [(['k'], [1, 5, 2, 2]), (['v', '_', 'x'], [12, 0, 10, 13]), (['v', '_', 'y'], [20, 21, 22, 22]),
     (['u'], [30, 31, 32, 32]), ("merge_indicator".toList, [1003, 1002, 1003, 1003])]⟩ := by decide

example : mergeLookup exWorld exLeft exRight [['k']] [['k']] none none (some [['u']]) none false = .ok ⟨4,
    [(['k'], [2, 0, 1, 2]), (['v'], [10, 11, 12, 13]), (['u'], [32, 0, 30, 32])]⟩ := by decide

example : (merge2 exWorld { exArgs .left with indicator := .named ['u'] }).isOk = false := by decide

example : RepeatedKey (rowKeys 0 (fun n => n == 0) exLeft [['k']]) := ⟨0, 3, [2], by decide, by decide, by decide⟩

example : (mergeLookup exWorld exRight exLeft [['k']] [['k']] none (some [['u']]) none none false).isOk = false := by
  decide

theorem exArgs_names (how : How) : ∃ m, colnameMapping exWorld.ord (exArgs how).leftOn (exArgs how).rightOn
    (exArgs how).suffixes (exArgs how).selL (exArgs how).selR = .ok m :=
  ⟨⟨[['v']], [['v', '_', 'x']], [['v'], ['u']], [['v', '_', 'y'], ['u']], [['k']]⟩, by cases how <;> decide⟩

/-- the main theorem applies to this merge, for every `how` -/
example (how : How) : ∃ out, merge2 exWorld (exArgs how) = .ok out ∧ IsMerged 0 exWorld.cat (exArgs how)
    (joinRows how (rowKeys 0 exWorld.isnull exLeft [['k']]) (rowKeys 0 exWorld.isnull exRight [['k']])) out :=
  merge2_correct exWorld exWorld_ok (exArgs how) (exArgs_checked how) rfl rfl rfl (exArgs_names how)
    (by intro h; cases h)

/-- **C10** The order of two common key columns in the result depends on the iteration order of a
set of strings, which varies between runs of Python. -/
theorem key_column_order_counterexample :
    ∃ (left right : DS Nat), let a : Args Nat :=
      { left, right, leftOn := [['a'], ['b']], rightOn := [['a'], ['b']], how := .left, suffixes := none }
      ∃ d d', merge2 exWorld a = .ok d ∧ merge2 exWorld' a = .ok d' ∧ d.cols.keys ≠ d'.cols.keys := by
  refine ⟨⟨1, [(['a'], [1]), (['b'], [2])]⟩, ⟨1, [(['a'], [1]), (['b'], [2])]⟩,
    ⟨1, [(['a'], [1]), (['b'], [2])]⟩, ⟨1, [(['b'], [2]), (['a'], [1])]⟩, by decide, by decide, by decide⟩

/-- **C43** When a key name is used on both sides but paired with other names (left `a` with right `b`,
left `b` with right `a`), the result has one column `a`.  A right merge fills it from the right `a`, which
was compared with the left `b`: the matched left row has `a = 1`, the result says `2`. -/
theorem crossed_keys_counterexample :
    ∃ (left right : DS Nat), let a : Args Nat :=
      { left, right, leftOn := [['a'], ['b']], rightOn := [['b'], ['a']], how := .right, suffixes := none }
      ∃ d, merge2 exWorld a = .ok d ∧
        joinRows .right (rowKeys 0 exWorld.isnull left a.leftOn) (rowKeys 0 exWorld.isnull right a.rightOn) =
          [(some 0, some 0)] ∧
        d.cols.get ['a'] ≠ some [1] ∧ left.col ['a'] = [1] := by
  refine ⟨⟨1, [(['a'], [1]), (['b'], [2])]⟩, ⟨1, [(['a'], [2]), (['b'], [1])]⟩,
    ⟨1, [(['a'], [2]), (['b'], [1])]⟩, by decide, by decide, by decide, by decide⟩

/-- **C43** Different numbers of key columns are accepted; the surplus key is ignored. -/
theorem key_count_mismatch_counterexample :
    ∃ (left right : DS Nat), let a : Args Nat :=
      { left, right, leftOn := [['a'], ['b']], rightOn := [['c']], how := .inner, suffixes := none }
      ∃ d, merge2 exWorld a = .ok d ∧ d.nrows = 2 := by
  refine ⟨⟨2, [(['a'], [1, 1]), (['b'], [2, 3])]⟩, ⟨1, [(['c'], [1])]⟩,
    ⟨2, [(['a'], [1, 1]), (['b'], [2, 3]), (['c'], [1, 1])]⟩, by decide, rfl⟩

/-- **C44** Whether null keys count as repeated depends on `how`: two null left keys make
`validate='1:1'` fail for a left join but not for an inner join. -/
theorem validate_null_counterexample :
    ∃ (left right : DS Nat),
      (mergeIndices2 exWorld left right [(['a'], ['a'])] .left (some .oneToOne) none none).isOk = false ∧
      (mergeIndices2 exWorld left right [(['a'], ['a'])] .inner (some .oneToOne) none none).isOk = true ∧
      ¬ RepeatedKey (rowKeys 0 exWorld.isnull left [['a']]) := by
  refine ⟨⟨2, [(['a'], [0, 0])]⟩, ⟨1, [(['a'], [1])]⟩, by decide, by decide, ?_⟩
  rintro ⟨i, j, k, _, h, _⟩
  have : (rowKeys 0 exWorld.isnull ⟨2, [(['a'], [0, 0])]⟩ [['a']]) = [none, none] := by decide
  rw [this] at h
  match i with
  | 0 => cases h
  | 1 => cases h
  | n + 2 => cases h

/-- The second grouping used by outer merges over several columns depends on the order of the key columns:
a string column after a numeric one resets the mask, before it does not. -/
theorem groupby_mask_order_counterexample :
    ∃ (w : World Nat) (c d : List Nat), groupbyMask w [c, d] ≠ groupbyMask w [d, c] := by
  refine ⟨{ exWorld with isStr := fun c => c == [7, 7] }, [0, 1], [7, 7], by decide⟩

end Verif.Merge2
