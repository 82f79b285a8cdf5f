import Verif.Merge.Props

/-!
# C04: joins with `keep`
-/
namespace Verif.Merge
section
variable {K : Type} [DecidableEq K] {lkeys rkeys : List (Option K)} {L R : Grouping K}

/-! ### which rows `keep` leaves -/

/-- first or last element -/
def pick : Keep → List Nat → Option Nat
  | .first, l => l.head?
  | .last, l => l.getLast?

theorem sel_some (k : Keep) (js : List Nat) : sel (some k) js = (pick k js).toList := by
  cases k <;> rfl

theorem keepRows_eq (hL : L.WF lkeys) (k : Keep) :
    keepRows L k = (List.range L.gbkeys.length).filterMap fun c => pick k (rowsOf L.ikey (c + 1)) := by
  have : ∀ l : List Nat, (∀ c ∈ l, c < L.gbkeys.length) →
      (l.map fun c => (pick k (rowsOf L.ikey (c + 1))).getD 0) =
        l.filterMap fun c => pick k (rowsOf L.ikey (c + 1)) := by
    intro l hl
    induction l with
    | nil => rfl
    | cons c l ih =>
      have hne := rowsOf_ne_nil hL c (hl c (by simp))
      rw [List.map_cons, ih fun d hd => hl d (by simp [hd]), List.filterMap_cons]
      cases k
      · cases hh : rowsOf L.ikey (c + 1) with
        | nil => exact absurd hh hne
        | cons a b => simp [pick]
      · have := List.getLast?_eq_some_getLast hne
        simp [pick, this]
  have h := this (List.range L.gbkeys.length) fun c hc => List.mem_range.mp hc
  rw [← h]
  cases k <;> rfl

theorem igroup_head (L : Grouping K) (h : rowsOf L.ikey 0 ≠ []) :
    L.igroup.getD 0 0 = (rowsOf L.ikey 0).head?.getD 0 ∧
    L.igroup.getD ((rowsOf L.ikey 0).length - 1) 0 = (rowsOf L.ikey 0).getLast?.getD 0 := by
  have hpos := List.length_pos_iff.mpr h
  have h0 : L.ifirstgroup.getD 0 0 = 0 := by rw [ifirstgroup_getD L 0 (by omega)]; rfl
  have e1 := igroup_getD L 0 0 (by omega) hpos
  have e2 := igroup_getD L 0 ((rowsOf L.ikey 0).length - 1) (by omega) (by omega)
  rw [h0, Nat.zero_add] at e1 e2
  rw [e1, e2]
  constructor
  · rw [List.head?_eq_getElem?, List.getElem?_eq_getElem hpos]; rfl
  · rw [List.getLast?_eq_getElem?, List.getElem?_eq_getElem (by omega)]; rfl

theorem keepRowsWithNull_eq (hL : L.WF lkeys) (k : Keep) :
    keepRowsWithNull L k = (List.range (L.gbkeys.length + 1)).filterMap fun c => pick k (rowsOf L.ikey c) := by
  have hk := keepRows_eq hL k
  rw [List.range_succ_eq_map, List.filterMap_cons, List.filterMap_map]
  have hn : L.ncountgroup.getD 0 0 = (rowsOf L.ikey 0).length := by
    rw [List.getD_eq_getElem?_getD, ncountgroup_getElem? L 0 (by omega)]; rfl
  by_cases h0 : rowsOf L.ikey 0 = []
  · cases k
    · simp only [keepRowsWithNull, hn, h0, List.length_nil, gt_iff_lt, lt_irrefl, if_false, pick,
        List.head?_nil]
      exact hk
    · simp only [keepRowsWithNull, hn, h0, List.length_nil, gt_iff_lt, lt_irrefl, if_false, pick,
        List.getLast?_nil]
      exact hk
  · have hpos := List.length_pos_iff.mpr h0
    obtain ⟨e1, e2⟩ := igroup_head L h0
    have f1 := List.head?_eq_some_head h0
    have f2 := List.getLast?_eq_some_getLast h0
    cases k
    · simp only [keepRowsWithNull, hn, gt_iff_lt, hpos, if_true, e1, pick, f1, Option.getD_some]
      congr 1
    · simp only [keepRowsWithNull, hn, gt_iff_lt, hpos, if_true, e2, pick, f2, Option.getD_some]
      congr 1

theorem pick_rowsOf_first (ikey : List Nat) (c i : Nat) :
    pick .first (rowsOf ikey c) = some i ↔ ikey[i]? = some c ∧ ∀ j, j < i → ikey[j]? ≠ some c := by
  have hs : (rowsOf ikey c).Pairwise (· < ·) := List.Pairwise.filter _ List.pairwise_lt_range
  unfold pick
  constructor
  · intro h
    have hm : i ∈ rowsOf ikey c := List.mem_of_mem_head? h
    refine ⟨(mem_rowsOf _ _ _).mp hm, fun j hj hc => ?_⟩
    have hjm := (mem_rowsOf ikey c j).mpr hc
    cases hl : rowsOf ikey c with
    | nil => simp [hl] at hm
    | cons a l =>
      rw [hl] at h hjm hs
      simp at h; subst h
      rw [List.pairwise_cons] at hs
      rcases List.mem_cons.mp hjm with h | h
      · omega
      · have := hs.1 j h; omega
  · rintro ⟨h1, h2⟩
    have hm := (mem_rowsOf ikey c i).mpr h1
    cases hl : rowsOf ikey c with
    | nil => simp [hl] at hm
    | cons a l =>
      have ha : ikey[a]? = some c := (mem_rowsOf _ _ _).mp (by simp [hl])
      rw [hl] at hm hs
      rw [List.pairwise_cons] at hs
      rcases List.mem_cons.mp hm with h | h
      · simp [h]
      · have := hs.1 i h
        exact absurd ha (h2 a this)

theorem pick_rowsOf_last (ikey : List Nat) (c i : Nat) :
    pick .last (rowsOf ikey c) = some i ↔ ikey[i]? = some c ∧ ∀ j, i < j → ikey[j]? ≠ some c := by
  have hs : (rowsOf ikey c).Pairwise (· < ·) := List.Pairwise.filter _ List.pairwise_lt_range
  unfold pick
  have key : ∀ a, (rowsOf ikey c).getLast? = some a → ikey[a]? = some c ∧ ∀ j, ikey[j]? = some c → j ≤ a := by
    intro a h
    obtain ⟨l, hl⟩ : ∃ l, rowsOf ikey c = l ++ [a] := List.getLast?_eq_some_iff.mp h
    refine ⟨(mem_rowsOf _ _ _).mp (by simp [hl]), fun j hj => ?_⟩
    have hm := (mem_rowsOf ikey c j).mpr hj
    rw [hl] at hm hs
    rcases List.mem_append.mp hm with h | h
    · have := (List.pairwise_append.mp hs).2.2 j h a (by simp); omega
    · simp at h; omega
  constructor
  · intro h
    obtain ⟨h1, h2⟩ := key i h
    exact ⟨h1, fun j hj hc => by have := h2 j hc; omega⟩
  · rintro ⟨h1, h2⟩
    have hm := (mem_rowsOf ikey c i).mpr h1
    have hne : rowsOf ikey c ≠ [] := by intro h; simp [h] at hm
    have hx := List.getLast?_eq_some_getLast hne
    obtain ⟨k1, k2⟩ := key _ hx
    have := k2 i h1
    by_cases he : (rowsOf ikey c).getLast hne = i
    · show (rowsOf ikey c).getLast? = _
      rw [hx, he]
    · exact absurd k1 (h2 _ (by omega))

theorem pick_mem (k : Keep) (ikey : List Nat) (c i : Nat) (h : pick k (rowsOf ikey c) = some i) :
    ikey[i]? = some c := by
  cases k
  · exact ((pick_rowsOf_first _ _ _).mp h).1
  · exact ((pick_rowsOf_last _ _ _).mp h).1

/-- equal keys have equal group numbers -/
theorem key_eq_iff (hL : L.WF lkeys) (i j : Nat) (hi : i < L.ikey.length) (hj : j < L.ikey.length) :
    lkeys[j]? = lkeys[i]? ↔ L.ikey[j]? = L.ikey[i]? := by
  rw [decode_getElem? hL, decode_getElem? hL, List.getElem?_eq_getElem hi, List.getElem?_eq_getElem hj]
  simp only [Option.map_some, Option.some.injEq]
  have h1 := hL.inRange _ (List.getElem_mem hi)
  have h2 := hL.inRange _ (List.getElem_mem hj)
  constructor
  · intro h
    split at h <;> split at h
    · omega
    · rw [eq_comm, List.getElem?_eq_none_iff] at h; omega
    · rw [List.getElem?_eq_none_iff] at h; omega
    · have a1 : L.ikey[j] - 1 < L.gbkeys.length := by omega
      have a2 : L.ikey[i] - 1 < L.gbkeys.length := by omega
      rw [List.getElem?_eq_getElem a1, List.getElem?_eq_getElem a2] at h
      have := (List.Nodup.getElem_inj_iff hL.nodup).mp (Option.some.inj h)
      omega
  · intro h; rw [h]

theorem mem_keptRows (hL : L.WF lkeys) (k : Keep) (i : Nat) :
    i ∈ keptRows lkeys (some k) ↔ ∃ c, c ≤ L.gbkeys.length ∧ pick k (rowsOf L.ikey c) = some i := by
  have hlen := WF.length hL
  have hex : (∃ c, c ≤ L.gbkeys.length ∧ pick k (rowsOf L.ikey c) = some i) ↔
      ∃ h : i < L.ikey.length, pick k (rowsOf L.ikey L.ikey[i]) = some i := by
    constructor
    · rintro ⟨c, _, h⟩
      have := pick_mem _ _ _ _ h
      obtain ⟨h1, h2⟩ := List.getElem?_eq_some_iff.mp this
      exact ⟨h1, by rw [h2]; exact h⟩
    · rintro ⟨h, h2⟩
      exact ⟨_, hL.inRange _ (List.getElem_mem h), h2⟩
  rw [hex]
  cases k
  · simp only [keptRows, List.mem_filter, List.mem_range, decide_eq_true_eq, ← hlen, pick_rowsOf_first]
    constructor
    · rintro ⟨h, h2⟩
      refine ⟨h, List.getElem?_eq_getElem h, fun j hj hc => ?_⟩
      exact h2 j hj ((key_eq_iff hL i j h (by omega)).mpr (by rw [hc, List.getElem?_eq_getElem h]))
    · rintro ⟨h, _, h2⟩
      refine ⟨h, fun j hj hc => h2 j hj ?_⟩
      rw [(key_eq_iff hL i j h (by omega)).mp hc, List.getElem?_eq_getElem h]
  · simp only [keptRows, List.mem_filter, List.mem_range, decide_eq_true_eq, ← hlen, pick_rowsOf_last]
    constructor
    · rintro ⟨h, h2⟩
      refine ⟨h, List.getElem?_eq_getElem h, fun j hj hc => ?_⟩
      have hjl := (List.getElem?_eq_some_iff.mp hc).1
      exact h2 j hjl hj ((key_eq_iff hL i j h hjl).mpr (by rw [hc, List.getElem?_eq_getElem h]))
    · rintro ⟨h, _, h2⟩
      refine ⟨h, fun j hjl hj hc => h2 j hj ?_⟩
      rw [(key_eq_iff hL i j h hjl).mp hc, List.getElem?_eq_getElem h]

theorem keepRowsWithNull_perm (hL : L.WF lkeys) (k : Keep) :
    (keepRowsWithNull L k).Perm (keptRows lkeys (some k)) := by
  rw [keepRowsWithNull_eq hL]
  rw [List.perm_ext_iff_of_nodup]
  · intro i
    rw [mem_keptRows hL, List.mem_filterMap]
    simp only [List.mem_range]
    constructor
    · rintro ⟨c, h1, h2⟩; exact ⟨c, by omega, h2⟩
    · rintro ⟨c, h1, h2⟩; exact ⟨c, by omega, h2⟩
  · apply List.Nodup.filterMap _ List.nodup_range
    intro c d i h1 h2
    have a1 := pick_mem _ _ _ _ (Option.mem_def.mp h1)
    have a2 := pick_mem _ _ _ _ (Option.mem_def.mp h2)
    rw [a1] at a2
    exact Option.some.inj a2
  · cases k <;> exact List.nodup_range.filter _

/-- the null row, if kept, is not among `keepRows` -/
theorem keepRowsWithNull_split (hL : L.WF lkeys) (k : Keep) :
    keepRowsWithNull L k = (pick k (rowsOf L.ikey 0)).toList ++ keepRows L k := by
  rw [keepRowsWithNull_eq hL, keepRows_eq hL, List.range_succ_eq_map, List.filterMap_cons, List.filterMap_map]
  cases pick k (rowsOf L.ikey 0) <;> rfl

theorem mem_keepRowsWithNull_lt (hL : L.WF lkeys) (k : Keep) (i : Nat) (h : i ∈ keepRowsWithNull L k) :
    i < L.ikey.length := by
  rw [keepRowsWithNull_eq hL, List.mem_filterMap] at h
  obtain ⟨c, _, hc⟩ := h
  exact (List.getElem?_eq_some_iff.mp (pick_mem _ _ _ _ hc)).1

/-! ### joins that keep one row per key on the left -/

theorem matching_null_rows (hL : L.WF lkeys) (k : Keep) (i : Nat)
    (hi : i ∈ (pick k (rowsOf L.ikey 0)).toList) : lkeys.getD i none = none := by
  have h0 := pick_mem k _ _ _ (by simpa using hi)
  rw [List.getD_eq_getElem?_getD, decode_getElem? hL, h0]; simp

/-- right selector when rows are kept on the left -/
theorem buildRight_kept (hL : L.WF lkeys) (hR : R.WF rkeys) (g0 : Option Nat) (inner : Bool) (k : Keep)
    (keepR : Option Keep) :
    buildRight g0 (keyMaps L R).2.2 L R inner (some k) keepR =
      (keepRowsWithNull L k).flatMap fun i => pad inner (sel keepR (rowsFor L R (L.ikey.getD i 0))) := by
  have hmem : ∀ c ∈ gather L.ikey (keepRowsWithNull L k), c ∈ L.ikey := by
    intro c hc
    simp only [gather, List.mem_map] at hc
    obtain ⟨i, hi, rfl⟩ := hc
    have := mem_keepRowsWithNull_lt hL k i hi
    simp [List.getElem?_eq_getElem this]
  rw [buildRight_eq hL hR g0 inner (some k) keepR _ rfl
    (fun c hc => hL.inRange c (hmem c hc)) (fun h h0 => by
      obtain ⟨c, hc⟩ := List.exists_mem_of_ne_nil _ h
      have := hmem c hc
      simp [h0] at this)]
  simp only [keepIkeyWithNull, gather, List.flatMap_map]

theorem rows_of_selectors (hL : L.WF lkeys) (hR : R.WF rkeys) (inner : Bool)
    (keepR : Option Keep) (ks : List Nat) (hks : ∀ i ∈ ks, i < L.ikey.length) (o : Option Nat) :
    JoinIndices.rows lkeys.length rkeys.length
      ⟨some ((ks.flatMap fun i => List.replicate (cnt L R inner keepR (L.ikey.getD i 0)) i).map some),
        some (ks.flatMap fun i => pad inner (sel keepR (rowsFor L R (L.ikey.getD i 0)))), o⟩ =
      some (ks.flatMap fun i => outRows inner i (sel keepR (matching rkeys (lkeys.getD i none)))) := by
  have : ((ks.flatMap fun i => List.replicate (cnt L R inner keepR (L.ikey.getD i 0)) i).map some) =
      ks.flatMap fun i => List.replicate (pad inner (sel keepR (rowsFor L R (L.ikey.getD i 0)))).length
        (some i) := by
    rw [List.map_flatMap]; simp [cnt]
  unfold JoinIndices.rows
  simp only [Option.getD_some, this]
  rw [if_pos (length_flatMap_replicate _ _ _), zip_flatMap]
  congr 1
  apply List.flatMap_congr
  intro i hi
  rw [rowsFor_eq_matching hL hR i (hks i hi)]
  rfl

/-- null rows produce nothing in an inner join -/
theorem inner_drop_null {β : Type} (hL : L.WF lkeys) (k : Keep) (keepR : Option Keep)
    (f : Nat → List Nat → List β) (hf : ∀ i, f i [] = []) :
    ((keepRowsWithNull L k).flatMap fun i => f i (sel keepR (rowsFor L R (L.ikey.getD i 0)))) =
      (keepRows L k).flatMap fun i => f i (sel keepR (rowsFor L R (L.ikey.getD i 0))) := by
  rw [keepRowsWithNull_split hL, List.flatMap_append]
  cases h : pick k (rowsOf L.ikey 0) with
  | none => simp
  | some i =>
    have h0 := pick_mem k _ _ _ h
    have : rowsFor L R (L.ikey.getD i 0) = [] := by
      rw [List.getD_eq_getElem?_getD, h0]; simp [rowsFor, partner]
    simp only [Option.toList_some, List.flatMap_cons, List.flatMap_nil, this,
      (sel_eq_nil keepR []).mpr rfl, hf, List.append_nil, List.nil_append]

/-- `keep` on the left and at most one partner per left row (because `keep` is also
given for the right, or right keys do not repeat). -/
theorem keep_left_single (hL : L.WF lkeys) (hR : R.WF rkeys) (env : Env)
    (inner : Bool) (k : Keep) (keepR : Option Keep)
    (hsingle : R.ikey = [] ∨ (keepR.isSome || R.gbkeys.length == R.ikey.length) = true) :
    ∃ (j : JoinIndices) (ord : List Nat), leftOrInner env L R inner (some k) keepR = .ok j ∧
      ord.Perm (keptRows lkeys (some k)) ∧
      j.rows lkeys.length rkeys.length = some (ord.flatMap fun i =>
        outRows inner i (sel keepR (matching rkeys (lkeys.getD i none)))) := by
  by_cases hl : L.ikey = []
  · -- no left rows
    have hlk : lkeys = [] := by rw [← List.length_eq_zero_iff, ← WF.length hL, hl]; rfl
    have hkn : keepRowsWithNull L k = [] := by
      rw [keepRowsWithNull_eq hL]
      rw [List.filterMap_eq_nil_iff]
      intro c _
      cases k <;> simp [pick, rowsOf, hl]
    refine ⟨⟨some [], some [], none⟩, [], ?_, ?_, ?_⟩
    · unfold leftOrInner
      have h1 : buildRight env.g1 (keyMaps L R).2.2 L R inner (some k) keepR = [] := by
        rw [buildRight_kept hL hR, hkn]; rfl
      have h2 : buildLeft env.sched env.g0 (keyMaps L R).2.1 (keyMaps L R).1 L R inner (some k) keepR =
          .ok (some []) := by
        unfold buildLeft
        by_cases hr : R.ikey = []
        · cases inner <;> simp [hr, hkn]
        · rw [if_neg (by simpa using hr), if_pos (by simp [hl])]
      simp only [h1, h2]; rfl
    · have := keepRowsWithNull_perm hL k; rwa [hkn] at this
    · simp [JoinIndices.rows]
  · refine ⟨⟨some (((keepRowsWithNull L k).flatMap fun i =>
        List.replicate (cnt L R inner keepR (L.ikey.getD i 0)) i).map some),
        some ((keepRowsWithNull L k).flatMap fun i => pad inner (sel keepR (rowsFor L R (L.ikey.getD i 0)))), none⟩,
      keepRowsWithNull L k, ?_, keepRowsWithNull_perm hL k, ?_⟩
    · unfold leftOrInner
      have h2 : buildLeft env.sched env.g0 (keyMaps L R).2.1 (keyMaps L R).1 L R inner (some k) keepR =
          .ok (some ((keepRowsWithNull L k).flatMap fun i =>
            List.replicate (cnt L R inner keepR (L.ikey.getD i 0)) i)) := by
        rw [buildLeft_some_single hL hR env.sched env.g0 inner k keepR hsingle hl]
        congr 2
        cases inner
        · rfl
        · simp only [if_true, cnt]
          exact (inner_drop_null hL k keepR (fun i js => List.replicate (pad true js).length i)
            (by simp [pad])).symm
      simp only [h2, buildRight_kept hL hR]; rfl
    · exact rows_of_selectors hL hR inner keepR _ (mem_keepRowsWithNull_lt hL k) none

/-- **C04** `keep` on the right side of a left join: every left row once, in order,
paired with the first/last matching right row or with nothing. -/
theorem keep_right_left_join (hL : L.WF lkeys) (hR : R.WF rkeys) (env : Env) (he : env.Fair)
    (RG : Option (Grouping K)) (k : Keep) :
    ∃ j, createIndices env L R RG .left none (some k) = .ok j ∧
      j.rows lkeys.length rkeys.length = some ((List.range lkeys.length).map fun i =>
        (some i, match k with
          | .first => (matching rkeys (lkeys.getD i none)).head?
          | .last => (matching rkeys (lkeys.getD i none)).getLast?)) := by
  obtain ⟨j, h1, h2⟩ := leftOrInner_none hL hR env he false (some k)
  refine ⟨j, h1, ?_⟩
  rw [h2, List.map_eq_flatMap]
  congr 1
  apply List.flatMap_congr
  intro i _
  generalize matching rkeys (lkeys.getD i none) = m
  cases k
  · cases h : m.head? <;> simp only [sel, outRows_left, padded, h] <;> simp
  · cases h : m.getLast? <;> simp only [sel, outRows_left, padded, h] <;> simp

/-- **C04** `keep` on the right side of an inner join. -/
theorem keep_right_inner_join (hL : L.WF lkeys) (hR : R.WF rkeys) (env : Env) (he : env.Fair)
    (RG : Option (Grouping K)) (k : Keep) :
    ∃ j, createIndices env L R RG .inner none (some k) = .ok j ∧
      j.rows lkeys.length rkeys.length = some ((List.range lkeys.length).flatMap fun i =>
        (sel (some k) (matching rkeys (lkeys.getD i none))).map fun r => (some i, some r)) := by
  obtain ⟨j, h1, h2⟩ := leftOrInner_none hL hR env he true (some k)
  refine ⟨j, h1, ?_⟩
  rw [h2]
  simp [outRows_inner]

/-- **C04** `keep` on both sides of a left join: one row per left key, paired with
the kept right row; the order of the rows is the order of the groups. -/
theorem keep_both_left_join (hL : L.WF lkeys) (hR : R.WF rkeys) (env : Env)
    (RG : Option (Grouping K)) (k k' : Keep) :
    ∃ (j : JoinIndices) (ord : List Nat), createIndices env L R RG .left (some k) (some k') = .ok j ∧
      ord.Perm (keptRows lkeys (some k)) ∧
      j.rows lkeys.length rkeys.length = some (ord.flatMap fun i =>
        padded i (sel (some k') (matching rkeys (lkeys.getD i none)))) := by
  obtain ⟨j, ord, h1, h2, h3⟩ := keep_left_single hL hR env false k (some k') (by simp)
  exact ⟨j, ord, h1, h2, by rw [h3]; simp [outRows_left]⟩

/-- **C04** `keep` on both sides of an inner join. -/
theorem keep_both_inner_join (hL : L.WF lkeys) (hR : R.WF rkeys) (env : Env)
    (RG : Option (Grouping K)) (k k' : Keep) :
    ∃ (j : JoinIndices) (ord : List Nat), createIndices env L R RG .inner (some k) (some k') = .ok j ∧
      ord.Perm (keptRows lkeys (some k)) ∧
      j.rows lkeys.length rkeys.length = some (ord.flatMap fun i =>
        (sel (some k') (matching rkeys (lkeys.getD i none))).map fun r => (some i, some r)) := by
  obtain ⟨j, ord, h1, h2, h3⟩ := keep_left_single hL hR env true k (some k') (by simp)
  exact ⟨j, ord, h1, h2, by rw [h3]; simp [outRows_inner]⟩

/-- **C04** `keep` on the left only: correct when no right key repeats. -/
theorem keep_left_unique_right (hL : L.WF lkeys) (hR : R.WF rkeys) (env : Env)
    (RG : Option (Grouping K)) (k : Keep) (hu : R.gbkeys.length = R.ikey.length) :
    ∃ (j : JoinIndices) (ord : List Nat), createIndices env L R RG .left (some k) none = .ok j ∧
      ord.Perm (keptRows lkeys (some k)) ∧
      j.rows lkeys.length rkeys.length = some (ord.flatMap fun i =>
        padded i (matching rkeys (lkeys.getD i none))) := by
  obtain ⟨j, ord, h1, h2, h3⟩ := keep_left_single hL hR env false k none (by simp [hu])
  exact ⟨j, ord, h1, h2, by rw [h3]; simp [outRows_left, sel]⟩

/-- **C04** (partial) `keep` on the left only, repeated right keys: correct when the
left side has a non-null key and (for a left join) no null key.  Without these
restrictions the code fails, see the counterexamples. -/
theorem keep_left_multi_partial (hL : L.WF lkeys) (hR : R.WF rkeys) (env : Env) (he : env.Fair)
    (inner : Bool) (k : Keep) (hr : R.ikey ≠ []) (hl : L.gbkeys ≠ [])
    (hmulti : R.gbkeys.length ≠ R.ikey.length) (hnull : inner = false → none ∉ lkeys) :
    ∃ (j : JoinIndices) (ord : List Nat), leftOrInner env L R inner (some k) none = .ok j ∧
      ord.Perm (keptRows lkeys (some k)) ∧
      j.rows lkeys.length rkeys.length = some (ord.flatMap fun i =>
        outRows inner i (matching rkeys (lkeys.getD i none))) := by
  have hl' : L.ikey ≠ [] := by
    intro h; exact hl (WF.gbkeys_nil hL h)
  have hleft := buildLeft_some_multi hL hR env.sched he env.g0 inner k hr hmulti hl'
  rw [if_neg hl] at hleft
  refine ⟨⟨some (((keepRowsWithNull L k).flatMap fun i =>
        List.replicate (cnt L R inner none (L.ikey.getD i 0)) i).map some),
        some ((keepRowsWithNull L k).flatMap fun i => pad inner (sel none (rowsFor L R (L.ikey.getD i 0)))), none⟩,
      keepRowsWithNull L k, ?_, keepRowsWithNull_perm hL k, ?_⟩
  · unfold leftOrInner
    have h2 : buildLeft env.sched env.g0 (keyMaps L R).2.1 (keyMaps L R).1 L R inner (some k) none =
        .ok (some ((keepRowsWithNull L k).flatMap fun i =>
          List.replicate (cnt L R inner none (L.ikey.getD i 0)) i)) := by
      rw [hleft]
      congr 2
      cases inner
      · rw [keepRowsWithNull_split hL]
        cases h : pick k (rowsOf L.ikey 0) with
        | none => simp
        | some i =>
          exfalso
          have h0 := pick_mem k _ _ _ h
          have : lkeys[i]? = some none := by rw [decode_getElem? hL, h0]; simp
          exact hnull rfl (List.mem_of_getElem? this)
      · simp only [cnt]
        exact (inner_drop_null hL k none (fun i js => List.replicate (pad true js).length i)
          (by simp [pad])).symm
    simp only [h2, buildRight_kept hL hR]; rfl
  · exact rows_of_selectors hL hR inner none _ (mem_keepRowsWithNull_lt hL k) none

/-! ### the outer join with `keep` on the right -/

theorem pairwise_keptRows (keys : List (Option K)) (k : Option Keep) :
    (keptRows keys k).Pairwise (· < ·) := by
  cases k with
  | none => exact List.pairwise_lt_range
  | some k => cases k <;> exact List.Pairwise.filter _ List.pairwise_lt_range

theorem maskSel_filterMap {α β : Type} (l : List α) (f : α → Option β) (p : α → Bool) (hf : ∀ a ∈ l, (f a).isSome) :
    maskSel (l.filterMap f) (l.map p) = (l.filter p).filterMap f := by
  induction l with
  | nil => rfl
  | cons a l ih =>
    obtain ⟨b, hb⟩ := Option.isSome_iff_exists.mp (hf a (by simp))
    rw [List.filterMap_cons_some hb, List.map_cons, maskSel_cons, ih fun x hx => hf x (by simp [hx]),
      List.filter_cons]
    split <;> simp [hb]

theorem rightOnlyRows_keep (hL : L.WF lkeys) (hR : R.WF rkeys) (hl : L.ikey ≠ []) (hr : R.ikey ≠ [])
    (k : Keep) :
    rightOnlyRows (keyMaps L R).1 R none (some k) =
      some ((keptRows rkeys (some k)).filter fun j => matching lkeys (rkeys.getD j none) = []) := by
  unfold rightOnlyRows
  simp only
  congr 1
  have hlen : (keyMaps L R).1.length = R.gbkeys.length := by
    rw [(keyMaps_r2l hL hR hl hr).2]; simp [ismember]
  set mask := decide (R.ncountgroup.getD 0 0 > 0) :: (keyMaps L R).1.map not with hmask
  have hn : R.ncountgroup.getD 0 0 = (rowsOf R.ikey 0).length := by
    rw [List.getD_eq_getElem?_getD, ncountgroup_getElem? R 0 (by omega)]; rfl
  have hml : mask.length = R.gbkeys.length + 1 := by simp [hmask, hlen]
  have hsel : maskSel (keepRowsWithNull R k) (if mask.getD 0 false then mask else mask.drop 1) =
      ((List.range (R.gbkeys.length + 1)).filter fun c => mask.getD c false).filterMap
        fun c => pick k (rowsOf R.ikey c) := by
    have hisS : ∀ c, c < R.gbkeys.length → (pick k (rowsOf R.ikey (c + 1))).isSome := by
      intro c hc
      have hne := rowsOf_ne_nil hR c hc
      cases k
      · simpa [pick, List.isSome_head?] using hne
      · simp [pick, List.getLast?_eq_some_getLast hne]
    have hfull : mask = (List.range (R.gbkeys.length + 1)).map fun c => mask.getD c false := by
      apply List.ext_getElem (by simp [hml])
      intro i h1 h2
      simp [List.getElem?_eq_getElem h1]
    by_cases h0 : rowsOf R.ikey 0 = []
    · have hm0 : mask.getD 0 false = false := by rw [hmask, List.getD_cons_zero, hn, h0]; rfl
      rw [if_neg (by rw [hm0]; simp), keepRowsWithNull_eq hR, List.range_succ_eq_map, List.filterMap_cons]
      have hp0 : pick k (rowsOf R.ikey 0) = none := by cases k <;> simp [pick, h0]
      simp only [hp0, List.filter_cons, hm0, Bool.false_eq_true, if_false]
      have hd : mask.drop 1 = ((List.range R.gbkeys.length).map Nat.succ).map fun c => mask.getD c false := by
        conv_lhs => rw [hfull, List.range_succ_eq_map, List.map_cons]
        rfl
      rw [hd]
      exact maskSel_filterMap _ _ _ (by
        intro c hc
        obtain ⟨d, hd, rfl⟩ := List.mem_map.mp hc
        exact hisS d (List.mem_range.mp hd))
    · have hpos := List.length_pos_iff.mpr h0
      have hm0 : mask.getD 0 false = true := by
        rw [hmask, List.getD_cons_zero, hn]; exact decide_eq_true hpos
      rw [if_pos hm0, keepRowsWithNull_eq hR]
      conv_lhs => rw [hfull]
      apply maskSel_filterMap
      intro c hc
      cases c with
      | zero =>
        cases k
        · simpa [pick, List.isSome_head?] using h0
        · simp [pick, List.getLast?_eq_some_getLast h0]
      | succ c =>
        have := List.mem_range.mp hc
        exact hisS c (by omega)
  rw [hsel]
  apply sortRows_eq _ ((pairwise_keptRows rkeys (some k)).filter _)
  rw [List.perm_ext_iff_of_nodup]
  · intro j
    simp only [List.mem_filterMap, List.mem_filter, List.mem_range, decide_eq_true_eq, mem_keptRows hR]
    constructor
    · rintro ⟨c, ⟨h1, h2⟩, h3⟩
      have hc := pick_mem _ _ _ _ h3
      exact ⟨⟨c, by omega, h3⟩, (rightOnly_mask hL hR hl hr j c hc).mp h2⟩
    · rintro ⟨⟨c, h1, h3⟩, h2⟩
      have hc := pick_mem _ _ _ _ h3
      exact ⟨c, ⟨by omega, (rightOnly_mask hL hR hl hr j c hc).mpr h2⟩, h3⟩
  · apply List.Nodup.filterMap _ (List.nodup_range.filter _)
    intro c d i h1 h2
    have a1 := pick_mem _ _ _ _ (Option.mem_def.mp h1)
    have a2 := pick_mem _ _ _ _ (Option.mem_def.mp h2)
    rw [a1] at a2
    exact Option.some.inj a2
  · exact ((pairwise_keptRows rkeys (some k)).filter _).imp (fun h => Nat.ne_of_lt h)

/-- **C04** Outer join of non-empty sides with `keep` on the right (single-column
keys): the left-join rows with kept partners, then the kept right rows that no left
row matches. -/
theorem keep_right_outer_join (hL : L.WF lkeys) (hR : R.WF rkeys) (env : Env) (he : env.Fair) (k : Keep)
    (hl : L.ikey ≠ []) (hr : R.ikey ≠ []) :
    ∃ j, createIndices env L R none .outer none (some k) = .ok j ∧
      j.rows lkeys.length rkeys.length = some (
        ((List.range lkeys.length).flatMap fun i =>
          padded i (sel (some k) (matching rkeys (lkeys.getD i none)))) ++
        ((keptRows rkeys (some k)).filter fun j => matching lkeys (rkeys.getD j none) = []).map
          fun j => (none, some j)) := by
  obtain ⟨j, h1, h2⟩ := leftOrInner_none hL hR env he false (some k)
  obtain ⟨j', h3, h4⟩ := outerJoin_eq env none none (some k) lkeys.length rkeys.length (WF.length hL).symm
    h1 h2 (rightOnlyRows_keep hL hR hl hr k)
  refine ⟨j', ?_, ?_⟩
  · simp only [createIndices, List.length_eq_zero_iff, hl, hr, or_self, if_false]
    exact h3
  · rw [h4]; simp [outRows_left]

end
end Verif.Merge
