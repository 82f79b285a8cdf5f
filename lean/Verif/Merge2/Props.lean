import Verif.Merge2.Lemmas

/-!
# C10, C43, C44: merged Datasets
-/
namespace Verif.Merge2
open Verif.Merge Verif.Items

section
variable {K : Type} [DecidableEq K]

theorem leftOrInner_left_shape {env : Env} {L R : Grouping K} {inner : Bool} {keepL keepR : Option Keep}
    {j : JoinIndices} (h : leftOrInner env L R inner keepL keepR = .ok j) :
    (j.left = none ∨ ∃ l : List Nat, j.left = some (l.map some)) ∧ j.right ≠ none ∧ j.rightOnly = none := by
  unfold leftOrInner at h
  generalize keyMaps L R = km at h
  obtain ⟨exist, r2l, l2r⟩ := km
  simp only [bind, Except.bind] at h
  split at h
  · cases h
  · rename_i li _
    cases h
    refine ⟨?_, by simp, rfl⟩
    cases li with
    | none => exact Or.inl rfl
    | some l => exact Or.inr ⟨l, rfl⟩

/-- Shape of the indices of an outer join without `keep`. -/
theorem outer_shape {env : Env} {L R : Grouping K} {RG : Option (Grouping K)} {j : JoinIndices}
    (h : createIndices env L R RG .outer none none = .ok j) :
    (∃ (l : List Nat) (r : List (Option Nat)) (ro : List Nat), ro.length = j.rightOnly.getD 0 ∧
      j.rightOnly.getD 0 > 0 ∧
      j.left = some (l.map some ++ ro.map fun _ => none) ∧ j.right = some (r ++ ro.map some)) ∨
    (j.rightOnly = some 0 ∧ (j.left = none ∨ (∃ l : List Nat, j.left = some (l.map some)) ∨ j.right = none) ∧
      (j.left ≠ none ∨ j.right ≠ none)) := by
  simp only [createIndices] at h
  split at h
  · rename_i hempty
    split at h
    · rename_i hR
      simp only [bind, Except.bind] at h
      split at h
      · cases h
      · rename_i j' hj'
        cases h
        obtain ⟨h1, h2, _⟩ := leftOrInner_left_shape hj'
        refine Or.inr ⟨rfl, ?_, Or.inr h2⟩
        rcases h1 with h1 | h1
        · exact Or.inl h1
        · exact Or.inr (Or.inl h1)
    · rename_i hR
      have hL : L.ikey.length = 0 := by tauto
      simp only [bind, Except.bind, rightJoin, leftOrInner, buildLeft, hL, if_true] at h
      cases h
      exact Or.inr ⟨rfl, Or.inr (Or.inr rfl), Or.inl (by simp)⟩
  · unfold outerJoin at h
    generalize keyMaps L R = km at h
    obtain ⟨exist, r2l, l2r⟩ := km
    simp only [bind, Except.bind] at h
    split at h
    · cases h
    · rename_i ro _
      split at h
      · cases h
      · rename_i li _
        split at h
        · rename_i hpos
          cases h
          left
          cases li with
          | none => exact ⟨List.range L.ikey.length, _, ro, rfl, hpos, rfl, rfl⟩
          | some l => exact ⟨l, _, ro, rfl, hpos, rfl, rfl⟩
        · rename_i hpos
          cases h
          right
          refine ⟨by simp at hpos; simp [hpos], ?_, Or.inr (by simp)⟩
          cases li with
          | none => exact Or.inl rfl
          | some l => exact Or.inr (Or.inl ⟨l, rfl⟩)

theorem leftJoinSpec_fst (lk rk : List (Option K)) : ∀ p ∈ leftJoinSpec lk rk, p.1.isSome := by
  intro p hp
  simp only [leftJoinSpec, List.mem_flatMap] at hp
  obtain ⟨i, _, hp⟩ := hp
  unfold padded at hp
  split at hp
  · simp at hp; simp [hp]
  · obtain ⟨_, _, rfl⟩ := List.mem_map.mp hp; rfl

/-- in every join, matched rows have equal non-null keys -/
theorem joinRows_pair (how : How) (lk rk : List (Option K)) (i k : Nat)
    (h : (some i, some k) ∈ joinRows how lk rk) :
    ∃ t, lk[i]? = some (some t) ∧ rk[k]? = some (some t) := by
  cases how with
  | left => exact (leftJoinSpec_pair lk rk i k).mp h
  | right =>
    simp only [joinRows, rightJoinSpec, List.mem_map, Prod.swap_prod_mk] at h
    obtain ⟨⟨a, b⟩, hp, he⟩ := h
    simp only [Prod.swap_prod_mk, Prod.mk.injEq] at he
    obtain ⟨rfl, rfl⟩ := he
    obtain ⟨t, h1, h2⟩ := (leftJoinSpec_pair rk lk k i).mp hp
    exact ⟨t, h2, h1⟩
  | inner =>
    obtain ⟨i', k', t, e, h1, h2⟩ := (innerJoinSpec_pair lk rk _).mp h
    cases e
    exact ⟨t, h1, h2⟩
  | outer =>
    simp only [joinRows, outerJoinSpec, List.mem_append, List.mem_map] at h
    rcases h with h | ⟨_, _, h⟩
    · exact (leftJoinSpec_pair lk rk i k).mp h
    · cases h

theorem keyShape_of_rows {env : Env} {L R : Grouping K} {RG : Option (Grouping K)} {j : JoinIndices}
    (how : How) (h : createIndices env L R RG how none none = .ok j) (nl : Nat) (lk rk : List (Option K))
    (nr : Nat) (hrows : j.rows nl nr = some (joinRows how lk rk)) :
    KeyShape how nl j (joinRows how lk rk) ∧ (j.left ≠ none ∨ j.right ≠ none) := by
  unfold KeyShape
  cases how with
  | left =>
    refine ⟨?_, Or.inr (leftOrInner_left_shape h).2.1⟩
    simp only [reduceCtorEq, false_and, if_false]
    split
    · trivial
    · exact leftJoinSpec_fst lk rk
  | inner =>
    refine ⟨?_, Or.inr (leftOrInner_left_shape h).2.1⟩
    simp only [reduceCtorEq, false_and, if_false]
    split
    · trivial
    · intro p hp
      obtain ⟨_, _, _, rfl, _⟩ := (innerJoinSpec_pair lk rk _).mp hp
      rfl
  | right =>
    constructor
    · simp only [reduceCtorEq, false_and, if_false, if_true]
      split
      · trivial
      · intro p hp
        simp only [joinRows, rightJoinSpec, List.mem_map] at hp
        obtain ⟨q, hq, rfl⟩ := hp
        exact leftJoinSpec_fst rk lk q hq
    · simp only [createIndices, rightJoin, bind, Except.bind] at h
      split at h
      · cases h
      · rename_i j' hj'
        cases h
        exact Or.inl (leftOrInner_left_shape hj').2.1
  | outer =>
    rcases outer_shape h with ⟨l, r, ro, h1, h2, h3, h4⟩ | ⟨h1, h2, h3⟩
    · refine ⟨?_, Or.inl (by simp [h3])⟩
      rw [if_pos ⟨rfl, h2⟩]
      exact ⟨l, r, ro, h1, h3, h4⟩
    · refine ⟨?_, h3⟩
      rw [if_neg (by simp [h1])]
      split
      · trivial
      · rename_i hne
        simp only [not_or] at hne
        rcases h2 with h2 | ⟨l, h2⟩ | h2
        · exact absurd h2 hne.1
        · simp only [reduceCtorEq, if_false]
          intro p hp
          unfold JoinIndices.rows at hrows
          simp only [h2, Option.getD_some] at hrows
          split at hrows
          · rw [Option.some.injEq] at hrows
            rw [← hrows] at hp
            have := (List.of_mem_zip (a := p.1) (b := p.2) hp).1
            obtain ⟨a, _, ha⟩ := List.mem_map.mp this
            rw [← ha]; rfl
          · cases hrows
        · exact absurd h2 hne.2

end

section
variable {V : Type} [DecidableEq V]

theorem columnKeys_keyTuples (inv : V) (isnull : V → Bool) (ds : DS V) (on : List Name) :
    columnKeys (tupleNull isnull) (keyTuples inv ds on) = rowKeys inv isnull ds on := by
  simp only [columnKeys, keyTuples, rowKeys, List.map_map]
  rfl

theorem createIndices_RG {K : Type} [DecidableEq K] (env : Env) (L R : Grouping K) (RG : Option (Grouping K))
    (how : How) (keepL keepR : Option Keep) (h : how ≠ .outer ∨ keepR = none) :
    createIndices env L R RG how keepL keepR = createIndices env L R none how keepL keepR := by
  cases how with
  | outer =>
    have hk := h.resolve_left (by simp)
    subst hk
    rfl
  | _ => rfl

theorem mergeIndices2_eq (w : World V) (left right : DS V) (on : List (Name × Name)) (how : How)
    (keepL keepR : Option Keep) (h : how ≠ .outer ∨ keepR = none) :
    mergeIndices2 w left right on how none keepL keepR =
      mergeIndices w.env w.group (tupleNull w.isnull) how keepL keepR
        (keyTuples w.inv left (on.map Prod.fst)) (keyTuples w.inv right (on.map Prod.snd)) := by
  unfold mergeIndices2 mergeIndices
  split
  · rfl
  · simp only [optValidate]
    rw [createIndices_RG _ _ _ _ _ _ _ h]

/-- the index construction on key tuples returns the rows of the join -/
theorem mergeIndices2_rows (w : World V) (hw : w.OK) (left right : DS V) (on : List (Name × Name)) (how : How) :
    ∃ j, mergeIndices2 w left right on how none none none = .ok j ∧
      j.rows left.nrows right.nrows = some (joinRows how (rowKeys w.inv w.isnull left (on.map Prod.fst))
        (rowKeys w.inv w.isnull right (on.map Prod.snd))) := by
  rw [mergeIndices2_eq _ _ _ _ _ _ _ (Or.inr rfl), ← columnKeys_keyTuples, ← columnKeys_keyTuples]
  have len : ∀ (ds : DS V) (o : List Name), (keyTuples w.inv ds o).length = ds.nrows := by
    intro ds o; simp [keyTuples]
  cases how with
  | left =>
    have := merge_indices_left (tupleNull w.isnull) w.group hw.grp w.env hw.fair
      (keyTuples w.inv left (on.map Prod.fst)) (keyTuples w.inv right (on.map Prod.snd))
    simpa only [len, joinRows, rightJoinSpec] using this
  | right =>
    have := merge_indices_right (tupleNull w.isnull) w.group hw.grp w.env hw.fair
      (keyTuples w.inv left (on.map Prod.fst)) (keyTuples w.inv right (on.map Prod.snd))
    simpa only [len, joinRows, rightJoinSpec] using this
  | inner =>
    have := merge_indices_inner (tupleNull w.isnull) w.group hw.grp w.env hw.fair
      (keyTuples w.inv left (on.map Prod.fst)) (keyTuples w.inv right (on.map Prod.snd))
    simpa only [len, joinRows, rightJoinSpec] using this
  | outer =>
    have := merge_indices_outer (tupleNull w.isnull) w.group hw.grp w.env hw.fair
      (keyTuples w.inv left (on.map Prod.fst)) (keyTuples w.inv right (on.map Prod.snd))
    simpa only [len, joinRows, rightJoinSpec] using this

theorem col_length {ds : DS V} (h : ds.WF) {c : Name} (hc : c ∈ ds.cols.keys) : (ds.col c).length = ds.nrows := by
  unfold DS.col
  cases hg : ds.cols.get c with
  | none => exact absurd hc ((Dict.get_eq_none_iff _ _).mp hg)
  | some v => exact h.lens _ (Dict.mem_of_get hg)

theorem rowKeys_get {inv : V} {isnull : V → Bool} {ds : DS V} {on : List Name} {i : Nat} {t : List V}
    (h : (rowKeys inv isnull ds on)[i]? = some (some t)) :
    t = on.map fun c => (ds.col c).getD i inv := by
  unfold rowKeys at h
  rw [List.getElem?_map] at h
  by_cases hi : i < ds.nrows
  · rw [List.getElem?_range hi] at h
    simp only [Option.map_some, Option.some.injEq] at h
    split at h
    · cases h
    · cases h; rfl
  · rw [List.getElem?_eq_none (by simpa using hi)] at h
    cases h

/-- rows matched by the join agree on a key column that both sides call `c` -/
theorem key_agree {inv : V} {isnull : V → Bool} {left right : DS V} {on : List (Name × Name)} {how : How}
    {c : Name} (hc : (c, c) ∈ on) (i k : Nat)
    (h : (some i, some k) ∈ joinRows how (rowKeys inv isnull left (on.map Prod.fst))
        (rowKeys inv isnull right (on.map Prod.snd))) :
    (left.col c).getD i inv = (right.col c).getD k inv := by
  obtain ⟨t, h1, h2⟩ := joinRows_pair how _ _ i k h
  have e := (rowKeys_get h1).symm.trans (rowKeys_get h2)
  simp only [List.map_map] at e
  exact List.map_inj_left.mp e (c, c) hc

/-- The part after the common keys, given the row pairs. -/
theorem finish_ok (w : World V) (a : Args V) (m : Mapping)
    (hm : NamesOK a.leftOn a.rightOn a.selL a.selR a.suffixes m)
    (hL : a.left.WF) (hR : a.right.WF)
    (pL : ∀ c ∈ a.selL, c ∈ a.left.cols.keys) (pR : ∀ c ∈ a.selR, c ∈ a.right.cols.keys)
    (j : JoinIndices) (rows : List (Option Nat × Option Nat))
    (hj : j.rows a.left.nrows a.right.nrows = some rows)
    (hone : j.left ≠ none ∨ j.right ≠ none)
    (hreq : a.requireMatch = true → ∀ p ∈ rows, p.2.isSome)
    (hind : ∀ n, a.indicator.name = some n → ¬ common a.leftOn a.rightOn n ∧
      (∀ c ∈ a.selL, ¬ common a.leftOn a.rightOn c →
        n ≠ outName a.leftOn a.rightOn a.selL a.selR (sufL a.suffixes) c) ∧
      (∀ c ∈ a.selR, ¬ common a.leftOn a.rightOn c →
        n ≠ outName a.leftOn a.rightOn a.selL a.selR (sufR a.suffixes) c)) :
    ∃ out ds, finish w j a.left a.right m a.requireMatch a.indicator
        (setAll (m.inter.map fun c => (c, rows.map (keyCell w.inv (a.left.col c) (a.right.col c)))) []) = .ok out ∧
      mkDataset out = .ok ds ∧ IsMerged w.inv w.cat a rows ds := by
  set fL := outName a.leftOn a.rightOn a.selL a.selR (sufL a.suffixes) with hfL
  set fR := outName a.leftOn a.rightOn a.selL a.selR (sufR a.suffixes) with hfR
  set kv : Name → List V := fun c => rows.map (keyCell w.inv (a.left.col c) (a.right.col c)) with hkv
  have vL : ∀ c ∈ m.oldL, fetch w.inv (a.left.col c) j.left = rows.map fun p => cell w.inv (a.left.col c) p.1 :=
    fun c hc => fetch_left hj w.inv _ (col_length hL (pL c ((hm.oldL c).mp hc).1))
  have vR : ∀ c ∈ m.oldR, fetch w.inv (a.right.col c) j.right = rows.map fun p => cell w.inv (a.right.col c) p.2 :=
    fun c hc => fetch_right hj w.inv _ (col_length hR (pR c ((hm.oldR c).mp hc).1))
  set lK := m.inter.map fun c => (c, kv c) with hlK
  set lL := m.oldL.map fun c => (fL c, fetch w.inv (a.left.col c) j.left) with hlL
  set lR := m.oldR.map fun c => (fR c, fetch w.inv (a.right.col c) j.right) with hlR
  have kK : ∀ n, n ∈ lK.map Prod.fst ↔ common a.leftOn a.rightOn n := by
    intro n; rw [hlK, List.map_map]; simp [hm.inter]
  have kL : ∀ n, n ∈ lL.map Prod.fst ↔ ∃ c ∈ m.oldL, fL c = n := by
    intro n; rw [hlL, List.map_map]; simp
  have kR : ∀ n, n ∈ lR.map Prod.fst ↔ ∃ c ∈ m.oldR, fR c = n := by
    intro n; rw [hlR, List.map_map]; simp
  set out2 := setAll lR (setAll lL (setAll lK [])) with hout2
  have mem2 : ∀ n, n ∈ Dict.keys out2 ↔ common a.leftOn a.rightOn n ∨ (∃ c ∈ m.oldL, fL c = n) ∨
      (∃ c ∈ m.oldR, fR c = n) := by
    intro n
    rw [hout2, keys_setAll, keys_setAll, keys_setAll, kK, kL, kR]
    constructor
    · rintro (h | h | h | h)
      · exact Or.inr (Or.inr h)
      · exact Or.inr (Or.inl h)
      · exact Or.inl h
      · simp [Dict.keys] at h
    · rintro (h | h | h)
      · exact Or.inr (Or.inr (Or.inl h))
      · exact Or.inr (Or.inl h)
      · exact Or.inl h
  have nd2 : (Dict.keys out2).Nodup := nodup_setAll _ _ (nodup_setAll _ _ (nodup_setAll _ _ (by simp [Dict.keys])))
  have len2 : ∀ p ∈ out2, p.2.length = rows.length := by
    refine forall_setAll (fun v : List V => v.length = rows.length) _ _ (forall_setAll (fun v : List V => v.length = rows.length) _ _
      (forall_setAll (fun v : List V => v.length = rows.length) _ _ (by simp) ?_) ?_) ?_
    · intro p hp; obtain ⟨c, _, rfl⟩ := List.mem_map.mp hp; simp [hkv]
    · intro p hp; obtain ⟨c, hc, rfl⟩ := List.mem_map.mp hp; simp [vL c hc]
    · intro p hp; obtain ⟨c, hc, rfl⟩ := List.mem_map.mp hp; simp [vR c hc]
  have gK : ∀ c, common a.leftOn a.rightOn c → Dict.get out2 c = some (kv c) := by
    intro c hc
    rw [hout2, get_setAll_of_notMem _ _ _ (by
        rw [kR]; rintro ⟨c', hc', e⟩; exact hm.keyR c' hc' (show common _ _ (fR c') from e ▸ hc)),
      get_setAll_of_notMem _ _ _ (by
        rw [kL]; rintro ⟨c', hc', e⟩; exact hm.keyL c' hc' (show common _ _ (fL c') from e ▸ hc))]
    refine get_setAll_of_mem _ _ _ _ ((kK c).mpr hc) ?_
    intro p hp e
    obtain ⟨c', _, rfl⟩ := List.mem_map.mp hp
    dsimp only at e; subst e; rfl
  have gL : ∀ c ∈ m.oldL, Dict.get out2 (fL c) = some (rows.map fun p => cell w.inv (a.left.col c) p.1) := by
    intro c hc
    rw [hout2, get_setAll_of_notMem _ _ _ (by
        rw [kR]; rintro ⟨c', hc', e⟩; exact hm.disj c hc c' hc' e.symm)]
    refine get_setAll_of_mem _ _ _ _ ((kL _).mpr ⟨c, hc, rfl⟩) ?_
    intro p hp e
    obtain ⟨c', hc', rfl⟩ := List.mem_map.mp hp
    have := hm.injL c' hc' c hc e
    subst this
    exact vL c' hc'
  have gR : ∀ c ∈ m.oldR, Dict.get out2 (fR c) = some (rows.map fun p => cell w.inv (a.right.col c) p.2) := by
    intro c hc
    rw [hout2]
    refine get_setAll_of_mem _ _ _ _ ((kR _).mpr ⟨c, hc, rfl⟩) ?_
    intro p hp e
    obtain ⟨c', hc', rfl⟩ := List.mem_map.mp hp
    have := hm.injR c' hc' c hc e
    subst this
    exact vR c' hc'
  have hreq' : (a.requireMatch && (j.right.getD []).any Option.isNone) = false := by
    rw [Bool.and_eq_false_imp]
    intro hq
    rw [List.any_eq_false]
    intro o ho
    have hr := hreq hq
    unfold JoinIndices.rows at hj
    dsimp only at hj
    split at hj
    · rename_i hlen
      rw [Option.some.injEq] at hj
      cases hjr : j.right with
      | none => rw [hjr] at ho; simp at ho
      | some r =>
        rw [hjr] at ho hj hlen
        simp only [Option.getD_some] at ho hj hlen
        have : o ∈ rows.map Prod.snd := by
          rw [← hj, List.map_snd_zip (by omega)]; exact ho
        obtain ⟨p, hp, rfl⟩ := List.mem_map.mp this
        simp [Option.isSome_iff_ne_none.mp (hr p hp)]
    · cases hj
  have hasm : finish w j a.left a.right m a.requireMatch a.indicator (setAll lK []) =
      match a.indicator.name with
      | none => .ok out2
      | some n =>
        if Dict.has out2 n then .error "ValueError: indicator column name collision"
        else .ok (Dict.set out2 n ((indicatorCodes j).map w.cat)) := by
    unfold finish
    simp only [hreq', Bool.false_eq_true, if_false]
    rw [hm.newL, hm.newR, addCols_eq, addCols_eq]
    cases a.indicator.name <;> rfl
  have fin : ∀ out : Dict Name (List V), (∀ p ∈ out, p.2.length = rows.length) →
      ∃ n, mkDataset out = .ok ⟨n, out⟩ ∧ (out ≠ [] → n = rows.length) := by
    intro out ho
    cases out with
    | nil => exact ⟨0, rfl, fun h => absurd rfl h⟩
    | cons e rest =>
      refine ⟨e.2.length, ?_, fun _ => ho e List.mem_cons_self⟩
      unfold mkDataset
      dsimp only
      rw [if_pos]
      rw [List.all_eq_true]
      intro p hp
      rw [decide_eq_true_eq, ho p (List.mem_cons_of_mem _ hp), ho e List.mem_cons_self]
  have memL : ∀ c, c ∈ a.selL → ¬ common a.leftOn a.rightOn c → c ∈ m.oldL := fun c h1 h2 => (hm.oldL c).mpr ⟨h1, h2⟩
  have memR : ∀ c, c ∈ a.selR → ¬ common a.leftOn a.rightOn c → c ∈ m.oldR := fun c h1 h2 => (hm.oldR c).mpr ⟨h1, h2⟩
  have exL : ∀ n, (∃ c ∈ m.oldL, fL c = n) ↔ ∃ c ∈ a.selL, ¬ common a.leftOn a.rightOn c ∧ n = fL c := by
    intro n
    constructor
    · rintro ⟨c, hc, e⟩; exact ⟨c, ((hm.oldL c).mp hc).1, ((hm.oldL c).mp hc).2, e.symm⟩
    · rintro ⟨c, h1, h2, e⟩; exact ⟨c, memL c h1 h2, e.symm⟩
  have exR : ∀ n, (∃ c ∈ m.oldR, fR c = n) ↔ ∃ c ∈ a.selR, ¬ common a.leftOn a.rightOn c ∧ n = fR c := by
    intro n
    constructor
    · rintro ⟨c, hc, e⟩; exact ⟨c, ((hm.oldR c).mp hc).1, ((hm.oldR c).mp hc).2, e.symm⟩
    · rintro ⟨c, h1, h2, e⟩; exact ⟨c, memR c h1 h2, e.symm⟩
  cases hn : a.indicator.name with
  | none =>
    rw [hn] at hasm
    obtain ⟨n, hd, hlen⟩ := fin out2 len2
    refine ⟨out2, ⟨n, out2⟩, hasm, hd, ?_⟩
    exact { key := gK
            left := fun c h1 h2 => gL c (memL c h1 h2)
            right := fun c h1 h2 => gR c (memR c h1 h2)
            ind := by intro n h; rw [hn] at h; cases h
            only := by
              intro n'
              rw [mem2, exL, exR, hn]
              simp only [reduceCtorEq, or_false]
              exact Iff.rfl
            nodup := nd2
            nrows := hlen }
  | some n =>
    rw [hn] at hasm
    obtain ⟨i1, i2, i3⟩ := hind n hn
    have hnot : n ∉ Dict.keys out2 := by
      rw [mem2, exL, exR]
      rintro (h | ⟨c, h1, h2, h3⟩ | ⟨c, h1, h2, h3⟩)
      · exact i1 h
      · exact i2 c h1 h2 h3
      · exact i3 c h1 h2 h3
    dsimp only at hasm
    rw [(Dict.has_false_iff _ _).mpr hnot] at hasm
    simp only [Bool.false_eq_true, if_false] at hasm
    have hcodes : (indicatorCodes j).map w.cat = rows.map fun p => w.cat (sideCode p) := by
      rw [indicatorCodes_eq hj hone, List.map_map]; rfl
    rw [hcodes] at hasm
    set out3 := Dict.set out2 n (rows.map fun p => w.cat (sideCode p)) with hout3
    have len3 : ∀ p ∈ out3, p.2.length = rows.length := by
      rw [hout3, Dict.set_of_notMem hnot]
      intro p hp
      rw [List.mem_append, List.mem_singleton] at hp
      rcases hp with hp | rfl
      · exact len2 p hp
      · simp
    have g3 : ∀ k v, Dict.get out2 k = some v → Dict.get out3 k = some v := by
      intro k v h
      rw [hout3, Dict.get_set]
      split
      · rename_i e
        subst e
        rw [(Dict.get_eq_none_iff _ _).mpr hnot] at h
        cases h
      · exact h
    obtain ⟨n', hd, hlen⟩ := fin out3 len3
    refine ⟨out3, ⟨n', out3⟩, hasm, hd, ?_⟩
    exact { key := fun c hc => g3 _ _ (gK c hc)
            left := fun c h1 h2 => g3 _ _ (gL c (memL c h1 h2))
            right := fun c h1 h2 => g3 _ _ (gR c (memR c h1 h2))
            ind := by
              intro n'' h
              rw [hn] at h
              cases h
              show Dict.get out3 n = _
              rw [hout3, Dict.get_set, if_pos rfl]
            only := by
              intro n''
              show n'' ∈ Dict.keys out3 ↔ _
              rw [hout3, Dict.mem_keys_set, mem2, exL, exR, hn]
              simp only [Option.some.injEq]
              constructor
              · rintro (h | h | h | h)
                · exact Or.inr (Or.inr (Or.inr h.symm))
                · exact Or.inl h
                · exact Or.inr (Or.inl h)
                · exact Or.inr (Or.inr (Or.inl h))
              · rintro (h | h | h | h)
                · exact Or.inr (Or.inl h)
                · exact Or.inr (Or.inr (Or.inl h))
                · exact Or.inr (Or.inr (Or.inr h))
                · exact Or.inl h.symm
            nodup := Dict.nodup_set nd2 _ _
            nrows := hlen }

/-- Assembly of the output dictionary, given the row pairs. -/
theorem assemble_ok (w : World V) (a : Args V) (m : Mapping)
    (hm : NamesOK a.leftOn a.rightOn a.selL a.selR a.suffixes m)
    (hL : a.left.WF) (hR : a.right.WF)
    (pL : ∀ c ∈ a.selL, c ∈ a.left.cols.keys) (pR : ∀ c ∈ a.selR, c ∈ a.right.cols.keys)
    (pLo : ∀ c ∈ a.leftOn, c ∈ a.left.cols.keys) (pRo : ∀ c ∈ a.rightOn, c ∈ a.right.cols.keys)
    (j : JoinIndices) (rows : List (Option Nat × Option Nat))
    (hj : j.rows a.left.nrows a.right.nrows = some rows) (hs : KeyShape a.how a.left.nrows j rows)
    (hone : j.left ≠ none ∨ j.right ≠ none)
    (hagree : ∀ c, common a.leftOn a.rightOn c → ∀ i k, (some i, some k) ∈ rows →
      (a.left.col c).getD i w.inv = (a.right.col c).getD k w.inv)
    (hreq : a.requireMatch = true → ∀ p ∈ rows, p.2.isSome)
    (hind : ∀ n, a.indicator.name = some n → ¬ common a.leftOn a.rightOn n ∧
      (∀ c ∈ a.selL, ¬ common a.leftOn a.rightOn c →
        n ≠ outName a.leftOn a.rightOn a.selL a.selR (sufL a.suffixes) c) ∧
      (∀ c ∈ a.selR, ¬ common a.leftOn a.rightOn c →
        n ≠ outName a.leftOn a.rightOn a.selL a.selR (sufR a.suffixes) c)) :
    ∃ out ds, assemble w a.how j a.left a.right m a.requireMatch a.indicator = .ok out ∧
      mkDataset out = .ok ds ∧ IsMerged w.inv w.cat a rows ds := by
  obtain ⟨out, ds, h1, h2, h3⟩ := finish_ok w a m hm hL hR pL pR j rows hj hone hreq hind
  refine ⟨out, ds, ?_, h2, h3⟩
  have hkeys := addKeys_ok w.inv a.how j a.left a.right m.inter
    (fun c => rows.map (keyCell w.inv (a.left.col c) (a.right.col c))) (by
    intro c hc
    have hcm := (hm.inter c).mp hc
    exact keyColumn_ok hj hs w.inv _ _ (col_length hL (pLo c hcm.1)) (col_length hR (pRo c hcm.2))
      (hagree c hcm)) []
  unfold assemble
  rw [hkeys]
  exact h1

/-- arguments that pass the checks before any data is looked at -/
structure Args.Checked (a : Args V) : Prop where
  left : a.left.WF
  right : a.right.WF
  leftOn : ∀ c ∈ a.leftOn, c ∈ a.left.cols.keys
  rightOn : ∀ c ∈ a.rightOn, c ∈ a.right.cols.keys
  selL : ∀ c ∈ a.selL, c ∈ a.left.cols.keys
  selR : ∀ c ∈ a.selR, c ∈ a.right.cols.keys
  len : a.leftOn.length = a.rightOn.length
  /-- a key name used on both sides is paired with itself -/
  paired : ∀ c, common a.leftOn a.rightOn c → (c, c) ∈ a.leftOn.zip a.rightOn
  /-- the indicator name is free -/
  ind : ∀ n, a.indicator.name = some n → ¬ common a.leftOn a.rightOn n ∧
      (∀ c ∈ a.selL, ¬ common a.leftOn a.rightOn c →
        n ≠ outName a.leftOn a.rightOn a.selL a.selR (sufL a.suffixes) c) ∧
      (∀ c ∈ a.selR, ¬ common a.leftOn a.rightOn c →
        n ≠ outName a.leftOn a.rightOn a.selL a.selR (sufR a.suffixes) c)

theorem Args.Checked.present {a : Args V} (h : a.Checked) :
    (present a.left a.leftOn && present a.left a.selL && present a.right a.rightOn
      && present a.right a.selR) = true := by
  have : ∀ (ds : DS V) (l : List Name), (∀ c ∈ l, c ∈ ds.cols.keys) → Merge2.present ds l = true := by
    intro ds l hl
    unfold Merge2.present
    rw [List.all_eq_true]
    exact fun c hc => (Dict.has_iff _ _).mpr (hl c hc)
  rw [this _ _ h.leftOn, this _ _ h.rightOn, this _ _ h.selL, this _ _ h.selR]; rfl

/-- **C10, C43** `merge2` without `keep` and `validate`, on any number of key columns: if the
names can be resolved, the result is the Dataset of exactly the rows of the join, each requested
column under its name and nothing else. -/
theorem merge2_correct (w : World V) (hw : w.OK) (a : Args V) (ha : a.Checked)
    (hv : a.validate = none) (hkl : a.keepL = none) (hkr : a.keepR = none)
    (hnames : ∃ m, colnameMapping w.ord a.leftOn a.rightOn a.suffixes a.selL a.selR = .ok m)
    (hreq : a.requireMatch = true → ∀ p ∈ joinRows a.how (rowKeys w.inv w.isnull a.left a.leftOn)
      (rowKeys w.inv w.isnull a.right a.rightOn), p.2.isSome) :
    ∃ out, merge2 w a = .ok out ∧
      IsMerged w.inv w.cat a (joinRows a.how (rowKeys w.inv w.isnull a.left a.leftOn)
        (rowKeys w.inv w.isnull a.right a.rightOn)) out := by
  obtain ⟨m, hm⟩ := hnames
  obtain ⟨j, hj, hrows⟩ := mergeIndices2_rows w hw a.left a.right (a.leftOn.zip a.rightOn) a.how
  have hshape : KeyShape a.how a.left.nrows j _ ∧ _ :=
    keyShape_of_rows a.how (by
      rw [mergeIndices2_eq _ _ _ _ _ _ _ (Or.inr rfl)] at hj
      unfold mergeIndices at hj
      rw [if_neg (by simp)] at hj
      exact hj) a.left.nrows _ _ a.right.nrows hrows
  have agree := fun (c : Name) (hc : common a.leftOn a.rightOn c) =>
    key_agree (inv := w.inv) (isnull := w.isnull) (left := a.left) (right := a.right) (how := a.how)
      (ha.paired c hc)
  have z1 : (a.leftOn.zip a.rightOn).map Prod.fst = a.leftOn := List.map_fst_zip ha.len.le
  have z2 : (a.leftOn.zip a.rightOn).map Prod.snd = a.rightOn := List.map_snd_zip ha.len.ge
  rw [z1, z2] at hrows hshape agree
  obtain ⟨out, ds, h1, h2, h3⟩ := assemble_ok w a m (merge_names_correct hw.ord hm) ha.left ha.right
    ha.selL ha.selR ha.leftOn ha.rightOn j _ hrows hshape.1 hshape.2 agree hreq ha.ind
  refine ⟨ds, ?_, h3⟩
  unfold merge2
  rw [ha.present, hm]
  simp only [Bool.not_true, Bool.false_eq_true, if_false, hv, hkl, hkr, hj, h1, h2]

end
end Verif.Merge2
