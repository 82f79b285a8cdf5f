import Verif.Grp.Apply
/-!
# C53: `apply` (a function on the rows of each group)
-/
namespace Verif.Grp

variable {K R S : Type}

/-- the groups (numbered from 0, the filtered rows left out) that have rows -/
def usedGroups (keys : List Nat) (n : Nat) : List Nat := (List.range n).filter fun i => decide (rowsOf keys (i + 1) ≠ [])

theorem applyCalls_eq (keys : List Nat) (n : Nat) (f : List S → Option (List R)) (rows : List S) (r : Nat → List R)
    (hf : ∀ i ∈ usedGroups keys n, f (valuesAt rows (rowsOf keys (i + 1))) = some (r i)) :
    applyCalls (pack keys n) n f rows = some ((usedGroups keys n).map r) := by
  unfold applyCalls
  have hfil : ((List.range n).filter fun i => decide (0 < ((pack keys n).slice (i + 1)).length)) = usedGroups keys n := by
    unfold usedGroups
    refine List.filter_congr fun i hi => ?_
    rw [List.mem_range] at hi
    rw [slice_pack keys n (i + 1) (by omega), decide_eq_decide, List.length_pos_iff]
  rw [hfil]
  have hlt : ∀ i ∈ usedGroups keys n, i < n := fun i hi => List.mem_range.mp (List.mem_of_mem_filter hi)
  generalize usedGroups keys n = u at hf hlt ⊢
  induction u with
  | nil => rfl
  | cons i u ih =>
    rw [List.mapM_cons, slice_pack keys n (i + 1) (by have := hlt i (by simp); omega), hf i (by simp),
      ih (fun j hj => hf j (List.mem_cons_of_mem _ hj)) (fun j hj => hlt j (List.mem_cons_of_mem _ hj))]
    rfl

theorem flatten_singletons {A : Type} (u : List Nat) (r : Nat → A) : (u.map fun i => [r i]).flatten = u.map r := by
  induction u with
  | nil => rfl
  | cons i u ih => rw [List.map_cons, List.flatten_cons, ih]; rfl

theorem reorder_get {A : Type} (v : List A) (idx : List Nat) (h : ∀ i ∈ idx, i < v.length) (pos j : Nat)
    (hp : idx[pos]? = some j) : (reorder v idx)[pos]? = v[j]? := by
  unfold reorder
  induction idx generalizing pos with
  | nil => simp at hp
  | cons i idx ih =>
    rw [List.filterMap_cons, List.getElem?_eq_getElem (h i (by simp))]
    cases pos with
    | zero =>
      simp only [List.getElem?_cons_zero, Option.some.injEq] at hp
      subst hp
      simp [List.getElem?_eq_getElem (h i (by simp))]
    | succ pos =>
      rw [List.getElem?_cons_succ] at hp ⊢
      exact ih (fun k hk => h k (List.mem_cons_of_mem _ hk)) pos hp

theorem reorder_length {A : Type} (v : List A) (idx : List Nat) (h : ∀ i ∈ idx, i < v.length) :
    (reorder v idx).length = idx.length := valuesAt_length v idx h

theorem reorder_range {A : Type} (v : List A) : reorder v (List.range v.length) = v := by
  refine List.ext_getElem? fun i => ?_
  by_cases hi : i < v.length
  · rw [reorder_get v _ (fun j hj => List.mem_range.mp hj) i i (List.getElem?_range hi)]
  · rw [List.getElem?_eq_none (by rw [reorder_length _ _ (fun j hj => List.mem_range.mp hj), List.length_range]; omega),
      List.getElem?_eq_none (by omega)]

/-- **C53** `apply` with a function that gives one row per group, when every group has rows: the result has one row per group, and
each row has the label and the result of the same group, whatever the display order `order`. -/
theorem apply_one_row_correct (keys : List Nat) (n : Nat) (labels : List K) (hlab : labels.length = n)
    (order : List Nat) (isort : Option (List Nat)) (hord : isort = none ∧ order = List.range n ∨ isort = some order ∧ ∀ j ∈ order, j < n)
    (f : List S → Option (List R)) (rows : List S) (r : Nat → R) (hn : 0 < n)
    (hused : ∀ i, i < n → rowsOf keys (i + 1) ≠ [])
    (hf : ∀ i, i < n → f (valuesAt rows (rowsOf keys (i + 1))) = some [r i]) :
    ∃ out, apply (pack keys n) n (reorder labels order) isort f rows = some (.reduced out) ∧ out.length = order.length ∧
      ∀ (pos j : Nat), order[pos]? = some j → ∃ k, labels[j]? = some k ∧ out[pos]? = some (k, some (r j)) := by
  have hu : usedGroups keys n = List.range n := by
    unfold usedGroups
    rw [List.filter_eq_self]
    intro i hi
    simpa using hused i (List.mem_range.mp hi)
  have hc := applyCalls_eq keys n f rows (fun i => [r i]) (fun i hi => hf i (List.mem_range.mp (by rw [hu] at hi; exact hi)))
  rw [hu] at hc
  unfold apply
  rw [hc]
  dsimp only
  rw [flatten_singletons, if_neg (by intro h; have := congrArg List.length h; simp at this; omega), if_pos (by simp),
    if_neg (by simp)]
  rcases hord with ⟨rfl, rfl⟩ | ⟨rfl, ho⟩
  · refine ⟨_, rfl, ?_, ?_⟩
    · rw [List.length_zip, reorder_length _ _ (fun j hj => by rw [hlab]; exact List.mem_range.mp hj)]
      simp
    · intro pos j hp
      have hpos : pos < n := by
        by_contra h
        rw [List.getElem?_eq_none (by simp; omega)] at hp
        simp at hp
      rw [List.getElem?_range hpos] at hp
      have hpj := Option.some.inj hp
      subst hpj
      refine ⟨labels[pos], List.getElem?_eq_getElem _, ?_⟩
      rw [List.getElem?_zip_eq_some]
      refine ⟨?_, ?_⟩
      · dsimp only
        rw [reorder_get labels _ (fun j hj => by rw [hlab]; exact List.mem_range.mp hj) pos pos (List.getElem?_range hpos)]
        exact List.getElem?_eq_getElem _
      · dsimp only
        rw [List.getElem?_map, List.getElem?_map, List.getElem?_range hpos]
        rfl
  · refine ⟨_, rfl, ?_, ?_⟩
    · rw [List.length_zip, reorder_length _ _ (fun j hj => by rw [hlab]; exact ho j hj)]
      simp
    · intro pos j hp
      have hj := ho j (List.mem_of_getElem? hp)
      refine ⟨labels[j], List.getElem?_eq_getElem _, ?_⟩
      rw [List.getElem?_zip_eq_some]
      refine ⟨?_, ?_⟩
      · dsimp only
        rw [reorder_get labels _ (fun j hj => by rw [hlab]; exact ho j hj) pos j hp]
        exact List.getElem?_eq_getElem _
      · dsimp only
        rw [List.getElem?_map, hp, Option.map_some, mbget_nat, List.getElem?_map, List.getElem?_range hj]
        rfl

/-- non-vacuity: three groups displayed in another order -/
example : apply (pack [1, 3, 2, 3, 0] 3) 3 (reorder ["c", "a", "b"] [1, 2, 0]) (some [1, 2, 0])
    (fun x : List Nat => some [x.sum]) [1, 2, 3, 4, 5] = some (.reduced [("a", some 3), ("b", some 6), ("c", some 1)]) := by decide

theorem pick_used (keys : List Nat) (n : Nat) (labels : List K) (hlab : labels.length = n) :
    ((List.zip labels (((pack keys n).nCount.drop 1).map fun c => decide (0 < c))).filterMap
      fun (k, m) => if m then some k else none) = reorder labels (usedGroups keys n) := by
  have hd : ((pack keys n).nCount.drop 1).map (fun c => decide (0 < c)) =
      (List.range n).map fun i => decide (rowsOf keys (i + 1) ≠ []) := by
    unfold pack
    dsimp only
    refine List.ext_getElem? fun i => ?_
    rw [List.getElem?_map, List.getElem?_drop, List.getElem?_map, List.getElem?_map]
    by_cases hi : i < n
    · rw [List.getElem?_range (by omega), List.getElem?_range hi]
      simp only [Option.map_some, Option.some.injEq]
      rw [Nat.add_comm 1 i, decide_eq_decide, List.length_pos_iff]
    · rw [List.getElem?_eq_none (by simp; omega), List.getElem?_eq_none (by simp; omega)]
      rfl
  rw [hd]
  unfold usedGroups reorder
  have gen : ∀ (labels : List K) (p : Nat → Bool) (pre : List K),
      ((List.zip labels ((List.range labels.length).map fun i => p (pre.length + i))).filterMap
        fun (x : K × Bool) => if x.2 then some x.1 else none) =
      (((List.range labels.length).map (pre.length + ·)).filter p).filterMap fun i => (pre ++ labels)[i]? := by
    intro labels p
    induction labels with
    | nil => intro pre; rfl
    | cons k labels ih =>
      intro pre
      rw [List.length_cons, List.range_succ_eq_map, List.map_cons, List.map_cons, List.zip_cons_cons, List.filterMap_cons,
        List.map_map, List.map_map, Nat.add_zero, List.filter_cons]
      have := ih (pre ++ [k])
      simp only [List.length_append, List.length_cons, List.length_nil, List.append_assoc, List.cons_append, List.nil_append] at this
      have e1 : (fun i => p (pre.length + i)) ∘ Nat.succ = fun i => p (pre.length + (0 + 1) + i) := by
        funext i; simp only [Function.comp]; congr 1; omega
      have e2 : (fun x => pre.length + x) ∘ Nat.succ = fun x => pre.length + (0 + 1) + x := by
        funext i; simp only [Function.comp]; omega
      rw [e1, e2, this]
      cases hp : p pre.length with
      | true => simp
      | false => simp
  have := gen labels (fun i => decide (rowsOf keys (i + 1) ≠ [])) []
  simp only [List.length_nil, Nat.zero_add, List.nil_append, List.map_id'] at this
  rw [hlab] at this
  exact this

/-- **C53** with groups that have no rows, and the display order the order of the groups: one row for each group that has rows, with
the label of that group -/
theorem apply_one_row_gaps (keys : List Nat) (n : Nat) (labels : List K) (hlab : labels.length = n)
    (f : List S → Option (List R)) (rows : List S) (r : Nat → R)
    (hsome : ∃ i, i < n ∧ rowsOf keys (i + 1) ≠ []) (hgap : ∃ i, i < n ∧ rowsOf keys (i + 1) = [])
    (hf : ∀ i, i < n → rowsOf keys (i + 1) ≠ [] → f (valuesAt rows (rowsOf keys (i + 1))) = some [r i]) :
    ∃ out, apply (pack keys n) n labels none f rows = some (.reduced out) ∧
      (∀ k v, (k, v) ∈ out ↔ ∃ j, j < n ∧ rowsOf keys (j + 1) ≠ [] ∧ labels[j]? = some k ∧ v = some (r j)) ∧
      out.length = (usedGroups keys n).length := by
  have hc := applyCalls_eq keys n f rows (fun i => [r i]) (fun i hi => by
    unfold usedGroups at hi
    rw [List.mem_filter, List.mem_range, decide_eq_true_iff] at hi
    exact hf i hi.1 hi.2)
  have hlt : ∀ j ∈ usedGroups keys n, j < labels.length := fun j hj => by
    rw [hlab]; exact List.mem_range.mp (List.mem_of_mem_filter hj)
  have hne : usedGroups keys n ≠ [] := by
    obtain ⟨i, h1, h2⟩ := hsome
    exact List.ne_nil_of_mem (List.mem_filter.mpr ⟨List.mem_range.mpr h1, by simpa using h2⟩)
  have hless : (usedGroups keys n).length < n := by
    obtain ⟨i, h1, h2⟩ := hgap
    have := List.length_filter_lt_length_iff_exists (l := List.range n) (p := fun i => decide (rowsOf keys (i + 1) ≠ []))
    rw [List.length_range] at this
    exact this.mpr ⟨i, List.mem_range.mpr h1, by simp [h2]⟩
  unfold apply
  rw [hc]
  dsimp only
  rw [flatten_singletons, if_neg (by intro h; exact hne (List.map_eq_nil_iff.mp h)), if_pos (by simp),
    if_pos (by simpa using hless), pick_used keys n labels hlab]
  have hlen := reorder_length labels (usedGroups keys n) hlt
  unfold addCol
  rw [if_pos (by rw [hlen]; simp)]
  dsimp only
  refine ⟨_, rfl, ?_, by rw [List.length_zip, hlen]; simp⟩
  intro k v
  constructor
  · intro hm
    obtain ⟨pos, hp⟩ := List.getElem?_of_mem hm
    rw [List.getElem?_zip_eq_some] at hp
    obtain ⟨h1, h2⟩ := hp
    dsimp only at h1 h2
    rw [List.getElem?_map, List.getElem?_map] at h2
    cases hj : (usedGroups keys n)[pos]? with
    | none => rw [hj] at h2; simp at h2
    | some j =>
      rw [hj] at h2
      rw [reorder_get labels _ hlt pos j hj] at h1
      have hm := List.mem_of_getElem? hj
      unfold usedGroups at hm
      rw [List.mem_filter, List.mem_range, decide_eq_true_iff] at hm
      exact ⟨j, hm.1, hm.2, h1, by simpa using h2.symm⟩
  · rintro ⟨j, h1, h2, h3, rfl⟩
    have hm : j ∈ usedGroups keys n := List.mem_filter.mpr ⟨List.mem_range.mpr h1, by simpa using h2⟩
    obtain ⟨pos, hp⟩ := List.getElem?_of_mem hm
    refine List.mem_of_getElem? (i := pos) ?_
    rw [List.getElem?_zip_eq_some]
    dsimp only
    rw [reorder_get labels _ hlt pos j hp, List.getElem?_map, List.getElem?_map, hp]
    exact ⟨h3, rfl⟩

/-- non-vacuity -/
example : apply (pack [1, 3, 3, 0] 3) 3 ["a", "b", "c"] none (fun x : List Nat => some [x.sum]) [1, 2, 3, 4] =
    some (.reduced [("a", some 1), ("c", some 5)]) := by decide

/-- **C53** (finding) With a group without rows and results shown in sorted order, a function that gives one row per group always makes
`apply` raise -/
theorem apply_sorted_gaps_raises (keys : List Nat) (n : Nat) (labels : List K) (order : List Nat) (hord : order.length = n)
    (f : List S → Option (List R)) (rows : List S) (r : Nat → R) (hgap : ∃ i, i < n ∧ rowsOf keys (i + 1) = [])
    (hf : ∀ i, i < n → rowsOf keys (i + 1) ≠ [] → f (valuesAt rows (rowsOf keys (i + 1))) = some [r i]) :
    apply (pack keys n) n labels (some order) f rows = none := by
  have hc := applyCalls_eq keys n f rows (fun i => [r i]) (fun i hi => by
    unfold usedGroups at hi
    rw [List.mem_filter, List.mem_range, decide_eq_true_iff] at hi
    exact hf i hi.1 hi.2)
  have hless : (usedGroups keys n).length < n := by
    obtain ⟨i, h1, h2⟩ := hgap
    have := List.length_filter_lt_length_iff_exists (l := List.range n) (p := fun i => decide (rowsOf keys (i + 1) ≠ []))
    rw [List.length_range] at this
    exact this.mpr ⟨i, List.mem_range.mpr h1, by simp [h2]⟩
  unfold apply
  rw [hc]
  dsimp only
  by_cases he : usedGroups keys n = []
  · rw [he]; rfl
  rw [flatten_singletons, if_neg (fun h => he (List.map_eq_nil_iff.mp h)), if_pos (by simp), if_pos (by simpa using hless)]
  have hpos : 0 < (usedGroups keys n).length := List.length_pos_iff.mpr he
  have hadd : addCol ((usedGroups keys n).map r).length
      (order.map fun (j : Nat) => mbget ((usedGroups keys n).map r) (j : Int)) = none := by
    unfold addCol
    rw [if_neg (by simp; omega)]
    split
    · rename_i x hx
      have := congrArg List.length hx
      simp at this
      omega
    · rfl
  rw [hadd]

/-- **C53** (counterexample to "`apply` works when some group has no rows") -/
theorem apply_sorted_gaps_counterexample :
    apply (pack [1, 3, 3, 0] 3) 3 ["a", "b", "c"] (some [0, 1, 2]) (fun x : List Nat => some [x.sum]) [1, 2, 3, 4] = none ∧
    apply (pack [1, 2, 2, 0] 2) 2 ["a", "c"] (some [0, 1]) (fun x : List Nat => some [x.sum]) [1, 2, 3, 4] =
      some (.reduced [("a", some 1), ("c", some 5)]) := by decide

/-! ## Results with as many rows as the groups -/

/-- where the entry `j` of group `g` stands in packed order -/
theorem packed_pos {A : Type} (keys : List Nat) (n : Nat) (F : Nat → List A)
    (hF : ∀ g, g ≤ n → (F g).length = (rowsOf keys g).length) (a : List A) (ha : a = (List.range (n + 1)).flatMap F)
    (g j i : Nat) (hg : g ≤ n) (hj : (rowsOf keys g)[j]? = some i) :
    a[(pack keys n).iGroup.idxOf i]? = (F g)[j]? := by
  have hjl : j < (rowsOf keys g).length := by
    by_contra hn
    rw [List.getElem?_eq_none (by omega)] at hj
    simp at hj
  have hf := pack_first keys n g hg
  have he := pack_entry keys n g j hg hjl _ hf
  rw [hj] at he
  obtain ⟨hlt, he⟩ := List.getElem?_eq_some_iff.mp he
  have hidx := (pack_iGroup_nodup keys n).idxOf_getElem _ hlt
  rw [he] at hidx
  rw [hidx]
  have := slice_flatten ((List.range (n + 1)).map F) g (F g) (by rw [List.getElem?_map, List.getElem?_range (by omega)]; rfl)
  rw [← List.flatMap_def, ← ha] at this
  have hlens : (((List.range (n + 1)).map F).map List.length) = (List.range (n + 1)).map fun g => (rowsOf keys g).length := by
    rw [List.map_map]
    refine List.map_congr_left fun k hk => ?_
    rw [List.mem_range] at hk
    exact hF k (by omega)
  rw [hlens] at this
  conv_rhs => rw [← this]
  rw [List.getElem?_take_of_lt (by rw [hF g hg]; exact hjl), List.getElem?_drop]

theorem lookup_zip {A : Type} (l : List Nat) : ∀ (a : List A) (i : Nat), i ∈ l → l.length = a.length →
    (l.zip a).lookup i = a[l.idxOf i]? := by
  induction l with
  | nil => intro a i h; simp at h
  | cons x l ih =>
    intro a i h hl
    cases a with
    | nil => simp at hl
    | cons y a =>
      rw [List.zip_cons_cons, List.lookup_cons, List.idxOf_cons]
      by_cases hx : x = i
      · subst hx; simp
      · have h1 : (i == x) = false := by simpa using fun h => hx h.symm
        have h2 : (x == i) = false := by simpa using hx
        rw [h1, h2]
        simp only [cond_false]
        rw [List.getElem?_cons_succ]
        exact ih a i (by simpa [Ne.symm hx] using h) (by simpa using hl)

theorem flatten_used {A : Type} (keys : List Nat) (n : Nat) (res : Nat → List A) :
    ((usedGroups keys n).map res).flatten = (List.range n).flatMap fun i => if rowsOf keys (i + 1) = [] then [] else res i := by
  unfold usedGroups
  generalize List.range n = l
  induction l with
  | nil => rfl
  | cons i l ih =>
    rw [List.filter_cons, List.flatMap_cons]
    by_cases h : rowsOf keys (i + 1) = []
    · simp only [h, ne_eq, not_true, decide_false, Bool.false_eq_true, if_false, if_true, List.nil_append]
      exact ih
    · simp only [h, ne_eq, not_false_iff, decide_true, if_true, if_false, List.map_cons, List.flatten_cons]
      rw [ih]

/-- **C53** (partial: needs a result whose number of rows differs from the number of groups) `apply` with a function that keeps the
number of rows: the rows of the result stand where the rows of the groups were, rows of no group are invalid. -/
theorem apply_same_rows_partial (keys : List Nat) (n : Nat) (hk : ∀ k ∈ keys, k ≤ n) (labels : List K) (isort : Option (List Nat))
    (f : List S → Option (List R)) (rows : List S) (res : Nat → List R)
    (hf : ∀ i, i < n → rowsOf keys (i + 1) ≠ [] → f (valuesAt rows (rowsOf keys (i + 1))) = some (res i) ∧
      (res i).length = (rowsOf keys (i + 1)).length)
    (hmany : ∃ i, i < n ∧ 2 ≤ (rowsOf keys (i + 1)).length) :
    ∃ out, apply (pack keys n) n labels isort f rows = some (.perRow out) ∧ out.length = keys.length ∧
      (∀ (g j i : Nat), g < n → (rowsOf keys (g + 1))[j]? = some i → out[i]? = some ((res g)[j]?)) ∧
      ∀ i, i ∈ rowsOf keys 0 → out[i]? = some none := by
  have hc := applyCalls_eq keys n f rows res (fun i hi => by
    unfold usedGroups at hi
    rw [List.mem_filter, List.mem_range, decide_eq_true_iff] at hi
    exact (hf i hi.1 hi.2).1)
  have hne : usedGroups keys n ≠ [] := by
    obtain ⟨i, h1, h2⟩ := hmany
    refine List.ne_nil_of_mem (a := i) (List.mem_filter.mpr ⟨List.mem_range.mpr h1, ?_⟩)
    rw [decide_eq_true_iff]
    intro h
    rw [h] at h2
    simp at h2
  -- more rows than groups
  have hlong : ((usedGroups keys n).map res).length < ((usedGroups keys n).map res).flatten.length := by
    rw [List.length_flatten, List.map_map, List.length_map]
    obtain ⟨i, h1, h2⟩ := hmany
    have him : i ∈ usedGroups keys n := by
      refine List.mem_filter.mpr ⟨List.mem_range.mpr h1, ?_⟩
      rw [decide_eq_true_iff]
      intro h
      rw [h] at h2
      simp at h2
    have hge : ∀ k ∈ usedGroups keys n, 1 ≤ (List.length ∘ res) k := by
      intro k hkm
      unfold usedGroups at hkm
      rw [List.mem_filter, List.mem_range, decide_eq_true_iff] at hkm
      show 1 ≤ (res k).length
      rw [(hf k hkm.1 hkm.2).2]
      exact List.length_pos_iff.mpr hkm.2
    have hi2 : 2 ≤ (List.length ∘ res) i := by
      show 2 ≤ (res i).length
      rw [(hf i h1 (by intro h; rw [h] at h2; simp at h2)).2]
      exact h2
    generalize usedGroups keys n = u at hge him
    generalize (List.length ∘ res) = len at hge hi2
    clear hne hc
    have hsum : ∀ u : List Nat, (∀ k ∈ u, 1 ≤ len k) → u.length ≤ (u.map len).sum := by
      intro u
      induction u with
      | nil => intro _; simp
      | cons x u ih =>
        intro h
        have := ih fun k hk => h k (List.mem_cons_of_mem _ hk)
        have := h x (by simp)
        simp only [List.length_cons, List.map_cons, List.sum_cons]
        omega
    induction u with
    | nil => simp at him
    | cons x u ih =>
      simp only [List.length_cons, List.map_cons, List.sum_cons]
      have hx := hge x (by simp)
      rcases List.mem_cons.mp him with rfl | h
      · have := hsum u fun k hk => hge k (List.mem_cons_of_mem _ hk)
        omega
      · have := ih h (fun k hk => hge k (List.mem_cons_of_mem _ hk))
        omega
  unfold apply
  rw [hc]
  dsimp only
  rw [if_neg (fun h => hne (List.map_eq_nil_iff.mp h)), if_neg (by omega)]
  let F : Nat → List (Option R) := fun g => match g with
    | 0 => List.replicate (rowsOf keys 0).length none
    | g + 1 => if rowsOf keys (g + 1) = [] then [] else (res g).map some
  have hFl : ∀ g, g ≤ n → (F g).length = (rowsOf keys g).length := by
    intro g hg
    cases g with
    | zero => exact List.length_replicate
    | succ g =>
      show (if _ then _ else _ : List (Option R)).length = _
      by_cases h : rowsOf keys (g + 1) = []
      · rw [if_pos h, h]; rfl
      · rw [if_neg h, List.length_map, (hf g (by omega) h).2]
  have hcount : (pack keys n).nCount.getD 0 0 = (rowsOf keys 0).length := by
    rw [List.getD_eq_getElem?_getD, pack_count keys n 0 (by omega)]; rfl
  have hres : List.replicate ((pack keys n).nCount.getD 0 0) none ++ ((usedGroups keys n).map res).flatten.map some =
      (List.range (n + 1)).flatMap F := by
    rw [hcount, flatten_used, List.range_succ_eq_map, List.flatMap_cons, List.flatMap_map, List.map_flatMap]
    congr 1
    congr 1
    funext i
    show _ = if _ then _ else _
    split <;> rfl
  have hlen : ((List.range (n + 1)).flatMap F).length = (pack keys n).iGroup.length := by
    unfold pack
    rw [List.length_flatMap, List.length_flatMap]
    congr 1
    exact List.map_congr_left fun g hg => hFl g (by rw [List.mem_range] at hg; omega)
  rw [hres, if_pos hlen]
  have hil := pack_iGroup_length hk
  refine ⟨_, rfl, by rw [List.length_map, List.length_range, hlen, hil], ?_, ?_⟩
  · intro g j i hg hj
    have hi : i < keys.length := rowsOf_lt (List.mem_of_getElem? hj)
    rw [List.getElem?_map, List.getElem?_range (by rw [hlen, hil]; exact hi), Option.map_some,
      lookup_zip _ _ _ ((mem_pack_iGroup hk).mpr hi) hlen.symm, packed_pos keys n F hFl _ rfl (g + 1) j i (by omega) hj]
    show some (Option.join (if _ then _ else _ : List (Option R))[j]?) = _
    have hne : rowsOf keys (g + 1) ≠ [] := by intro h; rw [h] at hj; simp at hj
    rw [if_neg hne, List.getElem?_map]
    cases (res g)[j]? <;> rfl
  · intro i hm
    have hi : i < keys.length := rowsOf_lt hm
    obtain ⟨j, hj⟩ := List.getElem?_of_mem hm
    rw [List.getElem?_map, List.getElem?_range (by rw [hlen, hil]; exact hi), Option.map_some,
      lookup_zip _ _ _ ((mem_pack_iGroup hk).mpr hi) hlen.symm, packed_pos keys n F hFl _ rfl 0 j i (by omega) hj]
    show some (Option.join (List.replicate (rowsOf keys 0).length none)[j]?) = _
    rw [List.getElem?_replicate]
    split <;> rfl

/-- non-vacuity -/
example : apply (pack [2, 1, 0, 2] 2) 2 ["a", "b"] none (fun x : List Nat => some x.reverse) [1, 2, 3, 4] =
    some (.perRow [some 4, some 2, none, some 1]) := by decide

/-- **C53** (counterexample) Keeping the even values of each group: group `a` keeps no row, group `b` keeps two. As the number of kept
rows is the number of groups, a kept row of `b` is shown as the result of `a`. -/
theorem apply_mislabels_counterexample :
    apply (pack [1, 2, 2] 2) 2 ["a", "b"] none (fun x : List Nat => some (x.filter fun v => decide (v % 2 = 0))) [1, 2, 4] =
      some (.reduced [("a", some 2), ("b", some 4)]) ∧
    valuesAt [1, 2, 4] (rowsOf [1, 2, 2] 1) = [1] := by decide

/-- **C53** (counterexample) A function that keeps the number of rows gives rows in key order, not in the places of the rows, when every
group has one row. -/
theorem apply_single_rows_counterexample :
    apply (pack [2, 1] 2) 2 ["a", "b"] none (fun x : List Nat => some x) [7, 8] = some (.reduced [("a", some 8), ("b", some 7)]) ∧
    apply (pack [2, 1, 1] 2) 2 ["a", "b"] none (fun x : List Nat => some x) [7, 8, 9] =
      some (.perRow [some 7, some 8, some 9]) := by decide

end Verif.Grp
