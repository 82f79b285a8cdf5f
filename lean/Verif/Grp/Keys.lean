import Verif.Grp.ApplyRows
/-!
# C54: labels of grouped results; C55: `transform`
-/
namespace Verif.Grp

variable {K V : Type}

/-- the state of a keychain for the labels `ks`, whatever was asked of it before -/
structure KInv (srt : List K → List Nat) (flt : K) (ks : List K) (c : Keychain K) : Prop where
  sorted : c.sortData = true → (c.sortApplied = false ∧ c.filterApplied = false ∧ c.keys = ks ∧ (c.isort = none ∨ c.isort = some (srt ks))) ∨
    (c.sortApplied = true ∧ c.isort = some (srt ks) ∧
      c.keys = (if c.filterApplied then [flt] else []) ++ reorder ks (srt ks))
  plain : c.sortData = false → c.sortApplied = false ∧ c.keys = (if c.filterApplied then [flt] else []) ++ ks

theorem sortData_iff (c : Keychain K) : (c.sortDisplay = true ∧ c.preSorted = false) ↔ c.sortData = true := by
  unfold Keychain.sortData
  cases c.sortDisplay <;> cases c.preSorted <;> simp

/-- the order in which the groups are shown -/
def shownOrder (srt : List K → List Nat) (ks : List K) (sortData : Bool) : List Nat :=
  if sortData then srt ks else List.range ks.length

/-- asking for the keys -/
theorem getKeys_spec {srt : List K → List Nat} {flt : K} {ks : List K} {c : Keychain K} (h : KInv srt flt ks c) (sf : Bool) :
    KInv srt flt ks (c.getKeys srt sf).1 ∧ (c.getKeys srt sf).1.sortDisplay = c.sortDisplay ∧
    (c.getKeys srt sf).1.preSorted = c.preSorted ∧ (c.getKeys srt sf).1.filterApplied = c.filterApplied ∧
    (c.getKeys srt sf).2 = (if sf = true ∧ c.filterApplied = true then [flt] else []) ++ reorder ks (shownOrder srt ks c.sortData) ∧
    (c.sortData = true → (c.getKeys srt sf).1.sortApplied = true) := by
  unfold Keychain.getKeys shownOrder
  dsimp only
  by_cases hs : c.sortData = true
  · have hsd := (sortData_iff c).mpr hs
    rcases h.sorted hs with ⟨h1, h2, h3, h4⟩ | ⟨h1, h2, h3⟩
    · rw [if_pos ⟨hsd.1, hsd.2, h1⟩]
      have hi : c.isort.getD (srt c.keys) = srt ks := by
        rcases h4 with h4 | h4 <;> rw [h4] <;> simp [h3]
      rw [hi, h3, h2, hs]
      simp only [Bool.false_eq_true, and_false, if_false, if_true, List.nil_append, implies_true, and_true, true_and]
      refine ⟨fun _ => Or.inr ⟨rfl, rfl, ?_⟩, fun hf => ?_⟩
      · rfl
      · exact absurd hs (by rw [show c.sortData = _ from hf]; simp)
    · rw [if_neg (by rw [h1]; simp)]
      refine ⟨h, rfl, rfl, rfl, ?_, fun _ => h1⟩
      rw [h3, hs]
      cases c.filterApplied <;> cases sf <;> simp
  · have hs' : c.sortData = false := by simpa using hs
    rw [if_neg (fun hh => hs ((sortData_iff c).mp ⟨hh.1, hh.2.1⟩))]
    obtain ⟨h1, h2⟩ := h.plain hs'
    refine ⟨h, rfl, rfl, rfl, ?_, fun hh => absurd hh hs⟩
    rw [h2, hs']
    simp only [Bool.false_eq_true, if_false]
    rw [reorder_range]
    cases c.filterApplied <;> cases sf <;> simp

theorem filtered_spec {srt : List K → List Nat} {flt : K} {ks : List K} {c : Keychain K} (h : KInv srt flt ks c) :
    KInv srt flt ks (c.gbkeysFiltered srt flt).1 ∧ (c.gbkeysFiltered srt flt).1.sortDisplay = c.sortDisplay ∧
    (c.gbkeysFiltered srt flt).1.preSorted = c.preSorted ∧
    (c.gbkeysFiltered srt flt).2 = flt :: reorder ks (shownOrder srt ks c.sortData) := by
  unfold Keychain.gbkeysFiltered
  by_cases hf : c.filterApplied = false
  · rw [if_pos hf]
    unfold Keychain.gbkeys
    obtain ⟨g1, g2, g3, g4, g5, g6⟩ := getKeys_spec h false
    rcases hc : c.getKeys srt false with ⟨c', ks'⟩
    rw [hc] at g1 g2 g3 g4 g5 g6
    dsimp only at g1 g2 g3 g4 g5 g6 ⊢
    have hsd : c'.sortData = c.sortData := by unfold Keychain.sortData; rw [g2, g3]
    simp only [Bool.false_eq_true, false_and, if_false, List.nil_append] at g5
    have hinv : KInv srt flt ks { c' with keys := flt :: ks', filterApplied := true } := by
      constructor
      · intro hs
        have hs2 : c.sortData = true := by rw [← hsd]; exact hs
        refine Or.inr ⟨g6 hs2, ?_, ?_⟩
        · rcases g1.sorted (by rw [hsd]; exact hs2) with ⟨h1, _⟩ | ⟨_, h2, _⟩
          · rw [g6 hs2] at h1; simp at h1
          · exact h2
        · show flt :: ks' = [flt] ++ reorder ks (srt ks)
          rw [g5, hs2]; rfl
      · intro hs
        have hs2 : c.sortData = false := by rw [← hsd]; exact hs
        refine ⟨(g1.plain (by rw [hsd]; exact hs2)).1, ?_⟩
        show flt :: ks' = [flt] ++ ks
        rw [g5, hs2]
        simp [shownOrder, reorder_range]
    obtain ⟨k1, k2, k3, k4, k5, k6⟩ := getKeys_spec hinv true
    refine ⟨k1, by rw [k2]; exact g2, by rw [k3]; exact g3, ?_⟩
    rw [k5]
    have : ({ c' with keys := flt :: ks', filterApplied := true } : Keychain K).sortData = c.sortData := hsd
    rw [this]
    rfl
  · rw [if_neg hf]
    have hf' : c.filterApplied = true := by simpa using hf
    obtain ⟨k1, k2, k3, k4, k5, k6⟩ := getKeys_spec h true
    refine ⟨k1, k2, k3, ?_⟩
    rw [k5, hf']
    rfl

theorem isortrows_spec {srt : List K → List Nat} {flt : K} {ks : List K} {c : Keychain K} (h : KInv srt flt ks c) :
    KInv srt flt ks (c.isortrows srt).1 ∧ (c.isortrows srt).1.sortDisplay = c.sortDisplay ∧
    (c.isortrows srt).1.preSorted = c.preSorted ∧ (c.sortData = true → (c.isortrows srt).2 = srt ks) := by
  unfold Keychain.isortrows
  dsimp only
  have hi : c.sortData = true → c.isort.getD (srt c.keys) = srt ks := by
    intro hs
    rcases h.sorted hs with ⟨_, _, h3, h4⟩ | ⟨_, h2, _⟩
    · rcases h4 with h4 | h4 <;> rw [h4] <;> simp [h3]
    · rw [h2]; rfl
  refine ⟨⟨fun hs => ?_, fun hs => h.plain hs⟩, rfl, rfl, hi⟩
  have hs' : c.sortData = true := hs
  rcases h.sorted hs' with ⟨h1, h2, h3, h4⟩ | ⟨h1, h2, h3⟩
  · exact Or.inl ⟨h1, h2, h3, Or.inr (by show some _ = _; rw [hi hs'])⟩
  · exact Or.inr ⟨h1, by show some _ = _; rw [hi hs'], h3⟩

theorem kstep_inv {srt : List K → List Nat} {flt : K} {ks : List K} {c : Keychain K} (h : KInv srt flt ks c) (op : KOp) :
    KInv srt flt ks (c.step srt flt op) ∧ (c.step srt flt op).sortData = c.sortData := by
  unfold Keychain.sortData
  cases op with
  | gbkeys =>
    obtain ⟨k1, k2, k3, _⟩ := getKeys_spec h false
    exact ⟨k1, by show ((c.getKeys srt false).1.sortDisplay && !(c.getKeys srt false).1.preSorted) = _; rw [k2, k3]⟩
  | gbkeysFiltered =>
    obtain ⟨k1, k2, k3, _⟩ := filtered_spec h
    exact ⟨k1, by show ((c.gbkeysFiltered srt flt).1.sortDisplay && !(c.gbkeysFiltered srt flt).1.preSorted) = _; rw [k2, k3]⟩
  | isortrows =>
    obtain ⟨k1, k2, k3, _⟩ := isortrows_spec h
    exact ⟨k1, by show ((c.isortrows srt).1.sortDisplay && !(c.isortrows srt).1.preSorted) = _; rw [k2, k3]⟩

theorem krun_inv {srt : List K → List Nat} {flt : K} {ks : List K} {c : Keychain K} (h : KInv srt flt ks c) (ops : List KOp) :
    KInv srt flt ks (ops.foldl (Keychain.step srt flt) c) ∧ (ops.foldl (Keychain.step srt flt) c).sortData = c.sortData := by
  induction ops generalizing c with
  | nil => exact ⟨h, rfl⟩
  | cons op ops ih =>
    obtain ⟨h1, h2⟩ := kstep_inv h op
    obtain ⟨h3, h4⟩ := ih h1
    exact ⟨h3, by rw [List.foldl_cons, h4, h2]⟩

theorem kfresh_inv (srt : List K → List Nat) (flt : K) (ks : List K) (sd ps : Bool) :
    KInv srt flt ks { keys := ks, sortDisplay := sd, preSorted := ps } :=
  ⟨fun _ => Or.inl ⟨rfl, rfl, rfl, Or.inl rfl⟩, fun _ => ⟨rfl, rfl⟩⟩

theorem zip_get {A B : Type} (l : List A) (m : List B) (i : Nat) (a : A) (b : B) (h1 : l[i]? = some a) (h2 : m[i]? = some b) :
    (l.zip m)[i]? = some (a, b) := by
  rw [List.getElem?_zip_eq_some]; exact ⟨h1, h2⟩

/-- **C54** Labels and values of a grouped result belong together: after any history of requests for keys, with or without the
filtered rows, for any order in which the groups are shown, the row of the result for group `j` holds the label of group `j`
and the value computed for group `j`. -/
theorem result_labels_correct (srt : List K → List Nat) (flt : K) (ks : List K) (sd ps : Bool)
    (hsrt : (srt ks).Perm (List.range ks.length)) (ops : List KOp) (col : List V) (hcol : col.length = ks.length) :
    ∃ labels data, (finalize srt flt (ops.foldl (Keychain.step srt flt) { keys := ks, sortDisplay := sd, preSorted := ps }) none false col).2 =
        some (labels, data) ∧ labels.length = ks.length ∧ data.length = ks.length ∧
      ∀ (j : Nat) (k : K) (v : V), ks[j]? = some k → col[j]? = some v → ∃ pos : Nat, labels[pos]? = some k ∧ data[pos]? = some (some v) ∧
        (shownOrder srt ks (sd && !ps))[pos]? = some j := by
  obtain ⟨h, hsd⟩ := krun_inv (kfresh_inv srt flt ks sd ps) ops
  have hsd' : (ops.foldl (Keychain.step srt flt) { keys := ks, sortDisplay := sd, preSorted := ps }).sortData = (sd && !ps) := hsd
  generalize ops.foldl (Keychain.step srt flt) { keys := ks, sortDisplay := sd, preSorted := ps } = c at h hsd'
  unfold finalize Keychain.gbkeys
  simp only [Bool.false_eq_true, if_false]
  obtain ⟨g1, g2, g3, g4, g5, g6⟩ := getKeys_spec h false
  rcases hc : c.getKeys srt false with ⟨c', ks'⟩
  rw [hc] at g1 g2 g3 g4 g5 g6
  dsimp only at g1 g2 g3 g4 g5 g6 ⊢
  simp only [Bool.false_eq_true, false_and, if_false, List.nil_append] at g5
  have hsc : c'.sortData = (sd && !ps) := by rw [← hsd']; unfold Keychain.sortData; rw [g2, g3]
  rw [hsc]
  rw [hsd'] at g5
  cases hb : (sd && !ps) with
  | true =>
    rw [hb] at g5 hsc
    have hi := (isortrows_spec g1).2.2.2 hsc
    rcases hc2 : c'.isortrows srt with ⟨c2, i⟩
    rw [hc2] at hi
    dsimp only at hi ⊢
    subst hi
    simp only [if_true]
    have ho : shownOrder srt ks true = srt ks := rfl
    rw [ho] at g5 ⊢
    have hlt : ∀ j ∈ srt ks, j < ks.length := fun j hj => List.mem_range.mp (hsrt.mem_iff.mp hj)
    have hlen : (srt ks).length = ks.length := by rw [hsrt.length_eq, List.length_range]
    have hkl : ks'.length = ks.length := by rw [g5, reorder_length _ _ hlt, hlen]
    unfold addCol
    rw [if_pos (by rw [List.length_map, hkl, hlen])]
    refine ⟨_, _, rfl, hkl, by rw [List.length_map, hlen], ?_⟩
    intro j k v hk hv
    have hj : j ∈ srt ks := by
      rw [hsrt.mem_iff, List.mem_range]
      by_contra hn
      rw [List.getElem?_eq_none (by omega)] at hk
      simp at hk
    obtain ⟨pos, hp⟩ := List.getElem?_of_mem hj
    refine ⟨pos, by rw [g5, reorder_get _ _ hlt pos j hp, hk], ?_, hp⟩
    rw [List.getElem?_map, hp, Option.map_some, mbget_nat, hv]
  | false =>
    rw [hb] at g5
    simp only [Bool.false_eq_true, if_false]
    have ho : shownOrder srt ks false = List.range ks.length := rfl
    rw [ho, reorder_range] at g5
    rw [ho]
    unfold addCol
    rw [if_pos (by rw [g5, hcol])]
    refine ⟨_, _, rfl, by rw [g5], by rw [List.length_map, hcol], ?_⟩
    intro j k v hk hv
    refine ⟨j, by rw [g5, hk], by rw [List.getElem?_map, hv]; rfl, ?_⟩
    rw [List.getElem?_range]
    by_contra hn
    rw [List.getElem?_eq_none (by omega)] at hk
    simp at hk

/-- **C54** the same with the filtered rows shown: the first row has the filter's label and the value of the filtered rows, the others
the label and the value of one group each -/
theorem result_labels_filtered_correct (srt : List K → List Nat) (flt : K) (ks : List K) (sd ps : Bool)
    (hsrt : (srt ks).Perm (List.range ks.length)) (ops : List KOp) (v0 : V) (col : List V) (hcol : col.length = ks.length) :
    ∃ labels data, (finalize srt flt (ops.foldl (Keychain.step srt flt) { keys := ks, sortDisplay := sd, preSorted := ps }) none true
        (v0 :: col)).2 = some (labels, data) ∧ labels.length = ks.length + 1 ∧ data.length = ks.length + 1 ∧
      labels[0]? = some flt ∧ data[0]? = some (some v0) ∧
      ∀ (j : Nat) (k : K) (v : V), ks[j]? = some k → col[j]? = some v → ∃ pos : Nat, labels[pos + 1]? = some k ∧ data[pos + 1]? = some (some v) := by
  obtain ⟨h, hsd⟩ := krun_inv (kfresh_inv srt flt ks sd ps) ops
  have hsd' : (ops.foldl (Keychain.step srt flt) { keys := ks, sortDisplay := sd, preSorted := ps }).sortData = (sd && !ps) := hsd
  generalize ops.foldl (Keychain.step srt flt) { keys := ks, sortDisplay := sd, preSorted := ps } = c at h hsd'
  unfold finalize
  simp only [if_true]
  obtain ⟨g1, g2, g3, g5⟩ := filtered_spec h
  rcases hc : c.gbkeysFiltered srt flt with ⟨c', ks'⟩
  rw [hc] at g1 g2 g3 g5
  dsimp only at g1 g2 g3 g5 ⊢
  have hsc : c'.sortData = (sd && !ps) := by rw [← hsd']; unfold Keychain.sortData; rw [g2, g3]
  rw [hsc]
  rw [hsd'] at g5
  cases hb : (sd && !ps) with
  | true =>
    rw [hb] at g5 hsc
    have hi := (isortrows_spec g1).2.2.2 hsc
    rcases hc2 : c'.isortrows srt with ⟨c2, i⟩
    rw [hc2] at hi
    dsimp only at hi ⊢
    subst hi
    simp only [if_true]
    have ho : shownOrder srt ks true = srt ks := rfl
    rw [ho] at g5
    have hlt : ∀ j ∈ srt ks, j < ks.length := fun j hj => List.mem_range.mp (hsrt.mem_iff.mp hj)
    have hlen : (srt ks).length = ks.length := by rw [hsrt.length_eq, List.length_range]
    have hkl : ks'.length = ks.length + 1 := by rw [g5, List.length_cons, reorder_length _ _ hlt, hlen]
    unfold addCol
    rw [if_pos (by rw [List.length_map, List.length_cons, List.length_map, hkl, hlen])]
    refine ⟨_, _, rfl, hkl, by rw [List.length_map, List.length_cons, List.length_map, hlen], by rw [g5]; rfl, ?_, ?_⟩
    · rw [List.map_cons, List.getElem?_cons_zero, mbget_nat]; rfl
    · intro j k v hk hv
      have hj : j ∈ srt ks := by
        rw [hsrt.mem_iff, List.mem_range]
        by_contra hn
        rw [List.getElem?_eq_none (by omega)] at hk
        simp at hk
      obtain ⟨pos, hp⟩ := List.getElem?_of_mem hj
      refine ⟨pos, by rw [g5, List.getElem?_cons_succ, reorder_get _ _ hlt pos j hp, hk], ?_⟩
      rw [List.map_cons, List.getElem?_cons_succ, List.getElem?_map, List.getElem?_map, hp, Option.map_some, Option.map_some, mbget_nat,
        List.getElem?_cons_succ, hv]
  | false =>
    rw [hb] at g5
    simp only [Bool.false_eq_true, if_false]
    have ho : shownOrder srt ks false = List.range ks.length := rfl
    rw [ho, reorder_range] at g5
    unfold addCol
    rw [if_pos (by rw [g5, List.length_cons, List.length_cons, hcol])]
    refine ⟨_, _, rfl, by rw [g5]; rfl, by rw [List.length_map, List.length_cons, hcol], by rw [g5]; rfl, rfl, ?_⟩
    intro j k v hk hv
    exact ⟨j, by rw [g5, List.getElem?_cons_succ, hk], by rw [List.map_cons, List.getElem?_cons_succ, List.getElem?_map, hv]; rfl⟩

/-- a sort for the examples -/
def exSort (ks : List Nat) : List Nat :=
  (List.range ks.length).foldr (fun i acc => acc.takeWhile (fun j => decide (ks.getD j 0 < ks.getD i 0)) ++ [i] ++
    acc.dropWhile (fun j => decide (ks.getD j 0 < ks.getD i 0))) []

/-- non-vacuity: the order of the example is a sort of the keys and meets the hypothesis -/
example : exSort [30, 10, 20] = [1, 2, 0] ∧ (exSort [30, 10, 20]).Perm (List.range 3) ∧
    (finalize exSort 99 ([KOp.gbkeysFiltered, .isortrows].foldl (Keychain.step exSort 99)
      { keys := [30, 10, 20], sortDisplay := true, preSorted := false }) none false ["c", "a", "b"]).2 =
      some ([10, 20, 30], [some "a", some "b", some "c"]) := by decide

/-- **C54** (finding) `apply_reduce` passes the keys without the filter label also when the filtered rows are shown
(`rt_grouping.py:2937-2939`): with two or more groups the call raises, and with one group the value of
the filtered rows is labelled as that group -/
theorem showfilter_reduce_raises (srt : List K → List Nat) (flt : K) (ks : List K) (sd ps : Bool)
    (hsrt : (srt ks).length = ks.length) (h2 : 2 ≤ ks.length) (col : List V) (hcol : col.length = ks.length + 1) :
    (finalize srt flt { keys := ks, sortDisplay := sd, preSorted := ps } (some ks) true col).2 = none := by
  unfold finalize
  dsimp only
  split
  · unfold addCol Keychain.isortrows
    dsimp only
    rw [Option.getD_none, if_pos rfl, if_neg (by rw [List.length_map, List.length_cons, List.length_map, hsrt]; omega)]
    split
    · rename_i x; simp at h2
    · rfl
  · unfold addCol
    dsimp only
    rw [if_neg (by omega)]
    split
    · rename_i x; simp at h2
    · rfl

theorem showfilter_reduce_counterexample :
    (finalize exSort 99 { keys := [7], sortDisplay := false, preSorted := false } (some [7]) true ["filtered rows", "group 7"]).2 =
      some ([7, 7], [some "filtered rows", some "group 7"]) := by decide

/-! ## C55: `transform` -/

/-- **C55** (base 1, groups in their own order, no filtered rows shown) Every row of a group gets the value of its group; every row
that belongs to no group gets the value of the **last** group. -/
theorem transform_exact (ikey : List Nat) (n : Nat) (hk : ∀ k ∈ ikey, k ≤ n) (col : List V) (hcol : col.length = n) (hn : 0 < n)
    (i : Nat) (k : Nat) (hi : ikey[i]? = some k) :
    (transformCol (some 1) ikey false none col)[i]? = some (if k = 0 then col[n - 1]? else col[k - 1]?) := by
  unfold transformCol
  dsimp only
  rw [List.getElem?_map, List.getElem?_map, hi, Option.map_some, Option.map_some, if_pos ⟨rfl, rfl⟩]
  by_cases h0 : k = 0
  · subst h0
    rw [if_pos rfl]
    unfold mbget Verif.Cat.npGet
    rw [if_neg (by omega), if_pos (by omega)]
    congr 2
    omega
  · rw [if_neg h0, show ((k : Int) - 1) = ((k - 1 : Nat) : Int) by omega, mbget_nat]

/-- **C55** (the same when the results are shown sorted and the grouping is ordered: the values are found again) -/
theorem transform_sorted_exact (ikey : List Nat) (n : Nat) (hk : ∀ k ∈ ikey, k ≤ n) (order : List Nat)
    (hord : order.Perm (List.range n)) (col : List V) (hcol : col.length = n) (hn : 0 < n)
    (i : Nat) (k : Nat) (hi : ikey[i]? = some k) :
    (transformCol (some 1) ikey false (some order) (reorder col order))[i]? =
      some (if k = 0 then col[n - 1]? else col[k - 1]?) := by
  have hol : order.length = n := by rw [hord.length_eq, List.length_range]
  have hlt : ∀ j ∈ order, j < col.length := fun j hj => by rw [hcol]; exact List.mem_range.mp (hord.mem_iff.mp hj)
  have hkey : ∀ j, j < n → (mbget (reverseShuffle order) (j : Int)) = some (order.idxOf j) ∧
      mbget (reorder col order) ((order.idxOf j : Nat) : Int) = col[j]? := by
    intro j hj
    have hm : j ∈ order := hord.mem_iff.mpr (List.mem_range.mpr hj)
    rw [mbget_nat, mbget_nat]
    unfold reverseShuffle
    refine ⟨by rw [List.getElem?_map, List.getElem?_range (by omega)]; rfl, ?_⟩
    refine reorder_get col order hlt _ j ?_
    rw [List.getElem?_eq_getElem (List.idxOf_lt_length_of_mem hm), List.getElem_idxOf]
  unfold transformCol
  dsimp only
  rw [List.getElem?_map, List.getElem?_map, hi, Option.map_some, Option.map_some, if_pos ⟨rfl, rfl⟩]
  have hkn := hk k (List.mem_of_getElem? hi)
  by_cases h0 : k = 0
  · subst h0
    rw [if_pos rfl]
    have e : mbget (reverseShuffle order) (((0 : Nat) : Int) - 1) = mbget (reverseShuffle order) ((n - 1 : Nat) : Int) := by
      have hrl : (reverseShuffle order).length = n := by unfold reverseShuffle; simp [hol]
      unfold mbget Verif.Cat.npGet
      rw [if_neg (by omega), if_pos (by omega), if_pos (by omega)]
      congr 2
      omega
    rw [e, (hkey (n - 1) (by omega)).1]
    dsimp only
    rw [(hkey (n - 1) (by omega)).2]
  · rw [if_neg h0, show ((k : Int) - 1) = ((k - 1 : Nat) : Int) by omega, (hkey (k - 1) (by omega)).1]
    dsimp only
    rw [(hkey (k - 1) (by omega)).2]

/-- **C55** (partial: base index 1 and rows of groups) Every row of a group gets the value of its group. -/
theorem transform_partial (ikey : List Nat) (n : Nat) (hk : ∀ k ∈ ikey, k ≤ n) (col : List V) (hcol : col.length = n)
    (i g : Nat) (hi : ikey[i]? = some (g + 1)) :
    (transformCol (some 1) ikey false none col)[i]? = some col[g]? := by
  have hg := hk (g + 1) (List.mem_of_getElem? hi)
  have := transform_exact ikey n hk col hcol (by omega) i (g + 1) hi
  simpa using this

/-- **C55** (finding, exact) With a base index of 0, or an enum, every row of a group gets the value of the *next* group, and the rows
of the last group get the invalid value -/
theorem transform_other_base_exact (base : Option Nat) (hb : base ≠ some 1) (ikey : List Nat) (col : List V) (i k : Nat)
    (hi : ikey[i]? = some k) : (transformCol base ikey false none col)[i]? = some col[k]? := by
  unfold transformCol
  dsimp only
  rw [List.getElem?_map, List.getElem?_map, hi, Option.map_some, Option.map_some, if_neg (fun h => hb h.2), mbget_nat]

/-- **C55** with the filtered rows shown, the first value is that of the filtered rows and every row gets the value of its group -/
theorem transform_showfilter (base : Option Nat) (ikey : List Nat) (v0 : V) (col : List V) (i k : Nat)
    (hi : ikey[i]? = some k) :
    (transformCol base ikey true none (v0 :: col))[i]? = some (if k = 0 then some v0 else col[k - 1]?) := by
  unfold transformCol
  dsimp only
  rw [List.getElem?_map, List.getElem?_map, hi, Option.map_some, Option.map_some, if_neg (by simp), mbget_nat]
  cases k with
  | zero => rfl
  | succ k => rw [if_neg (by omega), List.getElem?_cons_succ]; rfl

/-- non-vacuity -/
example : transformCol (some 1) [2, 1, 2] false none ["a", "b"] = [some "b", some "a", some "b"] := by decide
example : transformCol (some 1) [2, 1, 3] false (some [2, 0, 1]) (reorder ["a", "b", "c"] [2, 0, 1]) = [some "b", some "a", some "c"] := by
  decide

/-- **C55** (counterexamples) the filtered row gets the value of the last group; a base index of 0 shifts all values; and results sorted for
display but taken back without undoing the sort (`Ordered` false) give the values of other groups -/
theorem transform_counterexample :
    transformCol (some 1) [1, 0, 2] false none ["a", "b"] = [some "a", some "b", some "b"] ∧
    transformCol (some 0) [1, 1, 2] false none ["a", "b"] = [some "b", some "b", none] ∧
    transformCol none [1, 1, 2] false none ["a", "b"] = [some "b", some "b", none] ∧
    transformCol (some 1) [1, 1, 2] false none (reorder ["a", "b"] [1, 0]) = [some "b", some "b", some "a"] := by decide

end Verif.Grp
