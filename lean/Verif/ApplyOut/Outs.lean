import Verif.ApplyOut.Props
/-!
# C323, C324: named outputs
-/
namespace Verif.ApplyOut
open Verif.Grp (pack valuesAt reverseShuffle rowsOf BinOf bins_spec bins_length starts)

variable {V R : Type}

/-- the slices of the inputs for one group -/
def insOf (arrs : List (List V)) (b : Nat × Nat) : List (List V) := arrs.map fun v => sliceOf v b.1 b.2

theorem outLoop_spec (arrs : List (List V)) (f : OutFun V R) (r : List (List V) → List (List R)) (m : Nat) :
    ∀ (bins : List (Nat × Nat)) (lens : List Nat) (s : Nat) (outs : List (List (Option R))), bins.length = lens.length → outs.length = m →
    (∀ (k : Nat) (b : Nat × Nat) (c : Nat), bins[k]? = some b → lens[k]? = some c → (∀ os, f (insOf arrs b) os = some ((r (insOf arrs b)).map (·.map some))) ∧
      (r (insOf arrs b)).length = m ∧ ∀ o ∈ r (insOf arrs b), o.length = c) →
    ∃ outs', outLoop arrs f (List.zip bins (List.zip (starts s lens) lens)) outs = some outs' ∧ outs'.length = m ∧
      ∀ (j : Nat) (o : List (Option R)), outs[j]? = some o → s + lens.sum ≤ o.length →
        outs'[j]? = some (o.take s ++ (bins.flatMap fun b => ((r (insOf arrs b)).getD j []).map some) ++ o.drop (s + lens.sum)) := by
  intro bins
  induction bins with
  | nil =>
    intro lens s outs hl ho _
    have : lens = [] := List.length_eq_zero_iff.mp hl.symm
    subst this
    refine ⟨outs, by simp [starts, outLoop], ho, ?_⟩
    intro j o hj _
    simp [hj]
  | cons b bins ih =>
    intro lens s outs hl ho hf
    cases lens with
    | nil => simp at hl
    | cons c lens =>
      obtain ⟨f1, f2, f3⟩ := hf 0 b c rfl rfl
      rw [starts, List.zip_cons_cons, List.zip_cons_cons, outLoop]
      have hfun := f1 (outs.map fun v => sliceOf v s c)
      unfold insOf at hfun
      dsimp only
      rw [hfun]
      dsimp only
      obtain ⟨outs', e1, e2, e3⟩ := ih lens (s + c)
        (List.zipWith (fun out new => writeAt out s new) outs ((r (arrs.map fun v => sliceOf v b.1 b.2)).map (·.map some)))
        (by simpa using hl) (by
          rw [List.length_zipWith, List.length_map, ho]
          unfold insOf at f2
          rw [f2]; simp) (fun k b' c' h1 h2 => hf (k + 1) b' c' (by simpa using h1) (by simpa using h2))
      refine ⟨outs', e1, e2, ?_⟩
      intro j o hj hle
      rw [List.sum_cons] at hle
      have hjm : j < m := by
        rw [← ho]
        by_contra hn
        rw [List.getElem?_eq_none (by omega)] at hj
        simp at hj
      have hrj : (r (insOf arrs b))[j]? = some ((r (insOf arrs b)).getD j []) := by
        rw [List.getD_eq_getElem?_getD, List.getElem?_eq_getElem (by omega)]
        rfl
      have hrl : ((r (insOf arrs b)).getD j []).length = c := f3 _ (List.mem_of_getElem? hrj)
      have hw := e3 j (writeAt o s (((r (insOf arrs b)).getD j []).map some)) (by
        rw [List.getElem?_zipWith, hj, List.getElem?_map]
        unfold insOf at hrj ⊢
        rw [hrj]
        rfl) (by
        unfold writeAt
        simp only [List.length_append, List.length_take, List.length_map, List.length_drop, hrl]
        omega)
      rw [hw]
      unfold writeAt
      rw [List.length_map, hrl, List.flatMap_cons, List.sum_cons]
      have hA : (o.take s ++ ((r (insOf arrs b)).getD j []).map some).length = s + c := by
        simp only [List.length_append, List.length_take, List.length_map, hrl]
        omega
      rw [List.take_append_of_le_length (by rw [hA]), List.take_of_length_le (by rw [hA])]
      rw [List.drop_append, List.drop_eq_nil_of_le (by rw [hA]; omega), hA, List.nil_append, List.drop_drop,
        show s + c + (s + c + lens.sum - (s + c)) = s + (c + lens.sum) by omega, List.append_assoc (o.take s)]

/-! ## The slices of the groups -/

theorem groupSlices_length (keys : List Nat) (n : Nat) : (groupSlices keys n).length = n := by
  unfold groupSlices
  rw [List.length_drop, bins_length]
  omega

/-- the inputs the user function gets for a group -/
def groupIns (keys : List Nat) (cols : List (List V)) (g : Nat) : List (List V) := cols.map fun c => valuesAt c (rowsOf keys g)

theorem insOf_slice (keys : List Nat) (n : Nat) (cols : List (List V)) (hl : ∀ c ∈ cols, c.length = keys.length) (g : Nat)
    (b : Nat × Nat) (hb : (groupSlices keys n)[g]? = some b) :
    insOf (cols.map fun c => valuesAt c (pack keys n).iGroup) b = groupIns keys cols (g + 1) := by
  unfold insOf groupIns
  rw [List.map_map]
  refine List.map_congr_left fun c hc => ?_
  have h := bins_spec keys n c (hl c hc)
  rw [List.forall₂_iff_get] at h
  unfold groupSlices at hb
  rw [List.getElem?_drop, Nat.add_comm 1 g] at hb
  obtain ⟨h1, h2⟩ := List.getElem?_eq_some_iff.mp hb
  have h3 := h.2 (g + 1) h1 (by rw [← h.1]; exact h1)
  simp only [List.get_eq_getElem, h2, List.getElem_map, List.getElem_range] at h3
  exact h3.1

theorem slices_flatMap {A : Type} (keys : List Nat) (n : Nat) (cols : List (List V)) (hl : ∀ c ∈ cols, c.length = keys.length)
    (q : List (List V) → List A) :
    ((groupSlices keys n).flatMap fun b => q (insOf (cols.map fun c => valuesAt c (pack keys n).iGroup) b)) =
      (List.range n).flatMap fun g => q (groupIns keys cols (g + 1)) := by
  rw [List.flatMap_def, List.flatMap_def]
  congr 1
  apply List.ext_getElem
  · simp [groupSlices_length]
  · intro g h1 h2
    rw [List.getElem_map, List.getElem_map, List.getElem_range]
    rw [List.length_map] at h1
    rw [insOf_slice keys n cols hl g _ (List.getElem?_eq_getElem h1)]

theorem starts_ones (n : Nat) : ∀ s, starts s (List.replicate n 1) = (List.range n).map (s + ·) := by
  induction n with
  | zero => intro s; rfl
  | succ n ih =>
    intro s
    rw [List.replicate_succ, starts, ih, List.range_succ_eq_map, List.map_cons, List.map_map]
    congr 1
    refine List.map_congr_left fun k _ => ?_
    simp only [Function.comp]
    omega

/-! ## C323 -/

/-- the loop of the reduce path on outputs with any contents -/
theorem reduce_loop (keys : List Nat) (n m : Nat) (f : OutFun V R) (cols : List (List V)) (hl : ∀ c ∈ cols, c.length = keys.length)
    (r : List (List V) → List R)
    (hf : ∀ g, g < n → (∀ os, f (groupIns keys cols (g + 1)) os = some ((r (groupIns keys cols (g + 1))).map fun v => [some v])) ∧
      (r (groupIns keys cols (g + 1))).length = m)
    (outs : List (List (Option R))) (ho : outs.length = m) (ho2 : ∀ o ∈ outs, o.length = n + 1) :
    ∃ outs', outLoop (cols.map fun c => valuesAt c (pack keys n).iGroup) f
      (List.zipWith (fun b i => (b, (i, 1))) (groupSlices keys n) ((List.range n).map (· + 1))) outs = some outs' ∧
      outs'.length = m ∧ (∀ o ∈ outs', o.length = n + 1) ∧
      outs'.map (List.drop 1) = (List.range m).map fun j => (List.range n).map fun g => (r (groupIns keys cols (g + 1)))[j]? := by
  have hsteps : List.zipWith (fun (b : Nat × Nat) (i : Nat) => (b, (i, 1))) (groupSlices keys n) ((List.range n).map (· + 1)) =
      List.zip (groupSlices keys n) (List.zip (starts 1 (List.replicate n 1)) (List.replicate n 1)) := by
    rw [starts_ones]
    apply List.ext_getElem
    · simp [groupSlices_length]
    · intro k h1 h2
      simp [Nat.add_comm]
  obtain ⟨outs', e1, e2, e3⟩ := outLoop_spec (cols.map fun c => valuesAt c (pack keys n).iGroup) f (fun i => (r i).map fun v => [v]) m
    (groupSlices keys n) (List.replicate n 1) 1 outs (by simp [groupSlices_length]) ho (by
      intro k b c hb hc
      have hk : k < n := by
        rw [← groupSlices_length keys n]
        exact (List.getElem?_eq_some_iff.mp hb).1
      rw [insOf_slice keys n cols hl k b hb]
      obtain ⟨f1, f2⟩ := hf k hk
      refine ⟨fun os => by rw [f1, List.map_map]; rfl, by rw [List.length_map, f2], ?_⟩
      intro o hom
      rw [List.mem_map] at hom
      obtain ⟨v, _, rfl⟩ := hom
      have : c = 1 := by
        exact List.eq_of_mem_replicate (List.mem_of_getElem? hc)
      rw [this]; rfl)
  rw [hsteps]
  have hent : ∀ (j : Nat), j < m → ∃ x, outs'[j]? = some (x :: (List.range n).map fun g => (r (groupIns keys cols (g + 1)))[j]?) := by
    intro j hj
    have hoj : j < outs.length := by omega
    have hlen : (outs[j]).length = n + 1 := ho2 _ (List.getElem_mem hoj)
    have h := e3 j _ (List.getElem?_eq_getElem hoj) (by rw [hlen]; simp; omega)
    rw [slices_flatMap keys n cols hl (fun i => (((r i).map fun v => [v]).getD j []).map some)] at h
    rw [List.drop_eq_nil_of_le (by rw [hlen]; simp; omega), List.append_nil] at h
    have hx : ∃ x, (outs[j]).take 1 = [x] := by
      cases hc : outs[j] with
      | nil => rw [hc] at hlen; simp at hlen
      | cons x l => exact ⟨x, rfl⟩
    obtain ⟨x, hx⟩ := hx
    refine ⟨x, ?_⟩
    rw [h, hx, List.singleton_append, List.map_eq_flatMap]
    congr 2
    rw [List.flatMap_def, List.flatMap_def]
    congr 1
    refine List.map_congr_left fun g hg => ?_
    have hgl := (hf g (List.mem_range.mp hg)).2
    have hjl : j < (r (groupIns keys cols (g + 1))).length := by omega
    rw [List.getD_eq_getElem?_getD, List.getElem?_map, List.getElem?_eq_getElem hjl]
    rfl
  refine ⟨outs', e1, e2, ?_, ?_⟩
  · intro o hom
    obtain ⟨j, hj, rfl⟩ := List.mem_iff_getElem.mp hom
    obtain ⟨x, hx⟩ := hent j (by omega)
    rw [List.getElem?_eq_getElem hj, Option.some.injEq] at hx
    rw [hx]; simp
  · apply List.ext_getElem
    · simp [e2]
    · intro j h1 h2
      rw [List.length_map] at h1
      obtain ⟨x, hx⟩ := hent j (by omega)
      rw [List.getElem?_eq_getElem h1, Option.some.injEq] at hx
      rw [List.getElem_map, List.getElem_map, List.getElem_range, hx]
      rfl

/-- **C323** Named outputs of `apply_reduce` with a tuple of arrays: when the function writes one value into each of the `m`
outputs, the entry of output `j` for group `g + 1` is the value number `j` the function wrote for the rows of this group. The
function is called for the groups without rows too (with empty inputs), and not for the rows that belong to no group. -/
theorem outputs_correct (keys : List Nat) (n m : Nat) (f : OutFun V R) (cols : List (List V)) (hl : ∀ c ∈ cols, c.length = keys.length)
    (r : List (List V) → List R)
    (hf : ∀ g, g < n → (∀ os, f (cols.map fun c => picked c (rowsIn keys (g + 1))) os =
      some ((r (cols.map fun c => picked c (rowsIn keys (g + 1)))).map fun v => [some v])) ∧
      (r (cols.map fun c => picked c (rowsIn keys (g + 1)))).length = m) :
    reduceOuts keys n m f cols =
      some ((List.range m).map fun j => (List.range n).map fun g => (r (cols.map fun c => picked c (rowsIn keys (g + 1))))[j]?) := by
  obtain ⟨outs', e1, _, _, e4⟩ := reduce_loop keys n m f cols hl r hf (List.replicate m (List.replicate (n + 1) none)) (by simp)
    (fun o ho => by rw [List.eq_of_mem_replicate ho]; simp)
  unfold reduceOuts
  rw [e1, Option.map_some, e4]
  rfl

/-- writes the sums of both inputs and the number of rows -/
def sums : OutFun Nat Nat := fun ins _ => some [[some ((ins.getD 0 []).sum + (ins.getD 1 []).sum)], [some (ins.getD 0 []).length]]

/-- the hypotheses can be met: two inputs, two outputs, a filtered row and a group without rows -/
example : reduceOuts [2, 1, 0, 2] 3 2 sums [[5, 6, 7, 8], [1, 1, 1, 1]] =
    some [[some 7, some 15, some 0], [some 1, some 2, some 0]] := by decide

/-- writes the first value, if there is one -/
def firstValue : OutFun Nat Nat := fun ins outs => match ins with
  | (x :: _) :: _ => some [[some x]]
  | _ => some outs

/-- **C323** (counterexample) For a group without rows the entry is never filled with an invalid value: a function that writes
nothing when it gets no rows leaves what was in memory. -/
theorem outputs_empty_group_counterexample : reduceOuts [1, 1] 2 1 firstValue [[3, 4]] = some [[some 3, none]] := by decide

/-- **C323** (finding) On a grouped dataset all columns write into the same outputs: the result is that of the last column. -/
theorem outputs_last_column (keys : List Nat) (n m : Nat) (f : OutFun V R) (consts : List (List V)) (r : List (List V) → List R)
    (cols : List (List V)) (last : List V) (hc : ∀ c ∈ consts, c.length = keys.length)
    (hl : ∀ c ∈ cols ++ [last], c.length = keys.length)
    (hf : ∀ c ∈ cols ++ [last], ∀ g, g < n → (∀ os, f ((c :: consts).map fun c => picked c (rowsIn keys (g + 1))) os =
      some ((r ((c :: consts).map fun c => picked c (rowsIn keys (g + 1)))).map fun v => [some v])) ∧
      (r ((c :: consts).map fun c => picked c (rowsIn keys (g + 1)))).length = m) :
    reduceOutsCols keys n f consts (cols ++ [last]) (List.replicate m (List.replicate (n + 1) none)) =
      reduceOuts keys n m f (last :: consts) := by
  have hin : ∀ c ∈ cols ++ [last], ∀ c' ∈ c :: consts, c'.length = keys.length := by
    intro c hcm c' hc'
    rcases List.mem_cons.mp hc' with rfl | hc'
    · exact hl _ hcm
    · exact hc _ hc'
  rw [outputs_correct keys n m f (last :: consts) (hin last (by simp)) r (hf last (by simp))]
  have key : ∀ outs : List (List (Option R)), outs.length = m → (∀ o ∈ outs, o.length = n + 1) →
      reduceOutsCols keys n f consts (cols ++ [last]) outs =
      some ((List.range m).map fun j => (List.range n).map fun g =>
        (r ((last :: consts).map fun c => picked c (rowsIn keys (g + 1))))[j]?) := by
    clear hl
    induction cols with
    | nil =>
      intro outs h1 h2
      obtain ⟨outs', e1, _, _, e4⟩ := reduce_loop keys n m f (last :: consts) (hin last (by simp)) r (hf last (by simp)) outs h1 h2
      rw [List.nil_append, reduceOutsCols, e1]
      dsimp only
      rw [reduceOutsCols, e4]
      rfl
    | cons c cols ih =>
      intro outs h1 h2
      obtain ⟨outs', e1, e2, e3, _⟩ := reduce_loop keys n m f (c :: consts) (hin c (by simp)) r (hf c (by simp)) outs h1 h2
      rw [List.cons_append, reduceOutsCols, e1]
      dsimp only
      exact ih (fun c hc => hf c (List.mem_cons_of_mem _ hc)) (fun c hc => hin c (List.mem_cons_of_mem _ hc)) outs' e2 e3
  exact key _ (by simp) (fun o ho => by rw [List.eq_of_mem_replicate ho]; simp)

/-- **C323** (counterexample) Two columns with the same function: the sums of the first column are in no output. -/
theorem outputs_columns_counterexample :
    reduceOutsCols [1, 1] 1 sums [[0, 0]] [[3, 4], [5, 6]] (List.replicate 2 (List.replicate 2 none)) = some [[some 11], [some 2]] ∧
      reduceOuts [1, 1] 1 2 sums [[3, 4], [0, 0]] = some [[some 7], [some 2]] := by decide

/-- **C323** (finding) One array that is not in a tuple: the call raises whenever there are groups and rows. -/
theorem outputs_single_raises (keys : List Nat) (n m : Nat) (f : OutFun V R) (col : List V) (hl : col.length = keys.length)
    (hk : ∀ k ∈ keys, k ≤ n) (hn : n ≠ 0) (hr : keys ≠ []) : reduceOutsSingle keys n m f col = none := by
  unfold reduceOutsSingle
  rw [if_neg hn]
  have hlen : (valuesAt col (pack keys n).iGroup).length = keys.length := by
    rw [Verif.Grp.valuesAt_length _ _ (fun i hi => by rw [hl]; exact Verif.Grp.iGroup_lt hi), Verif.Grp.pack_iGroup_length hk]
  have : scalarSlices (valuesAt col (pack keys n).iGroup) = none := by
    unfold scalarSlices
    cases hv : valuesAt col (pack keys n).iGroup with
    | nil =>
      rw [hv] at hlen
      exact absurd (List.length_eq_zero_iff.mp hlen.symm) hr
    | cons x l => rfl
  rw [this]

/-- the hypotheses can be met -/
example : reduceOutsSingle [1, 1] 1 1 firstValue [3, 4] = none ∧ reduceOuts [1, 1] 1 1 firstValue [[3, 4]] = some [[some 3]] := by decide

/-! ## C324 -/

theorem values_of_keys (keys : List Nat) (g : Nat) :
    valuesAt keys (rowsOf keys g) = List.replicate (rowsOf keys g).length g := by
  rw [List.eq_replicate_iff]
  refine ⟨Verif.Grp.valuesAt_length _ _ fun i hi => Verif.Grp.rowsOf_lt hi, ?_⟩
  intro b hb
  unfold valuesAt at hb
  rw [List.mem_filterMap] at hb
  obtain ⟨i, hi, e⟩ := hb
  rw [Verif.Grp.mem_rowsOf, e, Option.some.injEq] at hi
  exact hi

/-- the part of the first key -/
def byKey {A : Type} (part : Nat → List A) : List Nat → List A
  | [] => []
  | g :: _ => part g

theorem byKey_replicate {A : Type} (part : Nat → List A) (k g : Nat) (h : (part g).length = k) :
    byKey part (List.replicate k g) = part g := by
  cases k with
  | zero => rw [List.length_eq_zero_iff.mp h]; rfl
  | succ k => rfl

/-- **C324** (partial: rows that belong to no group) Named outputs of `apply_nonreduce` with a tuple of arrays: when the function
fills its slices of the `m` outputs, every row of every group gets the entry the function wrote at the row's place within the
group. The entries of the rows that belong to no group (filtered rows) are never written. -/
theorem outputs_rows_partial (keys : List Nat) (n m : Nat) (hk : ∀ k ∈ keys, k ≤ n) (f : OutFun V R) (cols : List (List V))
    (hl : ∀ c ∈ cols, c.length = keys.length) (r : List (List V) → List (List R))
    (hf : ∀ g, g < n → (∀ os, f (cols.map fun c => picked c (rowsIn keys (g + 1))) os =
      some ((r (cols.map fun c => picked c (rowsIn keys (g + 1)))).map (·.map some))) ∧
      (r (cols.map fun c => picked c (rowsIn keys (g + 1)))).length = m ∧
      ∀ o ∈ r (cols.map fun c => picked c (rowsIn keys (g + 1))), o.length = (rowsIn keys (g + 1)).length) :
    ∃ outs, nonreduceOuts keys n m f cols = some outs ∧ outs.length = m ∧
      ∀ (j : Nat) (o : List (Option R)), outs[j]? = some o → o.length = keys.length ∧
        (∀ (g k i : Nat), g < n → (rowsIn keys (g + 1))[k]? = some i →
          ∃ v, ((r (cols.map fun c => picked c (rowsIn keys (g + 1)))).getD j [])[k]? = some v ∧ o[i]? = some (some v)) ∧
        (∀ i, i ∈ rowsIn keys 0 → o[i]? = some none) := by
  simp only [picked_eq, rowsIn_eq] at hf ⊢
  obtain ⟨c0, cs, hcs⟩ : ∃ c0 cs, (pack keys n).nCount = c0 :: cs := by
    unfold pack
    rw [List.range_succ_eq_map]
    exact ⟨_, _, rfl⟩
  have hc0 : c0 = (rowsOf keys 0).length := by
    have := Verif.Grp.pack_count keys n 0 (Nat.zero_le _)
    rw [hcs] at this
    simpa using this
  have hgs : groupSlices keys n = List.zip (starts c0 cs) cs := by
    unfold groupSlices
    rw [(Verif.Grp.pack_counts keys n).1, hcs, starts, List.zip_cons_cons, List.drop_succ_cons, List.drop_zero, Nat.zero_add]
  have hcl : cs.length = n := by
    have h1 := groupSlices_length keys n
    rw [hgs, List.length_zip, Verif.Grp.starts_length] at h1
    omega
  have hsum : c0 + cs.sum = (pack keys n).iGroup.length := by
    have := (Verif.Grp.pack_counts keys n).2
    rw [hcs] at this
    simpa using this
  have hsteps : ((groupSlices keys n).map fun b => (b, b)) = List.zip (groupSlices keys n) (List.zip (starts c0 cs) cs) := by
    rw [← hgs]
    apply List.ext_getElem
    · simp
    · intro k h1 h2; simp
  obtain ⟨outs, e1, e2, e3⟩ := outLoop_spec (cols.map fun c => valuesAt c (pack keys n).iGroup) f r m (groupSlices keys n) cs c0
    (List.replicate m (List.replicate (pack keys n).iGroup.length none)) (by rw [groupSlices_length, hcl]) (by simp) (by
      intro k b c hb hc
      have hkn : k < n := by
        rw [← groupSlices_length keys n]
        exact (List.getElem?_eq_some_iff.mp hb).1
      rw [insOf_slice keys n cols hl k b hb]
      obtain ⟨f1, f2, f3⟩ := hf k hkn
      refine ⟨f1, f2, ?_⟩
      intro o hom
      have hcc : c = (rowsOf keys (k + 1)).length := by
        have := Verif.Grp.pack_count keys n (k + 1) (by omega)
        rw [hcs, List.getElem?_cons_succ, hc] at this
        simpa using this
      rw [hcc]
      exact f3 o hom)
  rw [← hsteps] at e1
  -- every output in the order of the rows
  have hout : ∀ (j : Nat), j < m → ∃ a o, outs[j]? = some a ∧ (reverseShuffle (pack keys n).iGroup).mapM (fun i => a[i]?) = some o ∧
      o.length = keys.length ∧
      (∀ (g k i : Nat), g < n → (rowsOf keys (g + 1))[k]? = some i →
        ∃ v, ((r (cols.map fun c => valuesAt c (rowsOf keys (g + 1)))).getD j [])[k]? = some v ∧ o[i]? = some (some v)) ∧
      (∀ i, i ∈ rowsOf keys 0 → o[i]? = some none) := by
    intro j hj
    have h := e3 j (List.replicate (pack keys n).iGroup.length none) (by rw [List.getElem?_replicate, if_pos hj])
      (by rw [List.length_replicate, hsum])
    rw [slices_flatMap keys n cols hl (fun i => ((r i).getD j []).map some), List.drop_eq_nil_of_le (by rw [List.length_replicate, hsum]),
      List.append_nil, List.take_replicate, Nat.min_eq_left (by omega)] at h
    let part : Nat → List (Option R) := fun g => if g = 0 then List.replicate c0 none
      else ((r (groupIns keys cols g)).getD j []).map some
    have hgl : ∀ g, g < n → ((r (groupIns keys cols (g + 1))).getD j []).length = (rowsOf keys (g + 1)).length := by
      intro g hg
      obtain ⟨_, f2, f3⟩ := hf g hg
      refine f3 _ ?_
      rw [List.getD_eq_getElem?_getD, List.getElem?_eq_getElem (by rw [show (r (groupIns keys cols (g + 1))).length = m from f2]; exact hj)]
      exact List.getElem_mem _
    have hpart : ∀ g, g ≤ n → (part g).length = (rowsOf keys g).length := by
      intro g hg
      show (if g = 0 then _ else _ : List (Option R)).length = _
      by_cases h0 : g = 0
      · rw [if_pos h0, List.length_replicate, hc0, h0]
      · rw [if_neg h0, List.length_map]
        have := hgl (g - 1) (by omega)
        rw [show g - 1 + 1 = g by omega] at this
        exact this
    have hby : ∀ g, g ≤ n → byKey part (valuesAt keys (rowsOf keys g)) = part g := by
      intro g hg
      rw [values_of_keys]
      exact byKey_replicate part _ g (hpart g hg)
    obtain ⟨o, o1, o2, o3⟩ := Verif.Grp.unshuffle keys n hk keys rfl (byKey part)
      (fun g hg => by rw [hby g hg, hpart g hg])
      (List.replicate c0 none ++ (List.range n).flatMap fun g => ((r (groupIns keys cols (g + 1))).getD j []).map some) (by
        rw [List.flatMap_map, List.range_succ_eq_map, List.flatMap_cons, List.flatMap_map, hby 0 (Nat.zero_le _)]
        congr 1
        rw [List.flatMap_def, List.flatMap_def]
        congr 1
        refine List.map_congr_left fun g hg => ?_
        rw [hby (g + 1) (by have := List.mem_range.mp hg; omega)]
        rfl)
    refine ⟨_, o, h, o1, o2, ?_, ?_⟩
    · intro g k i hg hi
      have hkl : k < (rowsOf keys (g + 1)).length := (List.getElem?_eq_some_iff.mp hi).1
      have hkl2 : k < ((r (groupIns keys cols (g + 1))).getD j []).length := by rw [hgl g hg]; exact hkl
      refine ⟨_, List.getElem?_eq_getElem hkl2, ?_⟩
      rw [o3 (g + 1) k i (by omega) hi, hby (g + 1) (by omega)]
      show (((r (groupIns keys cols (g + 1))).getD j []).map some)[k]? = _
      rw [List.getElem?_map, List.getElem?_eq_getElem hkl2]
      rfl
    · intro i hi
      obtain ⟨k, hki⟩ := List.getElem?_of_mem hi
      have hkl : k < (rowsOf keys 0).length := (List.getElem?_eq_some_iff.mp hki).1
      rw [o3 0 k i (Nat.zero_le _) hki, hby 0 (Nat.zero_le _)]
      show (List.replicate c0 none)[k]? = _
      rw [List.getElem?_replicate, if_pos (by omega)]
  have hmap : ∀ (l : List (List (Option R))), (∀ a ∈ l, ∃ o, (reverseShuffle (pack keys n).iGroup).mapM (fun i => a[i]?) = some o) →
      ∃ res, (l.mapM fun o => (reverseShuffle (pack keys n).iGroup).mapM fun i => o[i]?) = some res ∧ res.length = l.length ∧
        ∀ (j : Nat) (o : List (Option R)), res[j]? = some o → ∃ a, l[j]? = some a ∧
          (reverseShuffle (pack keys n).iGroup).mapM (fun i => a[i]?) = some o := by
    intro l
    induction l with
    | nil => intro _; exact ⟨[], rfl, rfl, fun j o h => by simp at h⟩
    | cons a l ih =>
      intro h
      obtain ⟨o, ho⟩ := h a (by simp)
      obtain ⟨res, r1, r2, r3⟩ := ih fun b hb => h b (List.mem_cons_of_mem _ hb)
      refine ⟨o :: res, by rw [List.mapM_cons, ho, r1]; rfl, by simp [r2], ?_⟩
      intro j o' hj
      cases j with
      | zero =>
        simp only [List.getElem?_cons_zero, Option.some.injEq] at hj
        subst hj
        exact ⟨a, rfl, ho⟩
      | succ j =>
        rw [List.getElem?_cons_succ] at hj
        exact r3 j o' hj
  obtain ⟨res, r1, r2, r3⟩ := hmap outs (by
    intro a ha
    obtain ⟨j, hj, rfl⟩ := List.mem_iff_getElem.mp ha
    obtain ⟨a', o, h1, h2, _⟩ := hout j (by omega)
    rw [List.getElem?_eq_getElem hj, Option.some.injEq] at h1
    exact ⟨o, by rw [h1]; exact h2⟩)
  refine ⟨res, ?_, by rw [r2, e2], ?_⟩
  · unfold nonreduceOuts
    rw [e1]
    exact r1
  · intro j o hj
    obtain ⟨a, h1, h2⟩ := r3 j o hj
    have hjm : j < m := by
      rw [← e2]
      exact (List.getElem?_eq_some_iff.mp h1).1
    obtain ⟨a', o', h3, h4, h5, h6, h7⟩ := hout j hjm
    rw [h1, Option.some.injEq] at h3
    rw [← h3, h2, Option.some.injEq] at h4
    subst h4
    exact ⟨h5, h6, h7⟩

/-- running sums of the first input -/
def runSums : OutFun Nat Nat := fun ins _ => some [(ins.getD 0 []).mapIdx fun k _ => some ((ins.getD 0 []).take (k + 1)).sum]

/-- the hypotheses can be met: running sums within two groups -/
example : nonreduceOuts [2, 1, 2, 1] 2 1 runSums [[5, 6, 7, 8]] = some [[some 5, some 6, some 12, some 14]] := by decide

/-- **C324** (counterexample) A filtered row holds whatever was in memory, neither its own value nor an invalid value. -/
theorem outputs_filtered_counterexample : nonreduceOuts [1, 0, 1] 1 1 runSums [[5, 6, 7]] = some [[some 5, none, some 12]] := by decide

end Verif.ApplyOut
