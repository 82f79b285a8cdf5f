import Verif.Grp.Pack
/-!
# C52: `apply_reduce` and `apply_nonreduce`; C53: `apply`
-/
namespace Verif.Grp

variable {V D K R S : Type}

/-! ## Slices of a packed column -/

theorem valuesAt_drop (col : List V) (rows : List Nat) : (∀ i ∈ rows, i < col.length) → ∀ s,
    (valuesAt col rows).drop s = valuesAt col (rows.drop s) := by
  induction rows with
  | nil => intro _ s; simp [valuesAt]
  | cons i rows ih =>
    intro h s
    cases s with
    | zero => rfl
    | succ s =>
      have hi : col[i]? = some (col[i]'(h i (by simp))) := List.getElem?_eq_getElem _
      unfold valuesAt
      rw [List.filterMap_cons, hi, List.drop_succ_cons, List.drop_succ_cons]
      exact ih (fun j hj => h j (List.mem_cons_of_mem _ hj)) s

theorem valuesAt_take (col : List V) (rows : List Nat) : (∀ i ∈ rows, i < col.length) → ∀ s,
    (valuesAt col rows).take s = valuesAt col (rows.take s) := by
  induction rows with
  | nil => intro _ s; simp [valuesAt]
  | cons i rows ih =>
    intro h s
    cases s with
    | zero => simp [valuesAt]
    | succ s =>
      have hi : col[i]? = some (col[i]'(h i (by simp))) := List.getElem?_eq_getElem _
      unfold valuesAt
      rw [List.filterMap_cons, hi, List.take_succ_cons, List.take_succ_cons, List.filterMap_cons, hi]
      exact congrArg _ (ih (fun j hj => h j (List.mem_cons_of_mem _ hj)) s)

theorem valuesAt_length (col : List V) (rows : List Nat) (h : ∀ i ∈ rows, i < col.length) :
    (valuesAt col rows).length = rows.length := by
  induction rows with
  | nil => rfl
  | cons i rows ih =>
    unfold valuesAt
    rw [List.filterMap_cons, List.getElem?_eq_getElem (h i (by simp)), List.length_cons, List.length_cons]
    exact congrArg (· + 1) (ih fun j hj => h j (List.mem_cons_of_mem _ hj))

theorem rowsOf_lt {keys : List Nat} {g i : Nat} (h : i ∈ rowsOf keys g) : i < keys.length := by
  rw [mem_rowsOf] at h
  by_contra hn
  rw [List.getElem?_eq_none (by omega)] at h
  simp at h

theorem valuesAt_eq_nil (col : List V) (keys : List Nat) (hl : col.length = keys.length) (g : Nat) :
    valuesAt col (rowsOf keys g) = [] ↔ rowsOf keys g = [] := by
  rw [← List.length_eq_zero_iff, valuesAt_length _ _ (fun i hi => by rw [hl]; exact rowsOf_lt hi), List.length_eq_zero_iff]

/-- the relation of a bin of the packing to the values of the group -/
def BinOf (arr : List V) (b : Nat × Nat) (x : List V) : Prop := (arr.drop b.1).take b.2 = x ∧ b.2 = x.length

theorem iGroup_lt {keys : List Nat} {n i : Nat} (h : i ∈ (pack keys n).iGroup) : i < keys.length := by
  unfold pack at h
  rw [List.mem_flatMap] at h
  obtain ⟨g, _, hi⟩ := h
  exact rowsOf_lt hi

theorem bins_length (keys : List Nat) (n : Nat) : (List.zip (pack keys n).iFirst (pack keys n).nCount).length = n + 1 := by
  rw [List.length_zip]
  unfold pack
  dsimp only
  rw [starts_length]
  simp

/-- the bins of a packing hold the values of the groups -/
theorem bins_spec (keys : List Nat) (n : Nat) (col : List V) (hl : col.length = keys.length) :
    List.Forall₂ (BinOf (valuesAt col (pack keys n).iGroup)) (List.zip (pack keys n).iFirst (pack keys n).nCount)
      ((List.range (n + 1)).map fun g => valuesAt col (rowsOf keys g)) := by
  rw [List.forall₂_iff_get]
  refine ⟨by rw [bins_length]; simp, ?_⟩
  intro g h1 h2
  have hg : g ≤ n := by rw [bins_length] at h1; omega
  have e1 : (List.zip (pack keys n).iFirst (pack keys n).nCount)[g]? =
      some ((((List.range (n + 1)).map fun g => (rowsOf keys g).length).take g).sum, (rowsOf keys g).length) := by
    rw [List.getElem?_zip_eq_some]
    exact ⟨pack_first keys n g hg, pack_count keys n g hg⟩
  have e1' := List.getElem?_eq_getElem h1
  rw [e1] at e1'
  rw [List.get_eq_getElem, List.get_eq_getElem, ← Option.some.inj e1', List.getElem_map, List.getElem_range]
  have hs := slice_pack keys n g hg
  unfold Packing.slice at hs
  rw [List.getD_eq_getElem?_getD, List.getD_eq_getElem?_getD, pack_first keys n g hg, pack_count keys n g hg] at hs
  simp only [Option.getD_some] at hs
  have hig : ∀ i ∈ (pack keys n).iGroup, i < col.length := fun i hi => by rw [hl]; exact iGroup_lt hi
  constructor
  · dsimp only
    rw [valuesAt_drop _ _ hig, valuesAt_take _ _ (fun i hi => hig i (List.mem_of_mem_drop hi)), hs]
  · rw [valuesAt_length _ _ (fun i hi => by rw [hl]; exact rowsOf_lt hi)]

/-! ## The reduce loop -/

theorem reduceLoop_some (t : Dt V D) (rows : Nat) (arr : List V) (f : List V → Option V) (r : List V → V)
    {bins : List (Nat × Nat)} {xs : List (List V)} (hb : List.Forall₂ (BinOf arr) bins xs)
    (hf : ∀ x ∈ xs, x ≠ [] → f x = some (r x)) :
    ∀ (i : Nat) (d : D) (a : List (Option V)), i + xs.length ≤ a.length →
    ∃ a', reduceLoop t rows arr f i bins (some (d, a)) = some (some (d, a')) ∧ a'.length = a.length ∧
      (∀ k, k < i → a'[k]? = a[k]?) ∧
      ∀ k x, xs[k]? = some x → x ≠ [] → a'[i + k]? = some (some (t.cast d (r x))) := by
  induction hb with
  | nil => intro i d a _; exact ⟨a, rfl, rfl, fun _ _ => rfl, fun k x h => by simp at h⟩
  | @cons b x bins xs hbx _ ih =>
    intro i d a hl
    have hl' : i + 1 + xs.length ≤ a.length := by simp only [List.length_cons] at hl; omega
    obtain ⟨first, count⟩ := b
    obtain ⟨h1, h2⟩ := hbx
    dsimp only at h1 h2
    rw [reduceLoop]
    by_cases hc : 0 < count
    · have hx : x ≠ [] := by intro h; rw [h] at h2; simp at h2; omega
      rw [if_pos hc, h1, hf x (by simp) hx]
      dsimp only
      rw [Option.getD_some]
      obtain ⟨a', e, l, pre, ent⟩ := ih (fun y hy => hf y (List.mem_cons_of_mem _ hy)) (i + 1) d
        (a.set i (some (t.cast d (r x)))) (by rw [List.length_set]; exact hl')
      refine ⟨a', e, by rw [l, List.length_set], ?_, ?_⟩
      · intro k hk
        rw [pre k (by omega), List.getElem?_set_ne (by omega)]
      · intro k y hy hne
        cases k with
        | zero =>
          simp only [List.getElem?_cons_zero, Option.some.injEq] at hy
          subst hy
          rw [Nat.add_zero, pre i (by omega), List.getElem?_set_self (by omega)]
        | succ k =>
          rw [List.getElem?_cons_succ] at hy
          have := ent k y hy hne
          rw [show i + 1 + k = i + (k + 1) by omega] at this
          exact this
    · have hx : x = [] := by rw [← List.length_eq_zero_iff]; omega
      rw [if_neg hc]
      obtain ⟨a', e, l, pre, ent⟩ := ih (fun y hy => hf y (List.mem_cons_of_mem _ hy)) (i + 1) d a hl'
      refine ⟨a', e, l, fun k hk => pre k (by omega), ?_⟩
      intro k y hy hne
      cases k with
      | zero =>
        simp only [List.getElem?_cons_zero, Option.some.injEq] at hy
        subst hy
        exact absurd hx hne
      | succ k =>
        rw [List.getElem?_cons_succ] at hy
        have := ent k y hy hne
        rw [show i + 1 + k = i + (k + 1) by omega] at this
        exact this

theorem reduceLoop_none (t : Dt V D) (rows : Nat) (arr : List V) (f : List V → Option V) (r : List V → V)
    {bins : List (Nat × Nat)} {xs : List (List V)} (hb : List.Forall₂ (BinOf arr) bins xs)
    (hf : ∀ x ∈ xs, x ≠ [] → f x = some (r x)) :
    ∀ (i : Nat), i + xs.length ≤ rows → ∀ x0, xs.find? (fun x => decide (x ≠ [])) = some x0 →
    ∃ a', reduceLoop t rows arr f i bins none = some (some (t.of (r x0), a')) ∧ a'.length = rows ∧
      ∀ k x, xs[k]? = some x → x ≠ [] → a'[i + k]? = some (some (t.cast (t.of (r x0)) (r x))) := by
  induction hb with
  | nil => intro i _ x0 h; simp at h
  | @cons b x bins xs hbx hrest ih =>
    intro i hl x0 hx0
    have hl' : i + 1 + xs.length ≤ rows := by simp only [List.length_cons] at hl; omega
    obtain ⟨first, count⟩ := b
    obtain ⟨h1, h2⟩ := hbx
    dsimp only at h1 h2
    rw [reduceLoop]
    by_cases hc : 0 < count
    · have hx : x ≠ [] := by intro h; rw [h] at h2; simp at h2; omega
      rw [List.find?_cons_of_pos (by simpa using hx)] at hx0
      have hxx := Option.some.inj hx0
      subst hxx
      rw [if_pos hc, h1, hf x (by simp) hx]
      dsimp only
      rw [Option.getD_none]
      obtain ⟨a', e, l, pre, ent⟩ := reduceLoop_some t rows arr f r hrest (fun y hy => hf y (List.mem_cons_of_mem _ hy)) (i + 1)
        (t.of (r x)) ((List.replicate rows none).set i (some (t.cast (t.of (r x)) (r x))))
        (by rw [List.length_set, List.length_replicate]; exact hl')
      refine ⟨a', e, by rw [l, List.length_set, List.length_replicate], ?_⟩
      intro k y hy hne
      cases k with
      | zero =>
        simp only [List.getElem?_cons_zero, Option.some.injEq] at hy
        subst hy
        rw [Nat.add_zero, pre i (by omega), List.getElem?_set_self (by rw [List.length_replicate]; omega)]
      | succ k =>
        rw [List.getElem?_cons_succ] at hy
        have := ent k y hy hne
        rw [show i + 1 + k = i + (k + 1) by omega] at this
        exact this
    · have hx : x = [] := by rw [← List.length_eq_zero_iff]; omega
      rw [List.find?_cons_of_neg (by simpa using hx)] at hx0
      rw [if_neg hc]
      obtain ⟨a', e, l, ent⟩ := ih (fun y hy => hf y (List.mem_cons_of_mem _ hy)) (i + 1) hl' x0 hx0
      refine ⟨a', e, l, ?_⟩
      intro k y hy hne
      cases k with
      | zero =>
        simp only [List.getElem?_cons_zero, Option.some.injEq] at hy
        subst hy
        exact absurd hx hne
      | succ k =>
        rw [List.getElem?_cons_succ] at hy
        have := ent k y hy hne
        rw [show i + 1 + k = i + (k + 1) by omega] at this
        exact this

/-- the specification of a result column stored as dtype `d`: one value per group -/
def reducedCol (t : Dt V D) (keys : List Nat) (n : Nat) (r : List V → V) (d : D) (col : List V) : List (Option V) :=
  (List.range n).map fun i =>
    some (if rowsOf keys (i + 1) = [] then t.inv d else t.cast d (r (valuesAt col (rowsOf keys (i + 1)))))

theorem reduceCol_finish (t : Dt V D) (keys : List Nat) (n : Nat) (r : List V → V) (d : D) (col : List V)
    (hl : col.length = keys.length) (a : List (Option V)) (ha : a.length = n + 1)
    (ent : ∀ (k : Nat) (x : List V), ((List.range (n + 1)).map fun g => valuesAt col (rowsOf keys g))[k]? = some x → x ≠ [] →
      a[k]? = some (some (t.cast d (r x)))) :
    (List.zipWith (fun c x => if c = 0 then some (t.inv d) else x) (pack keys n).nCount a).drop 1 = reducedCol t keys n r d col := by
  have hnc : (pack keys n).nCount.length = n + 1 := by unfold pack; simp
  refine List.ext_getElem? fun i => ?_
  unfold reducedCol
  rw [List.getElem?_drop, List.getElem?_map]
  by_cases hi : i < n
  · rw [List.getElem?_range hi, Option.map_some]
    rw [List.getElem?_zipWith, pack_count keys n (1 + i) (by omega)]
    have hai : a[1 + i]? = some (a[1 + i]'(by omega)) := List.getElem?_eq_getElem _
    rw [Nat.add_comm i 1]
    by_cases he : rowsOf keys (1 + i) = []
    · rw [hai, he]
      simp
    · have hv : valuesAt col (rowsOf keys (1 + i)) ≠ [] := fun h => he ((valuesAt_eq_nil col keys hl _).mp h)
      rw [ent (1 + i) (valuesAt col (rowsOf keys (1 + i))) (by
        rw [List.getElem?_map, List.getElem?_range (by omega)]; rfl) hv, if_neg he]
      have : (rowsOf keys (1 + i)).length ≠ 0 := fun h => he (List.length_eq_zero_iff.mp h)
      simp [this]
  · rw [List.getElem?_eq_none (by simp [List.length_zipWith, hnc, ha]; omega), List.getElem?_eq_none (by simp; omega)]
    rfl

/-- one column with a known dtype -/
theorem reduceCol_some (t : Dt V D) (keys : List Nat) (n : Nat) (f : List V → Option V) (r : List V → V) (d : D) (col : List V)
    (hl : col.length = keys.length)
    (hf : ∀ g, g ≤ n → rowsOf keys g ≠ [] → f (valuesAt col (rowsOf keys g)) = some (r (valuesAt col (rowsOf keys g)))) :
    reduceCol t (pack keys n) 1 f (some d) col = some (d, reducedCol t keys n r d col) := by
  have hnc : (pack keys n).nCount.length = n + 1 := by unfold pack; simp
  unfold reduceCol
  dsimp only
  rw [Option.map_some]
  have hf' : ∀ x ∈ (List.range (n + 1)).map fun g => valuesAt col (rowsOf keys g), x ≠ [] → f x = some (r x) := by
    intro x hx hne
    rw [List.mem_map] at hx
    obtain ⟨g, hg, rfl⟩ := hx
    rw [List.mem_range] at hg
    exact hf g (by omega) fun h => hne ((valuesAt_eq_nil col keys hl g).mpr h)
  obtain ⟨a', e, l, _, ent⟩ := reduceLoop_some t (pack keys n).nCount.length _ f r (bins_spec keys n col hl) hf' 0 d
    (List.replicate (pack keys n).nCount.length none) (by rw [List.length_replicate, hnc]; simp)
  rw [e]
  dsimp only
  rw [reduceCol_finish t keys n r d col hl a' (by rw [l, List.length_replicate, hnc]) (by simpa using ent)]

/-- one column without a dtype -/
theorem reduceCol_none (t : Dt V D) (keys : List Nat) (n : Nat) (f : List V → Option V) (r : List V → V) (col : List V)
    (hl : col.length = keys.length)
    (hf : ∀ g, g ≤ n → rowsOf keys g ≠ [] → f (valuesAt col (rowsOf keys g)) = some (r (valuesAt col (rowsOf keys g))))
    (g0 : Nat) (hg0 : firstUsed keys n = some g0) :
    reduceCol t (pack keys n) 1 f none col =
      some (t.of (r (valuesAt col (rowsOf keys g0))), reducedCol t keys n r (t.of (r (valuesAt col (rowsOf keys g0)))) col) := by
  have hnc : (pack keys n).nCount.length = n + 1 := by unfold pack; simp
  unfold reduceCol
  dsimp only
  rw [Option.map_none]
  have hf' : ∀ x ∈ (List.range (n + 1)).map fun g => valuesAt col (rowsOf keys g), x ≠ [] → f x = some (r x) := by
    intro x hx hne
    rw [List.mem_map] at hx
    obtain ⟨g, hg, rfl⟩ := hx
    rw [List.mem_range] at hg
    exact hf g (by omega) fun h => hne ((valuesAt_eq_nil col keys hl g).mpr h)
  have hfind : ((List.range (n + 1)).map fun g => valuesAt col (rowsOf keys g)).find? (fun x => decide (x ≠ [])) =
      some (valuesAt col (rowsOf keys g0)) := by
    rw [List.find?_map]
    unfold firstUsed at hg0
    rw [show ((fun x => decide (x ≠ [])) ∘ fun g => valuesAt col (rowsOf keys g)) = fun g => decide (rowsOf keys g ≠ []) from ?_, hg0]
    · rfl
    · funext g
      simp only [Function.comp]
      exact decide_eq_decide.mpr (not_congr (valuesAt_eq_nil col keys hl g))
  obtain ⟨a', e, l, ent⟩ := reduceLoop_none t (pack keys n).nCount.length _ f r (bins_spec keys n col hl) hf' 0
    (by rw [hnc]; simp) _ hfind
  rw [e]
  dsimp only
  rw [reduceCol_finish t keys n r _ col hl a' (by rw [l, hnc]) (by simpa using ent)]

theorem reduceCols_some (t : Dt V D) (keys : List Nat) (n : Nat) (f : List V → Option V) (r : List V → V) (d : D)
    (cols : List (List V)) (hl : ∀ c ∈ cols, c.length = keys.length)
    (hf : ∀ c ∈ cols, ∀ g, g ≤ n → rowsOf keys g ≠ [] → f (valuesAt c (rowsOf keys g)) = some (r (valuesAt c (rowsOf keys g)))) :
    reduceCols t (pack keys n) 1 f (some d) cols = some (cols.map (reducedCol t keys n r d)) := by
  induction cols with
  | nil => rfl
  | cons c cols ih =>
    rw [reduceCols, reduceCol_some t keys n f r d c (hl c (by simp)) (hf c (by simp))]
    dsimp only
    rw [ih (fun c hc => hl c (List.mem_cons_of_mem _ hc)) (fun c hc => hf c (List.mem_cons_of_mem _ hc))]
    rfl

/-! ## C52: `apply_reduce` -/

/-- **C52** (exact) `apply_reduce` calls the function once for every group that has rows, with the values of the group's rows in
their order, **and for the filtered rows too**; the results of all columns are stored with *one* dtype: the requested one, or the
dtype of the result for the first used group of the *first* column. Groups without rows get the invalid value. -/
theorem applyReduce_exact (t : Dt V D) (keys : List Nat) (n : Nat) (filter : Option (List Bool)) (f : List V → Option V)
    (r : List V → V) (dt : Option D) (d : D) (c0 : List V) (cols : List (List V))
    (hl : ∀ c ∈ c0 :: cols, c.length = (masked keys filter).length)
    (hf : ∀ c ∈ c0 :: cols, ∀ g, g ≤ n → rowsOf (masked keys filter) g ≠ [] →
      f (valuesAt c (rowsOf (masked keys filter) g)) = some (r (valuesAt c (rowsOf (masked keys filter) g))))
    (hd : dt = some d ∨ dt = none ∧ ∃ g0, firstUsed (masked keys filter) n = some g0 ∧
      d = t.of (r (valuesAt c0 (rowsOf (masked keys filter) g0)))) :
    applyReduce t keys n filter false f dt (c0 :: cols) =
      some ((c0 :: cols).map fun c => (List.range n).map fun i =>
        some (if rowsOf (masked keys filter) (i + 1) = [] then t.inv d
              else t.cast d (r (valuesAt c (rowsOf (masked keys filter) (i + 1)))))) := by
  unfold applyReduce
  rw [if_neg (by simp)]
  rcases hd with rfl | ⟨rfl, g0, hg0, rfl⟩
  · exact reduceCols_some t _ n f r d _ hl hf
  · rw [reduceCols, reduceCol_none t _ n f r c0 (hl c0 (by simp)) (hf c0 (by simp)) g0 hg0]
    dsimp only
    rw [reduceCols_some t _ n f r _ cols (fun c hc => hl c (List.mem_cons_of_mem _ hc)) (fun c hc => hf c (List.mem_cons_of_mem _ hc))]
    rfl

/-- **C52** (partial: all results must fit the dtype of the first one, and the function must accept the filtered rows) Every column
holds for every group with rows the function's result for the values of the group's rows. -/
theorem applyReduce_partial (t : Dt V D) (keys : List Nat) (n : Nat) (filter : Option (List Bool)) (f : List V → Option V)
    (c0 : List V) (cols : List (List V)) (hl : ∀ c ∈ c0 :: cols, c.length = (masked keys filter).length) (r : List V → V)
    (hf : ∀ c ∈ c0 :: cols, ∀ g, g ≤ n → rowsOf (masked keys filter) g ≠ [] →
      f (valuesAt c (rowsOf (masked keys filter) g)) = some (r (valuesAt c (rowsOf (masked keys filter) g))))
    (g0 : Nat) (hg0 : firstUsed (masked keys filter) n = some g0)
    (hcast : ∀ x, t.cast (t.of (r (valuesAt c0 (rowsOf (masked keys filter) g0)))) x = x) :
    ∃ res, applyReduce t keys n filter false f none (c0 :: cols) = some res ∧ res.length = (c0 :: cols).length ∧
      ∀ (j : Nat) (c : List V), (c0 :: cols)[j]? = some c → ∃ out : List (Option V), res[j]? = some out ∧ out.length = n ∧
        ∀ i, i < n → rowsOf (masked keys filter) (i + 1) ≠ [] →
          out[i]? = some (f (valuesAt c (rowsOf (masked keys filter) (i + 1)))) := by
  refine ⟨_, applyReduce_exact t keys n filter f r none _ c0 cols hl hf (Or.inr ⟨rfl, g0, hg0, rfl⟩), by simp, ?_⟩
  intro j c hc
  refine ⟨_, by rw [List.getElem?_map, hc]; rfl, by simp, ?_⟩
  intro i hi hne
  rw [List.getElem?_map, List.getElem?_range hi, Option.map_some, if_neg hne, hcast,
    hf c (List.mem_of_getElem? hc) (i + 1) (by omega) hne]

/-- numbers for the examples: integers and floats (in tenths) -/
inductive Num where
  | int (x : Int)
  | flt (tenths : Int)
deriving DecidableEq, Repr

/-- numpy storing with truncation towards zero -/
def numDt : Dt Num Bool where
  of | .int _ => true | .flt _ => false
  cast
    | true, .int x => .int x
    | true, .flt y => .int (y.tdiv 10)
    | false, .int x => .flt (10 * x)
    | false, .flt y => .flt y
  inv | true => .int (-2147483648) | false => .flt (-999)

/-- non-vacuity of `applyReduce_exact`: sums of a column for two groups and a filtered row -/
example : applyReduce numDt [2, 1, 0, 2] 3 none false (fun x => x.head?) none [[.int 5, .int 6, .int 7, .int 8]] =
    some [[some (.int 6), some (.int 5), some (.int (-2147483648))]] := by decide

/-- **C52** (counterexample) The first column is an integer column, so the results of the second column, floats, are truncated
to integers: `first value` of the columns `[5, 6]` and `[2.5, 3.7]`. -/
theorem applyReduce_dtype_counterexample :
    applyReduce numDt [1, 2] 2 none false (fun x => x.head?) none [[.int 5, .int 6], [.flt 25, .flt 37]] =
      some [[some (.int 5), some (.int 6)], [some (.int 2), some (.int 3)]] := by decide

/-- **C52** (counterexample) A function that raises on the filtered rows makes the whole call raise, although no filtered row
belongs to a group. -/
theorem applyReduce_filtered_counterexample :
    let f : List Num → Option Num := fun x => if .int 0 ∈ x then none else x.head?
    applyReduce numDt [1, 1] 1 (some [true, false]) false f none [[.int 5, .int 0]] = none ∧
    rowsOf (masked [1, 1] (some [true, false])) 1 = [0] ∧ f (valuesAt [.int 5, .int 0] [0]) = some (.int 5) := by decide

/-! ## C52: `apply_nonreduce` -/

theorem writeSlice_spec {a : List (Option V)} {acc : List (Option V)} {s : Nat} {r : List V} (hs : a.take s = acc)
    (hacc : acc.length = s) (hl : s + r.length ≤ a.length) :
    ∃ a', writeSlice a s r.length r = some a' ∧ a'.length = a.length ∧ a'.take (s + r.length) = acc ++ r.map some := by
  unfold writeSlice
  rw [if_pos rfl]
  refine ⟨_, rfl, ?_, ?_⟩
  · simp only [List.length_append, List.length_take, List.length_map, List.length_drop]
    omega
  · rw [hs, List.take_append_of_le_length (by simp [hacc]), List.take_of_length_le (by simp [hacc])]

theorem nonreduceLoop_some (t : Dt V D) (rows : Nat) (arr : List V) (f : List V → Option (D × List V)) (r : List V → List V)
    (d : D) (c : List Nat) : ∀ (xs : List (List V)) (s : Nat),
    List.Forall₂ (BinOf arr) (List.zip (starts s c) c) xs →
    (∀ x ∈ xs, x ≠ [] → (∃ d', f x = some (d', r x)) ∧ (r x).length = x.length) →
    ∀ (a acc : List (Option V)), a.take s = acc → acc.length = s → s + c.sum ≤ a.length →
    ∃ a', nonreduceLoop t rows arr f (List.zip (starts s c) c) (some (d, a)) = some (some (d, a')) ∧ a'.length = a.length ∧
      a'.take (s + c.sum) = acc ++ (xs.flatMap fun x => if x = [] then [] else (r x).map fun v => some (t.cast d v)) := by
  induction c with
  | nil =>
    intro xs s hb _ a acc h1 h2 _
    cases hb
    exact ⟨a, rfl, rfl, by simpa using h1⟩
  | cons c0 c ih =>
    intro xs s hb hf a acc h1 h2 h3
    rw [starts, List.zip_cons_cons] at hb ⊢
    cases hb with
    | @cons _ x _ xs hx hrest =>
      obtain ⟨e1, e2⟩ := hx
      dsimp only at e1 e2
      rw [nonreduceLoop]
      have hsum : s + (c0 + c.sum) ≤ a.length := by simpa using h3
      by_cases hc : 0 < c0
      · have hne : x ≠ [] := by intro h; rw [h] at e2; simp at e2; omega
        obtain ⟨⟨d', hfx⟩, hlen⟩ := hf x (by simp) hne
        rw [if_pos hc, e1, hfx]
        dsimp only
        rw [Option.getD_some]
        dsimp only
        have hcl : ((r x).map (t.cast d)).length = c0 := by rw [List.length_map, hlen, e2]
        obtain ⟨a1, w1, w2, w3⟩ := writeSlice_spec (r := (r x).map (t.cast d)) h1 h2 (by rw [hcl]; omega)
        rw [hcl] at w1 w3
        rw [w1]
        dsimp only
        obtain ⟨a', e, l, tk⟩ := ih xs (s + c0) hrest (fun y hy => hf y (List.mem_cons_of_mem _ hy)) a1 _ w3
          (by rw [List.length_append, h2, List.length_map, hcl]) (by rw [w2]; omega)
        refine ⟨a', e, by rw [l, w2], ?_⟩
        rw [List.sum_cons, ← Nat.add_assoc, tk, List.flatMap_cons, if_neg hne, List.append_assoc, List.map_map]
        rfl
      · have hx0 : x = [] := by rw [← List.length_eq_zero_iff]; omega
        have hc0 : c0 = 0 := by omega
        subst hc0 hx0
        rw [if_neg hc]
        obtain ⟨a', e, l, tk⟩ := ih xs s (by simpa using hrest) (fun y hy => hf y (List.mem_cons_of_mem _ hy)) a acc h1 h2 (by omega)
        refine ⟨a', by simpa using e, l, ?_⟩
        rw [List.sum_cons, Nat.zero_add, tk]
        simp

theorem nonreduceLoop_none (t : Dt V D) (rows : Nat) (arr : List V) (f : List V → Option (D × List V)) (r : List V → List V)
    (c : List Nat) : ∀ (xs : List (List V)) (s : Nat),
    List.Forall₂ (BinOf arr) (List.zip (starts s c) c) xs → s = 0 →
    (∀ x ∈ xs, x ≠ [] → (∃ d', f x = some (d', r x)) ∧ (r x).length = x.length) → s + c.sum ≤ rows →
    ∀ x0 d, xs.find? (fun x => decide (x ≠ [])) = some x0 → f x0 = some (d, r x0) →
    ∃ a', nonreduceLoop t rows arr f (List.zip (starts s c) c) none = some (some (d, a')) ∧ a'.length = rows ∧
      a'.take (s + c.sum) = (xs.flatMap fun x => if x = [] then [] else (r x).map fun v => some (t.cast d v)) := by
  induction c with
  | nil =>
    intro xs s hb _ _ _ x0 d hx
    cases hb
    simp at hx
  | cons c0 c ih =>
    intro xs s hb hs hf h3 x0 d hx0 hd
    rw [starts, List.zip_cons_cons] at hb ⊢
    cases hb with
    | @cons _ x _ xs hx hrest =>
      obtain ⟨e1, e2⟩ := hx
      dsimp only at e1 e2
      rw [nonreduceLoop]
      have hsum : s + (c0 + c.sum) ≤ rows := by simpa using h3
      by_cases hc : 0 < c0
      · have hne : x ≠ [] := by intro h; rw [h] at e2; simp at e2; omega
        rw [List.find?_cons_of_pos (by simpa using hne)] at hx0
        have hxx := Option.some.inj hx0
        subst hxx
        obtain ⟨_, hlen⟩ := hf x (by simp) hne
        rw [if_pos hc, e1, hd]
        dsimp only
        rw [Option.getD_none]
        dsimp only
        have hcl : ((r x).map (t.cast d)).length = c0 := by rw [List.length_map, hlen, e2]
        obtain ⟨a1, w1, w2, w3⟩ := writeSlice_spec (a := List.replicate rows none) (acc := []) (s := s) (r := (r x).map (t.cast d))
          (by rw [hs]; simp) (by simp [hs]) (by rw [hcl, List.length_replicate]; omega)
        rw [hcl] at w1 w3
        rw [w1]
        dsimp only
        obtain ⟨a', e, l, tk⟩ := nonreduceLoop_some t rows arr f r d c xs (s + c0) hrest
          (fun y hy => hf y (List.mem_cons_of_mem _ hy)) a1 _ w3
          (by rw [List.length_append, List.length_map, hcl, hs]; simp) (by rw [w2, List.length_replicate]; omega)
        refine ⟨a', e, by rw [l, w2, List.length_replicate], ?_⟩
        rw [List.sum_cons, ← Nat.add_assoc, tk, List.flatMap_cons, if_neg hne, List.nil_append, List.map_map]
        rfl
      · have hx0' : x = [] := by rw [← List.length_eq_zero_iff]; omega
        have hc0 : c0 = 0 := by omega
        subst hc0 hx0'
        rw [List.find?_cons_of_neg (by simp)] at hx0
        rw [if_neg hc]
        obtain ⟨a', e, l, tk⟩ := ih xs s (by simpa using hrest) hs (fun y hy => hf y (List.mem_cons_of_mem _ hy)) (by omega) x0 d hx0 hd
        refine ⟨a', by simpa using e, l, ?_⟩
        rw [List.sum_cons, Nat.zero_add, tk]
        simp

theorem pack_counts (keys : List Nat) (n : Nat) :
    (pack keys n).iFirst = starts 0 (pack keys n).nCount ∧ (pack keys n).nCount.sum = (pack keys n).iGroup.length := by
  unfold pack
  refine ⟨rfl, ?_⟩
  rw [List.length_flatMap]

/-- from the packed results to the rows -/
theorem unshuffle {A : Type} (keys : List Nat) (n : Nat) (h : ∀ k ∈ keys, k ≤ n) (col : List V) (hl : col.length = keys.length)
    (res : List V → List A) (hres : ∀ g, g ≤ n → (res (valuesAt col (rowsOf keys g))).length = (rowsOf keys g).length)
    (a : List A) (ha : a = ((List.range (n + 1)).map fun g => valuesAt col (rowsOf keys g)).flatMap res) :
    ∃ out, (reverseShuffle (pack keys n).iGroup).mapM (fun i => a[i]?) = some out ∧ out.length = keys.length ∧
      ∀ (g j i : Nat), g ≤ n → (rowsOf keys g)[j]? = some i → out[i]? = (res (valuesAt col (rowsOf keys g)))[j]? := by
  have hil := pack_iGroup_length h
  -- position of an entry of a group in the packed order
  have hpos : ∀ (g j i : Nat), g ≤ n → (rowsOf keys g)[j]? = some i →
      ∃ s, (pack keys n).iFirst[g]? = some s ∧ (pack keys n).iGroup.idxOf i = s + j ∧
        a[s + j]? = (res (valuesAt col (rowsOf keys g)))[j]? := by
    intro g j i hg hj
    have hjl : j < (rowsOf keys g).length := by
      by_contra hn
      rw [List.getElem?_eq_none (by omega)] at hj
      simp at hj
    have hf := pack_first keys n g hg
    refine ⟨_, hf, ?_, ?_⟩
    · have he := pack_entry keys n g j hg hjl _ hf
      rw [hj] at he
      obtain ⟨hlt, he⟩ := List.getElem?_eq_some_iff.mp he
      have := (pack_iGroup_nodup keys n).idxOf_getElem _ hlt
      rw [he] at this
      exact this
    · have := slice_flatten (((List.range (n + 1)).map fun g => valuesAt col (rowsOf keys g)).map res) g
        (res (valuesAt col (rowsOf keys g))) (by
          rw [List.getElem?_map, List.getElem?_map, List.getElem?_range (by omega)]; rfl)
      rw [← List.flatMap_def, ← ha] at this
      have hlens : ((((List.range (n + 1)).map fun g => valuesAt col (rowsOf keys g)).map res).map List.length) =
          (List.range (n + 1)).map fun g => (rowsOf keys g).length := by
        rw [List.map_map, List.map_map]
        refine List.map_congr_left fun k hk => ?_
        rw [List.mem_range] at hk
        exact hres k (by omega)
      rw [hlens] at this
      conv_rhs => rw [← this]
      rw [List.getElem?_take_of_lt (by rw [hres g hg]; exact hjl), List.getElem?_drop]
  have hall : ∀ i, i < keys.length → ∃ x, a[(pack keys n).iGroup.idxOf i]? = some x := by
    intro i hi
    have hg : keys[i] ≤ n := h _ (List.getElem_mem hi)
    have hm : i ∈ rowsOf keys keys[i] := by rw [mem_rowsOf, List.getElem?_eq_getElem hi]
    obtain ⟨j, hj⟩ := List.getElem?_of_mem hm
    obtain ⟨s, _, e1, e2⟩ := hpos _ j i hg hj
    rw [e1, e2]
    have hjl : j < (rowsOf keys keys[i]).length := by
      by_contra hn
      rw [List.getElem?_eq_none (by omega)] at hj
      simp at hj
    exact ⟨_, List.getElem?_eq_getElem (by rw [hres _ hg]; exact hjl)⟩
  unfold reverseShuffle
  rw [hil, List.mapM_map]
  have key : ∀ (l : List Nat), (∀ i ∈ l, i < keys.length) → ∃ out, l.mapM (fun i => a[(pack keys n).iGroup.idxOf i]?) = some out ∧
      out.length = l.length ∧ ∀ (m i : Nat), l[m]? = some i → out[m]? = a[(pack keys n).iGroup.idxOf i]? := by
    intro l
    induction l with
    | nil => intro _; exact ⟨[], rfl, rfl, fun m i hm => by simp at hm⟩
    | cons i l ih =>
      intro hl
      obtain ⟨x, hx⟩ := hall i (hl i (by simp))
      obtain ⟨out, e, l1, l2⟩ := ih fun j hj => hl j (List.mem_cons_of_mem _ hj)
      refine ⟨x :: out, ?_, by simp [l1], ?_⟩
      · rw [List.mapM_cons, hx, e]; rfl
      · intro m k hm
        cases m with
        | zero => simp only [List.getElem?_cons_zero, Option.some.injEq] at hm; subst hm; simp [hx]
        | succ m => rw [List.getElem?_cons_succ] at hm ⊢; exact l2 m k hm
  obtain ⟨out, e, l1, l2⟩ := key (List.range keys.length) fun i hi => List.mem_range.mp hi
  refine ⟨out, e, by simpa using l1, ?_⟩
  intro g j i hg hj
  have hi : i < keys.length := rowsOf_lt (List.mem_of_getElem? hj)
  rw [l2 i i (List.getElem?_range hi)]
  obtain ⟨s, _, e1, e2⟩ := hpos g j i hg hj
  rw [e1, e2]

/-- **C52** `apply_nonreduce`: if the function keeps the number of values, every row of every group gets the entry of the function's
result for its group at the row's place within the group (rows that are filtered form a group of their own), stored with the
dtype of the first result. -/
theorem nonreduceCol_correct (t : Dt V D) (keys : List Nat) (n : Nat) (hk : ∀ k ∈ keys, k ≤ n) (f : List V → Option (D × List V))
    (r : List V → List V) (col : List V) (hl : col.length = keys.length)
    (hf : ∀ g, g ≤ n → rowsOf keys g ≠ [] → (∃ d, f (valuesAt col (rowsOf keys g)) = some (d, r (valuesAt col (rowsOf keys g)))) ∧
      (r (valuesAt col (rowsOf keys g))).length = (rowsOf keys g).length)
    (dt : Option D) (d : D)
    (hd : dt = some d ∨ dt = none ∧ ∃ g0, firstUsed keys n = some g0 ∧
      f (valuesAt col (rowsOf keys g0)) = some (d, r (valuesAt col (rowsOf keys g0)))) :
    ∃ out, nonreduceCol t (pack keys n) f dt col = some out ∧ out.length = keys.length ∧
      ∀ (g j i : Nat), g ≤ n → (rowsOf keys g)[j]? = some i →
        out[i]? = ((r (valuesAt col (rowsOf keys g)))[j]?).map fun v => some (t.cast d v) := by
  have hlen : ∀ g, (valuesAt col (rowsOf keys g)).length = (rowsOf keys g).length := fun g =>
    valuesAt_length _ _ (fun i hi => by rw [hl]; exact rowsOf_lt hi)
  have hf' : ∀ x ∈ (List.range (n + 1)).map fun g => valuesAt col (rowsOf keys g), x ≠ [] →
      (∃ d, f x = some (d, r x)) ∧ (r x).length = x.length := by
    intro x hx hne
    rw [List.mem_map] at hx
    obtain ⟨g, hg, rfl⟩ := hx
    rw [List.mem_range] at hg
    obtain ⟨h1, h2⟩ := hf g (by omega) fun h => hne ((valuesAt_eq_nil col keys hl g).mpr h)
    exact ⟨h1, by rw [h2, hlen]⟩
  have hb := bins_spec keys n col hl
  rw [(pack_counts keys n).1] at hb
  have hsum := (pack_counts keys n).2
  let res : List V → List (Option V) := fun x => if x = [] then [] else (r x).map fun v => some (t.cast d v)
  -- the loop fills the whole array
  have hloop : ∃ a, nonreduceLoop t (pack keys n).iGroup.length (valuesAt col (pack keys n).iGroup) f
      (List.zip (pack keys n).iFirst (pack keys n).nCount)
      (dt.map fun d => (d, List.replicate (pack keys n).iGroup.length none)) = some (some (d, a)) ∧
      a = ((List.range (n + 1)).map fun g => valuesAt col (rowsOf keys g)).flatMap res := by
    rw [(pack_counts keys n).1]
    rcases hd with rfl | ⟨rfl, g0, hg0, hfd⟩
    · obtain ⟨a', e, l, tk⟩ := nonreduceLoop_some t (pack keys n).iGroup.length _ f r d _ _ 0 hb hf'
        (List.replicate (pack keys n).iGroup.length none) [] (by simp) rfl (by rw [List.length_replicate]; omega)
      refine ⟨a', e, ?_⟩
      rw [Nat.zero_add, List.take_of_length_le (by rw [l, List.length_replicate]; omega), List.nil_append] at tk
      exact tk
    · have hfind : ((List.range (n + 1)).map fun g => valuesAt col (rowsOf keys g)).find? (fun x => decide (x ≠ [])) =
          some (valuesAt col (rowsOf keys g0)) := by
        rw [List.find?_map]
        unfold firstUsed at hg0
        rw [show ((fun x => decide (x ≠ [])) ∘ fun g => valuesAt col (rowsOf keys g)) = fun g => decide (rowsOf keys g ≠ []) from ?_, hg0]
        · rfl
        · funext g
          simp only [Function.comp]
          exact decide_eq_decide.mpr (not_congr (valuesAt_eq_nil col keys hl g))
      obtain ⟨a', e, l, tk⟩ := nonreduceLoop_none t (pack keys n).iGroup.length _ f r _ _ 0 hb rfl hf' (by omega) _ d hfind hfd
      refine ⟨a', e, ?_⟩
      rw [Nat.zero_add, List.take_of_length_le (by rw [l]; omega)] at tk
      exact tk
  obtain ⟨a, e, ha⟩ := hloop
  have hres : ∀ g, g ≤ n → (res (valuesAt col (rowsOf keys g))).length = (rowsOf keys g).length := by
    intro g hg
    show (if _ then _ else _ : List (Option V)).length = _
    by_cases he : rowsOf keys g = []
    · rw [if_pos ((valuesAt_eq_nil col keys hl g).mpr he), he]; rfl
    · rw [if_neg (fun h => he ((valuesAt_eq_nil col keys hl g).mp h)), List.length_map]
      exact (hf g hg he).2
  obtain ⟨out, o1, o2, o3⟩ := unshuffle keys n hk col hl res hres a ha
  refine ⟨out, ?_, o2, ?_⟩
  · unfold nonreduceCol
    dsimp only
    rw [e]
    exact o1
  · intro g j i hg hj
    rw [o3 g j i hg hj]
    show (if _ then _ else _ : List (Option V))[j]? = _
    have hne : rowsOf keys g ≠ [] := by intro h; rw [h] at hj; simp at hj
    rw [if_neg (fun h => hne ((valuesAt_eq_nil col keys hl g).mp h)), List.getElem?_map]

/-- non-vacuity: running sums within groups, filtered row in a group of its own -/
example : nonreduceCol numDt (pack [2, 1, 0, 2] 2) (fun x => some (true, x.reverse)) none [.int 5, .int 6, .int 7, .int 8] =
    some [some (.int 8), some (.int 6), some (.int 7), some (.int 5)] := by decide

/-- **C52** `apply_nonreduce` treats every column on its own: no dtype is carried over -/
theorem applyNonreduce_columns (t : Dt V D) (keys : List Nat) (n : Nat) (filter : Option (List Bool))
    (f : List V → Option (D × List V)) (dt : Option D) (cols : List (List V)) (outs : List (List (Option V)))
    (h : ∀ (j : Nat) (c : List V), cols[j]? = some c → ∃ o, outs[j]? = some o ∧
      nonreduceCol t (pack (masked keys filter) n) f dt c = some o) (hlen : outs.length = cols.length) :
    applyNonreduce t keys n filter f dt cols = some outs := by
  unfold applyNonreduce
  induction cols generalizing outs with
  | nil =>
    rw [List.length_nil, List.length_eq_zero_iff] at hlen
    subst hlen; rfl
  | cons c cols ih =>
    cases outs with
    | nil => simp at hlen
    | cons o outs =>
      obtain ⟨o', h1, h2⟩ := h 0 c rfl
      simp only [List.getElem?_cons_zero, Option.some.injEq] at h1
      subst h1
      rw [List.mapM_cons, h2, ih outs (fun j c hc => by simpa using h (j + 1) c (by simpa using hc)) (by simpa using hlen)]
      rfl

end Verif.Grp
