import Verif.CatNew.Rows
/-! # Looking up categories, invalid categories and comparisons (C163 - C167) -/
namespace Verif.CatNew
variable {S : Type} [LinearOrder S]

/-- a Categorical with one key column -/
structure WF (c : C S) : Prop where
  one : ∃ nm, c.g.uniq = [(nm, firstCol c)]
  count : c.g.count = (firstCol c).length
  base : c.g.base ≤ 1
  nodup : (firstCol c).Nodup
  range : ∀ k ∈ c.g.codes, InRange c.g.base c.g.count k
  srt : c.sorted = true → (firstCol c).Pairwise (· < ·)

theorem searchLeft_le (l : List S) (s : S) : searchLeft l s ≤ l.length := by
  unfold searchLeft
  exact List.Sublist.length_le (List.takeWhile_sublist _)

theorem searchLeft_get (l : List S) (hs : l.Pairwise (· < ·)) (s : S) (h : s ∈ l) : l[searchLeft l s]? = some s := by
  induction l with
  | nil => simp at h
  | cons x xs ih =>
    rw [List.pairwise_cons] at hs
    unfold searchLeft
    rw [List.takeWhile_cons]
    by_cases hx : x < s
    · rw [if_pos (by simpa using hx), List.length_cons, List.getElem?_cons_succ]
      refine ih hs.2 ?_
      rcases List.mem_cons.1 h with h | h
      · exact absurd hx (by rw [h]; exact lt_irrefl _)
      · exact h
    · rw [if_neg (by simpa using hx)]
      rcases List.mem_cons.1 h with h | h
      · simp [h]
      · exact absurd (hs.1 s h) hx

theorem searchLeft_below (l : List S) (s : S) (i : Nat) (x : S) (hx : l[i]? = some x) (hi : i < searchLeft l s) : x < s := by
  induction l generalizing i with
  | nil => simp at hx
  | cons y ys ih =>
    unfold searchLeft at hi
    rw [List.takeWhile_cons] at hi
    split at hi
    · rename_i hy
      cases i with
      | zero => simp at hx; subst hx; simpa using hy
      | succ i => exact ih i (by simpa using hx) (by simpa [searchLeft] using hi)
    · simp at hi

theorem searchLeft_above (l : List S) (hs : l.Pairwise (· < ·)) (s : S) (i : Nat) (x : S) (hx : l[i]? = some x)
    (hi : searchLeft l s ≤ i) : ¬ x < s := by
  induction l generalizing i with
  | nil => simp at hx
  | cons y ys ih =>
    rw [List.pairwise_cons] at hs
    unfold searchLeft at hi
    rw [List.takeWhile_cons] at hi
    split at hi
    · cases i with
      | zero => simp at hi
      | succ i => exact ih hs.2 i (by simpa using hx) (by simpa [searchLeft] using hi)
    · rename_i hy
      have hy' : ¬ y < s := by simpa using hy
      cases i with
      | zero => simp at hx; subst hx; exact hy'
      | succ i =>
        have hm : x ∈ ys := List.mem_of_getElem? (by simpa using hx)
        exact fun h => hy' (lt_trans (hs.1 x hm) h)

theorem nodup_index {l : List S} (hn : l.Nodup) {i j : Nat} {s : S} (hi : l[i]? = some s) (hj : l[j]? = some s) : i = j := by
  obtain ⟨hi1, hi2⟩ := List.getElem?_eq_some_iff.1 hi
  obtain ⟨hj1, hj2⟩ := List.getElem?_eq_some_iff.1 hj
  exact (List.Nodup.getElem_inj_iff hn).1 (hi2.trans hj2.symm)

theorem index2_mem {c : C S} (hw : WF c) {s : S} {i : Nat} (hi : (firstCol c)[i]? = some s) : index2 c s = 2 * ((i : Int) + c.g.base) := by
  have hm : s ∈ firstCol c := List.mem_of_getElem? hi
  unfold index2
  split
  · rename_i hso
    have hg := searchLeft_get (firstCol c) (hw.srt hso) s hm
    have := nodup_index hw.nodup hg hi
    dsimp only
    rw [if_pos (Or.inr hg), this]
    omega
  · have := nodup_index hw.nodup (find_pos hm) hi
    rw [this]; omega

theorem index2_not_mem {c : C S} {s : S} (hs : s ∉ firstCol c) :
    index2 c s = 2 * (((firstCol c).length : Int) + c.g.base) ∨
      (c.sorted = true ∧ searchLeft (firstCol c) s < (firstCol c).length ∧ index2 c s = 2 * ((searchLeft (firstCol c) s : Int) + c.g.base) - 1) := by
  unfold index2
  split
  · rename_i hso
    dsimp only
    by_cases hlt : searchLeft (firstCol c) s < (firstCol c).length
    · right
      refine ⟨hso, hlt, ?_⟩
      rw [if_neg]
      · omega
      · rintro (h | h)
        · rw [List.getElem?_eq_none_iff] at h; omega
        · exact hs (List.mem_of_getElem? h)
    · left
      have hle := searchLeft_le (firstCol c) s
      have : searchLeft (firstCol c) s = (firstCol c).length := by omega
      rw [this, if_pos (Or.inl (by simp))]
      omega
  · left
    rw [List.idxOf_eq_length hs]; omega

/-- what a row of a Categorical with one key column shows -/
theorem item_one {c : C S} (hw : WF c) {k : Int} (hk : k ∈ c.g.codes) :
    (k = 0 ∧ c.g.base = 1 ∧ itemOf c.g k = .filtered) ∨
      ∃ l, (firstCol c)[(k - c.g.base).toNat]? = some l ∧ (c.g.base : Int) ≤ k ∧ itemOf c.g k = .label [l] := by
  obtain ⟨h0, h1⟩ := hw.range k hk
  have hb := hw.base
  have hc := hw.count
  obtain ⟨nm, hu⟩ := hw.one
  unfold itemOf
  dsimp only
  by_cases hf : c.g.base = 1 ∧ k = 0
  · left
    refine ⟨hf.2, hf.1, ?_⟩
    rw [if_pos (by left; omega), if_pos hf]
  · right
    have hlt : (k - (c.g.base : Int)).toNat < (firstCol c).length := by omega
    refine ⟨(firstCol c)[(k - (c.g.base : Int)).toNat], List.getElem?_eq_getElem hlt, by omega, ?_⟩
    rw [if_neg (by omega), hu]
    unfold rowAt
    rw [List.filterMap_cons, List.filterMap_nil, List.getElem?_eq_getElem hlt]

/-! ## Categoricals that have one key column -/

theorem wf_given {codes : List Int} {cats : List S} {filter : Option (List Bool)} {base : Nat} {req : Option Nat} {ordered : Bool} {inv : Option S} {aa : Bool}
    (hb : base ≤ 1) (hn : cats.length < 2 ^ 63) (hnd : cats.Nodup) (ho : ordered = true → cats.Pairwise (· < ·))
    (hf : filterFits filter codes.length = true) (hr : ∀ k ∈ codes, InRange base cats.length k) :
    WF (ofGrouping (givenGrouping codes cats filter base req ordered) inv aa) := by
  refine ⟨⟨key0, rfl⟩, rfl, hb, hnd, fun k hk => ?_, ho⟩
  obtain ⟨i, hi⟩ := List.getElem?_of_mem hk
  have hil : i < codes.length := by
    have := (List.getElem?_eq_some_iff.1 hi).1
    unfold ofGrouping givenGrouping at this
    dsimp only at this
    rwa [recastIfAsked_length, combineFilter_length hf] at this
  have hc := List.getElem?_eq_getElem hil
  obtain ⟨h0, h1⟩ := hr _ (List.mem_of_getElem? hc)
  have h2 := combineFilter_get hf hc
  have h3 : (givenGrouping codes cats filter base req ordered).codes[i]? = some (if Passes filter i then codes[i] else 0) := by
    unfold givenGrouping
    refine recastIfAsked_get hn h2 ?_ ?_
    · split_ifs <;> omega
    · split_ifs <;> omega
  rw [show (ofGrouping (givenGrouping codes cats filter base req ordered) inv aa).g.codes[i]? = _ from h3] at hi
  cases hi
  show InRange base cats.length _
  split_ifs
  · exact ⟨h0, h1⟩
  · refine ⟨le_refl _, ?_⟩
    omega

theorem issorted_strict {cats : List S} (hnd : cats.Nodup) (h : issorted cats = true) : cats.Pairwise (· < ·) := by
  unfold issorted at h
  rw [decide_eq_true_eq] at h
  exact (h.and hnd).imp fun ⟨h1, h2⟩ => lt_of_le_of_ne h1 h2

/-- Categoricals made of codes and distinct categories are among those the theorems below are about -/
theorem newOfCodes_wf {codes : List Int} {unsigned : Bool} {cats : List S} {o : Opts S} {c : C S} (h : newOfCodes codes unsigned cats o = .ok c)
    (hb : o.base = none ∨ o.base = some 0 ∨ o.base = some 1) (hn : cats.length < 2 ^ 63) (hnd : cats.Nodup) : WF c := by
  obtain ⟨ha, hr, rfl⟩ := (newOfCodes_eq _ _ _ _ _).1 h
  refine wf_given (base_ok hb) hn hnd (fun ho => ?_) ?_ hr
  · split_ifs at ho
    exact issorted_strict hnd ho
  · have : (usedCodes codes unsigned cats o).length = codes.length := by
      unfold usedCodes flipUnsigned recast
      split_ifs <;> simp
    rw [this]; exact ha.fits

theorem groupingOf_uniq_one {k : Name} {v : List S} {n : Nat} (hv : v.length = n) (filter : Option (List Bool)) (base : Nat) (ordered lex : Bool) (req : Option Nat) :
    ∃ col, (groupingOf [(k, v)] n filter base ordered lex req).uniq = [(k, col)] ∧
      col.length = (groupingOf [(k, v)] n filter base ordered lex req).count := by
  have hd : Rect [(k, v)] n := by
    intro kv hkv
    rw [List.mem_singleton] at hkv
    rw [hkv]; exact hv
  have hf := hashFirst_ok (d := [(k, v)]) (n := n) (filter := filter)
  unfold groupingOf
  cases lex with
  | true =>
    rw [if_pos rfl]
    have hf2 := hf.perm (lexFirst_perm [(k, v)] n filter)
    exact ⟨_, rfl, pickAt_length fun i hi => by rw [hv]; exact hf2.lt i hi⟩
  | false =>
    rw [if_neg (by simp)]
    have hl := pickAt_length (col := v) (ix := hashFirst [(k, v)] n filter) fun i hi => by rw [hv]; exact hf.lt i hi
    cases ordered with
    | true =>
      rw [if_pos rfl]
      refine ⟨_, rfl, ?_⟩
      have hp := isortrows_perm (takeAll [(k, v)] (hashFirst [(k, v)] n filter)) (hashFirst [(k, v)] n filter).length
      dsimp only
      rw [pickAt_length]
      · rw [hp.length_eq, List.length_range]
      · intro i hi
        rw [hl]
        exact List.mem_range.1 (hp.mem_iff.1 hi)
    | false =>
      rw [if_neg (by simp)]
      exact ⟨_, rfl, hl⟩

/-- Categoricals of one array of values are among those the theorems below are about -/
theorem newOfArrays_wf {a : Option Name × List S} {o : Opts S} {c : C S} (h : newOfArrays [a] o = .ok c)
    (hb : o.base = none ∨ o.base = some 0 ∨ o.base = some 1) (hn : a.2.length < 2 ^ 63) : WF c := by
  have hcl : NoClash [a] := Or.inl rfl
  obtain ⟨n, hlen, hcat, hso, _⟩ := newOfArrays_categories_partial h hb (by simpa using hn) hcl
  obtain ⟨n', hlen', hcl2, hrows⟩ := newOfArrays_rows_partial h hb (by simpa using hn) hcl
  obtain ⟨m, _, hlm, _, h0, rfl⟩ := newOfArrays_eq h
  have hm : a.2.length = m := hlm a (by simp)
  obtain rfl : m = n := hm.symm.trans (hlen a (by simp))
  obtain rfl : m = n' := hm.symm.trans (hlen' a (by simp))
  have hdd : dataAsDict 0 [] [a] = [(keyName ([] : Cols S) 0 a.1, a.2)] := by simp [dataAsDict, put]
  rw [hdd] at hcat hso hcl2 hrows ⊢
  obtain ⟨col, hu, hcol⟩ := groupingOf_uniq_one (k := keyName ([] : Cols S) 0 a.1) hm o.filter (o.base.getD 1) (orderedOr o ([a].length == 1)) (o.lex.getD false) o.dtype
  obtain ⟨hg, hbase⟩ := groupingOf_ok (d := [(keyName ([] : Cols S) 0 a.1, a.2)]) (n := m) (by
    intro kv hkv; rw [List.mem_singleton] at hkv; rw [hkv]; exact hm) o.filter (base_ok hb) (base_zero hb h0) (by omega)
    (orderedOr o ([a].length == 1)) (o.lex.getD false) o.dtype
  generalize hG : groupingOf [(keyName ([] : Cols S) 0 a.1, a.2)] m o.filter (o.base.getD 1) (orderedOr o ([a].length == 1)) (o.lex.getD false) o.dtype = G at *
  have hfc : firstCol (ofGrouping G (if [a].length = 1 then o.invalid else none) false) = col := by
    unfold firstCol ofGrouping
    dsimp only
    rw [hu]
  have hrowcat : catRows (ofGrouping G (if [a].length = 1 then o.invalid else none) false) = col.map fun v => [v] := by
    unfold catRows ofGrouping
    refine List.ext_getElem (by simp [hcol]) fun j h1 h2 => ?_
    rw [List.length_map] at h2
    simp [rowAt, hu, List.getElem?_eq_getElem h2]
  refine ⟨⟨_, by rw [hfc]; exact hu⟩, by rw [hfc]; exact hcol.symm, ?_, ?_, ?_, ?_⟩
  · show G.base ≤ 1
    rw [hbase]; exact base_ok hb
  · rw [hfc]
    have := hcat.once
    rw [hrowcat] at this
    exact List.Nodup.of_map _ this
  · intro k hk
    obtain ⟨i, hi⟩ := List.getElem?_of_mem hk
    have hil : i < m := by
      have := (List.getElem?_eq_some_iff.1 hi).1
      rwa [hcl2] at this
    have hit := hrows i hil
    rw [getItem_nat (by rw [hcl2]; exact hil), hi, Option.map_some] at hit
    have hit' := Option.some.inj hit
    show InRange G.base G.count k
    change itemOf G k = _ at hit'
    unfold itemOf at hit'
    dsimp only at hit'
    have hbl : G.base ≤ 1 := by rw [hbase]; exact base_ok hb
    split_ifs at hit' with h1 h2 h3 <;> first
      | (obtain ⟨hb1, hk0⟩ := h2; subst hk0; refine ⟨le_refl _, ?_⟩; omega)
      | (constructor <;> omega)
  · intro hs
    rw [hfc]
    have hso' : (orderedOr o ([a].length == 1) || o.lex.getD false) = true := by
      have : G.ordered = true := hs
      rw [hg.ordered] at this
      exact this
    have hcond : o.ordered = some true ∨ o.lex = some true ∨ (o.ordered = none ∧ [a].length = 1) := by
      unfold orderedOr at hso'
      cases h1 : o.ordered with
      | none => right; right; exact ⟨rfl, rfl⟩
      | some b =>
        cases b with
        | true => left; rfl
        | false =>
          right; left
          cases h2 : o.lex with
          | none => rw [h1, h2] at hso'; simp at hso'
          | some l => rw [h1, h2] at hso'; simp at hso'; rw [hso']
    have hp := hso hcond
    rw [hrowcat, List.pairwise_map] at hp
    exact hp.imp fun {x y} h => by
      have : [x] < [y] := h
      rcases List.cons_lt_cons_iff.1 this with h | h
      · exact h
      · exact absurd h.2 (by simp)

/-! ## codes of categories -/

/-- **C166** The code of a label: the base index plus the position of the label among the categories; a label that is no category is
refused. -/
theorem fromCategory_iff {c : C S} (hw : WF c) (s : S) (k : Int) :
    fromCategory c s = some k ↔ (c.g.base : Int) ≤ k ∧ (firstCol c)[(k - c.g.base).toNat]? = some s := by
  unfold fromCategory
  dsimp only
  by_cases hs : s ∈ firstCol c
  · obtain ⟨i, hi⟩ := List.getElem?_of_mem hs
    have hil := (List.getElem?_eq_some_iff.1 hi).1
    rw [index2_mem hw hi, if_neg (by rw [hw.count]; omega)]
    constructor
    · intro h
      cases h
      refine ⟨by omega, ?_⟩
      have : ((2 * ((i : Int) + (c.g.base : Int)) / 2) - (c.g.base : Int)).toNat = i := by omega
      rw [this]; exact hi
    · rintro ⟨hb, h⟩
      have := nodup_index hw.nodup h hi
      congr 1
      omega
  · have : ¬ ((c.g.base : Int) ≤ k ∧ (firstCol c)[(k - c.g.base).toNat]? = some s) := fun h => hs (List.mem_of_getElem? h.2)
    refine ⟨fun h => ?_, fun h => absurd h this⟩
    rw [if_pos] at h
    · cases h
    · rcases index2_not_mem hs with h | ⟨_, _, h⟩
      · left; rw [h, hw.count]
      · right; rw [h]; omega

/-- **C166** Labels that are no category are refused, all others are accepted. -/
theorem fromCategory_none {c : C S} (hw : WF c) (s : S) : fromCategory c s = none ↔ [s] ∉ catRows c := by
  have hcat : [s] ∈ catRows c ↔ s ∈ firstCol c := by
    obtain ⟨nm, hu⟩ := hw.one
    unfold catRows
    rw [List.mem_map]
    constructor
    · rintro ⟨j, hj, h⟩
      rw [hu] at h
      unfold rowAt at h
      rw [List.filterMap_cons, List.filterMap_nil] at h
      cases hv : (firstCol c)[j]? with
      | none => rw [hv] at h; cases h
      | some v =>
        rw [hv] at h
        cases h
        exact List.mem_of_getElem? hv
    · intro h
      obtain ⟨j, hj⟩ := List.getElem?_of_mem h
      refine ⟨j, List.mem_range.2 (by rw [hw.count]; exact (List.getElem?_eq_some_iff.1 hj).1), ?_⟩
      rw [hu]
      unfold rowAt
      rw [List.filterMap_cons, List.filterMap_nil, hj]
  rw [hcat]
  constructor
  · intro h hs
    obtain ⟨i, hi⟩ := List.getElem?_of_mem hs
    have := (fromCategory_iff hw s ((i : Int) + c.g.base)).2 ⟨by omega, by
      have : ((i : Int) + (c.g.base : Int) - (c.g.base : Int)).toNat = i := by omega
      rw [this]; exact hi⟩
    rw [h] at this
    cases this
  · intro hs
    cases h : fromCategory c s with
    | none => rfl
    | some k => exact absurd (List.mem_of_getElem? ((fromCategory_iff hw s k).1 h).2) hs

/-- **C166** Looking up the label of a code and the code of a label are inverse to each other. -/
theorem fromBin_fromCategory {c : C S} (hw : WF c) (s : S) (k : Int) : fromBin c k = .ok [s] ↔ fromCategory c s = some k := by
  rw [fromCategory_iff hw]
  obtain ⟨nm, hu⟩ := hw.one
  unfold fromBin
  by_cases hb : k < c.g.base
  · rw [if_pos hb]
    exact ⟨fun h => (by cases h), fun h => absurd h.1 (by omega)⟩
  · rw [if_neg hb]
    by_cases hl : (k - (c.g.base : Int)).toNat < c.g.count
    · have hl2 : (k - (c.g.base : Int)).toNat < (firstCol c).length := by rw [← hw.count]; exact hl
      rw [if_pos hl, hu]
      unfold rowAt
      rw [List.filterMap_cons, List.filterMap_nil, List.getElem?_eq_getElem hl2]
      constructor
      · intro h
        cases h
        exact ⟨by omega, rfl⟩
      · rintro ⟨_, h⟩
        cases h
        rfl
    · rw [if_neg hl]
      refine ⟨fun h => (by cases h), fun h => ?_⟩
      have := (List.getElem?_eq_some_iff.1 h.2).1
      rw [← hw.count] at this
      exact absurd this hl

/-! ## several keys -/

/-- **C167 (partial)** The code of a key of several parts that is a category. Missing: a key that is no category should be refused, see
the counterexample and `fromCategoryTuple_missing_exact`. -/
theorem fromCategoryTuple_partial {c : C S} {key : List S} {j : Nat} (hj : (catRows c)[j]? = some key) (hn : (catRows c).Nodup) (hl : key.length = c.g.uniq.length) :
    fromCategoryTuple c key = .ok ((j : Int) + c.g.base) ∧ fromBin c ((j : Int) + c.g.base) = .ok key := by
  have hjl := (List.getElem?_eq_some_iff.1 hj).1
  have hjc : j < c.g.count := by simpa [catRows] using hjl
  have hrow : rowAt c.g.uniq j = key := by
    unfold catRows at hj
    rw [List.getElem?_map, List.getElem?_range hjc] at hj
    exact Option.some.inj hj
  have hfind : (List.range c.g.count).find? (fun j => decide (rowAt c.g.uniq j = key)) = some j := by
    cases hf : (List.range c.g.count).find? (fun j => decide (rowAt c.g.uniq j = key)) with
    | none =>
      rw [List.find?_eq_none] at hf
      exact absurd hrow (by simpa using hf j (List.mem_range.2 hjc))
    | some i =>
      have h1 := List.find?_some hf
      have h2 := List.mem_range.1 (List.mem_of_find?_eq_some hf)
      have h3 : (catRows c)[i]? = some key := by
        unfold catRows
        rw [List.getElem?_map, List.getElem?_range h2, Option.map_some]
        simpa using h1
      obtain ⟨hi1, hi2⟩ := List.getElem?_eq_some_iff.1 h3
      obtain ⟨hj1, hj2⟩ := List.getElem?_eq_some_iff.1 hj
      rw [(List.Nodup.getElem_inj_iff hn).1 (hi2.trans hj2.symm)]
  constructor
  · unfold fromCategoryTuple multiIndex
    rw [if_neg (by omega), hfind]
    dsimp only
    rw [if_neg (by omega)]
  · unfold fromBin
    rw [if_neg (by omega)]
    have : ((j : Int) + (c.g.base : Int) - (c.g.base : Int)).toNat = j := by omega
    rw [this, if_pos hjc, hrow]

/-- **C167** A key of several parts that is no category gets the code -2 plus the base index. -/
theorem fromCategoryTuple_missing_exact {c : C S} {key : List S} (h : key ∉ catRows c) (hl : key.length = c.g.uniq.length) :
    fromCategoryTuple c key = .ok (-2 + (c.g.base : Int)) := by
  have hf : (List.range c.g.count).find? (fun j => decide (rowAt c.g.uniq j = key)) = none := by
    rw [List.find?_eq_none]
    intro j hj
    simp only [decide_eq_true_eq]
    exact fun he => h (List.mem_map.2 ⟨j, hj, he⟩)
  unfold fromCategoryTuple multiIndex
  rw [if_neg (by omega), hf]
  dsimp only
  rw [if_neg (by omega)]

/-! ## the invalid category -/

/-- **C164** `isnan` is True for exactly the rows that show the invalid category, `isnotnan` for exactly the others. -/
theorem isnan_rows {c : C S} (hw : WF c) {i : Nat} (hi : i < c.g.codes.length) :
    (isnan c)[i]? = some (decide (∃ v, c.invalid = some v ∧ getItem c i = some (.label [v]))) ∧
    (isnotnan c)[i]? = some (decide (¬ ∃ v, c.invalid = some v ∧ getItem c i = some (.label [v]))) := by
  have hk := List.getElem?_eq_getElem hi
  have hmem : c.g.codes[i] ∈ c.g.codes := List.getElem_mem hi
  have hitem : getItem c i = some (itemOf c.g c.g.codes[i]) := by rw [getItem_nat hi, hk]; rfl
  have key : ∀ v, c.invalid = some v → (fromCategory c v = some c.g.codes[i] ↔ getItem c i = some (.label [v])) := by
    intro v _
    rw [fromCategory_iff hw, hitem]
    rcases item_one hw hmem with ⟨h0, h1, h2⟩ | ⟨l, hl, hb, h2⟩
    · rw [h2]
      refine ⟨fun h => ?_, fun h => (by cases h)⟩
      have := h.1
      omega
    · rw [h2, hl]
      constructor
      · rintro ⟨_, h⟩; cases h; rfl
      · intro h; cases h; exact ⟨hb, rfl⟩
  unfold isnan isnotnan
  cases hv : c.invalid with
  | none => simp [hi]
  | some v =>
    rw [Option.bind_some]
    have hkey := key v hv
    cases hf : fromCategory c v with
    | none =>
      rw [hf] at hkey
      have hn : ¬ getItem c i = some (.label [v]) := fun h => by have := hkey.2 h; cases this
      simp [hi, hn]
    | some k =>
      rw [hf] at hkey
      have hkk : c.g.codes[i] = k ↔ getItem c i = some (.label [v]) := by
        rw [← hkey]
        exact ⟨fun h => by rw [h], fun h => (Option.some.inj h).symm⟩
      dsimp only
      rw [List.getElem?_map, List.getElem?_map, hk]
      constructor
      · simp [hkk]
      · simp [hkk]

/-- **C168 (partial)** After `invalid_set` with a string, `isnan` is True for exactly the rows that show it. Missing: bytes are refused, see
the counterexample. -/
theorem invalidSet_partial {c : C S} (hw : WF c) (v : S) : ∃ c', invalidSet c (.str v) = .ok c' ∧ (∀ (i : Int), getItem c' i = getItem c i) ∧
    ∀ (i : Nat), i < c.g.codes.length → (isnan c')[i]? = some (decide (getItem c i = some (.label [v]))) := by
  refine ⟨_, rfl, fun _ => rfl, fun i hi => ?_⟩
  have hw' : WF { c with invalid := some v } := ⟨hw.one, hw.count, hw.base, hw.nodup, hw.range, hw.srt⟩
  rw [(isnan_rows hw' hi).1]
  congr 1
  rw [decide_eq_decide]
  constructor
  · rintro ⟨w, hv, h⟩
    cases hv
    exact h
  · exact fun h => ⟨v, rfl, h⟩

/-- **C163** After indexing or copying, no row is invalid: the invalid category is lost. -/
theorem select_isnan_exact {c r : C S} {s : Sel} (h : select c s = .ok r) :
    isnan r = List.replicate r.g.codes.length false ∧ isnan (copy c) = List.replicate c.g.codes.length false := by
  have hr : r.invalid = none := by
    obtain ⟨L, _, _, rfl⟩ := select_codes h
    rfl
  constructor
  · unfold isnan
    rw [hr]
    simp [List.map_const']
  · unfold isnan copy
    simp [List.map_const']

theorem isnan_length (c : C S) : (isnan c).length = c.g.codes.length := by
  unfold isnan
  split <;> simp

/-- **C163 (partial)** Indexing and copying keep which rows are invalid if no row of `c` is. Missing: rows that show the invalid category,
see the counterexample and `select_isnan_exact`. -/
theorem select_isnan_partial {c r : C S} {s : Sel} (hw : WF c) (h : select c s = .ok r)
    (hc : ∀ (i : Nat) v, c.invalid = some v → getItem c i ≠ some (.label [v])) :
    isnan (copy c) = isnan c ∧ ∃ L, Selects c.g.codes.length s L ∧ (isnan r).length = L.length ∧
      ∀ (j i : Nat), L[j]? = some (some i) → (isnan r)[j]? = (isnan c)[i]? := by
  have hall : isnan c = List.replicate c.g.codes.length false := by
    refine List.ext_getElem? fun i => ?_
    by_cases hi : i < c.g.codes.length
    · rw [(isnan_rows hw hi).1, List.getElem?_replicate_of_lt hi]
      congr 1
      rw [decide_eq_false_iff_not]
      rintro ⟨v, hv, hg⟩
      exact hc i v hv hg
    · rw [List.getElem?_eq_none (by rw [isnan_length]; omega), List.getElem?_eq_none (by simpa using hi)]
  obtain ⟨h1, h2⟩ := select_isnan_exact h
  obtain ⟨L, hL, hlt, rfl⟩ := select_codes h
  refine ⟨h2.trans hall.symm, L, hL, by simp [isnan_length, ofGrouping], fun j i hj => ?_⟩
  have hi := hlt i (List.mem_of_getElem? hj)
  have hjl := (List.getElem?_eq_some_iff.1 hj).1
  rw [h1, hall, List.getElem?_replicate_of_lt hi, List.getElem?_replicate_of_lt (by simpa [ofGrouping] using hjl)]

/-! ## comparisons -/

/-- the comparison of labels -/
def holds (op : Cmp) (l s : S) : Bool :=
  match op with
  | .eq => decide (l = s)
  | .ne => decide (l ≠ s)
  | .lt => decide (l < s)
  | .le => decide (l ≤ s)
  | .gt => decide (l > s)
  | .ge => decide (l ≥ s)

theorem code_cmp {c : C S} (hw : WF c) {k : Int} (hk : k ∈ c.g.codes) {l s : S} (hb : (c.g.base : Int) ≤ k)
    (hget : (firstCol c)[(k - (c.g.base : Int)).toNat]? = some l) :
    (2 * k = index2 c s ↔ l = s) ∧ (c.sorted = true → (2 * k < index2 c s ↔ l < s)) := by
  have hhi := (hw.range k hk).2
  have hcount := hw.count
  by_cases hs : s ∈ firstCol c
  · obtain ⟨i, hi⟩ := List.getElem?_of_mem hs
    rw [index2_mem hw hi]
    constructor
    · constructor
      · intro h
        have : (k - (c.g.base : Int)).toNat = i := by omega
        rw [this, hi] at hget
        exact (Option.some.inj hget).symm
      · rintro rfl
        have := nodup_index hw.nodup hget hi
        omega
    · intro hso
      have hg := searchLeft_get (firstCol c) (hw.srt hso) s hs
      have hii := nodup_index hw.nodup hg hi
      constructor
      · intro h
        exact searchLeft_below (firstCol c) s _ l hget (by omega)
      · intro h
        by_contra hn
        exact searchLeft_above (firstCol c) (hw.srt hso) s _ l hget (by omega) h
  · have hne : l ≠ s := fun h => hs (h ▸ List.mem_of_getElem? hget)
    rcases index2_not_mem hs with h | ⟨hso, hlt, h⟩
    · rw [h]
      refine ⟨⟨fun h' => by omega, fun h' => absurd h' hne⟩, fun hso => ⟨fun _ => ?_, fun _ => by omega⟩⟩
      have hall : searchLeft (firstCol c) s = (firstCol c).length := by
        by_contra hx
        have hle := searchLeft_le (firstCol c) s
        have hlt : searchLeft (firstCol c) s < (firstCol c).length := by omega
        unfold index2 at h
        rw [if_pos hso] at h
        dsimp only at h
        rw [if_neg] at h
        · omega
        · rintro (h' | h')
          · rw [List.getElem?_eq_none_iff] at h'; omega
          · exact hs (List.mem_of_getElem? h')
      exact searchLeft_below (firstCol c) s _ l hget (by omega)
    · rw [h]
      refine ⟨⟨fun h' => by omega, fun h' => absurd h' hne⟩, fun _ => ⟨fun h' => ?_, fun h' => ?_⟩⟩
      · exact searchLeft_below (firstCol c) s _ l hget (by omega)
      · by_contra hn
        exact searchLeft_above (firstCol c) (hw.srt hso) s _ l hget (by omega) h'

/-- **C165 (partial)** Comparing a Categorical with a label compares the labels of the rows: `==` and `!=` always, the others if the
categories are known to be sorted. Missing: the others for Categoricals that are not known to be sorted, which should be refused. -/
theorem compare_partial {c : C S} (hw : WF c) {op : Cmp} (hop : op = .eq ∨ op = .ne ∨ c.sorted = true) {s : S} {bs : List Bool} (h : compare c op s = .ok bs) :
    bs.length = c.g.codes.length ∧ ∀ (i : Nat) (l : S), i < c.g.codes.length → getItem c i = some (.label [l]) → bs[i]? = some (holds op l s) := by
  unfold compare at h
  split_ifs at h
  cases h
  refine ⟨by simp, fun i l hi hl => ?_⟩
  have hk := List.getElem?_eq_getElem hi
  have hmem : c.g.codes[i] ∈ c.g.codes := List.getElem_mem hi
  rw [getItem_nat hi, hk, Option.map_some] at hl
  rw [List.getElem?_map, hk, Option.map_some]
  rcases item_one hw hmem with ⟨_, _, h2⟩ | ⟨l', hl', hb, h2⟩
  · rw [h2] at hl; cases hl
  · rw [h2] at hl
    cases hl
    obtain ⟨he, hlt⟩ := code_cmp hw hmem (s := s) hb hl'
    congr 1
    unfold Cmp.run holds
    cases op with
    | eq => simp [he]
    | ne => simp [he]
    | lt => 
      have := hlt (by simpa using hop)
      simp [this]
    | le =>
      have := hlt (by simpa using hop)
      simp only [decide_eq_decide]
      rw [le_iff_lt_or_eq, this, he, le_iff_lt_or_eq]
    | gt =>
      have := hlt (by simpa using hop)
      simp only [decide_eq_decide]
      rw [gt_iff_lt, ← not_le, ← not_le, not_iff_not, le_iff_lt_or_eq, this, he, le_iff_lt_or_eq]
    | ge =>
      have := hlt (by simpa using hop)
      simp only [decide_eq_decide]
      rw [ge_iff_le, ← not_lt, this, not_lt]

/-- **C165** Comparing raises exactly for an ordering and a Categorical that is tagged as not ordered; `==` and `!=` never raise. -/
theorem compare_raises_exact (c : C S) (op : Cmp) (s : S) :
    (∃ e, compare c op s = .error e) ↔ op ≠ .eq ∧ op ≠ .ne ∧ c.ordered = some false := by
  unfold compare
  by_cases h : op ≠ .eq ∧ op ≠ .ne ∧ c.ordered = some false
  · rw [if_pos h]
    exact ⟨fun _ => h, fun _ => ⟨_, rfl⟩⟩
  · rw [if_neg h]
    exact ⟨(fun ⟨_, e⟩ => by cases e), fun e => absurd e h⟩

end Verif.CatNew
