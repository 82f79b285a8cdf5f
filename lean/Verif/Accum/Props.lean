import Verif.Accum.Lemmas

/-! # Properties of `Accum2` (C65, C66, C67) -/
namespace Verif.Accum
open Verif.Items

variable {V : Type}

/-! ## Display order -/

/-- codes of the rows of the table from top to bottom -/
def codesShown (a : Axis) (sf : Bool) : List Nat := (if sf then [0] else []) ++ a.order.map (· + 1)

/-- codes in their own order -/
def codesAll (n : Nat) (sf : Bool) : List Nat := if sf then List.range (n + 1) else (List.range n).map (· + 1)

theorem shown_eq {a : Axis} (h : a.OK) : a.shown.map some = (a.order.map (· + 1)).map a.label := by
  apply List.ext_getElem?
  intro p
  rw [List.getElem?_map, List.getElem?_map, List.getElem?_map, shown_get h]
  cases ho : a.order[p]? with
  | none => rfl
  | some k =>
    have hk := order_lt h k (List.mem_of_getElem? ho)
    have : a.labels[k]? = some (a.labels[k]'hk) := List.getElem?_eq_getElem _
    simp [this, Axis.label]

theorem shownRows_eq {a : Axis} (h : a.OK) (sf : Bool) : shownRows a sf = (codesShown a sf).map a.label := by
  unfold shownRows codesShown
  rw [shown_eq h]
  cases sf <;> simp [Axis.label]

theorem gather_map_range {α : Type} (f : Nat → α) {m : Nat} {idx : List Nat} (h : ∀ i ∈ idx, i < m) :
    gather ((List.range m).map f) idx = idx.map f := by
  unfold gather
  induction idx with
  | nil => rfl
  | cons a t ih =>
    have ha : ((List.range m).map f)[a]? = some (f a) := by
      rw [List.getElem?_map, List.getElem?_range (h a (by simp))]; rfl
    rw [List.filterMap_cons_some ha, ih (fun i hi => h i (List.mem_cons_of_mem _ hi)), List.map_cons]

theorem display_eq {a : Axis} (h : a.OK) (sf : Bool) {α : Type} (f : Nat → α) :
    (if a.sortGb then gather ((codesAll a.n sf).map f) (sortIdx a sf) else (codesAll a.n sf).map f) =
      (codesShown a sf).map f := by
  unfold codesAll codesShown sortIdx Axis.order
  by_cases hs : a.sortGb = true
  · have hlt : ∀ i ∈ a.isort, i < a.n := fun i hi => by simpa using h.1.mem_iff.1 hi
    simp only [hs, ↓reduceIte]
    cases sf with
    | true =>
      simp only [↓reduceIte]
      rw [gather_map_range]
      · simp
      · intro i hi
        rcases List.mem_cons.1 hi with rfl | hi
        · omega
        · obtain ⟨j, hj, rfl⟩ := List.mem_map.1 hi
          have := hlt j hj
          omega
    | false =>
      simp only [Bool.false_eq_true, ↓reduceIte, List.map_map, List.nil_append]
      rw [gather_map_range _ hlt]
  · simp only [hs, Bool.false_eq_true, ↓reduceIte]
    cases sf with
    | true =>
      simp only [↓reduceIte]
      rw [List.range_succ_eq_map]
      simp
    | false => simp

/-! ## Cells -/

section
variable (agg : List V → V) (rows cols : Axis) (data : List (Row V))

theorem segment_eq (hro : rows.labels.Nodup) (hco : cols.labels.Nodup) (hd : DataOK rows cols data) {c : Nat}
    (hc : c ≤ cols.n) (sf : Bool) :
    slice (calculate agg rows cols data) ((if sf then 0 else 1) + c * (rows.n + 1)) (c * (rows.n + 1) + (rows.n + 1)) =
      (codesAll rows.n sf).map fun r => agg (cell rows cols data (rows.label r) (cols.label c)) := by
  apply List.ext_getElem?
  intro p
  rw [slice_get]
  cases sf with
  | true =>
    simp only [↓reduceIte, codesAll, List.getElem?_map]
    by_cases hp : p < rows.n + 1
    · rw [if_pos (by omega), List.getElem?_range hp]
      have := calculate_get agg rows cols data (r := p) (by omega) hc hro hco hd
      rw [Nat.zero_add, this]; rfl
    · rw [if_neg (by omega), List.getElem?_eq_none (by simp; omega)]; rfl
  | false =>
    simp only [Bool.false_eq_true, ↓reduceIte, codesAll, List.getElem?_map]
    by_cases hp : p < rows.n
    · rw [if_pos (by omega), List.getElem?_range hp]
      have := calculate_get agg rows cols data (r := p + 1) (by omega) hc hro hco hd
      rw [show 1 + c * (rows.n + 1) + p = c * (rows.n + 1) + (p + 1) by omega, this]; rfl
    · rw [if_neg (by omega), List.getElem?_eq_none (by simp; omega)]; rfl

theorem dataColumn_eq (hr : rows.OK) (hc : cols.OK) (hd : DataOK rows cols data) (sf : Bool) {i : Nat} {cl : Name}
    (hcl : cols.shown[i]? = some cl) :
    dataColumn rows cols (calculate agg rows cols data) sf i =
      (shownRows rows sf).map fun r => agg (cell rows cols data r (some cl)) := by
  obtain ⟨k, hk, hkn, hkl⟩ := shown_some hc hcl
  have hidx : (if cols.sortGb = true then cols.isort.getD i 0 else i) = k := by
    unfold Axis.order at hk
    split at hk
    · rename_i h
      rw [if_pos h, List.getD_eq_getElem?_getD, hk]; rfl
    · rename_i h
      rw [if_neg h]
      have hi := (List.getElem?_eq_some_iff.1 hk)
      obtain ⟨_, e⟩ := hi
      simpa using e
  unfold dataColumn
  simp only [hidx]
  have hstop : (if sf = true then 0 else 1) + (1 + k) * (rows.n + 1) + (rows.n + 1) - (if sf = true then 0 else 1) =
      (1 + k) * (rows.n + 1) + (rows.n + 1) := by split <;> omega
  rw [hstop, segment_eq agg rows cols data hr.2 hc.2 hd (by omega) sf]
  rw [display_eq hr sf, shownRows_eq hr, List.map_map]
  have : cols.label (1 + k) = some cl := by rw [Nat.add_comm]; exact label_succ hkl
  rw [this]; rfl

theorem filteredColumn_eq (hr : rows.labels.Nodup) (hc : cols.labels.Nodup) (hd : DataOK rows cols data) :
    slice (calculate agg rows cols data) 0 (rows.n + 1) =
      (none :: rows.labels.map some).map fun r => agg (cell rows cols data r none) := by
  have := segment_eq agg rows cols data hr hc hd (c := 0) (by omega) true
  simp only [↓reduceIte, Nat.zero_mul, Nat.add_zero, Nat.zero_add] at this
  rw [this]
  have e : (none :: rows.labels.map some) = (codesAll rows.n true).map rows.label := by
    unfold codesAll
    simp only [↓reduceIte]
    rw [List.range_succ_eq_map, List.map_cons]
    congr 1
    apply List.ext_getElem?
    intro p
    rw [List.getElem?_map, List.getElem?_map, List.getElem?_map]
    by_cases hp : p < rows.n
    · rw [List.getElem?_range hp]
      have : rows.labels[p]? = some (rows.labels[p]'hp) := List.getElem?_eq_getElem _
      simp [this, Axis.label]
    · rw [List.getElem?_eq_none (l := List.range _) (by simp; omega), List.getElem?_eq_none (by unfold Axis.n at hp; omega)]
      rfl
  rw [e, List.map_map]
  rfl

/-! ## The table -/

/-- the data columns with their names -/
def dataCols (rows cols : Axis) (arr : List V) (sf : Bool) : List (Name × Col V) :=
  (List.range cols.n).map fun i => (colName i (cols.shown.getD i []), Col.vals (dataColumn rows cols arr sf i))

theorem makeDataset_eq {keyName name : Name} {sf : Bool} (hn : NamesOK keyName name cols sf) (arr : List V) :
    makeDataset keyName rows cols arr sf =
      [(keyName, Col.keys (if sf then filteredName :: rows.shown else rows.shown))] ++
      ((if sf then [(filteredName, Col.vals (slice arr 0 (rows.n + 1)))] else []) ++ dataCols rows cols arr sf) := by
  unfold NamesOK dataNames at hn
  have hfold : makeDataset keyName rows cols arr sf =
      (dataCols rows cols arr sf).foldl (fun (d : Dict Name (Col V)) p => Dict.set d p.1 p.2)
        (firstColumns keyName rows arr sf) := by
    unfold makeDataset dataCols
    rw [List.foldl_map]
  have hnames : (dataCols rows cols arr sf).map Prod.fst = (List.range cols.n).map fun i => colName i (cols.shown.getD i []) := by
    unfold dataCols
    rw [List.map_map]; rfl
  rw [hfold]
  cases sf with
  | true =>
    simp only [↓reduceIte] at hn
    have hne : filteredName ∉ Dict.keys [(keyName, (Col.keys (filteredName :: rows.shown) : Col V))] := by
      simp only [Dict.keys, List.map_cons, List.map_nil, List.mem_singleton]
      intro e
      rw [e] at hn
      simp at hn
    have hfirst : firstColumns keyName rows arr true =
        [(keyName, Col.keys (filteredName :: rows.shown)), (filteredName, Col.vals (slice arr 0 (rows.n + 1)))] := by
      unfold firstColumns
      simp only [↓reduceIte]
      rw [Dict.set_of_notMem hne]; rfl
    rw [hfirst, foldl_set_append]
    · simp
    · rw [hnames]
      simp only [Dict.keys, List.map_cons, List.map_nil]
      refine List.Nodup.sublist ?_ hn
      simp
  | false =>
    simp only [Bool.false_eq_true, ↓reduceIte, List.nil_append] at hn
    have hfirst : firstColumns keyName rows arr false = [(keyName, Col.keys rows.shown)] := by
      unfold firstColumns; simp
    rw [hfirst, foldl_set_append]
    · simp
    · rw [hnames]
      simp only [Dict.keys, List.map_cons, List.map_nil]
      refine List.Nodup.sublist ?_ hn
      simp

theorem makeDataset_keys {keyName name : Name} {sf : Bool} (hn : NamesOK keyName name cols sf) (arr : List V) :
    (makeDataset keyName rows cols arr sf).keys = keyName :: dataNames cols sf := by
  rw [makeDataset_eq rows cols hn]
  unfold Dict.keys dataNames dataCols
  cases sf <;> simp

/-- C65.  Every cell of the table is the aggregate of the rows of data with the label of its row
and the label of its column (rows that do not pass the filter have no labels), whether or not
labels are sorted for display.  The column of filtered rows is in the order of the codes. -/
theorem accum2_cells (hr : rows.OK) (hc : cols.OK) (hd : DataOK rows cols data) (keyName name : Name) (sf : Bool)
    (hn : NamesOK keyName name cols sf) :
    let ds := makeDataset keyName rows cols (calculate agg rows cols data) sf
    ds.keys = keyName :: dataNames cols sf ∧
    ds.get keyName = some (.keys (if sf then filteredName :: rows.shown else rows.shown)) ∧
    (∀ (i : Nat) (cl : Name), cols.shown[i]? = some cl →
      ds.get (colName i cl) = some (.vals ((shownRows rows sf).map fun r => agg (cell rows cols data r (some cl))))) ∧
    (sf = true → ds.get filteredName =
      some (.vals ((none :: rows.labels.map some).map fun r => agg (cell rows cols data r none)))) := by
  intro ds
  have hk : ds.keys = keyName :: dataNames cols sf := makeDataset_keys rows cols hn _
  have hnd : ds.keys.Nodup := by
    rw [hk]
    refine List.Nodup.sublist ?_ hn
    simp
  have heq : ds = _ := makeDataset_eq rows cols hn (calculate agg rows cols data)
  refine ⟨hk, ?_, ?_, ?_⟩
  · apply Dict.get_of_mem hnd
    rw [heq]; simp
  · intro i cl hcl
    apply Dict.get_of_mem hnd
    rw [heq]
    apply List.mem_append_right
    apply List.mem_append_right
    rw [← dataColumn_eq agg rows cols data hr hc hd sf hcl]
    unfold dataCols
    refine List.mem_map.2 ⟨i, ?_, ?_⟩
    · have := (List.getElem?_eq_some_iff.1 hcl).1
      rw [shown_length hc] at this
      simpa using this
    · rw [List.getD_eq_getElem?_getD, hcl]; rfl
  · intro h
    apply Dict.get_of_mem hnd
    rw [heq, h]
    rw [← filteredColumn_eq agg rows cols data hr.2 hc.2 hd]
    simp

/-! ## Totals from the cells -/

theorem partition_perm {α : Type} (data : List α) (key : α → Nat) (m : Nat) :
    (data.filter fun x => key x < m).Perm ((List.range m).map fun c => data.filter fun x => key x = c).flatten := by
  induction m with
  | zero => simp
  | succ m ih =>
    rw [List.range_succ, List.map_append, List.flatten_append]
    refine List.Perm.trans ?_ (List.Perm.append_right _ ih)
    have h := (List.filter_append_perm (fun x => decide (key x < m)) (data.filter fun x => key x < m + 1)).symm
    refine h.trans ?_
    rw [List.filter_filter, List.filter_filter]
    have e1 : (data.filter fun x => decide (key x < m) && decide (key x < m + 1)) = data.filter fun x => key x < m := by
      apply List.filter_congr; intro x _
      by_cases h1 : key x < m
      · simp [h1, Nat.lt_succ_of_lt h1]
      · simp [h1]
    have e2 : (data.filter fun x => (!decide (key x < m)) && decide (key x < m + 1)) = data.filter fun x => key x = m := by
      apply List.filter_congr; intro x _
      by_cases h1 : key x = m
      · simp [h1]
      · by_cases h2 : key x < m
        · simp [h2, h1]
        · have : ¬ key x < m + 1 := by omega
          simp [h1, this]
    rw [e1, e2]
    simp

/-- aggregate over the parts selected by a code -/
theorem total_of_parts {func : List V → V} (ht : IsTotal agg func) (code : Row V → Nat)
    (n : Nat) (sf : Bool) (hle : ∀ x ∈ data, code x ≤ n) (P : Row V → Bool) :
    func ((codesAll n sf).map fun c => agg ((data.filter fun x => P x && decide (code x = c)).map Row.v)) =
      agg ((data.filter fun x => P x && (sf || decide (code x ≠ 0))).map Row.v) := by
  have key : ∀ (g : Row V → Nat) (m : Nat), func ((List.range m).map fun c => agg ((data.filter fun x => g x = c).map Row.v)) =
      agg ((data.filter fun x => g x < m).map Row.v) := by
    intro g m
    have := ht ((List.range m).map fun c => (data.filter fun x => g x = c).map Row.v)
      ((data.filter fun x => g x < m).map Row.v) (by
        have := (partition_perm data g m).map Row.v
        rw [List.map_flatten, List.map_map] at this
        exact this)
    rw [List.map_map] at this
    exact this
  cases sf with
  | true =>
    have := key (fun x => if P x then code x else n + 1) (n + 1)
    simp only [codesAll, ↓reduceIte, Bool.true_or, Bool.and_true]
    have e1 : (data.filter fun x => decide ((if P x = true then code x else n + 1) < n + 1)) = data.filter P := by
      apply List.filter_congr; intro x hx
      have := hle x hx
      by_cases hp : P x = true
      · simp [hp]; omega
      · simp [hp]
    rw [e1] at this
    rw [← this]
    congr 1
    apply List.map_congr_left
    intro c hc
    have hc' : c < n + 1 := by simpa using hc
    congr 2
    apply List.filter_congr; intro x hx
    by_cases hp : P x = true
    · simp [hp]
    · simp [hp]; omega
  | false =>
    have := key (fun x => if P x && decide (code x ≠ 0) then code x - 1 else n) n
    simp only [codesAll, Bool.false_eq_true, ↓reduceIte, Bool.false_or, List.map_map]
    have e1 : (data.filter fun x => decide ((if (P x && decide (code x ≠ 0)) = true then code x - 1 else n) < n)) =
        data.filter fun x => P x && decide (code x ≠ 0) := by
      apply List.filter_congr; intro x hx
      have := hle x hx
      by_cases hp : (P x && decide (code x ≠ 0)) = true
      · have h0 : code x ≠ 0 := by simpa using (Bool.and_eq_true_iff.1 hp).2
        simp only [hp, ↓reduceIte]
        have : code x - 1 < n := by omega
        simpa using this
      · simp only [hp, Bool.false_eq_true, ↓reduceIte, Nat.lt_irrefl, decide_false]
    rw [e1] at this
    rw [← this]
    congr 1
    apply List.map_congr_left
    intro c hc
    have hc' : c < n := by simpa using hc
    simp only [Function.comp_apply]
    congr 2
    apply List.filter_congr; intro x hx
    by_cases hp : P x = true
    · by_cases h0 : code x = 0
      · simp [hp, h0]; omega
      · simp [hp, h0]; omega
    · simp [hp]; omega

theorem cell_codes (hr : rows.labels.Nodup) (hc : cols.labels.Nodup) (hd : DataOK rows cols data) {r c : Nat}
    (hrn : r ≤ rows.n) (hcn : c ≤ cols.n) :
    cell rows cols data (rows.label r) (cols.label c) =
      (data.filter fun x => decide ((codes x).1 = r) && decide ((codes x).2 = c)).map Row.v := by
  unfold cell
  congr 1
  apply List.filter_congr; intro x hx
  obtain ⟨h1, h2⟩ := codes_le hd hx
  rw [labels_eq]
  by_cases e1 : (codes x).1 = r
  · by_cases e2 : (codes x).2 = c
    · simp [e1, e2]
    · have : cols.label (codes x).2 ≠ cols.label c := fun e => e2 (label_inj hc h2 hcn e)
      simp [e1, e2, this]
  · have : rows.label (codes x).1 ≠ rows.label r := fun e => e1 (label_inj hr h1 hrn e)
    simp [e1, this]

theorem rowValues_codes (hr : rows.labels.Nodup) (hd : DataOK rows cols data) (sf : Bool) {r : Nat} (hrn : r ≤ rows.n) :
    rowValues rows cols data sf (rows.label r) =
      (data.filter fun x => decide ((codes x).1 = r) && (sf || decide ((codes x).2 ≠ 0))).map Row.v := by
  unfold rowValues
  congr 1
  apply List.filter_congr; intro x hx
  obtain ⟨h1, h2⟩ := codes_le hd hx
  rw [labels_eq]
  unfold shows
  rw [label_isSome h2]
  congr 1
  by_cases e1 : (codes x).1 = r
  · simp [e1]
  · have : rows.label (codes x).1 ≠ rows.label r := fun e => e1 (label_inj hr h1 hrn e)
    simp [e1, this]

theorem colValues_codes (hc : cols.labels.Nodup) (hd : DataOK rows cols data) (sf : Bool) {c : Nat} (hcn : c ≤ cols.n) :
    colValues rows cols data sf (cols.label c) =
      (data.filter fun x => decide ((codes x).2 = c) && (sf || decide ((codes x).1 ≠ 0))).map Row.v := by
  unfold colValues
  congr 1
  apply List.filter_congr; intro x hx
  obtain ⟨h1, h2⟩ := codes_le hd hx
  rw [labels_eq]
  unfold shows
  rw [label_isSome h1]
  congr 1
  by_cases e1 : (codes x).2 = c
  · simp [e1]
  · have : cols.label (codes x).2 ≠ cols.label c := fun e => e1 (label_inj hc h2 hcn e)
    simp [e1, this]

theorem allValues_codes (hd : DataOK rows cols data) (sf : Bool) :
    allValues rows cols data sf =
      (data.filter fun x => (sf || decide ((codes x).2 ≠ 0)) && (sf || decide ((codes x).1 ≠ 0))).map Row.v := by
  unfold allValues
  congr 1
  apply List.filter_congr; intro x hx
  obtain ⟨h1, h2⟩ := codes_le hd hx
  rw [labels_eq]
  unfold shows
  rw [label_isSome h1, label_isSome h2, Bool.and_comm]

theorem codesAll_le {n : Nat} {sf : Bool} {k : Nat} (h : k ∈ codesAll n sf) : k ≤ n := by
  unfold codesAll at h
  split at h
  · simp at h; omega
  · obtain ⟨j, hj, rfl⟩ := List.mem_map.1 h
    simp at hj; omega

/-- the matrix of cells -/
theorem imatrix_eq (hro : rows.labels.Nodup) (hco : cols.labels.Nodup) (hd : DataOK rows cols data) (sf : Bool) :
    makeImatrix rows cols (calculate agg rows cols data) sf =
      (List.range (rows.n + 1)).map fun r => (codesAll cols.n sf).map fun c =>
        agg (cell rows cols data (rows.label r) (cols.label c)) := by
  unfold makeImatrix
  rw [calculate_length]
  simp only [Nat.add_sub_cancel]
  apply List.map_congr_left
  intro r hr
  have hr' : r ≤ rows.n := by simp at hr; omega
  cases sf with
  | true =>
    simp only [↓reduceIte, codesAll]
    rw [← List.filterMap_eq_map]
    apply List.filterMap_congr
    intro c hc
    have hc' : c ≤ cols.n := by simp at hc; omega
    rw [slice_get]
    have := nbins_gt hr' hc'
    rw [if_pos (by omega)]
    have := calculate_get agg rows cols data hr' hc' hro hco hd
    rw [show 0 + (r + c * (rows.n + 1)) = c * (rows.n + 1) + r by omega, this]; rfl
  | false =>
    simp only [Bool.false_eq_true, ↓reduceIte, codesAll, List.map_map]
    rw [← List.filterMap_eq_map]
    apply List.filterMap_congr
    intro c hc
    have hc' : c + 1 ≤ cols.n := by simp at hc; omega
    rw [slice_get]
    have := nbins_gt hr' hc'
    have e : rows.n + 1 + (r + c * (rows.n + 1)) = (c + 1) * (rows.n + 1) + r := by rw [Nat.add_mul]; omega
    rw [e, if_pos this]
    have := calculate_get agg rows cols data hr' hc' hro hco hd
    rw [this]; rfl

theorem column_of_matrix {α : Type} (l : List Nat) (cs : List Nat) (f : Nat → Nat → α) {j c : Nat} (h : cs[j]? = some c) :
    (l.map fun r => cs.map fun c => f r c).filterMap (fun row => row[j]?) = l.map fun r => f r c := by
  rw [List.filterMap_map, ← List.filterMap_eq_map]
  apply List.filterMap_congr
  intro r _
  simp [h]

theorem codesAll_length (n : Nat) (sf : Bool) : (codesAll n sf).length = if sf then n + 1 else n := by
  unfold codesAll; split <;> simp

/-- totals before sorting for display -/
theorem apply2d_eq {func : List V → V} (ht : IsTotal agg func) (hro : rows.labels.Nodup) (hco : cols.labels.Nodup)
    (hd : DataOK rows cols data) (sf : Bool) :
    apply2d func (makeImatrix rows cols (calculate agg rows cols data) sf) (if sf then cols.n + 1 else cols.n) sf =
      ((codesAll cols.n sf).map fun c => agg (colValues rows cols data sf (cols.label c)),
       (codesAll rows.n sf).map fun r => agg (rowValues rows cols data sf (rows.label r))) := by
  rw [imatrix_eq agg rows cols data hro hco hd]
  unfold apply2d
  have hrow : ∀ r, r ≤ rows.n → func ((codesAll cols.n sf).map fun c => agg (cell rows cols data (rows.label r) (cols.label c))) =
      agg (rowValues rows cols data sf (rows.label r)) := by
    intro r hr
    rw [rowValues_codes rows cols data hro hd sf hr]
    rw [← total_of_parts agg data ht (fun x => (codes x).2) cols.n sf (fun x hx => (codes_le hd hx).2)
      (fun x => decide ((codes x).1 = r))]
    congr 1
    apply List.map_congr_left
    intro c hc
    rw [cell_codes rows cols data hro hco hd hr (codesAll_le hc)]
  have hcol : ∀ c, c ≤ cols.n → func ((codesAll rows.n sf).map fun r => agg (cell rows cols data (rows.label r) (cols.label c))) =
      agg (colValues rows cols data sf (cols.label c)) := by
    intro c hc
    rw [colValues_codes rows cols data hco hd sf hc]
    rw [← total_of_parts agg data ht (fun x => (codes x).1) rows.n sf (fun x hx => (codes_le hd hx).1)
      (fun x => decide ((codes x).2 = c))]
    congr 1
    apply List.map_congr_left
    intro r hr
    rw [cell_codes rows cols data hro hco hd (codesAll_le hr) hc]
    congr 2
    apply List.filter_congr; intro x _
    rw [Bool.and_comm]
  refine Prod.ext ?_ ?_
  · simp only
    apply List.ext_getElem
    · simp [codesAll_length]
    · intro j h1 h2
      have hj : j < (codesAll cols.n sf).length := by simpa using h2
      simp only [List.getElem_map, List.getElem_range]
      rw [column_of_matrix (List.range (rows.n + 1)) (codesAll cols.n sf)
        (fun r c => agg (cell rows cols data (rows.label r) (cols.label c))) (List.getElem?_eq_getElem hj)]
      rw [← hcol _ (codesAll_le (List.getElem_mem hj))]
      congr 1
      cases sf with
      | true => rfl
      | false =>
        simp only [Bool.false_eq_true, ↓reduceIte, codesAll]
        rw [List.range_succ_eq_map (n := rows.n)]
        simp only [List.map_cons, List.drop_succ_cons, List.drop_zero, List.map_map]
  · simp only [List.map_map]
    cases sf with
    | true =>
      simp only [↓reduceIte, codesAll]
      apply List.map_congr_left
      intro r hr
      exact hrow r (by simp at hr; omega)
    | false =>
      have e : codesAll rows.n false = (List.range rows.n).map (· + 1) := rfl
      simp only [Bool.false_eq_true, ↓reduceIte]
      rw [List.range_succ_eq_map, e]
      simp only [List.map_cons, List.drop_succ_cons, List.drop_zero, List.map_map]
      apply List.map_congr_left
      intro r hr
      exact hrow (r + 1) (by simp at hr; omega)

/-! ## Adding the totals -/

theorem addTotals_eq {keyName name : Name} {sf : Bool} (hn : NamesOK keyName name cols sf) {ds : Dict Name (Col V)}
    (hk : ds.keys = keyName :: dataNames cols sf) {totalsX totalsY : List V} {total : V}
    (hx : totalsX.length = (dataNames cols sf).length) :
    addTotals ds name totalsX totalsY total =
      ⟨ds ++ [(name, .vals totalsY)], (dataNames cols sf).zip totalsX ++ [(name, total)]⟩ := by
  have hnm : name ∉ ds.keys := by
    rw [hk]
    intro h
    unfold NamesOK at hn
    rw [← List.cons_append] at hn
    exact (List.nodup_append.1 hn).2.2 name h name (by simp) rfl
  have hnd : (dataNames cols sf).Nodup := by
    refine List.Nodup.sublist ?_ hn
    exact List.Sublist.cons _ (List.sublist_append_left _ _)
  unfold addTotals
  simp only
  rw [Dict.set_of_notMem hnm]
  have hkeys : (ds ++ [(name, Col.vals totalsY)] : Dict Name (Col V)).keys.drop 1 = dataNames cols sf ++ [name] := by
    have : (ds ++ [(name, Col.vals totalsY)] : Dict Name (Col V)).keys = ds.keys ++ [name] := by simp [Dict.keys]
    rw [this, hk]; rfl
  rw [hkeys]
  have hzip : (dataNames cols sf ++ [name]).zip totalsX = (dataNames cols sf).zip totalsX := by
    rw [show totalsX = totalsX ++ [] by simp, List.zip_append (by omega)]
    simp
  rw [hzip, foldl_set_append]
  · have hnf : name ∉ Dict.keys ([] ++ (dataNames cols sf).zip totalsX : Dict Name V) := by
      rw [hk] at hnm
      intro h
      apply hnm
      simp only [List.nil_append, Dict.keys] at h
      rw [List.map_fst_zip (by omega)] at h
      exact List.mem_cons_of_mem _ h
    rw [Dict.set_of_notMem hnf]
    simp
  · simp only [Dict.keys, List.map_nil, List.nil_append]
    rw [List.map_fst_zip (by omega)]
    exact hnd

theorem dataNames_length (sf : Bool) : (dataNames cols sf).length = if sf then cols.n + 1 else cols.n := by
  unfold dataNames; cases sf <;> simp

theorem codesShown_length {a : Axis} (h : a.OK) (sf : Bool) : (codesShown a sf).length = if sf then a.n + 1 else a.n := by
  unfold codesShown; cases sf <;> simp [order_length h]

/-- names of the data columns in display order belong to the labels in display order -/
theorem dataNames_get (hc : cols.OK) (sf : Bool) {i : Nat} {cl : Name} (hcl : cols.shown[i]? = some cl) :
    (dataNames cols sf)[(if sf then 1 else 0) + i]? = some (colName i cl) := by
  have hi := (List.getElem?_eq_some_iff.1 hcl).1
  rw [shown_length hc] at hi
  unfold dataNames
  have : ((List.range cols.n).map fun i => colName i (cols.shown.getD i []))[i]? = some (colName i cl) := by
    rw [List.getElem?_map, List.getElem?_range hi, Option.map_some, List.getD_eq_getElem?_getD, hcl]; rfl
  cases sf with
  | true => simpa [Nat.add_comm 1 i] using this
  | false => simpa using this

theorem shownRows_get {a : Axis} (sf : Bool) {i : Nat} {cl : Name} (hcl : a.shown[i]? = some cl) :
    (shownRows a sf)[(if sf then 1 else 0) + i]? = some (some cl) := by
  unfold shownRows
  cases sf with
  | true => simp [Nat.add_comm 1 i, hcl]
  | false => simp [hcl]

theorem footer_get {keyName name : Name} {sf : Bool} (hn : NamesOK keyName name cols sf) {totalsX : List V} {total : V}
    (hx : totalsX.length = (dataNames cols sf).length) {j : Nat} {n : Name} {v : V}
    (h1 : (dataNames cols sf)[j]? = some n) (h2 : totalsX[j]? = some v) :
    Dict.get ((dataNames cols sf).zip totalsX ++ [(name, total)]) n = some v := by
  apply Dict.get_of_mem
  · simp only [Dict.keys, List.map_append, List.map_cons, List.map_nil]
    rw [List.map_fst_zip (by omega)]
    exact (List.nodup_cons.1 hn).2
  · apply List.mem_append_left
    apply List.mem_of_getElem? (i := j)
    rw [List.getElem?_zip_eq_some]
    exact ⟨h1, h2⟩

theorem footer_total {keyName name : Name} {sf : Bool} (hn : NamesOK keyName name cols sf) {totalsX : List V} {total : V}
    (hx : totalsX.length = (dataNames cols sf).length) :
    Dict.get ((dataNames cols sf).zip totalsX ++ [(name, total)]) name = some total := by
  apply Dict.get_of_mem
  · simp only [Dict.keys, List.map_append, List.map_cons, List.map_nil]
    rw [List.map_fst_zip (by omega)]
    exact (List.nodup_cons.1 hn).2
  · simp

theorem table_get {keyName name : Name} {sf : Bool} (hn : NamesOK keyName name cols sf) {ds : Dict Name (Col V)}
    (hk : ds.keys = keyName :: dataNames cols sf) (t : Col V) :
    Dict.get (ds ++ [(name, t)]) name = some t ∧
    ∀ n v, ds.get n = some v → Dict.get (ds ++ [(name, t)]) n = some v := by
  have hnd : (ds ++ [(name, t)] : Dict Name (Col V)).keys.Nodup := by
    have : (ds ++ [(name, t)] : Dict Name (Col V)).keys = ds.keys ++ [name] := by simp [Dict.keys]
    rw [this, hk]
    exact hn
  exact ⟨Dict.get_of_mem hnd (by simp), fun n v h => Dict.get_of_mem hnd (List.mem_append_left _ (Dict.mem_of_get h))⟩

/-- C66.  Functions whose totals are computed from the cells: the total of a row (column) of the
table is the aggregate of all rows of data in this row (column), and the corner is the aggregate
of everything in the table, whether or not labels are sorted for display or filtered rows are
shown.  This needs a function that can be computed from parts. -/
theorem accum2_totals {func : List V → V} (ht : IsTotal agg func) (hr : rows.OK) (hc : cols.OK)
    (hd : DataOK rows cols data) (keyName name : Name) (sf : Bool) (hn : NamesOK keyName name cols sf) :
    let t := accum2One keyName name agg func rows cols data sf
    (∀ (i : Nat) (cl : Name), cols.shown[i]? = some cl →
      t.cols.get (colName i cl) = some (.vals ((shownRows rows sf).map fun r => agg (cell rows cols data r (some cl)))) ∧
      t.footer.get (colName i cl) = some (agg (colValues rows cols data sf (some cl)))) ∧
    t.cols.get name = some (.vals ((shownRows rows sf).map fun r => agg (rowValues rows cols data sf r))) ∧
    t.footer.get name = some (agg (allValues rows cols data sf)) ∧
    (sf = true → t.footer.get filteredName = some (agg (colValues rows cols data sf none))) := by
  intro t
  have hcells := accum2_cells agg rows cols data hr hc hd keyName name sf hn
  obtain ⟨hk, -, hcol, -⟩ := hcells
  have hX : (if cols.sortGb then gather ((codesAll cols.n sf).map fun c => agg (colValues rows cols data sf (cols.label c)))
      (sortIdx cols sf) else (codesAll cols.n sf).map fun c => agg (colValues rows cols data sf (cols.label c))) =
      (shownRows cols sf).map fun c => agg (colValues rows cols data sf c) := by
    rw [display_eq hc sf, shownRows_eq hc, List.map_map]; rfl
  have hY : (if rows.sortGb then gather ((codesAll rows.n sf).map fun r => agg (rowValues rows cols data sf (rows.label r)))
      (sortIdx rows sf) else (codesAll rows.n sf).map fun r => agg (rowValues rows cols data sf (rows.label r))) =
      (shownRows rows sf).map fun r => agg (rowValues rows cols data sf r) := by
    rw [display_eq hr sf, shownRows_eq hr, List.map_map]; rfl
  have hT : func ((codesAll rows.n sf).map fun r => agg (rowValues rows cols data sf (rows.label r))) =
      agg (allValues rows cols data sf) := by
    rw [allValues_codes rows cols data hd sf]
    rw [← total_of_parts agg data ht (fun x => (codes x).1) rows.n sf (fun x hx => (codes_le hd hx).1)
      (fun x => sf || decide ((codes x).2 ≠ 0))]
    congr 1
    apply List.map_congr_left
    intro r hr'
    rw [rowValues_codes rows cols data hr.2 hd sf (codesAll_le hr')]
    congr 2
    apply List.filter_congr; intro x _
    rw [Bool.and_comm]
  have hlen : ((shownRows cols sf).map fun c => agg (colValues rows cols data sf c)).length = (dataNames cols sf).length := by
    rw [List.length_map, shownRows_eq hc, List.length_map, codesShown_length hc, dataNames_length]
  have heq : t = ⟨makeDataset keyName rows cols (calculate agg rows cols data) sf ++
        [(name, .vals ((shownRows rows sf).map fun r => agg (rowValues rows cols data sf r)))],
      (dataNames cols sf).zip ((shownRows cols sf).map fun c => agg (colValues rows cols data sf c)) ++
        [(name, agg (allValues rows cols data sf))]⟩ := by
    show accum2One keyName name agg func rows cols data sf = _
    unfold accum2One onepass
    simp only
    rw [apply2d_eq agg rows cols data ht hr.2 hc.2 hd sf]
    simp only
    rw [hX, hY, hT]
    exact addTotals_eq cols hn hk hlen
  obtain ⟨g1, g2⟩ := table_get cols hn hk (.vals ((shownRows rows sf).map fun r => agg (rowValues rows cols data sf r)))
  rw [heq]
  refine ⟨?_, g1, footer_total cols hn hlen, ?_⟩
  · intro i cl hcl
    refine ⟨g2 _ _ (hcol i cl hcl), ?_⟩
    apply footer_get cols hn hlen (dataNames_get cols hc sf hcl)
    rw [List.getElem?_map, shownRows_get sf hcl]; rfl
  · intro h
    subst h
    apply footer_get cols hn hlen (j := 0)
    · simp [dataNames]
    · simp [shownRows]

/-! ## Totals from the data -/

/-- labels in the order of the codes -/
def plainRows (a : Axis) (sf : Bool) : List (Option Name) := (if sf then [none] else []) ++ a.labels.map some

theorem plainRows_eq (a : Axis) (sf : Bool) : plainRows a sf = (codesAll a.n sf).map a.label := by
  have : a.labels.map some = ((List.range a.n).map (· + 1)).map a.label := by
    apply List.ext_getElem?
    intro p
    rw [List.getElem?_map, List.getElem?_map, List.getElem?_map]
    by_cases hp : p < a.n
    · rw [List.getElem?_range hp]
      have : a.labels[p]? = some (a.labels[p]'hp) := List.getElem?_eq_getElem _
      simp [this, Axis.label]
    · rw [List.getElem?_eq_none (l := List.range _) (by simp; omega), List.getElem?_eq_none (by unfold Axis.n at hp; omega)]
      rfl
  unfold plainRows codesAll
  cases sf with
  | true => simp only [↓reduceIte]; rw [this, List.range_succ_eq_map]; simp [Axis.label]
  | false => simpa using this

theorem accum1_rows (h0 : rows.base0 = false) (hro : rows.labels.Nodup) (hd : DataOK rows cols data) (sf : Bool) :
    accum1 agg rows Row.r data sf = (plainRows rows sf).map fun r => agg (rowValues rows cols data true r) := by
  have h : (List.range (rows.n + 1)).map (fun b => agg ((data.filter fun (x : Row V) =>
      decide ((if x.pass = true then (if rows.base0 = true then x.r + 1 else x.r) else 0) = b)).map Row.v)) =
      (List.range (rows.n + 1)).map fun r => agg (rowValues rows cols data true (rows.label r)) := by
    apply List.map_congr_left
    intro r hr
    rw [rowValues_codes rows cols data hro hd true (by simp at hr; omega)]
    congr 2
    apply List.filter_congr; intro x _
    simp only [h0, Bool.false_eq_true, ↓reduceIte, Bool.true_or, Bool.and_true]
    unfold codes
    by_cases hp : x.pass = true <;> simp [hp]
  unfold accum1
  simp only
  rw [h, plainRows_eq, List.map_map]
  cases sf with
  | true => rfl
  | false =>
    simp only [Bool.false_eq_true, ↓reduceIte, codesAll]
    rw [List.range_succ_eq_map]
    simp [List.map_map]

theorem accum1_cols (h0 : cols.base0 = false) (hco : cols.labels.Nodup) (hd : DataOK rows cols data) (sf : Bool) :
    accum1 agg cols Row.c data sf = (plainRows cols sf).map fun c => agg (colValues rows cols data true c) := by
  have h : (List.range (cols.n + 1)).map (fun b => agg ((data.filter fun (x : Row V) =>
      decide ((if x.pass = true then (if cols.base0 = true then x.c + 1 else x.c) else 0) = b)).map Row.v)) =
      (List.range (cols.n + 1)).map fun c => agg (colValues rows cols data true (cols.label c)) := by
    apply List.map_congr_left
    intro r hr
    rw [colValues_codes rows cols data hco hd true (by simp at hr; omega)]
    congr 2
    apply List.filter_congr; intro x _
    simp only [h0, Bool.false_eq_true, ↓reduceIte, Bool.true_or, Bool.and_true]
    unfold codes
    by_cases hp : x.pass = true <;> simp [hp]
  unfold accum1
  simp only
  rw [h, plainRows_eq, List.map_map]
  cases sf with
  | true => rfl
  | false =>
    simp only [Bool.false_eq_true, ↓reduceIte, codesAll]
    rw [List.range_succ_eq_map]
    simp [List.map_map]

/-- C66, functions whose totals are computed from the data (mean, median, var, ...), for axes of
base index 1: what the totals are.  They are in the order of the codes, not of the display, and
include rows of data that the table does not show because their other label is filtered. -/
theorem accum2_multi_exact {func : List V → V} (hr : rows.OK) (hc : cols.OK) (hr0 : rows.base0 = false)
    (hc0 : cols.base0 = false) (hd : DataOK rows cols data) (keyName name : Name) (sf : Bool)
    (hn : NamesOK keyName name cols sf) :
    let t := accum2Multi keyName name agg func rows cols data sf
    t.cols.get name = some (.vals ((plainRows rows sf).map fun r => agg (rowValues rows cols data true r))) ∧
    (∀ (i : Nat) (cl : Name) (l : Option Name), cols.shown[i]? = some cl → (cols.labels[i]?) = l →
      t.footer.get (colName i cl) = l.map fun l => agg (colValues rows cols data true (some l))) ∧
    t.footer.get name = some (func ((data.filter Row.pass).map Row.v)) ∧
    (∀ (i : Nat) (cl : Name), cols.shown[i]? = some cl →
      t.cols.get (colName i cl) = some (.vals ((shownRows rows sf).map fun r => agg (cell rows cols data r (some cl))))) := by
  intro t
  obtain ⟨hk, -, hcol, -⟩ := accum2_cells agg rows cols data hr hc hd keyName name sf hn
  have hlen : ((plainRows cols sf).map fun c => agg (colValues rows cols data true c)).length = (dataNames cols sf).length := by
    rw [List.length_map, plainRows_eq, List.length_map, codesAll_length, dataNames_length]
  have heq : t = ⟨makeDataset keyName rows cols (calculate agg rows cols data) sf ++
        [(name, .vals ((plainRows rows sf).map fun r => agg (rowValues rows cols data true r)))],
      (dataNames cols sf).zip ((plainRows cols sf).map fun c => agg (colValues rows cols data true c)) ++
        [(name, func ((data.filter Row.pass).map Row.v))]⟩ := by
    show accum2Multi keyName name agg func rows cols data sf = _
    unfold accum2Multi multipass
    simp only
    rw [accum1_rows agg rows cols data hr0 hr.2 hd sf, accum1_cols agg rows cols data hc0 hc.2 hd sf]
    exact addTotals_eq cols hn hk hlen
  obtain ⟨g1, g2⟩ := table_get cols hn hk (.vals ((plainRows rows sf).map fun r => agg (rowValues rows cols data true r)))
  rw [heq]
  refine ⟨g1, ?_, footer_total cols hn hlen, fun i cl hcl => g2 _ _ (hcol i cl hcl)⟩
  intro i cl l hcl hl
  have hi := (List.getElem?_eq_some_iff.1 hcl).1
  rw [shown_length hc] at hi
  have hli : cols.labels[i]? = some (cols.labels[i]'hi) := List.getElem?_eq_getElem _
  rw [hli] at hl
  subst hl
  apply footer_get cols hn hlen (dataNames_get cols hc sf hcl)
  unfold plainRows
  cases sf with
  | true => simp [Nat.add_comm 1 i, hli]
  | false => simp [hli]

/-- C66, functions whose totals are computed from the data: right if both axes are displayed in
the order of their codes, have base index 1, and every row of data that passes has both labels. -/
theorem accum2_multi_partial {func : List V → V} (hf : ∀ l, func l = agg l) (hr : rows.OK) (hc : cols.OK)
    (hr0 : rows.base0 = false) (hc0 : cols.base0 = false) (hrs : rows.sortGb = false) (hcs : cols.sortGb = false)
    (hd : DataOK rows cols data) (hlab : ∀ x ∈ data, x.pass = true → x.r ≠ 0 ∧ x.c ≠ 0) (keyName name : Name)
    (hn : NamesOK keyName name cols false) :
    let t := accum2Multi keyName name agg func rows cols data false
    (∀ (i : Nat) (cl : Name), cols.shown[i]? = some cl →
      t.cols.get (colName i cl) = some (.vals ((shownRows rows false).map fun r => agg (cell rows cols data r (some cl)))) ∧
      t.footer.get (colName i cl) = some (agg (colValues rows cols data false (some cl)))) ∧
    t.cols.get name = some (.vals ((shownRows rows false).map fun r => agg (rowValues rows cols data false r))) ∧
    t.footer.get name = some (agg (allValues rows cols data false)) := by
  intro t
  obtain ⟨h1, h2, h3, h4⟩ := accum2_multi_exact agg rows cols data (func := func) hr hc hr0 hc0 hd keyName name false hn
  have hsome : ∀ x ∈ data, x.pass = true → (rows.label x.r).isSome = true ∧ (cols.label x.c).isSome = true := by
    intro x hx hp
    obtain ⟨a, b⟩ := hlab x hx hp
    obtain ⟨c, d⟩ := hd x hx
    rw [label_isSome c, label_isSome d]
    simp [a, b]
  have hrow : ∀ l : Name, rowValues rows cols data true (some l) = rowValues rows cols data false (some l) := by
    intro l
    unfold rowValues
    congr 1
    apply List.filter_congr; intro x hx
    unfold labels shows
    by_cases hp : x.pass = true
    · simp [hp, (hsome x hx hp).2]
    · simp [hp]
  have hcolv : ∀ l : Name, colValues rows cols data true (some l) = colValues rows cols data false (some l) := by
    intro l
    unfold colValues
    congr 1
    apply List.filter_congr; intro x hx
    unfold labels shows
    by_cases hp : x.pass = true
    · simp [hp, (hsome x hx hp).1]
    · simp [hp]
  have hall : (data.filter Row.pass).map Row.v = allValues rows cols data false := by
    unfold allValues
    congr 1
    apply List.filter_congr; intro x hx
    unfold labels shows
    by_cases hp : x.pass = true
    · simp [hp, (hsome x hx hp).1, (hsome x hx hp).2]
    · simp [hp]
  have hshown : cols.shown = cols.labels := by unfold Axis.shown; simp [hcs]
  have hplain : plainRows rows false = shownRows rows false := by unfold plainRows shownRows Axis.shown; simp [hrs]
  refine ⟨?_, ?_, ?_⟩
  · intro i cl hcl
    refine ⟨h4 i cl hcl, ?_⟩
    have := h2 i cl (some cl) hcl (by rw [← hshown]; exact hcl)
    rw [this, Option.map_some, hcolv]
  · rw [h1, hplain]
    congr 2
    apply List.map_congr_left
    intro r hr'
    unfold shownRows at hr'
    simp only [Bool.false_eq_true, ↓reduceIte, List.nil_append] at hr'
    obtain ⟨l, -, rfl⟩ := List.mem_map.1 hr'
    rw [hrow]
  · rw [h3, hf, hall]

/-! ## One row -/

/-- C65: the labels shown for one row, if neither axis is sorted for display -/
theorem getItem_partial (hrs : rows.sortGb = false) (hcs : cols.sortGb = false) (hd : DataOK rows cols data)
    (x : Row V) (hx : x ∈ data) :
    getItem rows cols x = ((labels rows cols x).2, (labels rows cols x).1) := by
  obtain ⟨h1, h2⟩ := codes_le hd hx
  unfold getItem
  rw [labels_eq, binOf_eq]
  have e1 : ((codes x).2 * (rows.n + 1) + (codes x).1) / (rows.n + 1) = (codes x).2 := by
    rw [Nat.mul_comm, Nat.mul_add_div (by omega), Nat.div_eq_of_lt (by omega)]; omega
  have e2 : ((codes x).2 * (rows.n + 1) + (codes x).1) % (rows.n + 1) = (codes x).1 := by
    rw [Nat.mul_comm, Nat.mul_add_mod, Nat.mod_eq_of_lt (by omega)]
  simp only [e1, e2, Axis.shown, hrs, hcs, Bool.false_eq_true, ↓reduceIte, Axis.label]

end

/-! ## Counterexamples and examples -/

/-- categories `b, a`, displayed sorted -/
def exRows : Axis := ⟨[['b'], ['a']], true, [1, 0], false⟩
def exCols : Axis := ⟨[['x'], ['y']], false, [0, 1], false⟩
def exData : List (Row Int) := [⟨1, 1, 10, true⟩, ⟨2, 1, 20, true⟩, ⟨2, 2, 5, true⟩, ⟨2, 2, 7, false⟩]

theorem sum_isTotal : IsTotal (V := Int) List.sum List.sum := by
  intro parts l h
  have hp : ∀ a b : List Int, a.Perm b → a.sum = b.sum := by
    intro a b hab
    induction hab with
    | nil => rfl
    | cons x _ ih => simp [ih]
    | swap x y l => simp only [List.sum_cons]; omega
    | trans _ _ i1 i2 => exact i1.trans i2
  rw [hp _ _ h]
  have : ∀ l : List (List Int), (l.map List.sum).sum = l.flatten.sum := by
    intro l
    induction l with
    | nil => rfl
    | cons a t ih => rw [List.map_cons, List.sum_cons, List.flatten_cons, List.sum_append, ih]
  exact this parts

example : exRows.OK ∧ exCols.OK ∧ DataOK exRows exCols exData ∧ NamesOK ['k'] ['T'] exCols false := by
  refine ⟨⟨by decide, by decide⟩, ⟨by decide, by decide⟩, ?_, ?_⟩
  · unfold DataOK; decide
  · unfold NamesOK; decide

example : accum2One ['k'] ['T'] List.sum List.sum exRows exCols exData false =
    ⟨[(['k'], .keys [['a'], ['b']]), (['x'], .vals [20, 10]), (['y'], .vals [5, 0]), (['T'], .vals [25, 10])],
     [(['x'], 30), (['y'], 5), (['T'], 35)]⟩ := by decide

/-- `mean`, `median`, ... with rows sorted for display: the totals stand beside the wrong labels -/
theorem accum2_multi_sorted_counterexample :
    let t := accum2Multi ['k'] ['T'] List.sum List.sum exRows exCols exData false
    t.cols.get ['k'] = some (.keys [['a'], ['b']]) ∧ t.cols.get ['T'] = some (.vals [10, 25]) ∧
    rowValues exRows exCols exData false (some ['a']) = [20, 5] := by decide

/-- the same: a row of data whose column label is filtered is in no cell but in the totals -/
theorem accum2_multi_filtered_counterexample :
    let rows : Axis := ⟨[['a']], false, [0], false⟩
    let data : List (Row Int) := [⟨1, 1, 10, true⟩, ⟨1, 0, 100, true⟩]
    let t := accum2Multi ['k'] ['T'] List.sum List.sum rows ⟨[['x']], false, [0], false⟩ data false
    t.cols.get ['x'] = some (.vals [10]) ∧ t.cols.get ['T'] = some (.vals [110]) ∧ t.footer.get ['T'] = some 110 := by
  decide

/-- the same with base index 0: totals are shifted by one label -/
theorem accum2_multi_base0_counterexample :
    let rows : Axis := ⟨[['a'], ['b']], false, [0, 1], true⟩
    let data : List (Row Int) := [⟨1, 1, 10, true⟩, ⟨2, 1, 20, true⟩]
    let t := accum2Multi ['k'] ['T'] List.sum List.sum rows ⟨[['x']], false, [0], false⟩ data false
    t.cols.get ['x'] = some (.vals [10, 20]) ∧ t.cols.get ['T'] = some (.vals [0, 10]) := by decide

/-- `min`: NaN for no values, and NaN if some value is NaN (`none`) -/
def exMin : List (Option Int) → Option Int
  | [] => none
  | v :: l => l.foldl (fun a b => match a, b with | some a, some b => some (min a b) | _, _ => none) v

/-- `min` and `max`: totals are NaN as soon as one cell has no rows -/
theorem accum2_min_counterexample :
    let rows : Axis := ⟨[['a'], ['b']], false, [0, 1], false⟩
    let cols : Axis := ⟨[['x'], ['y']], false, [0, 1], false⟩
    let data : List (Row (Option Int)) := [⟨1, 1, some 3, true⟩, ⟨2, 1, some 4, true⟩, ⟨2, 2, some 5, true⟩]
    let t := accum2One ['k'] ['M'] exMin exMin rows cols data false
    t.cols.get ['M'] = some (.vals [none, some 4]) ∧ exMin (rowValues rows cols data false (some ['a'])) = some 3 := by
  decide

/-- the column of filtered rows with rows sorted for display: values beside the wrong labels -/
theorem accum2_filtered_column_counterexample :
    let data : List (Row Int) := [⟨1, 0, 10, true⟩, ⟨2, 0, 20, true⟩]
    let ds := makeDataset ['k'] exRows exCols (calculate List.sum exRows exCols data) true
    ds.get ['k'] = some (.keys [filteredName, ['a'], ['b']]) ∧ ds.get filteredName = some (.vals [0, 10, 20]) ∧
    cell exRows exCols data (some ['a']) none = [20] := by decide

/-- a column label equal to the name of the total column: the column is lost -/
theorem accum2_name_counterexample :
    let rows : Axis := ⟨[['a']], false, [0], false⟩
    let cols : Axis := ⟨[['x'], ['T']], false, [0, 1], false⟩
    let data : List (Row Int) := [⟨1, 1, 1, true⟩, ⟨1, 2, 2, true⟩]
    (accum2One ['k'] ['T'] List.sum List.sum rows cols data false).cols.get ['T'] = some (.vals [3]) := by decide

/-- one row of an `Accum2` with rows sorted for display shows another label -/
theorem getItem_sorted_counterexample :
    getItem exRows exCols (⟨1, 1, 10, true⟩ : Row Int) = (some ['x'], some ['a']) ∧
    labels exRows exCols (⟨1, 1, 10, true⟩ : Row Int) = (some ['b'], some ['x']) := by decide

/-- C67: a saved and loaded `Accum2` has rows and columns exchanged -/
theorem loadAcc_exact {C : Type} (a : Acc C) : loadAcc (saveAcc a) = some ⟨a.cols, a.rows⟩ := rfl

theorem loadAcc_counterexample : ¬ ∀ a : Acc Bool, loadAcc (saveAcc a) = some a := by
  intro h
  have := h ⟨true, false⟩
  revert this
  decide

/-- C67: right only if both axes are the same -/
theorem loadAcc_partial {C : Type} (a : Acc C) : loadAcc (saveAcc a) = some a ↔ a.rows = a.cols := by
  cases a
  simp [loadAcc, saveAcc]
  exact fun h => h.symm

end Verif.Accum
