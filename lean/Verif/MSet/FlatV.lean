import Verif.MSet.FlatH
/-!
# Flattening one below another
-/
namespace Verif.MSet

variable {V : Type}

/-- the values of a column -/
def DS.col (d : DS V) (k : Name) : List V := (at? d.cols k).getD []

/-- texts are read as they were written -/
def Text.Lawful (T : Text V) : Prop := ∀ n, T.untxt (T.txt n) = some n

/-- what the result has in column `k`: the columns of all Datasets one below another, or the names leading to them -/
def cell (T : Text V) (delim colName : Name) (L : List (List Name × DS V)) (k : Name) : List V :=
  if k = colName then L.flatMap fun p => List.replicate p.2.rows (T.txt (joined delim p.1)) else L.flatMap fun p => p.2.col k

/-- a table with these columns -/
def table (T : Text V) (delim colName : Name) (L : List (List Name × DS V)) (ks : List Name) : List (Name × List V) :=
  ks.map fun k => (k, cell T delim colName L k)

section
variable {A : Type}

theorem names_keyed (g : Name → A) (ks : List Name) : names (ks.map fun k => (k, g k)) = ks := by
  simp [names, Function.comp_def]

theorem at?_keyed (g : Name → A) (ks : List Name) (k : Name) :
    at? (ks.map fun k => (k, g k)) k = if k ∈ ks then some (g k) else none := by
  induction ks with
  | nil => simp [at?_nil]
  | cons a ks ih =>
    rw [List.map_cons, at?_cons, ih]
    by_cases h : a = k
    · simp [h]
    · have : ¬ k = a := fun e => h e.symm
      simp [h, this]

theorem keyed_at (d : List (Name × A)) (g : Name → A) (hn : (names d).Nodup) (h : ∀ k ∈ names d, at? d k = some (g k)) :
    d = (names d).map fun k => (k, g k) := by
  refine dict_ext _ _ (names_keyed g _).symm hn fun k hk => ?_
  rw [h k hk, at?_keyed, if_pos hk]
end

theorem below_table (T : Text V) (delim colName : Name) (L M : List (List Name × DS V)) (ks : List Name) (a b : DS V)
    (ha : a.cols = table T delim colName L ks) (hb : b.cols = table T delim colName M ks) :
    below a b = some ⟨table T delim colName (L ++ M) ks, []⟩ := by
  unfold below
  rw [ha, hb]
  have : ∀ ks' : List Name, (∀ k ∈ ks', k ∈ ks) →
      ((table T delim colName L ks').mapM fun c => (at? (table T delim colName M ks) c.1).map fun v => (c.1, c.2 ++ v)) =
        some (table T delim colName (L ++ M) ks') := by
    intro ks' hin
    induction ks' with
    | nil => rfl
    | cons k ks' ih =>
      have e : at? (table T delim colName M ks) k = some (cell T delim colName M k) := by
        unfold table
        rw [at?_keyed, if_pos (hin k List.mem_cons_self)]
      have ih := ih fun k hk => hin k (List.mem_cons_of_mem _ hk)
      unfold table at ih e ⊢
      rw [List.map_cons, List.mapM_cons, e, ih]
      simp only [Option.map_some, Option.bind_eq_bind, Option.bind_some, Option.pure_def, List.map_cons]
      congr 3
      unfold cell
      split <;> simp
  rw [this ks fun k hk => hk]
  rfl

theorem front_table (T : Text V) (delim colName : Name) (L : List (List Name × DS V)) (ls rest : List Name) (d : DS V)
    (hn : (ls ++ rest).Nodup) (hd : d.cols = table T delim colName L (ls ++ rest)) : (d.front ls).cols = d.cols := by
  rw [List.nodup_append] at hn
  unfold DS.front
  simp only
  rw [hd]
  unfold table
  rw [List.map_append]
  congr 1
  · have : ∀ ks : List Name, (∀ k ∈ ks, k ∈ ls) →
        (ks.filterMap fun l => (at? (ls.map (fun k => (k, cell T delim colName L k)) ++
          rest.map fun k => (k, cell T delim colName L k)) l).map fun v => (l, v)) =
          ks.map fun k => (k, cell T delim colName L k) := by
      intro ks hks
      induction ks with
      | nil => rfl
      | cons k ks ih =>
        rw [List.filterMap_cons, at?_append, at?_keyed, if_pos (hks k List.mem_cons_self)]
        simp only [Option.some_or, Option.map_some, List.map_cons]
        rw [ih fun k hk => hks k (List.mem_cons_of_mem _ hk)]
    exact this ls fun k hk => hk
  · rw [List.filter_append]
    have e1 : (ls.map fun k => (k, cell T delim colName L k)).filter (fun c => decide (c.1 ∉ ls)) = [] := by
      rw [List.filter_eq_nil_iff]
      intro c hc
      obtain ⟨k, hk, rfl⟩ := List.mem_map.1 hc
      simpa using hk
    have e2 : (rest.map fun k => (k, cell T delim colName L k)).filter (fun c => decide (c.1 ∉ ls)) =
        rest.map fun k => (k, cell T delim colName L k) := by
      rw [List.filter_eq_self]
      intro c hc
      obtain ⟨k, hk, rfl⟩ := List.mem_map.1 hc
      simp only [decide_eq_true_eq]
      exact fun h => hn.2.2 k h k hk rfl
    rw [e1, e2, List.nil_append]

theorem at?_col (d : DS V) (k : Name) (h : k ∈ names d.cols) : at? d.cols k = some (d.col k) := by
  obtain ⟨v, hv⟩ := (at?_isSome d.cols k).2 h
  simp [DS.col, hv]

theorem labelCols_keyed (d : DS V) (hd : d.Good) : d.labelCols = d.labels.map fun k => (k, d.col k) := by
  have h := keyed_at d.labelCols d.col (by rw [names_labelCols d hd.2.2]; exact hd.2.1) (by
    intro k hk
    rw [names_labelCols d hd.2.2] at hk
    unfold DS.labelCols
    rw [at?_filterMap_self, if_pos hk]
    exact at?_col d k (hd.2.2 k hk))
  rwa [names_labelCols d hd.2.2] at h

theorem values_keyed (d : DS V) (hd : d.Good) : d.values = (names d.values).map fun k => (k, d.col k) := by
  refine keyed_at d.values d.col (by rw [names_values]; exact hd.1.filter _) ?_
  intro k hk
  obtain ⟨c, hc, rfl⟩ := List.mem_map.1 hk
  have := mem_values hc
  rw [at?_values d _ this.2]
  exact at?_col d _ (List.mem_map_of_mem this.1)

theorem table_one (T : Text V) (delim colName name : Name) (d : DS V) (ks : List Name) (h : colName ∉ ks) :
    table T delim colName [([name], d)] ks = ks.map fun k => (k, d.col k) := by
  unfold table
  apply List.map_congr_left
  intro k hk
  have : k ≠ colName := fun e => h (e ▸ hk)
  simp [cell, this]

theorem take_labels' (d : DS V) (hd : d.Good) (r : DS V)
    (h : (if d.labels = [] then some ⟨[], []⟩ else d.take d.labels) = some r) : r.cols = d.labelCols := by
  split at h
  · rename_i e
    simp only [Option.some.injEq] at h
    subst h
    simp [DS.labelCols, e]
  · exact take_labels d r hd h

/-- the block of a Dataset -/
theorem block_ds (T : Text V) (delim colName name : Name) (d b : DS V) (hd : d.Good)
    (h : blockV T delim colName d.labels name d false = some b) :
    colName ∉ names d.cols ∧ b.cols = table T delim colName [([name], d)] (d.labels ++ colName :: names d.values) := by
  unfold blockV at h
  rw [Option.bind_eq_some_iff] at h
  obtain ⟨inds, h1, h⟩ := h
  have hi := take_labels' d hd inds h1
  rw [Option.bind_eq_some_iff] at h
  obtain ⟨q, h2, h⟩ := h
  simp only [Bool.false_eq_true, if_false] at h2
  split at h2
  · simp at h2
  rename_i hc
  simp only [Option.some.injEq] at h2
  subst h2
  rw [Option.bind_eq_some_iff] at h
  obtain ⟨vals, h3, h4⟩ := h
  have hv := take_values d vals hd h3
  unfold besides at h4
  split at h4
  · simp only [Option.some.injEq] at h4
    subst h4
    refine ⟨hc, ?_⟩
    have hcl : colName ∉ d.labels := fun e => hc (hd.2.2 _ e)
    have hcv : colName ∉ names d.values := by
      rw [names_values]
      intro e
      exact hc (List.mem_filter.1 e).1
    simp only
    rw [hi, put_new (by rw [names_labelCols d hd.2.2]; exact hcl), hv]
    have e : table T delim colName [([name], d)] (d.labels ++ colName :: names d.values) =
        table T delim colName [([name], d)] d.labels ++ [(colName, List.replicate d.rows (T.txt name))] ++
          table T delim colName [([name], d)] (names d.values) := by
      simp [table, cell, joined, List.intercalate, List.intersperse]
    rw [e, table_one _ _ _ _ _ _ hcl, table_one _ _ _ _ _ _ hcv, ← labelCols_keyed d hd, ← values_keyed d hd]
  · simp at h4

theorem mapM_untxt (T : Text V) (hT : T.Lawful) (ns : List Name) : (ns.map T.txt).mapM T.untxt = some ns := by
  induction ns with
  | nil => rfl
  | cons n ns ih => rw [List.map_cons, List.mapM_cons, hT, ih]; rfl

/-- the names of all rows -/
def rowNames (delim : Name) (L : List (List Name × DS V)) : List Name :=
  L.flatMap fun p => List.replicate p.2.rows (joined delim p.1)

theorem cell_names (T : Text V) (delim colName : Name) (L : List (List Name × DS V)) :
    cell T delim colName L colName = (rowNames delim L).map T.txt := by
  unfold cell rowNames
  rw [if_pos rfl]
  induction L with
  | nil => rfl
  | cons p L ih => simp [List.flatMap_cons, ih]

theorem joined_under (delim n : Name) (p : List Name) (hp : p ≠ []) : joined delim (n :: p) = n ++ delim ++ joined delim p := by
  cases p with
  | nil => exact absurd rfl hp
  | cons a p => simp [joined, List.intercalate, List.intersperse, List.append_assoc]

theorem rowNames_under (delim n : Name) (L : List (List Name × DS V)) (hL : ∀ p ∈ L, p.1 ≠ []) :
    rowNames delim (under n L) = (rowNames delim L).map fun k => n ++ delim ++ k := by
  unfold rowNames under
  induction L with
  | nil => rfl
  | cons p L ih =>
    rw [List.map_cons, List.flatMap_cons, List.flatMap_cons, List.map_append, ih fun q hq => hL q (List.mem_cons_of_mem _ hq)]
    congr 1
    rw [List.map_replicate, joined_under delim n p.1 (hL p List.mem_cons_self)]

theorem cell_under (T : Text V) (delim colName n : Name) (L : List (List Name × DS V)) (k : Name) (hk : k ≠ colName) :
    cell T delim colName (under n L) k = cell T delim colName L k := by
  unfold cell under
  rw [if_neg hk, if_neg hk, List.flatMap_map]

/-- the flattened Multiset `d` -/
structure TabOk (T : Text V) (delim colName : Name) (L : List (List Name × DS V)) (vs : List Name) (d : DS V) : Prop where
  cols : d.cols = table T delim colName L (d.labels ++ colName :: vs)
  nodup : (d.labels ++ colName :: vs).Nodup
  same : ∀ p ∈ L, p.2.labels = d.labels ∧ names p.2.values = vs ∧ colName ∉ names p.2.cols
  some : L ≠ []

theorem tab_values {T : Text V} {delim colName : Name} {L : List (List Name × DS V)} {vs : List Name} {d : DS V}
    (h : TabOk T delim colName L vs d) : (names d.cols).filter (fun n => decide (n ∉ d.labels)) = colName :: vs := by
  have hn := h.nodup
  rw [List.nodup_append] at hn
  rw [h.cols]
  unfold table
  rw [names_keyed, List.filter_append]
  have e1 : d.labels.filter (fun n => decide (n ∉ d.labels)) = [] := by
    rw [List.filter_eq_nil_iff]; intro k hk; simpa using hk
  have e2 : (colName :: vs).filter (fun n => decide (n ∉ d.labels)) = colName :: vs := by
    rw [List.filter_eq_self]
    intro k hk
    simp only [decide_eq_true_eq]
    exact fun hl => hn.2.2 k hl k hk rfl
  rw [e1, e2, List.nil_append]

theorem tab_own {T : Text V} {delim colName : Name} {L : List (List Name × DS V)} {vs : List Name} {d : DS V}
    (h : TabOk T delim colName L vs d) : ownCols colName d.labels d = vs := by
  unfold ownCols
  have e : (names d.cols).filter (fun n => decide (n ≠ colName ∧ n ∉ d.labels)) =
      ((names d.cols).filter fun n => decide (n ∉ d.labels)).filter fun n => decide (n ≠ colName) := by
    rw [List.filter_filter]
    congr 1
    funext n
    simp
  have hn := h.nodup
  rw [List.nodup_append, List.nodup_cons] at hn
  rw [e, tab_values h, List.filter_cons]
  simp only [ne_eq, not_true_eq_false, decide_false, Bool.false_eq_true, if_false]
  rw [List.filter_eq_self]
  intro k hk
  simp only [decide_eq_true_eq]
  rintro rfl
  exact hn.2.1.1 hk

theorem tab_good {T : Text V} {delim colName : Name} {L : List (List Name × DS V)} {vs : List Name} {d : DS V}
    (h : TabOk T delim colName L vs d) : d.Good := by
  have hn : names d.cols = d.labels ++ colName :: vs := by rw [h.cols]; exact names_keyed _ _
  refine ⟨by rw [hn]; exact h.nodup, (List.nodup_append.1 h.nodup).1, ?_⟩
  intro l hl
  rw [hn]
  exact List.mem_append_left _ hl

theorem ds_own (colName : Name) (d : DS V) (h : colName ∉ names d.cols) : ownCols colName d.labels d = names d.values := by
  unfold ownCols
  rw [names_values]
  apply List.filter_congr
  intro k hk
  have : k ≠ colName := fun e => h (e ▸ hk)
  simp [this]

/-- the block of a flattened Multiset, computed -/
theorem block_ms_eq (T : Text V) (hT : T.Lawful) (delim colName name : Name) (L : List (List Name × DS V))
    (hp : ∀ p ∈ L, p.1 ≠ []) (vs : List Name) (d : DS V) (h : TabOk T delim colName L vs d) :
    blockV T delim colName d.labels name d true =
      if (rowNames delim L).all ascii then
        besides ⟨table T delim colName (under name L) d.labels, []⟩ ⟨table T delim colName (under name L) (colName :: vs), []⟩
      else none := by
  have hg := tab_good h
  have hnm : names d.cols = d.labels ++ colName :: vs := by rw [h.cols]; exact names_keyed _ _
  have hnd := h.nodup
  rw [List.nodup_append, List.nodup_cons] at hnd
  have hcl : colName ∉ d.labels := fun e => hnd.2.2 _ e colName List.mem_cons_self rfl
  have hcell : ∀ k, k ∈ d.labels ++ colName :: vs → at? d.cols k = some (cell T delim colName L k) := by
    intro k hk
    rw [h.cols]; unfold table; rw [at?_keyed, if_pos hk]
  unfold blockV
  simp only [if_true]
  rw [hcell colName (by simp)]
  simp only [Option.bind_some]
  have hpre : prefixed T delim name (cell T delim colName L colName) =
      if (rowNames delim L).all ascii then some (cell T delim colName (under name L) colName) else none := by
    unfold prefixed
    rw [cell_names, mapM_untxt T hT, Option.bind_some, cell_names, rowNames_under delim name L hp]
    simp [List.map_map, Function.comp_def]
  rw [hpre]
  by_cases ha : (rowNames delim L).all ascii = true
  swap
  · rw [if_neg ha, if_neg ha]
    simp
  rw [if_pos ha, if_pos ha]
  simp only [Option.map_some, Option.bind_some]
  have hlab : ∃ r : DS V, (if d.labels = [] then some ⟨[], []⟩ else d.take d.labels) = some r ∧
      r.cols = table T delim colName (under name L) d.labels := by
    obtain ⟨r, hr⟩ : ∃ r : DS V, (if d.labels = [] then some ⟨[], []⟩ else d.take d.labels) = some r := by
      by_cases e : d.labels = []
      · simp [e]
      · rw [if_neg e]
        exact take_ok d d.labels e hg.2.1 hg.2.2
    refine ⟨r, hr, ?_⟩
    rw [take_labels' d hg r hr, labelCols_keyed d hg]
    unfold table
    apply List.map_congr_left
    intro k hk
    have hne : k ≠ colName := fun e => hcl (e ▸ hk)
    rw [cell_under T delim colName name L k hne, DS.col, hcell k (by simp [hk])]
    rfl
  obtain ⟨r, hr, hrc⟩ := hlab
  rw [hr, Option.bind_some, tab_values h]
  have hput : ∀ k, at? (put d.cols colName (cell T delim colName (under name L) colName)) k =
      if k ∈ d.labels ++ colName :: vs then some (cell T delim colName (under name L) k) else none := by
    intro k
    rw [at?_put]
    by_cases e : colName = k
    · subst e; simp
    · rw [if_neg e]
      split
      · rename_i hk
        rw [hcell k hk, cell_under T delim colName name L k (fun e' => e e'.symm)]
      · rename_i hk
        rw [at?_eq_none, hnm]; exact hk
  obtain ⟨vals, hv⟩ := take_ok { d with cols := put d.cols colName (cell T delim colName (under name L) colName) }
    (colName :: vs) (by simp) (List.nodup_cons.2 hnd.2.1) (by
      intro k hk
      rw [mem_names_put, hnm]
      right; exact List.mem_append_right _ hk)
  have hvc := take_eq _ vals (colName :: vs) (table T delim colName (under name L) (colName :: vs))
    (List.nodup_cons.2 hnd.2.1) (names_keyed _ _) (by
      intro k hk
      unfold table
      rw [at?_keyed, if_pos hk]
      show _ = at? (put d.cols colName (cell T delim colName (under name L) colName)) k
      rw [hput k, if_pos (List.mem_append_right _ hk)]) hv
  rw [hv, Option.bind_some]
  unfold besides
  have e1 : r.rows = DS.rows ⟨table T delim colName (under name L) d.labels, []⟩ := by unfold DS.rows; rw [hrc]
  have e2 : vals.rows = DS.rows ⟨table T delim colName (under name L) (colName :: vs), []⟩ := by unfold DS.rows; rw [hvc]
  rw [e1, e2, hrc, hvc]

/-- the state after the Datasets `L` -/
def StOk (T : Text V) (delim colName : Name) (L : List (List Name × DS V)) (q : StV V) : Prop :=
  TabOk T delim colName L q.cols { q.dsr with labels := q.labels }

/-- what is known of an item that is flattened to `d` -/
def ItemV (T : Text V) (delim colName : Name) (L : List (List Name × DS V)) (d : DS V) (nested : Bool) : Prop :=
  (nested = false ∧ L = [([], d)] ∧ d.Good) ∨
    (nested = true ∧ (∀ p ∈ L, p.1 ≠ []) ∧ ∃ vs, TabOk T delim colName L vs d)

/-- a block of rows is a table of the Datasets of the item -/
theorem block_tab (T : Text V) (hT : T.Lawful) (delim colName name : Name) (M : List (List Name × DS V)) (d b : DS V) (nested : Bool)
    (hi : ItemV T delim colName M d nested) (h : blockV T delim colName d.labels name d nested = some b) :
    TabOk T delim colName (under name M) (ownCols colName d.labels d) { b with labels := d.labels } := by
  rcases hi with ⟨rfl, rfl, hg⟩ | ⟨rfl, hp, vs, ht⟩
  · obtain ⟨h1, h2⟩ := block_ds T delim colName name d b hg h
    rw [ds_own colName d h1]
    refine ⟨h2, ?_, ?_, by simp [under]⟩
    · simp only
      rw [List.nodup_append, List.nodup_cons, names_values]
      refine ⟨hg.2.1, ⟨fun e => h1 (List.mem_filter.1 e).1, hg.1.filter _⟩, ?_⟩
      intro a ha c hc hac
      subst hac
      rcases List.mem_cons.1 hc with rfl | hc
      · exact h1 (hg.2.2 _ ha)
      · have := (List.mem_filter.1 hc).2
        simp only [decide_eq_true_eq] at this
        exact this ha
    · intro p hp
      simp only [under, List.map_cons, List.map_nil, List.mem_singleton] at hp
      subst hp
      exact ⟨rfl, rfl, h1⟩
  · rw [block_ms_eq T hT delim colName name M hp vs d ht] at h
    rw [tab_own ht]
    split at h
    · unfold besides at h
      split at h
      · simp only [Option.some.injEq] at h
        subst h
        refine ⟨by simp [table], ht.nodup, ?_, ?_⟩
        · intro p hp
          obtain ⟨p', hp', rfl⟩ := List.mem_map.1 hp
          exact ht.same p' hp'
        · simpa [under] using ht.some
      · simp at h
    · simp at h

theorem front_tab (T : Text V) (delim colName : Name) (L : List (List Name × DS V)) (vs : List Name) (d : DS V)
    (h : TabOk T delim colName L vs d) : TabOk T delim colName L vs { d.front d.labels with labels := d.labels } := by
  have := front_table T delim colName L d.labels (colName :: vs) d h.nodup h.cols
  exact ⟨by simp only; rw [this]; exact h.cols, h.nodup, h.same, h.some⟩

theorem stepV_first (T : Text V) (hT : T.Lawful) (delim colName name : Name) (M : List (List Name × DS V)) (d : DS V)
    (nested : Bool) (hi : ItemV T delim colName M d nested) (q : StV V) (h : stepV T delim colName none name d nested = some q) :
    StOk T delim colName (under name M) q := by
  unfold stepV at h
  simp only [Option.map_eq_some_iff] at h
  obtain ⟨b, hb, rfl⟩ := h
  exact front_tab T delim colName _ _ _ (block_tab T hT delim colName name M d b nested hi hb)

theorem stepV_next (T : Text V) (hT : T.Lawful) (delim colName name : Name) (L M : List (List Name × DS V)) (d : DS V)
    (nested : Bool) (hi : ItemV T delim colName M d nested) (s q : StV V) (hs : StOk T delim colName L s)
    (h : stepV T delim colName (some s) name d nested = some q) : StOk T delim colName (L ++ under name M) q := by
  unfold stepV at h
  simp only at h
  split at h
  · simp at h
  rename_i h1
  split at h
  · simp at h
  rename_i h2
  rw [not_not] at h1 h2
  rw [Option.bind_eq_some_iff] at h
  obtain ⟨b, hb, h⟩ := h
  rw [h1] at hb
  have ht := block_tab T hT delim colName name M d b nested hi hb
  rw [h1] at h2
  rw [← h2, ← h1] at ht
  rw [below_table T delim colName L (under name M) (s.labels ++ colName :: s.cols) s.dsr b hs.cols ht.cols] at h
  simp only [Option.map_some, Option.some.injEq] at h
  subst h
  refine front_tab T delim colName (L ++ under name M) s.cols
    { (⟨table T delim colName (L ++ under name M) (s.labels ++ colName :: s.cols), []⟩ : DS V) with labels := s.labels } ?_
  refine ⟨rfl, hs.nodup, ?_, ?_⟩
  · intro p hp
    rcases List.mem_append.1 hp with hp | hp
    · exact hs.same p hp
    · exact ht.same p hp
  · have := hs.some
    simp [this]

theorem finish_tab (T : Text V) (delim colName : Name) (L : List (List Name × DS V)) (q : StV V)
    (hs : StOk T delim colName L q) : finish (some (q.labels, q.dsr)) = some { q.dsr with labels := q.labels } := by
  have h := hs.cols
  simp only at h
  simp only [finish]
  congr 2
  rw [List.filter_eq_self]
  intro l hl
  rw [h]
  unfold table
  rw [names_keyed]
  simp [hl]

theorem items_paths (l : Items V) : ∀ p ∈ l.leaves, p.1 ≠ [] := by
  intro p hp
  match l with
  | .nil => simp [Items.leaves] at hp
  | .cons n e rest =>
    simp only [Items.leaves, List.mem_append] at hp
    rcases hp with hp | hp
    · obtain ⟨q, _, rfl⟩ := List.mem_map.1 hp
      simp
    · exact items_paths rest p hp

mutual
theorem elem_flatV (T : Text V) (hT : T.Lawful) (delim colName : Name) (e : Elem V) (hL : ∀ p ∈ e.leaves, p.2.Good) (d : DS V)
    (h : e.flatV T delim colName = some d) : ItemV T delim colName e.leaves d e.isMs := by
  match e with
  | .ds d0 =>
    simp only [Elem.flatV, Option.some.injEq] at h
    subst h
    left
    exact ⟨rfl, rfl, hL ([], d0) (by simp [Elem.leaves])⟩
  | .ms l =>
    right
    simp only [Elem.flatV, Option.bind_eq_some_iff] at h
    obtain ⟨s, h1, h2⟩ := h
    have hL' : ∀ p ∈ l.leaves, p.2.Good := by simpa [Elem.leaves] using hL
    rcases items_flatV T hT delim colName l hL' none [] (Or.inl ⟨rfl, rfl⟩) s h1 with ⟨rfl, _⟩ | ⟨q, rfl, h3⟩
    · simp [finish] at h2
    · rw [List.nil_append] at h3
      simp only [Option.map_some] at h2
      rw [finish_tab T delim colName l.leaves q h3, Option.some.injEq] at h2
      subst h2
      exact ⟨rfl, by simpa [Elem.leaves] using items_paths l, q.cols, by simp only [Elem.leaves]; exact h3⟩
theorem items_flatV (T : Text V) (hT : T.Lawful) (delim colName : Name) (l : Items V) (hL : ∀ p ∈ l.leaves, p.2.Good)
    (s : Option (StV V)) (L : List (List Name × DS V))
    (hs : (s = none ∧ L = []) ∨ ∃ q, s = some q ∧ StOk T delim colName L q)
    (s' : Option (StV V)) (h : l.flatV T delim colName s = some s') :
    (s' = none ∧ L ++ l.leaves = []) ∨ ∃ q, s' = some q ∧ StOk T delim colName (L ++ l.leaves) q := by
  match l with
  | .nil =>
    simp only [Items.flatV, Option.some.injEq] at h
    subst h
    simpa [Items.leaves] using hs
  | .cons n e rest =>
    simp only [Items.flatV, Option.bind_eq_some_iff] at h
    obtain ⟨d, h1, q, h2, h3⟩ := h
    simp only [Items.leaves, List.mem_append] at hL
    have he := elem_flatV T hT delim colName e (fun p hp => hL (n :: p.1, p.2) (Or.inl (List.mem_map.2 ⟨p, hp, rfl⟩))) d h1
    have hq : StOk T delim colName (L ++ under n e.leaves) q := by
      rcases hs with ⟨rfl, rfl⟩ | ⟨s, rfl, hs⟩
      · exact stepV_first T hT delim colName n e.leaves d e.isMs he q h2
      · exact stepV_next T hT delim colName n L e.leaves d e.isMs he s q hs h2
    have := items_flatV T hT delim colName rest (fun p hp => hL p (Or.inr hp)) (some q) (L ++ under n e.leaves)
      (Or.inr ⟨q, rfl, hq⟩) s' h3
    simpa only [Items.leaves, under, List.append_assoc] using this
end

/-- **C153.** If a Multiset is flattened one below another, all Datasets, of Multisets inside too, have the same labels and the same
other columns in the same order; the result has the labels, the column of names and the other columns, each with the values of all
Datasets in order, and the column of names says for each row, by the joined names leading to it, which Dataset it is from. -/
theorem flatten_below (T : Text V) (hT : T.Lawful) (delim colName : Name) (l : Items V) (hL : ∀ p ∈ l.leaves, p.2.Good) (r : DS V)
    (h : flattenV T delim colName l = some r) :
    ∃ ls vs, (∀ p ∈ l.leaves, p.2.labels = ls ∧ names p.2.values = vs ∧ colName ∉ names p.2.cols) ∧
      l.leaves ≠ [] ∧ r.labels = ls ∧ names r.cols = ls ++ [colName] ++ vs ∧ (names r.cols).Nodup ∧
      at? r.cols colName = some (l.leaves.flatMap fun p => List.replicate p.2.rows (T.txt (joined delim p.1))) ∧
      ∀ k ∈ ls ++ vs, at? r.cols k = some (l.leaves.flatMap fun p => p.2.col k) := by
  have h0 := elem_flatV T hT delim colName (.ms l) (by simpa [Elem.leaves] using hL) r h
  rcases h0 with ⟨h0, _⟩ | ⟨_, _, vs, ht⟩
  · simp [Elem.isMs] at h0
  · simp only [Elem.leaves] at ht
    have hn : names r.cols = r.labels ++ colName :: vs := by rw [ht.cols]; exact names_keyed _ _
    have hat : ∀ k ∈ r.labels ++ colName :: vs, at? r.cols k = some (cell T delim colName l.leaves k) := by
      intro k hk
      rw [ht.cols]; unfold table; rw [at?_keyed, if_pos hk]
    have hnd := ht.nodup
    rw [List.nodup_append, List.nodup_cons] at hnd
    refine ⟨r.labels, vs, ht.same, ht.some, rfl, by rw [hn]; simp, by rw [hn]; exact ht.nodup, ?_, ?_⟩
    · rw [hat colName (by simp), cell, if_pos rfl]
    · intro k hk
      have hne : k ≠ colName := by
        rintro rfl
        rcases List.mem_append.1 hk with h | h
        · exact hnd.2.2 _ h k List.mem_cons_self rfl
        · exact hnd.2.1.1 h
      rw [hat k (by rcases List.mem_append.1 hk with h | h <;> simp [h]), cell, if_neg hne]

/-! ## When it succeeds -/

mutual
/-- no Multiset in it is empty -/
def Elem.Full : Elem V → Prop
  | .ds _ => True
  | .ms l => l ≠ .nil ∧ l.Full
def Items.Full : Items V → Prop
  | .nil => True
  | .cons _ e rest => e.Full ∧ rest.Full
end

/-- no Multisets inside -/
def Items.Shallow : Items V → Prop
  | .nil => True
  | .cons _ e rest => e.isMs = false ∧ rest.Shallow

/-- a Dataset that can be stacked -/
def Stackable (colName : Name) (ls vs : List Name) (d : DS V) : Prop :=
  d.Ok d.rows ∧ d.labels = ls ∧ names d.values = vs ∧ colName ∉ names d.cols

theorem Stackable.good {colName : Name} {ls vs : List Name} {d : DS V} (h : Stackable colName ls vs d) : d.Good :=
  ⟨h.1.1, h.1.2.2.1, h.1.2.2.2⟩

theorem put_rows (d : DS V) (k : Name) (v : List V) (n : Nat) (hv : v.length = n) (hd : ∀ c ∈ d.cols, c.2.length = n)
    (hk : k ∉ names d.cols) : DS.rows { d with cols := put d.cols k v } = n := by
  apply rows_eq
  · simp only; rw [put_new hk]; simp
  · intro c hc
    simp only at hc
    rw [put_new hk] at hc
    rcases List.mem_append.1 hc with hc | hc
    · exact hd c hc
    · simp only [List.mem_singleton] at hc
      subst hc; exact hv

theorem block_ds_ok (T : Text V) (delim colName name : Name) (ls vs : List Name) (hvs : vs ≠ []) (d : DS V)
    (h : Stackable colName ls vs d) : ∃ b, blockV T delim colName d.labels name d false = some b := by
  have hg := h.good
  obtain ⟨r, hr⟩ : ∃ r : DS V, (if d.labels = [] then some ⟨[], []⟩ else d.take d.labels) = some r := by
    by_cases e : d.labels = []
    · simp [e]
    · rw [if_neg e]; exact take_ok d d.labels e hg.2.1 hg.2.2
  have hrc := take_labels' d hg r hr
  obtain ⟨vals, hv⟩ := take_ok d (names d.values) (by rw [h.2.2.1]; exact hvs)
    (by rw [names_values]; exact hg.1.filter _) (by
      intro k hk
      obtain ⟨c, hc, rfl⟩ := List.mem_map.1 hk
      exact List.mem_map_of_mem (mem_values hc).1)
  have hvc := take_values d vals hg (by rw [← names_values]; exact hv)
  unfold blockV
  rw [hr, Option.bind_some]
  simp only [Bool.false_eq_true, if_false]
  rw [if_neg h.2.2.2, Option.bind_some, ← names_values]
  simp only
  rw [hv, Option.bind_some]
  have hcl : colName ∉ names r.cols := by
    rw [hrc, names_labelCols d hg.2.2]
    exact fun e => h.2.2.2 (hg.2.2 _ e)
  unfold besides
  rw [if_pos]
  · exact ⟨_, rfl⟩
  · constructor
    · rw [put_rows r colName _ d.rows (by simp) (by
        intro c hc
        rw [hrc] at hc
        exact h.1.2.1 c (mem_labelCols hc)) hcl, rows_eq vals d.rows (by
          rw [hvc]; intro e; have := h.2.2.1; rw [e] at this; exact hvs this.symm) (by
          intro c hc
          rw [hvc] at hc
          exact h.1.2.1 c (mem_values hc).1)]
    · intro k hk
      rw [hvc] at hk
      rw [mem_names_put, hrc, names_labelCols d hg.2.2, not_or]
      obtain ⟨c, hc, rfl⟩ := List.mem_map.1 hk
      have := mem_values hc
      exact ⟨fun e => h.2.2.2 (e ▸ List.mem_map_of_mem this.1), this.2⟩

theorem length_col (d : DS V) (k : Name) (h : d.Ok d.rows) (hk : k ∈ names d.cols) : (d.col k).length = d.rows := by
  have := at?_col d k hk
  exact h.2.1 _ (mem_of_at? this)

theorem cell_length (T : Text V) (delim colName : Name) (L : List (List Name × DS V)) (ks : List Name)
    (h : ∀ p ∈ L, p.2.Ok p.2.rows ∧ ∀ k ∈ ks, k ∈ names p.2.cols) (k : Name) (hk : k = colName ∨ k ∈ ks) :
    (cell T delim colName L k).length = (L.map fun p => p.2.rows).sum := by
  unfold cell
  split
  · simp [List.length_flatMap]
  · rename_i hne
    have hk : k ∈ ks := hk.resolve_left hne
    rw [List.length_flatMap]
    congr 1
    apply List.map_congr_left
    intro p hp
    exact length_col p.2 k (h p hp).1 ((h p hp).2 k hk)

theorem block_ms_ok (T : Text V) (hT : T.Lawful) (delim colName name : Name) (L : List (List Name × DS V))
    (hp : ∀ p ∈ L, p.1 ≠ []) (vs : List Name) (d : DS V) (h : TabOk T delim colName L vs d) (hl : d.labels ≠ [])
    (hok : ∀ p ∈ L, p.2.Ok p.2.rows) (ha : (rowNames delim L).all ascii = true) :
    ∃ b, blockV T delim colName d.labels name d true = some b := by
  rw [block_ms_eq T hT delim colName name L hp vs d h, if_pos ha]
  have hks : ∀ p ∈ under name L, p.2.Ok p.2.rows ∧ ∀ k ∈ d.labels, k ∈ names p.2.cols := by
    intro p hp
    obtain ⟨q, hq, rfl⟩ := List.mem_map.1 hp
    refine ⟨hok q hq, fun k hk => ?_⟩
    rw [← (h.same q hq).1] at hk
    exact (hok q hq).2.2.2 k hk
  unfold besides
  rw [if_pos]
  · exact ⟨_, rfl⟩
  · constructor
    · rw [rows_eq _ ((under name L).map fun p => p.2.rows).sum]
      · simp only [DS.rows, table, List.map_cons]
        exact (cell_length T delim colName (under name L) [] (fun p hp => ⟨(hks p hp).1, by simp⟩) colName (Or.inl rfl)).symm
      · simp only [table]; intro e; exact hl (List.map_eq_nil_iff.1 e)
      · intro c hc
        simp only [table] at hc
        obtain ⟨k, hk, rfl⟩ := List.mem_map.1 hc
        exact cell_length T delim colName (under name L) d.labels hks k (Or.inr hk)
    · simp only [table]
      rw [names_keyed, names_keyed]
      have := (List.nodup_append.1 h.nodup).2.2
      exact fun k hk hk' => this k hk' k hk rfl

theorem ascii_append (a b : Name) : ascii (a ++ b) = (ascii a && ascii b) := by simp [ascii]

theorem ascii_joined (delim : Name) (hd : ascii delim = true) (p : List Name) (hp : ∀ n ∈ p, ascii n = true) :
    ascii (joined delim p) = true := by
  induction p with
  | nil => rfl
  | cons n p ih =>
    cases p with
    | nil => simpa [joined, List.intercalate, List.intersperse] using hp n List.mem_cons_self
    | cons m p =>
      rw [joined_under delim n (m :: p) (by simp), ascii_append, ascii_append, hp n List.mem_cons_self, hd,
        ih fun k hk => hp k (List.mem_cons_of_mem _ hk)]
      rfl

/-- Multisets inside need labels, and names in ASCII -/
def Deep (delim : Name) (ls : List Name) (L : List (List Name × DS V)) : Prop :=
  ls ≠ [] ∧ ascii delim = true ∧ ∀ p ∈ L, ∀ n ∈ p.1, ascii n = true

theorem rowNames_ascii (delim : Name) (ls : List Name) (L : List (List Name × DS V)) (h : Deep delim ls L) :
    (rowNames delim L).all ascii = true := by
  rw [List.all_eq_true]
  intro n hn
  obtain ⟨p, hp, hn⟩ := List.mem_flatMap.1 hn
  obtain ⟨_, rfl⟩ := List.mem_replicate.1 hn
  exact ascii_joined delim h.2.1 p.1 (h.2.2 p hp)

mutual
theorem elem_okV (T : Text V) (hT : T.Lawful) (delim colName : Name) (ls vs : List Name) (hvs : vs ≠ []) (e : Elem V)
    (hL : ∀ p ∈ e.leaves, Stackable colName ls vs p.2) (hf : e.Full) (hd : e.isMs = true → Deep delim ls e.leaves) :
    ∃ d, e.flatV T delim colName = some d := by
  match e with
  | .ds d => exact ⟨d, rfl⟩
  | .ms l =>
    simp only [Elem.Full] at hf
    simp only [Elem.leaves] at hL
    have hd : Deep delim ls l.leaves := by simpa [Elem.leaves] using hd rfl
    obtain ⟨s, hs⟩ := items_okV T hT delim colName ls vs hvs l hL hf.2 (Or.inr hd) none [] (Or.inl ⟨rfl, rfl⟩)
    rcases items_flatV T hT delim colName l (fun p hp => (hL p hp).good) none [] (Or.inl ⟨rfl, rfl⟩) s hs with
      ⟨rfl, h⟩ | ⟨q, rfl, hq⟩
    · exfalso
      match l, hf, hs with
      | .nil, hf, _ => exact hf.1 rfl
      | .cons n e rest, _, hs =>
        simp only [Items.flatV, Option.bind_eq_some_iff] at hs
        obtain ⟨d, h1, q, h2, h3⟩ := hs
        have hL1 : ∀ p ∈ e.leaves, p.2.Good := fun p hp => (hL (n :: p.1, p.2) (by
          simp only [Items.leaves, List.mem_append]; exact Or.inl (List.mem_map.2 ⟨p, hp, rfl⟩))).good
        have he := elem_flatV T hT delim colName e hL1 d h1
        have hq := stepV_first T hT delim colName n e.leaves d e.isMs he q h2
        apply hq.some
        simp only [Items.leaves, List.nil_append, List.append_eq_nil_iff] at h
        exact h.1
    · refine ⟨{ q.dsr with labels := q.labels }, ?_⟩
      simp only [Elem.flatV, hs, Option.bind_some, Option.map_some]
      exact finish_tab T delim colName _ q hq
theorem items_okV (T : Text V) (hT : T.Lawful) (delim colName : Name) (ls vs : List Name) (hvs : vs ≠ []) (l : Items V)
    (hL : ∀ p ∈ l.leaves, Stackable colName ls vs p.2) (hf : l.Full) (hd : l.Shallow ∨ Deep delim ls l.leaves)
    (s : Option (StV V)) (L : List (List Name × DS V))
    (hs : (s = none ∧ L = []) ∨ ∃ q, s = some q ∧ q.labels = ls ∧ q.cols = vs ∧ StOk T delim colName L q) :
    ∃ s', l.flatV T delim colName s = some s' := by
  match l with
  | .nil => exact ⟨s, rfl⟩
  | .cons n e rest =>
    simp only [Items.Full] at hf
    simp only [Items.leaves, List.mem_append] at hL
    have hLe : ∀ p ∈ e.leaves, Stackable colName ls vs p.2 :=
      fun p hp => hL (n :: p.1, p.2) (Or.inl (List.mem_map.2 ⟨p, hp, rfl⟩))
    have hde : e.isMs = true → Deep delim ls e.leaves := by
      intro hm
      rcases hd with hd | hd
      · simp only [Items.Shallow] at hd
        rw [hd.1] at hm
        simp at hm
      · refine ⟨hd.1, hd.2.1, fun p hp k hk => hd.2.2 (n :: p.1, p.2) ?_ k (List.mem_cons_of_mem _ hk)⟩
        simp only [Items.leaves, List.mem_append]
        exact Or.inl (List.mem_map.2 ⟨p, hp, rfl⟩)
    have hdr : rest.Shallow ∨ Deep delim ls rest.leaves := by
      rcases hd with hd | hd
      · exact Or.inl hd.2
      · refine Or.inr ⟨hd.1, hd.2.1, fun p hp => hd.2.2 p ?_⟩
        simp only [Items.leaves, List.mem_append]
        exact Or.inr hp
    obtain ⟨d, h1⟩ := elem_okV T hT delim colName ls vs hvs e hLe hf.1 hde
    have hi := elem_flatV T hT delim colName e (fun p hp => (hLe p hp).good) d h1
    have hne : ∃ p, p ∈ e.leaves := by
      rcases hi with ⟨_, h, _⟩ | ⟨_, _, vs', ht⟩
      · exact ⟨([], d), by rw [h]; exact List.mem_singleton.2 rfl⟩
      · exact List.exists_mem_of_ne_nil _ ht.some
    have hlo : d.labels = ls ∧ ownCols colName d.labels d = vs := by
      obtain ⟨p, hp⟩ := hne
      rcases hi with ⟨_, h, _⟩ | ⟨_, _, vs', ht⟩
      · rw [h] at hp
        simp only [List.mem_singleton] at hp
        subst hp
        have := hLe ([], d) (by rw [h]; exact List.mem_singleton.2 rfl)
        exact ⟨this.2.1, by rw [ds_own colName d this.2.2.2]; exact this.2.2.1⟩
      · have := ht.same p hp
        exact ⟨this.1.symm.trans (hLe p hp).2.1, by rw [tab_own ht, ← this.2.1]; exact (hLe p hp).2.2.1⟩
    obtain ⟨b, hb⟩ : ∃ b, blockV T delim colName d.labels n d e.isMs = some b := by
      rcases hi with ⟨hm, h, _⟩ | ⟨hm, hp, vs', ht⟩
      · rw [hm]
        exact block_ds_ok T delim colName n ls vs hvs d (hLe ([], d) (by rw [h]; exact List.mem_singleton.2 rfl))
      · have hdeep := hde hm
        rw [hm]
        exact block_ms_ok T hT delim colName n e.leaves hp vs' d ht (by rw [hlo.1]; exact hdeep.1)
          (fun p hp => (hLe p hp).1) (rowNames_ascii delim ls e.leaves hdeep)
    have hbt := block_tab T hT delim colName n e.leaves d b e.isMs hi hb
    obtain ⟨q, hq⟩ : ∃ q, stepV T delim colName s n d e.isMs = some q ∧ q.labels = ls ∧ q.cols = vs := by
      rcases hs with ⟨rfl, rfl⟩ | ⟨q, rfl, e1, e2, hs⟩
      · refine ⟨⟨d.labels, ownCols colName d.labels d, b.front d.labels⟩, ?_, hlo⟩
        simp only [stepV, hb, Option.map_some]
      · have e3 : q.labels = d.labels := e1.trans hlo.1.symm
        have e4 : q.cols = ownCols colName d.labels d := e2.trans hlo.2.symm
        have hbc := hbt.cols
        simp only [← e3] at hbc
        rw [e3, ← e4] at hbc
        rw [← e3] at hbc
        refine ⟨⟨q.labels, q.cols, DS.front ⟨table T delim colName (L ++ under n e.leaves) (q.labels ++ colName :: q.cols), []⟩
          q.labels⟩, ?_, e1, e2⟩
        simp only [stepV]
        rw [if_neg (by rw [not_not]; exact e3), if_neg (by rw [not_not, e3]; exact e4), e3, hb, Option.bind_some,
          below_table T delim colName L (under n e.leaves) (q.labels ++ colName :: q.cols) q.dsr b hs.cols hbc]
        rw [← e3]; rfl
    rw [Items.flatV, h1]
    simp only [Option.bind_some]
    rw [hq.1]
    simp only [Option.bind_some]
    refine items_okV T hT delim colName ls vs hvs rest (fun p hp => hL p (Or.inr hp)) hf.2 hdr (some q) (L ++ under n e.leaves)
      (Or.inr ⟨q, rfl, hq.2.1, hq.2.2, ?_⟩)
    rcases hs with ⟨rfl, rfl⟩ | ⟨s, rfl, _, _, hs⟩
    · exact stepV_first T hT delim colName n e.leaves d e.isMs hi q hq.1
    · exact stepV_next T hT delim colName n L e.leaves d e.isMs hi s q hs hq.1
end

/-- **C155.** Datasets with the same labels and the same other columns in the same order can always be flattened one below another:
without Multisets inside, or with such that are not empty, if there are labels and all names are ASCII. -/
theorem flatten_below_done (T : Text V) (hT : T.Lawful) (delim colName : Name) (ls vs : List Name) (hvs : vs ≠ []) (l : Items V)
    (hL : ∀ p ∈ l.leaves, Stackable colName ls vs p.2) (h0 : l ≠ .nil) (hf : l.Full) (hd : l.Shallow ∨ Deep delim ls l.leaves) :
    ∃ r, flattenV T delim colName l = some r := by
  obtain ⟨s, hs⟩ := items_okV T hT delim colName ls vs hvs l hL hf hd none [] (Or.inl ⟨rfl, rfl⟩)
  rcases items_flatV T hT delim colName l (fun p hp => (hL p hp).good) none [] (Or.inl ⟨rfl, rfl⟩) s hs with
    ⟨rfl, h⟩ | ⟨q, rfl, hq⟩
  · exfalso
    match l, h0, hs with
    | .nil, h0, _ => exact h0 rfl
    | .cons n e rest, _, hs =>
      simp only [Items.flatV, Option.bind_eq_some_iff] at hs
      obtain ⟨d, h1, q, h2, h3⟩ := hs
      have hL1 : ∀ p ∈ e.leaves, p.2.Good := fun p hp => (hL (n :: p.1, p.2) (by
        simp only [Items.leaves, List.mem_append]; exact Or.inl (List.mem_map.2 ⟨p, hp, rfl⟩))).good
      have he := elem_flatV T hT delim colName e hL1 d h1
      have hq := stepV_first T hT delim colName n e.leaves d e.isMs he q h2
      apply hq.some
      simp only [Items.leaves, List.nil_append, List.append_eq_nil_iff] at h
      exact h.1
  · refine ⟨{ q.dsr with labels := q.labels }, ?_⟩
    simp only [flattenV, Elem.flatV, hs, Option.bind_some, Option.map_some]
    exact finish_tab T delim colName _ q hq

end Verif.MSet
