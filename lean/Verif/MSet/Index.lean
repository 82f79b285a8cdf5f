import Verif.MSet.Dict
/-!
# Indexing Multisets
-/
namespace Verif.MSet

variable {V : Type}

/-- `b` has exactly the columns `ks` of `a`, in this order, with the rows selected, and the labels among them -/
def Picked (rows : List V → List V) (ks : List Name) (a b : DS V) : Prop :=
  names b.cols = ks ∧ (∀ k ∈ ks, ∃ v, at? a.cols k = some v ∧ at? b.cols k = some (rows v)) ∧
    b.labels = a.labels.filter fun l => decide (l ∈ ks)

/-- one step of copying columns -/
def pickStep (d : DS V) (rows : List V → List V) (s : Option (List (Name × List V))) (k : Name) : Option (List (Name × List V)) :=
  s.bind fun t => (at? d.cols k).map fun v => put t k (rows v)

theorem pick_some (d : DS V) (rows : List V → List V) (ks : List Name) :
    d.pick rows (some ks) = (ks.foldl (pickStep d rows) (some [])).map fun t => ⟨t, d.labels.filter fun x => decide (x ∈ names t)⟩ := rfl

theorem pickStep_none (d : DS V) (rows : List V → List V) (ks : List Name) : ks.foldl (pickStep d rows) none = none := by
  induction ks with
  | nil => rfl
  | cons k ks ih => rw [List.foldl_cons]; exact ih

theorem pick_loop (d : DS V) (rows : List V → List V) (ks : List Name) (t : List (Name × List V)) (hks : ks.Nodup)
    (hdis : ∀ k ∈ ks, k ∉ names t) :
    ks.foldl (pickStep d rows) (some t) =
      (ks.mapM fun k => (at? d.cols k).map fun v => (k, rows v)).map fun u => t ++ u := by
  induction ks generalizing t with
  | nil => simp
  | cons k ks ih =>
    rw [List.foldl_cons, List.mapM_cons]
    simp only [List.nodup_cons] at hks
    have h : pickStep d rows (some t) k = (at? d.cols k).map fun v => put t k (rows v) := rfl
    rw [h]
    cases hk : at? d.cols k with
    | none => simp only [Option.map_none, pickStep_none]; rfl
    | some v =>
      simp only [Option.map_some]
      rw [put_new (hdis k List.mem_cons_self), ih _ hks.2]
      · simp only [Option.bind_eq_bind, Option.bind_some]
        cases (ks.mapM fun k => (at? d.cols k).map fun v => (k, rows v)) <;> simp
      · intro k' hk'
        simp only [names, List.map_append, List.map_cons, List.map_nil, List.mem_append, List.mem_singleton, not_or]
        exact ⟨hdis k' (List.mem_cons_of_mem _ hk'), fun e => hks.1 (e ▸ hk')⟩

theorem mapM_at (d : DS V) (rows : List V → List V) (ks : List Name) (hks : ks.Nodup) :
    (∀ u, (ks.mapM fun k => (at? d.cols k).map fun v => (k, rows v)) = some u →
      names u = ks ∧ ∀ k ∈ ks, ∃ v, at? d.cols k = some v ∧ at? u k = some (rows v)) ∧
    ((ks.mapM fun k => (at? d.cols k).map fun v => (k, rows v)) = none ↔ ∃ k ∈ ks, k ∉ names d.cols) := by
  induction ks with
  | nil => exact ⟨fun u h => by simp at h; subst h; simp [names], by simp⟩
  | cons k ks ih =>
    simp only [List.nodup_cons] at hks
    obtain ⟨ih1, ih2⟩ := ih hks.2
    rw [List.mapM_cons]
    cases hk : at? d.cols k with
    | none =>
      refine ⟨fun u h => by simp at h, ?_⟩
      have := (at?_eq_none d.cols k).1 hk
      constructor
      · intro _; exact ⟨k, List.mem_cons_self, this⟩
      · intro _; rfl
    | some v =>
      have hkm : k ∈ names d.cols := (at?_isSome _ _).1 ⟨v, hk⟩
      simp only [Option.map_some, Option.bind_eq_bind, Option.bind_some]
      cases hm : (ks.mapM fun k => (at? d.cols k).map fun v => (k, rows v)) with
      | none =>
        refine ⟨fun u h => by simp at h, ?_⟩
        simp only [Option.bind_none, true_iff]
        obtain ⟨k', h1, h2⟩ := ih2.1 hm
        exact ⟨k', List.mem_cons_of_mem _ h1, h2⟩
      | some u =>
        obtain ⟨h1, h2⟩ := ih1 u hm
        constructor
        · intro w hw
          simp only [Option.bind_some, Option.pure_def, Option.some.injEq] at hw
          subst hw
          refine ⟨by simp only [names, List.map_cons] at h1 ⊢; rw [h1], fun k' hk' => ?_⟩
          rcases List.mem_cons.1 hk' with rfl | hk'
          · exact ⟨v, hk, by rw [at?_cons, if_pos rfl]⟩
          · obtain ⟨v', e1, e2⟩ := h2 k' hk'
            refine ⟨v', e1, ?_⟩
            rw [at?_cons, if_neg (fun e => hks.1 (by rw [show k = k' from e]; exact hk'))]; exact e2
        · simp only [Option.bind_some, Option.pure_def, reduceCtorEq, false_iff]
          rintro ⟨k', h3, h4⟩
          rcases List.mem_cons.1 h3 with rfl | h3
          · exact h4 hkm
          · exact absurd (ih2.2 ⟨k', h3, h4⟩) (by rw [hm]; simp)

/-- copying columns of a Dataset: exactly the columns asked for, or an exception if one is missing -/
theorem ds_pick (d : DS V) (rows : List V → List V) (ks : List Name) (hks : ks.Nodup) :
    ((∀ k ∈ ks, k ∈ names d.cols) → ∃ d', d.pick rows (some ks) = some d' ∧ Picked rows ks d d') ∧
      ((∃ k ∈ ks, k ∉ names d.cols) → d.pick rows (some ks) = none) := by
  rw [pick_some, pick_loop d rows ks [] hks (by simp [names])]
  obtain ⟨h1, h2⟩ := mapM_at d rows ks hks
  constructor
  · intro h
    cases hm : (ks.mapM fun k => (at? d.cols k).map fun v => (k, rows v)) with
    | none =>
      obtain ⟨k, e1, e2⟩ := h2.1 hm
      exact absurd (h k e1) e2
    | some u =>
      obtain ⟨e1, e2⟩ := h1 u hm
      refine ⟨_, rfl, ?_⟩
      simp only [List.nil_append]
      exact ⟨e1, e2, by simp [e1]⟩
  · intro h
    rw [h2.2 h]; rfl

/-- both lists have the same paths, and the Datasets are related -/
def Related (R : DS V → DS V → Prop) (a b : List (List Name × DS V)) : Prop :=
  List.Forall₂ (fun x y => x.1 = y.1 ∧ R x.2 y.2) a b

theorem related_cons (R : DS V → DS V → Prop) (n : Name) {a b : List (List Name × DS V)} (h : Related R a b) :
    Related R (a.map fun p => (n :: p.1, p.2)) (b.map fun p => (n :: p.1, p.2)) := by
  unfold Related at h ⊢
  rw [List.forall₂_map_left_iff, List.forall₂_map_right_iff]
  exact h.imp fun x y hxy => ⟨by rw [hxy.1], hxy.2⟩

theorem related_append (R : DS V → DS V → Prop) {a b c d : List (List Name × DS V)} (h : Related R a b) (h' : Related R c d) :
    Related R (a ++ c) (b ++ d) := by
  unfold Related at h h' ⊢
  induction h with
  | nil => exact h'
  | cons hxy _ ih => exact List.Forall₂.cons hxy ih

mutual
theorem elem_pick (rows : List V → List V) (ks : List Name) (hks : ks.Nodup) (e : Elem V) :
    ((∀ p ∈ e.leaves, ∀ k ∈ ks, k ∈ names p.2.cols) → ∃ e', e.pick rows (some ks) = some e' ∧
      Related (Picked rows ks) e.leaves e'.leaves) ∧
    ((∃ p ∈ e.leaves, ∃ k ∈ ks, k ∉ names p.2.cols) → e.pick rows (some ks) = none) := by
  cases e with
  | ds d =>
    obtain ⟨h1, h2⟩ := ds_pick d rows ks hks
    simp only [Elem.pick, Elem.leaves]
    constructor
    · intro h
      obtain ⟨d', e1, e2⟩ := h1 (h ([], d) (by simp))
      rw [e1]
      exact ⟨_, rfl, List.Forall₂.cons ⟨rfl, e2⟩ List.Forall₂.nil⟩
    · rintro ⟨p, hp, k, hk⟩
      simp only [List.mem_singleton] at hp
      subst hp
      rw [h2 ⟨k, hk⟩]; rfl
  | ms l =>
    obtain ⟨h1, h2⟩ := items_pick rows ks hks l
    simp only [Elem.pick, Elem.leaves]
    constructor
    · intro h
      obtain ⟨d', e1, e2⟩ := h1 h
      rw [e1]
      exact ⟨_, rfl, e2⟩
    · intro h; rw [h2 h]; rfl
theorem items_pick (rows : List V → List V) (ks : List Name) (hks : ks.Nodup) (l : Items V) :
    ((∀ p ∈ l.leaves, ∀ k ∈ ks, k ∈ names p.2.cols) → ∃ l', l.pick rows (some ks) = some l' ∧
      Related (Picked rows ks) l.leaves l'.leaves) ∧
    ((∃ p ∈ l.leaves, ∃ k ∈ ks, k ∉ names p.2.cols) → l.pick rows (some ks) = none) := by
  cases l with
  | nil =>
    simp only [Items.pick, Items.leaves]
    exact ⟨fun _ => ⟨_, rfl, List.Forall₂.nil⟩, by rintro ⟨p, hp, _⟩; simp at hp⟩
  | cons n e rest =>
    obtain ⟨h1, h2⟩ := elem_pick rows ks hks e
    obtain ⟨h3, h4⟩ := items_pick rows ks hks rest
    simp only [Items.pick, Items.leaves]
    constructor
    · intro h
      obtain ⟨e', e1, e2⟩ := h1 fun p hp => h (n :: p.1, p.2)
        (List.mem_append_left _ (List.mem_map.2 ⟨p, hp, rfl⟩))
      obtain ⟨r', e3, e4⟩ := h3 fun p hp => h p (List.mem_append_right _ hp)
      rw [e1, e3]
      exact ⟨_, rfl, related_append _ (related_cons _ n e2) e4⟩
    · rintro ⟨p, hp, hk⟩
      rcases List.mem_append.1 hp with hp | hp
      · obtain ⟨q, hq, rfl⟩ := List.mem_map.1 hp
        rw [h2 ⟨q, hq, hk⟩]; rfl
      · rw [h4 ⟨p, hp, hk⟩]
        cases e.pick rows (some ks) <;> rfl
end

/-- **C148** `ms[rows, names]`: every Dataset, at all depths, with exactly these columns and rows; an exception if a Dataset does not
have one of them -/
theorem get_list (l : Items V) (r : RowIdx V) (ks : List Name) (hks : ks.Nodup) (hne : ks ≠ []) :
    ((∀ p ∈ l.leaves, ∀ k ∈ ks, k ∈ names p.2.cols) → ∃ e, l.get r (.list ks) = some e ∧
      Related (Picked r.sel ks) l.leaves e.leaves) ∧
    ((∃ p ∈ l.leaves, ∃ k ∈ ks, k ∉ names p.2.cols) → l.get r (.list ks) = none) := by
  obtain ⟨h1, h2⟩ := items_pick r.sel ks hks l
  simp only [Items.get, if_neg hne]
  constructor
  · intro h
    obtain ⟨l', e1, e2⟩ := h1 h
    rw [e1]; exact ⟨_, rfl, e2⟩
  · intro h; rw [h2 h]; rfl

/-- `b` is `a` with the rows selected -/
def RowsOf (rows : List V → List V) (a b : DS V) : Prop :=
  b.labels = a.labels ∧ names b.cols = names a.cols ∧ ∀ k, at? b.cols k = (at? a.cols k).map rows

theorem at?_mapRows (rows : List V → List V) (c : List (Name × List V)) (k : Name) :
    at? (c.map fun c => (c.1, rows c.2)) k = (at? c k).map rows := by
  induction c with
  | nil => rfl
  | cons p c ih =>
    rw [List.map_cons, at?_cons, at?_cons, ih]
    by_cases h : p.1 = k <;> simp [h]

mutual
theorem elem_rows (rows : List V → List V) (e : Elem V) :
    ∃ e', e.pick rows none = some e' ∧ Related (RowsOf rows) e.leaves e'.leaves := by
  cases e with
  | ds d =>
    refine ⟨_, rfl, List.Forall₂.cons ⟨rfl, rfl, ?_, at?_mapRows rows d.cols⟩ List.Forall₂.nil⟩
    simp [names]
  | ms l =>
    obtain ⟨l', h1, h2⟩ := items_rows rows l
    exact ⟨.ms l', by simp only [Elem.pick, h1]; rfl, h2⟩
theorem items_rows (rows : List V → List V) (l : Items V) :
    ∃ l', l.pick rows none = some l' ∧ Related (RowsOf rows) l.leaves l'.leaves := by
  cases l with
  | nil => exact ⟨_, rfl, List.Forall₂.nil⟩
  | cons n e rest =>
    obtain ⟨e', h1, h2⟩ := elem_rows rows e
    obtain ⟨r', h3, h4⟩ := items_rows rows rest
    exact ⟨.cons n e' r', by simp only [Items.pick, h1, h3]; rfl, related_append _ (related_cons _ n h2) h4⟩
end

/-- **C148** `ms[name]` and `ms[rows, name]` for the name of an item: this item with these rows -/
theorem get_item (l : Items V) (r : RowIdx V) (k : Name) (e : Elem V) (h : l.at? k = some e) :
    ∃ e', l.get r (.name k) = some e' ∧ Related (RowsOf r.sel) e.leaves e'.leaves := by
  obtain ⟨e', h1, h2⟩ := elem_rows r.sel e
  exact ⟨e', by simp only [Items.get, h]; exact h1, h2⟩

mutual
/-- no item at any depth has the name -/
def Elem.Free (k : Name) : Elem V → Prop
  | .ds _ => True
  | .ms l => l.Free k
def Items.Free (k : Name) : Items V → Prop
  | .nil => True
  | .cons n e rest => n ≠ k ∧ e.Free k ∧ rest.Free k
end

/-- the column of a Dataset, if it has it -/
def columnOf (rows : List V → List V) (k : Name) (p : List Name × DS V) : Option (List Name × DS V) :=
  (at? p.2.cols k).map fun v => (p.1, ⟨[(k, rows v)], []⟩)

theorem items_at?_free (k : Name) (l : Items V) (h : l.Free k) : l.at? k = none := by
  match l with
  | .nil => rfl
  | .cons n e rest =>
    simp only [Items.Free] at h
    simp only [Items.at?, if_neg h.1]
    exact items_at?_free k rest h.2.2

theorem filterMap_column_cons (rows : List V → List V) (k n : Name) (l : List (List Name × DS V)) :
    (l.map fun p => (n :: p.1, p.2)).filterMap (columnOf rows k) =
      (l.filterMap (columnOf rows k)).map fun p => (n :: p.1, p.2) := by
  rw [List.filterMap_map, List.map_filterMap]
  congr 1
  funext p
  simp only [Function.comp, columnOf, Option.map_map]
  rfl

/-- leaves of an optional item -/
def optLeaves : Option (Elem V) → List (List Name × DS V)
  | none => []
  | some e => e.leaves

mutual
theorem elem_column (rows : List V → List V) (k : Name) (e : Elem V) (h : e.Free k) :
    optLeaves (e.column rows k) = e.leaves.filterMap (columnOf rows k) ∧
      (e.column rows k = none ↔ ∀ p ∈ e.leaves, k ∉ names p.2.cols) := by
  cases e with
  | ds d =>
    simp only [Elem.column, Elem.leaves, List.filterMap_cons, List.filterMap_nil, columnOf]
    cases hd : at? d.cols k with
    | none =>
      have := (at?_eq_none d.cols k).1 hd
      simp [optLeaves, this]
    | some v =>
      have : k ∈ names d.cols := (at?_isSome _ _).1 ⟨v, hd⟩
      simp [optLeaves, Elem.leaves, this]
  | ms l =>
    simp only [Elem.Free] at h
    have hat := items_at?_free k l h
    obtain ⟨h1, h2⟩ := items_columns rows k l h
    simp only [Elem.column, Elem.leaves, hat]
    cases hc : l.columns rows k with
    | nil =>
      rw [hc] at h1 h2
      simp only [optLeaves, Items.leaves] at h1 ⊢
      exact ⟨h1, by simpa using h2⟩
    | cons n e r =>
      rw [hc] at h1 h2
      simp only [optLeaves, Elem.leaves]
      exact ⟨h1, by simpa using h2⟩
theorem items_columns (rows : List V → List V) (k : Name) (l : Items V) (h : l.Free k) :
    (l.columns rows k).leaves = l.leaves.filterMap (columnOf rows k) ∧
      (l.columns rows k = .nil ↔ ∀ p ∈ l.leaves, k ∉ names p.2.cols) := by
  cases l with
  | nil => simp [Items.columns, Items.leaves]
  | cons n e rest =>
    simp only [Items.Free] at h
    obtain ⟨h1, h2⟩ := elem_column rows k e h.2.1
    obtain ⟨h3, h4⟩ := items_columns rows k rest h.2.2
    simp only [Items.columns, Items.leaves, List.filterMap_append, filterMap_column_cons]
    cases he : e.column rows k with
    | none =>
      rw [he] at h1 h2
      simp only [optLeaves] at h1
      rw [← h1]
      refine ⟨by simpa using h3, h4.trans ?_⟩
      have := h2.1 rfl
      constructor
      · intro hr p hp
        rcases List.mem_append.1 hp with hp | hp
        · obtain ⟨q, hq, rfl⟩ := List.mem_map.1 hp
          exact this q hq
        · exact hr p hp
      · intro hr p hp; exact hr p (List.mem_append_right _ hp)
    | some e' =>
      rw [he] at h1 h2
      simp only [optLeaves] at h1
      simp only [Items.leaves, h1, h3]
      refine ⟨trivial, ?_⟩
      simp only [reduceCtorEq, false_iff] at h2 ⊢
      intro hr
      exact h2 fun p hp => hr (n :: p.1, p.2) (List.mem_append_left _ (List.mem_map.2 ⟨p, hp, rfl⟩))
end

/-- **C149** `ms[name]` and `ms[rows, name]` for a name that is no item: this column of all Datasets, at all depths, that have it; an
exception if none has. For several rows. -/
theorem get_column_partial (l : Items V) (r : RowIdx V) (k : Name) (h : l.Free k) (hr : ∀ f, r ≠ .one f) :
    optLeaves (l.get r (.name k)) = l.leaves.filterMap (columnOf r.sel k) ∧
      (l.get r (.name k) = none ↔ ∀ p ∈ l.leaves, k ∉ names p.2.cols) := by
  have hat := items_at?_free k l h
  have := elem_column r.sel k (.ms l) (by simp only [Elem.Free]; exact h)
  cases r with
  | one f => exact absurd rfl (hr f)
  | all => simp only [Items.get, hat]; exact this
  | many f => simp only [Items.get, hat]; exact this

/-- **C149** one row of one column: always an exception if one of the items is a Dataset with this column -/
theorem get_column_one (l : Items V) (f : List V → List V) (k : Name) (h : l.Free k) (hc : l.hasCol k = true) :
    l.get (.one f) (.name k) = none := by
  simp only [Items.get, items_at?_free k l h, hc, if_true]

/-- **C149** `multiget` with a list: of every Dataset the wanted columns it has, in the order wanted; Datasets without any are left
out -/
theorem multiget_list (l : List (Name × DS V)) (ks : List Name) (hks : ks.Nodup) :
    ∃ out, multiget l (.list ks) = some out ∧
      List.Forall₂ (fun a b => a.1 = b.1 ∧ Picked id (ks.filter fun k => decide (k ∈ names a.2.cols)) a.2 b.2)
        (l.filter fun p => ks.any fun k => decide (k ∈ names p.2.cols)) out := by
  have hloop : ∀ (l out : List (Name × DS V)), ∃ out',
      l.foldl (multigetStep ks) (some out) = some (out ++ out') ∧
      List.Forall₂ (fun a b => a.1 = b.1 ∧ Picked id (ks.filter fun k => decide (k ∈ names a.2.cols)) a.2 b.2)
        (l.filter fun p => ks.any fun k => decide (k ∈ names p.2.cols)) out' := by
    intro l
    induction l with
    | nil => intro out; exact ⟨[], by simp, List.Forall₂.nil⟩
    | cons p l ih =>
      intro out
      rw [List.foldl_cons]
      have hstep : multigetStep ks (some out) p = if (ks.filter fun c => decide (c ∈ names p.2.cols)) = [] then some out
        else (p.2.pick id (some (ks.filter fun c => decide (c ∈ names p.2.cols)))).map fun d => out ++ [(p.1, d)] := rfl
      rw [hstep]
      by_cases hc : (ks.filter fun c => decide (c ∈ names p.2.cols)) = []
      · rw [if_pos hc]
        have hany : (ks.any fun k => decide (k ∈ names p.2.cols)) = false := by
          rw [List.filter_eq_nil_iff] at hc
          rw [List.any_eq_false]; exact hc
        obtain ⟨out', h1, h2⟩ := ih out
        exact ⟨out', h1, by rw [List.filter_cons, hany]; exact h2⟩
      · rw [if_neg hc]
        have hany : (ks.any fun k => decide (k ∈ names p.2.cols)) = true := by
          rw [List.any_eq_true]
          obtain ⟨k, hk⟩ := List.exists_mem_of_ne_nil _ hc
          exact ⟨k, (List.mem_filter.1 hk).1, (List.mem_filter.1 hk).2⟩
        obtain ⟨d', e1, e2⟩ := (ds_pick p.2 id (ks.filter fun c => decide (c ∈ names p.2.cols)) (hks.filter _)).1
          (fun k hk => by simpa using (List.mem_filter.1 hk).2)
        rw [e1]
        simp only [Option.map_some]
        obtain ⟨out', h1, h2⟩ := ih (out ++ [(p.1, d')])
        refine ⟨(p.1, d') :: out', by rw [List.append_assoc] at h1; exact h1, ?_⟩
        rw [List.filter_cons, hany]
        exact List.Forall₂.cons ⟨rfl, e2⟩ h2
  obtain ⟨out', h1, h2⟩ := hloop l []
  exact ⟨out', by rw [List.nil_append] at h1; exact h1, h2⟩

end Verif.MSet
