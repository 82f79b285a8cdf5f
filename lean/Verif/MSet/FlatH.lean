import Verif.MSet.Index
/-!
# Flattening side by side
-/
namespace Verif.MSet

variable {V : Type}

/-- the columns of all Datasets that are not labels, each with the names leading to it joined -/
def flatCols (delim : Name) (leaves : List (List Name × DS V)) : List (Name × List V) :=
  leaves.flatMap fun p => p.2.values.map fun c => (joined delim (p.1 ++ [c.1]), c.2)

/-- a Dataset with every name once and labels that are columns -/
def DS.Good (d : DS V) : Prop := (names d.cols).Nodup ∧ d.labels.Nodup ∧ ∀ l ∈ d.labels, l ∈ names d.cols

theorem dict_ext {A : Type} (u w : List (Name × A)) (h : names u = names w) (hn : (names u).Nodup)
    (ha : ∀ k ∈ names u, at? u k = at? w k) : u = w := by
  induction u generalizing w with
  | nil => simp only [names, List.map_nil] at h; exact (List.map_eq_nil_iff.1 h.symm).symm
  | cons p u ih =>
    cases w with
    | nil => simp [names] at h
    | cons q w =>
      simp only [names, List.map_cons, List.cons.injEq] at h
      simp only [names, List.map_cons, List.nodup_cons] at hn
      have h1 := ha p.1 (by simp [names])
      rw [at?_cons, at?_cons, if_pos rfl, if_pos h.1.symm] at h1
      have hpq : p = q := Prod.ext h.1 (by simpa using h1)
      subst hpq
      congr 1
      refine ih w h.2 hn.2 fun k hk => ?_
      have := ha k (by simp only [names, List.map_cons, List.mem_cons]; exact Or.inr hk)
      rw [at?_cons, at?_cons, if_neg, if_neg] at this
      · exact this
      all_goals
        intro e
        apply hn.1
        rw [e]; exact hk

theorem take_eq (d d' : DS V) (ks : List Name) (w : List (Name × List V)) (hks : ks.Nodup) (hw : names w = ks)
    (ha : ∀ k ∈ ks, at? w k = at? d.cols k) (h : d.take ks = some d') : d'.cols = w := by
  unfold DS.take at h
  split at h
  · exact absurd h (by simp)
  · have hin : ∀ k ∈ ks, k ∈ names d.cols := by
      intro k hk
      rw [← at?_isSome, ← ha k hk, at?_isSome, hw]; exact hk
    obtain ⟨d'', h1, h2, h3, _⟩ := (ds_pick d id ks hks).1 hin
    rw [h1] at h
    simp only [Option.some.injEq] at h
    subst h
    refine dict_ext _ _ (h2.trans hw.symm) (by rw [h2]; exact hks) fun k hk => ?_
    rw [h2] at hk
    obtain ⟨v, e1, e2⟩ := h3 k hk
    rw [e2, ha k hk, e1]; rfl

theorem at?_values (d : DS V) (k : Name) (hk : k ∉ d.labels) : at? d.values k = at? d.cols k := by
  unfold DS.values
  induction d.cols with
  | nil => rfl
  | cons c l ih =>
    rw [List.filter_cons]
    split
    · rw [at?_cons, at?_cons, ih]
    · rename_i hc
      rw [at?_cons, if_neg, ih]
      rintro rfl
      exact hc (by simpa using hk)

theorem names_values (d : DS V) : names d.values = (names d.cols).filter fun n => decide (n ∉ d.labels) := by
  simp only [names, DS.values, List.filter_map]; rfl

theorem at?_filterMap_self (d : List (Name × List V)) (ls : List Name) (k : Name) :
    at? (ls.filterMap fun l => (at? d l).map fun v => (l, v)) k = if k ∈ ls then at? d k else none := by
  induction ls with
  | nil => simp [at?_nil]
  | cons a ls ih =>
    rw [List.filterMap_cons]
    cases ha : at? d a with
    | none =>
      simp only [Option.map_none, ih, List.mem_cons]
      by_cases hka : k = a
      · subst hka; simp [ha]
      · simp [hka]
    | some v =>
      simp only [Option.map_some, at?_cons, ih, List.mem_cons]
      by_cases hka : a = k
      · subst hka; simp [ha]
      · have : ¬ k = a := fun e => hka e.symm
        simp [hka, this]

theorem names_filterMap_self (d : List (Name × List V)) (ls : List Name) (h : ∀ l ∈ ls, l ∈ names d) :
    names (ls.filterMap fun l => (at? d l).map fun v => (l, v)) = ls := by
  induction ls with
  | nil => rfl
  | cons a ls ih =>
    obtain ⟨v, hv⟩ := (at?_isSome d a).2 (h a List.mem_cons_self)
    rw [List.filterMap_cons, hv]
    simp only [Option.map_some, names, List.map_cons]
    congr 1
    exact ih fun l hl => h l (List.mem_cons_of_mem _ hl)

theorem names_labelCols (d : DS V) (h : ∀ l ∈ d.labels, l ∈ names d.cols) : names d.labelCols = d.labels :=
  names_filterMap_self d.cols d.labels h

theorem take_values (d d' : DS V) (hd : d.Good)
    (h : d.take ((names d.cols).filter fun n => decide (n ∉ d.labels)) = some d') : d'.cols = d.values := by
  refine take_eq d d' _ d.values (hd.1.filter _) (names_values d) (fun k hk => at?_values d k ?_) h
  simp only [List.mem_filter, decide_eq_true_eq] at hk
  exact hk.2

theorem take_labels (d d' : DS V) (hd : d.Good) (h : d.take d.labels = some d') : d'.cols = d.labelCols := by
  refine take_eq d d' _ d.labelCols hd.2.1 (names_labelCols d hd.2.2) (fun k hk => ?_) h
  unfold DS.labelCols
  rw [at?_filterMap_self, if_pos hk]

/-- one step of renaming -/
def renameStep (f : Name → Name) (s : Option (DS V)) (n : Name) : Option (DS V) := s.bind fun d => d.rename n (f n)

theorem renameStep_none (f : Name → Name) (ks : List Name) : ks.foldl (renameStep (V := V) f) none = none := by
  induction ks with
  | nil => rfl
  | cons k ks ih => rw [List.foldl_cons]; exact ih

theorem rename_cols (d d' : DS V) (old new : Name) (P T : List (Name × List V)) (v : List V) (hd : d.cols = P ++ (old, v) :: T)
    (hn : (names d.cols).Nodup) (h : d.rename old new = some d') :
    d'.cols = P ++ (new, v) :: T ∧ (names d'.cols).Nodup ∧ d'.labels = d.labels := by
  unfold DS.rename at h
  split at h
  · rename_i e
    simp only [Option.some.injEq] at h
    subst h; subst e
    exact ⟨hd, hn, rfl⟩
  · split at h
    · simp at h
    · rename_i e1 e2
      simp only [not_or, not_not] at e2
      simp only [Option.some.injEq] at h
      subst h
      have hn' := hn
      rw [hd] at hn e2
      simp only [names, List.map_append, List.map_cons] at hn e2
      rw [List.nodup_append] at hn
      obtain ⟨n1, n2, n3⟩ := hn
      rw [List.nodup_cons] at n2
      have hid : ∀ (L : List (Name × List V)), old ∉ L.map Prod.fst →
          (L.map fun c => if c.1 = old then (new, c.2) else c) = L := by
        intro L hL
        conv_rhs => rw [← List.map_id L]
        apply List.map_congr_left
        intro c hc
        rw [if_neg]; · rfl
        rintro rfl
        exact hL (List.mem_map_of_mem hc)
      have hcols : (d.cols.map fun c => if c.1 = old then (new, c.2) else c) = P ++ (new, v) :: T := by
        rw [hd, List.map_append, List.map_cons, hid P, hid T n2.1]
        · simp
        · intro hP
          exact n3 old hP old List.mem_cons_self rfl
      refine ⟨hcols, ?_, rfl⟩
      rw [hcols]
      simp only [List.mem_append, List.mem_cons, not_or] at e2
      simp only [names, List.map_append, List.map_cons]
      rw [List.nodup_append, List.nodup_cons]
      refine ⟨n1, ⟨e2.2.2.2, n2.2⟩, ?_⟩
      intro a ha b hb hab
      subst hab
      rcases List.mem_cons.1 hb with rfl | hb
      · exact e2.2.1 ha
      · exact n3 a ha a (List.mem_cons_of_mem _ hb) rfl

theorem rename_fold (f : Name → Name) (T P : List (Name × List V)) (d d' : DS V) (hd : d.cols = P ++ T)
    (hn : (names d.cols).Nodup) (h : (names T).foldl (renameStep f) (some d) = some d') :
    d'.cols = P ++ T.map (fun c => (f c.1, c.2)) ∧ (names d'.cols).Nodup ∧ d'.labels = d.labels := by
  induction T generalizing P d with
  | nil =>
    simp only [names, List.map_nil, List.foldl_nil, Option.some.injEq] at h
    subst h
    exact ⟨by simpa using hd, hn, rfl⟩
  | cons c T ih =>
    simp only [names, List.map_cons, List.foldl_cons] at h
    have e : renameStep f (some d) c.1 = d.rename c.1 (f c.1) := rfl
    rw [e] at h
    cases hr : d.rename c.1 (f c.1) with
    | none => rw [hr, renameStep_none] at h; simp at h
    | some d1 =>
      rw [hr] at h
      obtain ⟨h1, h2, h3⟩ := rename_cols d d1 c.1 (f c.1) P T c.2 hd hn hr
      obtain ⟨g1, g2, g3⟩ := ih (P ++ [(f c.1, c.2)]) d1 (by rw [h1]; simp) h2 h
      exact ⟨by rw [g1]; simp, g2, g3.trans h3⟩

/-- the state after the Datasets `L` -/
def FlatOk (delim : Name) (L : List (List Name × DS V)) (labels : List Name) (d : DS V) : Prop :=
  (names d.cols).Nodup ∧ (∀ p ∈ L, p.2.labels = labels) ∧
    ∃ p, L.head? = some p ∧ d.cols = p.2.labelCols ++ flatCols delim L

/-- a flattened item -/
def ElemOk (delim : Name) (L : List (List Name × DS V)) (d : DS V) : Prop :=
  d.Good ∧ (∀ p ∈ L, p.2.labels = d.labels) ∧
    (∃ p, L.head? = some p ∧ d.labelCols = p.2.labelCols) ∧ d.values = flatCols delim L

theorem joined_cons (delim n : Name) (p : List Name) (c : Name) :
    joined delim (n :: p ++ [c]) = n ++ delim ++ joined delim (p ++ [c]) := by
  unfold joined
  cases p with
  | nil => simp [List.intercalate, List.intersperse]
  | cons a p => simp [List.intercalate, List.intersperse, List.append_assoc]

theorem flatCols_under (delim n : Name) (L : List (List Name × DS V)) :
    flatCols delim (L.map fun p => (n :: p.1, p.2)) = (flatCols delim L).map fun c => (n ++ delim ++ c.1, c.2) := by
  induction L with
  | nil => rfl
  | cons p L ih =>
    have h1 : ∀ (q : List Name × DS V) M, flatCols delim (q :: M) =
      (q.2.values.map fun c => (joined delim (q.1 ++ [c.1]), c.2)) ++ flatCols delim M := fun q M => by
        simp [flatCols]
    rw [List.map_cons, h1, h1, ih, List.map_append, List.map_map]
    congr 1
    apply List.map_congr_left
    intro c _
    simp only [Function.comp, joined_cons]

theorem flatCols_append (delim : Name) (L M : List (List Name × DS V)) :
    flatCols delim (L ++ M) = flatCols delim L ++ flatCols delim M := by
  simp [flatCols]

/-- the Datasets of one item, with its name in front -/
def under (n : Name) (L : List (List Name × DS V)) : List (List Name × DS V) := L.map fun p => (n :: p.1, p.2)

/-- the second part of a step, after the labels are compared -/
theorem step_core (delim name : Name) (e d0 d' : DS V) (M : List (List Name × DS V)) (he : ElemOk delim M e)
    (hn0 : (names d0.cols).Nodup) (X : List (Name × List V)) (h0 : d0.cols = X)
    (h : ((e.take ((names e.cols).filter fun n => decide (n ∉ e.labels))).bind fun vals =>
      (besides d0 vals).bind fun d =>
        (((names e.cols).filter fun n => decide (n ∉ e.labels)).foldl
          (fun (s : Option (DS V)) n => s.bind fun d => d.rename n (name ++ delim ++ n)) (some d))) = some d') :
    (names d'.cols).Nodup ∧ d'.cols = X ++ flatCols delim (under name M) := by
  rw [Option.bind_eq_some_iff] at h
  obtain ⟨vals, h1, h⟩ := h
  rw [Option.bind_eq_some_iff] at h
  obtain ⟨d, h2, h⟩ := h
  have hv := take_values e vals he.1 h1
  unfold besides at h2
  split at h2
  · rename_i hc
    simp only [Option.some.injEq] at h2
    rw [← names_values] at h
    have hcols : d.cols = X ++ e.values := by rw [← h2, h0, hv]
    have hnd : (names d.cols).Nodup := by
      rw [hcols]
      simp only [names, List.map_append]
      rw [List.nodup_append]
      refine ⟨h0 ▸ hn0, ?_, ?_⟩
      · have := he.1.1.filter (fun n => decide (n ∉ e.labels))
        rw [← names_values] at this
        exact this
      · intro a ha b hb hab
        subst hab
        refine hc.2 a (by rw [hv]; exact hb) (by rw [h0]; exact ha)
    obtain ⟨g1, g2, _⟩ := rename_fold (fun n => name ++ delim ++ n) e.values X d d' hcols hnd h
    refine ⟨g2, ?_⟩
    rw [g1, he.2.2.2, under, flatCols_under]
  · simp at h2

theorem head_under (n : Name) (L : List (List Name × DS V)) : (under n L).head? = L.head?.map fun p => (n :: p.1, p.2) := by
  cases L <;> rfl

theorem stepH_first (delim name : Name) (e : DS V) (M : List (List Name × DS V)) (he : ElemOk delim M e) (q : List Name × DS V)
    (h : stepH delim none name e = some q) : q.1 = e.labels ∧ FlatOk delim (under name M) q.1 q.2 := by
  obtain ⟨p, hp, hpl⟩ := he.2.2.1
  unfold stepH at h
  rw [Option.bind_eq_some_iff] at h
  obtain ⟨q0, h0, h⟩ := h
  have hq0 : q0.1 = e.labels ∧ q0.2.cols = e.labelCols := by
    simp only at h0
    split at h0
    · rename_i hl
      simp only [Option.some.injEq] at h0
      subst h0
      simp [DS.labelCols, hl]
    · cases ht : e.take e.labels with
      | none => simp [ht] at h0
      | some d0 =>
        simp only [ht, Option.map_some, Option.some.injEq] at h0
        subst h0
        exact ⟨rfl, take_labels e d0 he.1 ht⟩
  obtain ⟨q1, d0⟩ := q0
  simp only at hq0
  obtain ⟨rfl, hq2⟩ := hq0
  rw [Option.bind_eq_some_iff] at h
  obtain ⟨vals, h1, h⟩ := h
  rw [Option.bind_eq_some_iff] at h
  obtain ⟨d, h2, h⟩ := h
  rw [Option.map_eq_some_iff] at h
  obtain ⟨d', h3, rfl⟩ := h
  obtain ⟨g1, g2⟩ := step_core delim name e d0 d' M he
    (by rw [hq2, names_labelCols e he.1.2.2]; exact he.1.2.1) e.labelCols hq2 (by
      simp only at h1 h2 h3
      rw [h1, Option.bind_some, h2, Option.bind_some]; exact h3)
  refine ⟨rfl, g1, ?_, (name :: p.1, p.2), ?_, ?_⟩
  · intro r hr
    obtain ⟨r', hr', rfl⟩ := List.mem_map.1 hr
    exact he.2.1 r' hr'
  · rw [head_under, hp]; rfl
  · rw [g2, hpl]

theorem stepH_next (delim name : Name) (e : DS V) (L M : List (List Name × DS V)) (he : ElemOk delim M e) (labels : List Name)
    (dsr : DS V) (hs : FlatOk delim L labels dsr) (q : List Name × DS V)
    (h : stepH delim (some (labels, dsr)) name e = some q) : q.1 = labels ∧ FlatOk delim (L ++ under name M) q.1 q.2 := by
  obtain ⟨hs1, hs2, p, hp, hs3⟩ := hs
  unfold stepH at h
  rw [Option.bind_eq_some_iff] at h
  obtain ⟨q0, h0, h⟩ := h
  simp only at h0
  split at h0
  · simp at h0
  rename_i hl
  rw [not_not] at hl
  subst hl
  simp only [Option.some.injEq] at h0
  subst h0
  rw [Option.bind_eq_some_iff] at h
  obtain ⟨vals, h1, h⟩ := h
  rw [Option.bind_eq_some_iff] at h
  obtain ⟨d, h2, h⟩ := h
  rw [Option.map_eq_some_iff] at h
  obtain ⟨d', h3, rfl⟩ := h
  obtain ⟨g1, g2⟩ := step_core delim name e dsr d' M he hs1 _ hs3 (by
      simp only at h1 h2 h3
      rw [h1, Option.bind_some, h2, Option.bind_some]; exact h3)
  refine ⟨rfl, g1, ?_, p, ?_, ?_⟩
  · intro r hr
    rcases List.mem_append.1 hr with hr | hr
    · exact hs2 r hr
    · obtain ⟨r', hr', rfl⟩ := List.mem_map.1 hr
      exact he.2.1 r' hr'
  · rw [List.head?_append, hp]; rfl
  · rw [g2, flatCols_append, List.append_assoc]

theorem finish_ok (delim : Name) (L : List (List Name × DS V)) (hL : ∀ p ∈ L, p.2.Good) (labels : List Name) (d r : DS V)
    (hs : FlatOk delim L labels d) (h : finish (some (labels, d)) = some r) :
    ElemOk delim L r ∧ r.labels = labels ∧ r.cols = d.cols := by
  obtain ⟨h1, h2, p, hp, h3⟩ := hs
  have hpm : p ∈ L := List.mem_of_mem_head? hp
  have hpl : p.2.labels = labels := h2 p hpm
  have hg := hL p hpm
  have hln : names p.2.labelCols = labels := (names_labelCols p.2 hg.2.2).trans hpl
  have hsub : ∀ l ∈ labels, l ∈ names d.cols := by
    intro l hl
    rw [h3]
    simp only [names, List.map_append, List.mem_append]
    left
    rw [← hln] at hl; exact hl
  have hfil : (labels.filter fun l => decide (l ∈ names d.cols)) = labels := by
    rw [List.filter_eq_self]
    intro l hl; simpa using hsub l hl
  simp only [finish, Option.some.injEq, hfil] at h
  subst h
  have hnd : labels.Nodup := hpl ▸ hg.2.1
  refine ⟨⟨⟨h1, hnd, hsub⟩, h2, ⟨p, hp, ?_⟩, ?_⟩, rfl, rfl⟩
  · refine dict_ext _ _ ?_ ?_ ?_
    · rw [hln]; exact names_filterMap_self d.cols labels hsub
    · rw [show names (DS.labelCols { d with labels := labels }) = labels from names_filterMap_self d.cols labels hsub]
      exact hnd
    · intro k hk
      rw [show names (DS.labelCols { d with labels := labels }) = labels from names_filterMap_self d.cols labels hsub] at hk
      unfold DS.labelCols
      rw [at?_filterMap_self, at?_filterMap_self, if_pos hk, if_pos (hpl ▸ hk), h3, at?_append]
      obtain ⟨v, hv⟩ := (at?_isSome p.2.labelCols k).2 (hln ▸ hk)
      rw [hv, Option.some_or, ← hv, DS.labelCols, at?_filterMap_self, if_pos (hpl ▸ hk)]
  · unfold DS.values
    have hc : d.cols = p.2.labelCols ++ flatCols delim L := h3
    show d.cols.filter (fun c => decide (c.1 ∉ labels)) = _
    rw [hc] at h1
    simp only [names, List.map_append] at h1
    rw [List.nodup_append] at h1
    rw [hc, List.filter_append]
    have e1 : p.2.labelCols.filter (fun c => decide (c.1 ∉ labels)) = [] := by
      rw [List.filter_eq_nil_iff]
      intro c hcm
      have : c.1 ∈ labels := by rw [← hln]; exact List.mem_map_of_mem hcm
      simpa using this
    have e2 : (flatCols delim L).filter (fun c => decide (c.1 ∉ labels)) = flatCols delim L := by
      rw [List.filter_eq_self]
      intro c hcm
      simp only [decide_eq_true_eq]
      intro hl
      rw [← hln] at hl
      exact h1.2.2 c.1 hl c.1 (List.mem_map_of_mem hcm) rfl
    rw [e1, e2, List.nil_append]

mutual
theorem elem_flatH (delim : Name) (e : Elem V) (hL : ∀ p ∈ e.leaves, p.2.Good) (d : DS V) (h : e.flatH delim = some d) :
    ElemOk delim e.leaves d := by
  match e with
  | .ds d0 =>
    simp only [Elem.flatH, Option.some.injEq] at h
    subst h
    simp only [Elem.leaves]
    refine ⟨hL ([], d0) (by simp [Elem.leaves]), by simp, ⟨([], d0), rfl, rfl⟩, ?_⟩
    simp [flatCols, joined, List.intercalate, List.intersperse]
  | .ms l =>
    simp only [Elem.flatH, Option.bind_eq_some_iff] at h
    obtain ⟨s, h1, h2⟩ := h
    have := items_flatH delim l (by simpa [Elem.leaves] using hL) none [] (Or.inl ⟨rfl, rfl⟩) s h1
    rw [List.nil_append] at this
    simp only [Elem.leaves]
    rcases this with ⟨rfl, _⟩ | ⟨labels, d', rfl, h3⟩
    · simp [finish] at h2
    · exact (finish_ok delim l.leaves (by simpa [Elem.leaves] using hL) labels d' d h3 h2).1
theorem items_flatH (delim : Name) (l : Items V) (hL : ∀ p ∈ l.leaves, p.2.Good) (s : Option (List Name × DS V))
    (L : List (List Name × DS V)) (hs : (s = none ∧ L = []) ∨ ∃ labels d, s = some (labels, d) ∧ FlatOk delim L labels d)
    (s' : Option (List Name × DS V)) (h : l.flatH delim s = some s') :
    (s' = none ∧ L ++ l.leaves = []) ∨ ∃ labels d, s' = some (labels, d) ∧ FlatOk delim (L ++ l.leaves) labels d := by
  match l with
  | .nil =>
    simp only [Items.flatH, Option.some.injEq] at h
    subst h
    simpa [Items.leaves] using hs
  | .cons n e rest =>
    simp only [Items.flatH, Option.bind_eq_some_iff] at h
    obtain ⟨d, h1, q, h2, h3⟩ := h
    simp only [Items.leaves, List.mem_append] at hL
    have he := elem_flatH delim e (fun p hp => hL (n :: p.1, p.2) (Or.inl (List.mem_map.2 ⟨p, hp, rfl⟩))) d h1
    have hq : FlatOk delim (L ++ under n e.leaves) q.1 q.2 := by
      rcases hs with ⟨rfl, rfl⟩ | ⟨labels, dsr, rfl, hs⟩
      · exact (stepH_first delim n d e.leaves he q h2).2
      · exact (stepH_next delim n d L e.leaves he labels dsr hs q h2).2
    have := items_flatH delim rest (fun p hp => hL p (Or.inr hp)) (some q) (L ++ under n e.leaves)
      (Or.inr ⟨q.1, q.2, rfl, hq⟩) s' h3
    simpa only [Items.leaves, under, List.append_assoc] using this
end

/-- **C151.** If a Multiset is flattened side by side, the result has the labels of its first Dataset with their values, followed
by every other column of every Dataset, Multisets inside included: in order, with its own values, under all names leading to it
joined by the delimiter. No column is lost and no two get the same name; and all Datasets have the same labels. -/
theorem flatten_side (delim : Name) (l : Items V) (hL : ∀ p ∈ l.leaves, p.2.Good) (r : DS V) (h : flattenH delim l = some r) :
    (∃ p, l.leaves.head? = some p ∧ r.labels = p.2.labels ∧
      r.cols = p.2.labelCols ++ l.leaves.flatMap fun q => q.2.values.map fun c => (joined delim (q.1 ++ [c.1]), c.2)) ∧
    (names r.cols).Nodup ∧ ∀ q ∈ l.leaves, q.2.labels = r.labels := by
  simp only [flattenH, Elem.flatH, Option.bind_eq_some_iff] at h
  obtain ⟨s, h1, h2⟩ := h
  have := items_flatH delim l hL none [] (Or.inl ⟨rfl, rfl⟩) s h1
  rw [List.nil_append] at this
  rcases this with ⟨rfl, _⟩ | ⟨labels, d', rfl, h3⟩
  · simp [finish] at h2
  · obtain ⟨_, e2, e3⟩ := finish_ok delim l.leaves hL labels d' r h3 h2
    obtain ⟨g1, g2, p, hp, g3⟩ := h3
    refine ⟨⟨p, hp, ?_, ?_⟩, ?_, ?_⟩
    · rw [e2, g2 p (List.mem_of_mem_head? hp)]
    · rw [e3, g3]; rfl
    · rw [e3]; exact g1
    · rw [e2]; exact g2

/-! ## When it succeeds -/

/-- a Multiset of Datasets only -/
def flat : List (Name × DS V) → Items V
  | [] => .nil
  | p :: m => .cons p.1 (.ds p.2) (flat m)

theorem rename_fold_ok (f : Name → Name) (T P : List (Name × List V)) (d : DS V) (hd : d.cols = P ++ T)
    (hn : (names (P ++ T)).Nodup) (hf : (names (P ++ T.map fun c => (f c.1, c.2))).Nodup)
    (hx : ∀ k ∈ names T, f k ∉ names T) : ∃ d', (names T).foldl (renameStep f) (some d) = some d' := by
  induction T generalizing P d with
  | nil => exact ⟨d, rfl⟩
  | cons c T ih =>
    simp only [names, List.map_cons, List.foldl_cons]
    have e : renameStep f (some d) c.1 = d.rename c.1 (f c.1) := rfl
    rw [e]
    have hfc : f c.1 ∉ names (c :: T) := hx c.1 (by simp [names])
    have hnd : (names d.cols).Nodup := by rw [hd]; exact hn
    have hfP : f c.1 ∉ names P := by
      intro hP
      simp only [names, List.map_append, List.map_cons] at hf
      rw [List.nodup_append] at hf
      exact hf.2.2 _ hP (f c.1) List.mem_cons_self rfl
    have hr : ∃ d1, d.rename c.1 (f c.1) = some d1 := by
      unfold DS.rename
      rw [if_neg, if_neg]
      · exact ⟨_, rfl⟩
      · rw [hd]
        simp only [names, List.map_append, List.map_cons, List.mem_append, List.mem_cons, not_or, not_not]
        simp only [names, List.map_cons, List.mem_cons, not_or] at hfc
        exact ⟨by simp, hfP, hfc.1, hfc.2⟩
      · intro e
        exact hfc (by rw [← e]; simp [names])
    obtain ⟨d1, hr⟩ := hr
    rw [hr]
    obtain ⟨h1, h2, _⟩ := rename_cols d d1 c.1 (f c.1) P T c.2 hd hnd hr
    have h1' : d1.cols = (P ++ [(f c.1, c.2)]) ++ T := by rw [h1]; simp
    refine ih (P ++ [(f c.1, c.2)]) d1 h1' (by rw [← h1']; exact h2) (by simpa using hf) ?_
    intro k hk hk'
    exact hx k (by simp only [names, List.map_cons, List.mem_cons]; exact Or.inr hk)
      (by simp only [names, List.map_cons, List.mem_cons]; exact Or.inr hk')

theorem flat_leaves (m : List (Name × DS V)) : (flat m).leaves = m.map fun p => ([p.1], p.2) := by
  induction m with
  | nil => rfl
  | cons p m ih => simp [flat, Items.leaves, Elem.leaves, ih]

theorem joined_two (x : Char) (k c : Name) : joined [x] ([k] ++ [c]) = k ++ x :: c := by
  simp [joined, List.intercalate, List.intersperse]

theorem split_eq (x : Char) (k k' c c' : Name) (h1 : x ∉ k) (h2 : x ∉ k') (h : k ++ x :: c = k' ++ x :: c') : k = k' ∧ c = c' := by
  induction k generalizing k' with
  | nil =>
    cases k' with
    | nil => simpa using h
    | cons a k' => simp only [List.nil_append, List.cons_append, List.cons.injEq] at h; exact absurd (by simp [h.1]) h2
  | cons a k ih =>
    cases k' with
    | nil => simp only [List.nil_append, List.cons_append, List.cons.injEq] at h; exact absurd (by simp [h.1]) h1
    | cons b k' =>
      simp only [List.cons_append, List.cons.injEq] at h
      simp only [List.mem_cons, not_or] at h1 h2
      obtain ⟨e1, e2⟩ := ih k' h1.2 h2.2 h.2
      exact ⟨by rw [h.1, e1], e2⟩

/-- Datasets that can be flattened: the same labels, at least one, and other columns; all of the same length; the delimiter in no
name -/
def Joinable (x : Char) (labels : List Name) (n : Nat) (p : Name × DS V) : Prop :=
  p.2.Ok n ∧ p.2.labels = labels ∧ p.2.values ≠ [] ∧ x ∉ p.1 ∧ ∀ c ∈ names p.2.cols, x ∉ c

theorem Joinable.good {x : Char} {labels : List Name} {n : Nat} {p : Name × DS V} (h : Joinable x labels n p) : p.2.Good :=
  ⟨h.1.1, h.1.2.2.1, h.1.2.2.2⟩

theorem mem_labelCols {d : DS V} {c : Name × List V} (h : c ∈ d.labelCols) : c ∈ d.cols := by
  unfold DS.labelCols at h
  obtain ⟨l, _, hl⟩ := List.mem_filterMap.1 h
  cases ha : at? d.cols l with
  | none => simp [ha] at hl
  | some v =>
    simp only [ha, Option.map_some, Option.some.injEq] at hl
    subst hl
    exact mem_of_at? ha

theorem mem_values {d : DS V} {c : Name × List V} (h : c ∈ d.values) : c ∈ d.cols ∧ c.1 ∉ d.labels := by
  unfold DS.values at h
  simpa using h

theorem rows_eq (d : DS V) (n : Nat) (h0 : d.cols ≠ []) (h : ∀ c ∈ d.cols, c.2.length = n) : d.rows = n := by
  unfold DS.rows
  split
  · rename_i e; exact absurd e h0
  · rename_i c t e; exact h c (by rw [e]; exact List.mem_cons_self)

theorem take_ok (d : DS V) (ks : List Name) (h0 : ks ≠ []) (hk : ks.Nodup) (hin : ∀ k ∈ ks, k ∈ names d.cols) :
    ∃ d', d.take ks = some d' := by
  unfold DS.take
  rw [if_neg h0]
  obtain ⟨d', h, _⟩ := (ds_pick d id ks hk).1 hin
  exact ⟨d', h⟩

/-- the second part of a step succeeds -/
theorem core_ok (x : Char) (labels : List Name) (n : Nat) (p : Name × DS V) (hp : Joinable x labels n p) (d0 : DS V)
    (h0 : d0.cols ≠ []) (h1 : ∀ c ∈ d0.cols, c.2.length = n) (hnd : (names d0.cols).Nodup)
    (h2 : ∀ k ∈ names d0.cols, k ∈ labels ∨ x ∈ k)
    (h3 : ∀ c, p.1 ++ x :: c ∉ names d0.cols) :
    ∃ d', ((p.2.take ((names p.2.cols).filter fun n => decide (n ∉ p.2.labels))).bind fun vals =>
      (besides d0 vals).bind fun d =>
        (((names p.2.cols).filter fun n => decide (n ∉ p.2.labels)).foldl
          (fun (s : Option (DS V)) n => s.bind fun d => d.rename n (p.1 ++ [x] ++ n)) (some d))) = some d' := by
  obtain ⟨hok, hl, hv0, hx1, hx2⟩ := hp
  have hg : p.2.Good := ⟨hok.1, hok.2.2.1, hok.2.2.2⟩
  have hvn : names p.2.values ≠ [] := by simp [names, hv0]
  have hvnd : (names p.2.values).Nodup := by rw [names_values]; exact hok.1.filter _
  have hxc : ∀ c ∈ names p.2.values, x ∉ c ∧ c ∉ labels := by
    intro c hc
    obtain ⟨q, hq, rfl⟩ := List.mem_map.1 hc
    have := mem_values hq
    exact ⟨hx2 _ (List.mem_map_of_mem this.1), hl ▸ this.2⟩
  obtain ⟨vals, ht⟩ := take_ok p.2 (names p.2.values) hvn hvnd (by
    intro k hk
    obtain ⟨q, hq, rfl⟩ := List.mem_map.1 hk
    exact List.mem_map_of_mem (mem_values hq).1)
  rw [← names_values, ht, Option.bind_some]
  have hvals := take_values p.2 vals hg (by rw [← names_values]; exact ht)
  have hdis : ∀ k ∈ names p.2.values, k ∉ names d0.cols := by
    intro k hk hk'
    rcases h2 k hk' with h | h
    · exact (hxc k hk).2 h
    · exact (hxc k hk).1 h
  have hb : besides d0 vals = some ⟨d0.cols ++ p.2.values, []⟩ := by
    unfold besides
    rw [if_pos, hvals]
    refine ⟨?_, by rw [hvals]; exact hdis⟩
    rw [rows_eq d0 n h0 h1, rows_eq vals n (by rw [hvals]; exact hv0)]
    intro c hc
    rw [hvals] at hc
    exact hok.2.1 c (mem_values hc).1
  rw [hb, Option.bind_some]
  refine rename_fold_ok (fun n => p.1 ++ [x] ++ n) p.2.values d0.cols _ rfl ?_ ?_ ?_
  · simp only [names, List.map_append]
    rw [List.nodup_append]
    exact ⟨hnd, hvnd, fun a ha b hb hab => hdis b hb (hab ▸ ha)⟩
  · simp only [names, List.map_append, List.map_map]
    rw [List.nodup_append]
    refine ⟨hnd, ?_, ?_⟩
    · have : (p.2.values.map (Prod.fst ∘ fun c : Name × List V => (p.1 ++ [x] ++ c.1, c.2))) =
          (names p.2.values).map fun c => p.1 ++ [x] ++ c := by
        simp [names, Function.comp_def]
      rw [this]
      exact hvnd.map (fun a b e => by simpa using e)
    · intro a ha b hb hab
      subst hab
      obtain ⟨c, _, rfl⟩ := List.mem_map.1 hb
      exact h3 c.1 (by
        have e : p.1 ++ x :: c.1 = (Prod.fst ∘ fun c : Name × List V => (p.1 ++ [x] ++ c.1, c.2)) c := by simp
        rw [e]; exact ha)
  · intro k _ hk'
    exact (hxc _ hk').1 (by simp)

/-- one step succeeds -/
theorem next_ok (x : Char) (labels : List Name) (hlab : labels ≠ []) (n : Nat) (done : List (Name × DS V)) (p : Name × DS V)
    (hp : Joinable x labels n p) (hdone : ∀ q ∈ done, Joinable x labels n q) (hnew : p.1 ∉ names done) (dsr : DS V)
    (hs : FlatOk [x] (done.map fun q => ([q.1], q.2)) labels dsr) : ∃ q, stepH [x] (some (labels, dsr)) p.1 p.2 = some q := by
  obtain ⟨h1, h2, p0, hp0, h3⟩ := hs
  obtain ⟨q0, hq0, rfl⟩ := List.mem_map.1 (List.mem_of_mem_head? hp0)
  have hj0 := hdone q0 hq0
  have hcols : ∀ c ∈ dsr.cols, c ∈ q0.2.labelCols ∨ ∃ q ∈ done, ∃ v ∈ q.2.values, c = (q.1 ++ x :: v.1, v.2) := by
    intro c hc
    rw [h3, List.mem_append] at hc
    rcases hc with hc | hc
    · exact Or.inl hc
    · right
      unfold flatCols at hc
      obtain ⟨r, hr, hc⟩ := List.mem_flatMap.1 hc
      obtain ⟨q, hq, rfl⟩ := List.mem_map.1 hr
      obtain ⟨v, hv, rfl⟩ := List.mem_map.1 hc
      exact ⟨q, hq, v, hv, by rw [joined_two]⟩
  have hnl : names q0.2.labelCols = labels := (names_labelCols q0.2 hj0.good.2.2).trans hj0.2.1
  obtain ⟨d', hd'⟩ := core_ok x labels n p hp dsr (by
      rw [h3]
      intro e
      rw [List.append_eq_nil_iff] at e
      rw [e.1] at hnl
      exact hlab hnl.symm)
    (by
      intro c hc
      rcases hcols c hc with h | ⟨q, hq, v, hv, rfl⟩
      · exact hj0.1.2.1 c (mem_labelCols h)
      · exact (hdone q hq).1.2.1 v (mem_values hv).1) h1
    (by
      intro k hk
      obtain ⟨c, hc, rfl⟩ := List.mem_map.1 hk
      rcases hcols c hc with h | ⟨q, hq, v, hv, rfl⟩
      · left; rw [← hnl]; exact List.mem_map_of_mem h
      · right; simp)
    (by
      intro c hc
      obtain ⟨r, hr, he⟩ := List.mem_map.1 hc
      rcases hcols r hr with h | ⟨q, hq, v, hv, rfl⟩
      · have : x ∉ r.1 := hj0.2.2.2.2 _ (List.mem_map_of_mem (mem_labelCols h))
        rw [he] at this
        simp at this
      · have := split_eq x q.1 p.1 v.1 c (hdone q hq).2.2.2.1 hp.2.2.2.1 he
        exact hnew (this.1 ▸ List.mem_map_of_mem hq))
  unfold stepH
  simp only [hp.2.1, ne_eq, not_true_eq_false, if_false, Option.bind_some]
  rw [Option.bind_eq_some_iff] at hd'
  obtain ⟨vals, e1, hd'⟩ := hd'
  rw [Option.bind_eq_some_iff] at hd'
  obtain ⟨d, e2, e3⟩ := hd'
  rw [hp.2.1] at e1 e3
  rw [e1, Option.bind_some, e2, Option.bind_some, e3]
  exact ⟨_, rfl⟩

theorem first_ok (x : Char) (labels : List Name) (hlab : labels ≠ []) (n : Nat) (p : Name × DS V)
    (hp : Joinable x labels n p) : ∃ q, stepH [x] none p.1 p.2 = some q := by
  have hl := hp.2.1
  obtain ⟨d0, h0⟩ := take_ok p.2 p.2.labels (by rw [hl]; exact hlab) hp.good.2.1 hp.good.2.2
  have hc := take_labels p.2 d0 hp.good h0
  have hnl : names d0.cols = labels := by rw [hc, names_labelCols p.2 hp.good.2.2, hl]
  obtain ⟨d', hd'⟩ := core_ok x labels n p hp d0 (by
      intro e; rw [e] at hnl; exact hlab hnl.symm)
    (by intro c hcm; rw [hc] at hcm; exact hp.1.2.1 c (mem_labelCols hcm))
    (by rw [hnl, ← hl]; exact hp.good.2.1)
    (by intro k hk; left; rw [← hnl]; exact hk)
    (by
      intro c hcm
      rw [hnl, ← hl] at hcm
      have := hp.2.2.2.2 _ (hp.good.2.2 _ hcm)
      simp at this)
  unfold stepH
  simp only
  rw [if_neg (by rw [hl]; exact hlab), h0]
  simp only [Option.map_some, Option.bind_some]
  rw [Option.bind_eq_some_iff] at hd'
  obtain ⟨vals, e1, hd'⟩ := hd'
  rw [Option.bind_eq_some_iff] at hd'
  obtain ⟨d, e2, e3⟩ := hd'
  rw [e1, Option.bind_some, e2, Option.bind_some, e3]
  exact ⟨_, rfl⟩

theorem rest_ok (x : Char) (labels : List Name) (hlab : labels ≠ []) (n : Nat) (rest done : List (Name × DS V))
    (hj : ∀ q ∈ done ++ rest, Joinable x labels n q) (hn : (names (done ++ rest)).Nodup) (dsr : DS V)
    (hs : FlatOk [x] (done.map fun q => ([q.1], q.2)) labels dsr) :
    ∃ q, (flat rest).flatH [x] (some (labels, dsr)) = some (some q) := by
  induction rest generalizing done dsr with
  | nil => exact ⟨_, rfl⟩
  | cons p rest ih =>
    have hp := hj p (by simp)
    have hpn : p.1 ∉ names done := by
      simp only [names, List.map_append, List.map_cons] at hn
      rw [List.nodup_append] at hn
      intro h
      exact hn.2.2 _ h p.1 List.mem_cons_self rfl
    obtain ⟨q, hq⟩ := next_ok x labels hlab n done p hp (fun q hq => hj q (by simp [hq])) hpn dsr hs
    have he : ElemOk [x] [([], p.2)] p.2 := by
      have := elem_flatH [x] (.ds p.2) (by simpa [Elem.leaves] using hp.good) p.2 rfl
      simpa [Elem.leaves] using this
    obtain ⟨e1, e2⟩ := stepH_next [x] p.1 p.2 _ _ he labels dsr hs q hq
    obtain ⟨q1, q2⟩ := q
    simp only at e1 e2
    subst e1
    simp only [flat, Items.flatH, Elem.flatH, Option.bind_some, hq]
    refine ih (done ++ [p]) (by simpa using hj) (by simpa using hn) q2 ?_
    simpa [under] using e2

/-- **C154.** Datasets with the same labels and numbers of rows, and with names that do not contain the delimiter, can always be
flattened side by side. -/
theorem flatten_done (x : Char) (labels : List Name) (hlab : labels ≠ []) (n : Nat) (m : List (Name × DS V)) (hm : m ≠ [])
    (hj : ∀ q ∈ m, Joinable x labels n q) (hn : (names m).Nodup) : ∃ r, flattenH [x] (flat m) = some r := by
  cases m with
  | nil => exact absurd rfl hm
  | cons p rest =>
    have hp := hj p List.mem_cons_self
    obtain ⟨q, hq⟩ := first_ok x labels hlab n p hp
    have he : ElemOk [x] [([], p.2)] p.2 := by
      have := elem_flatH [x] (.ds p.2) (by simpa [Elem.leaves] using hp.good) p.2 rfl
      simpa [Elem.leaves] using this
    obtain ⟨e1, e2⟩ := stepH_first [x] p.1 p.2 _ he q hq
    obtain ⟨q1, q2⟩ := q
    simp only at e1 e2
    rw [e1, hp.2.1] at e2
    obtain ⟨r, hr⟩ := rest_ok x labels hlab n rest [p] (by simpa using hj) (by simpa using hn) q2 (by simpa [under] using e2)
    have e3 : q1 = labels := e1.trans hp.2.1
    subst e3
    obtain ⟨r1, r2⟩ := r
    refine ⟨{ r2 with labels := r1.filter fun l => decide (l ∈ names r2.cols) }, ?_⟩
    simp only [flattenH, flat, Elem.flatH, Items.flatH, Option.bind_some, hq, hr]
    rfl

end Verif.MSet
