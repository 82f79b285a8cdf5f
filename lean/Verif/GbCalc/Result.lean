import Verif.GbCalc.Props
/-!
# Group-by operations: the results users see
-/
namespace Verif.GbCalc

variable {V : Type}

/-- the columns chosen by `col_idx` given as a list (all columns without it) -/
def Chosen (l : Option (List Name)) (k : Name) : Prop := ∀ l', l = some l' → k ∈ l'

theorem has_list (l : Option (List Name)) (k : Name) :
    optHas (l.map Sel.list) k = true ↔ Chosen l k := by
  cases l with
  | none => simp [Chosen, optHas]
  | some l => simp [Chosen, optHas, Sel.has]

/-- every chosen data column of an accepted kind is there, calculated from that column, in the order of the groups -/
theorem op_data (e : Env V) (f : Name) (o : Opts) (l : Option (List Name)) (orig : List (Name × Col V))
    (hn : (names orig).Nodup) (hk : (names e.gbkeys).Nodup) (hl : o.sel = l.map Sel.list)
    (k : Name) (c : Col V) (y : List V) (h : k ∉ names e.gbkeys) (hc : at? orig k = some c) (hch : Chosen l k)
    (ha : o.computable = false ∨ accepts f c.kind = true) (hy : e.agg f c = some y)
    (hr : ∀ rows, e.isort = some rows → ∀ i ∈ rows, i < y.length) :
    ∃ v, at? (calculate e f o orig) k = some v ∧ Shown e.isort y v := by
  refine ⟨sortedCol e.isort y, ?_, sortedCol_shown _ _ hr⟩
  rw [calculate_at e f o orig hn hk k h, hc, hl, (has_list l k).2 hch]
  have : (!o.computable || accepts f c.kind) = true := by
    rcases ha with ha | ha <;> simp [ha]
  simp only [Option.bind_some, this, Bool.and_self, if_true, hy, Option.map_some]

/-- there is nothing else: a column that is not a key is a chosen data column of an accepted kind, calculated -/
theorem op_only (e : Env V) (f : Name) (o : Opts) (l : Option (List Name)) (orig : List (Name × Col V))
    (hn : (names orig).Nodup) (hk : (names e.gbkeys).Nodup) (hl : o.sel = l.map Sel.list) (hra : o.returnAll = false)
    (k : Name) (v : List V) (hv : at? (calculate e f o orig) k = some v) :
    at? e.gbkeys k = some v ∨
      ∃ c y, at? orig k = some c ∧ Chosen l k ∧ (o.computable = false ∨ accepts f c.kind = true) ∧ e.agg f c = some y ∧
        ((∀ rows, e.isort = some rows → ∀ i ∈ rows, i < y.length) → Shown e.isort y v) := by
  by_cases h : k ∈ names e.gbkeys
  · left
    rw [← hv, calculate_keys e f o orig hk k h]
  · right
    rw [calculate_at e f o orig hn hk k h, hl, hra] at hv
    cases hc : at? orig k with
    | none => simp [hc] at hv
    | some c =>
      rw [hc] at hv
      simp only [Option.bind_some, Bool.false_eq_true, if_false] at hv
      split at hv
      · rename_i y hy
        simp only [Option.map_some, Option.some.injEq] at hv
        split at hy
        · rename_i hcond
          rw [Bool.and_eq_true] at hcond
          refine ⟨c, y, rfl, (has_list l k).1 hcond.1, ?_, hy, fun hr => hv ▸ sortedCol_shown _ _ hr⟩
          have := hcond.2
          cases hcp : o.computable
          · exact Or.inl rfl
          · rw [hcp] at this; exact Or.inr (by simpa using this)
        · simp at hy
      · simp at hv

/-- with `return_all` the other data columns are there too, with invalid values -/
theorem op_returnAll (e : Env V) (f : Name) (o : Opts) (l : Option (List Name)) (orig : List (Name × Col V))
    (hn : (names orig).Nodup) (hk : (names e.gbkeys).Nodup) (hl : o.sel = l.map Sel.list) (hra : o.returnAll = true)
    (k : Name) (c : Col V) (h : k ∉ names e.gbkeys) (hc : at? orig k = some c)
    (hno : ¬ Chosen l k ∨ (o.computable = true ∧ accepts f c.kind = false) ∨ e.agg f c = none)
    (hr : ∀ rows, e.isort = some rows → ∀ i ∈ rows, i < (e.inv c).length) :
    ∃ v, at? (calculate e f o orig) k = some v ∧ Shown e.isort (e.inv c) v := by
  refine ⟨sortedCol e.isort (e.inv c), ?_, sortedCol_shown _ _ hr⟩
  rw [calculate_at e f o orig hn hk k h, hc, hl, hra]
  have hcond : (if (optHas (l.map Sel.list) k &&
      (!o.computable || accepts f c.kind)) = true then e.agg f c else none) = none := by
    rcases hno with hno | ⟨h1, h2⟩ | hno
    · have : optHas (l.map Sel.list) k = false := by
        rw [Bool.eq_false_iff]; exact fun hx => hno ((has_list l k).1 hx)
      rw [this]; simp
    · simp [h1, h2]
    · simp [hno]
  simp only [Option.bind_some, hcond, if_true, Option.map_some]

theorem names_filter_put (p : Name → Bool) (d : List (Name × V)) (k : Name) (v : V) (hk : p k = false) :
    (names (put d k v)).filter p = (names d).filter p := by
  rw [names_put]
  split
  · rfl
  · simp [hk]

theorem names_filter_foldl_put (p : Name → Bool) (l d : List (Name × V)) (h : ∀ k ∈ names l, p k = false) :
    (names (l.foldl (fun d p => put d p.1 p.2) d)).filter p = (names d).filter p := by
  induction l generalizing d with
  | nil => rfl
  | cons q l ih =>
    rw [List.foldl_cons, ih _ (fun k hk => h k (by simp only [names, List.map_cons, List.mem_cons]; exact Or.inr hk)),
      names_filter_put p d q.1 q.2 (h q.1 (by simp [names]))]

theorem newDict_names_sublist (inv : Col V → List V) (ra : Bool) (gbkeys : List (Name × List V)) (orig : List (Name × Col V))
    (acc : List (Name × List V)) : (names (newDict inv ra gbkeys orig acc)).Sublist (names orig) := by
  unfold newDict
  induction orig with
  | nil => simp [names]
  | cons p orig ih =>
    rw [List.filterMap_cons]
    cases at? acc p.1 with
    | some v => exact List.Sublist.cons_cons _ ih
    | none =>
      cases at? gbkeys p.1 with
      | some v => exact List.Sublist.cons_cons _ ih
      | none =>
        cases ra with
        | true => exact List.Sublist.cons_cons _ ih
        | false => exact List.Sublist.cons _ ih

/-- no name occurs twice, and the data columns are in the order of the data -/
theorem op_order (e : Env V) (f : Name) (o : Opts) (orig : List (Name × Col V)) (hn : (names orig).Nodup) :
    (names (calculate e f o orig)).Nodup ∧
      ((names (calculate e f o orig)).filter fun k => decide (k ∉ names e.gbkeys)).Sublist (names orig) := by
  have hd : ∀ d : List (Name × List V), names (sortData e.isort e.gbkeys d) = names d := by
    intro d
    unfold sortData
    cases e.isort with
    | none => rfl
    | some rows =>
      simp only [names, List.map_map]
      refine List.map_congr_left fun p _ => ?_
      by_cases h : p.1 ∈ List.map Prod.fst e.gbkeys <;> simp [h]
  have hs := newDict_names_sublist e.inv o.returnAll e.gbkeys orig
    (accumDict e.agg f (calcDict (names e.gbkeys) f o.sel o.returnAll o.computable orig))
  unfold calculate finalize
  refine ⟨nodup_foldl_put _ _ (by rw [hd]; exact hn.sublist hs), ?_⟩
  rw [names_filter_foldl_put _ _ _ (by intro k hk; simpa using hk), hd]
  exact List.filter_sublist.trans hs

/-- Operations with one value per row: the calculated columns and no keys. -/
theorem rows_at (e : Env V) (f : Name) (o : Opts) (l : Option (List Name)) (orig : List (Name × Col V))
    (hn : (names orig).Nodup) (hl : o.sel = l.map Sel.list) (hra : o.returnAll = false) :
    ∃ t, calculateRows e f o orig = some t ∧ (names t).Nodup ∧ (names t).Sublist (names orig) ∧
      ∀ k v, at? t k = some v ↔ k ∉ names e.gbkeys ∧ Chosen l k ∧ ∃ c, at? orig k = some c ∧
        (o.computable = false ∨ accepts f c.kind = true) ∧ e.agg f c = some v := by
  refine ⟨_, by unfold calculateRows; rw [hra]; rfl, ?_, names_filterMap_sublist _ _, ?_⟩
  · exact hn.sublist (names_filterMap_sublist _ _)
  intro k v
  rw [at?_filterMap (fun p : Name × Col V => at? (accumDict e.agg f
    (calcDict (names e.gbkeys) f o.sel false o.computable orig)) p.1) orig hn k]
  have hacc : at? (accumDict e.agg f (calcDict (names e.gbkeys) f o.sel false o.computable orig)) k =
      (at? (calcDict (names e.gbkeys) f o.sel false o.computable orig) k).bind fun c => e.agg f c := by
    unfold accumDict
    exact at?_filterMap (fun p : Name × Col V => e.agg f p.2) _ (calcDict_nodup _ _ _ _ _ _ hn) k
  have hcd := calcDict_at (names e.gbkeys) f o orig hn k
  rw [hra] at hcd
  cases hc : at? orig k with
  | none => simp
  | some c =>
    simp only [Option.bind_some]
    rw [hacc, hcd, hc, hl]
    by_cases h1 : k ∈ names e.gbkeys
    · simp [h1]
    · simp only [h1, decide_false, Bool.or_false]
      by_cases h2 : Chosen l k
      · rw [(has_list l k).2 h2]
        cases hcp : o.computable <;> cases hac : accepts f c.kind <;> simp [h2, hac]
      · have : optHas (l.map Sel.list) k = false := by
          rw [Bool.eq_false_iff]; exact fun hx => h2 ((has_list l k).1 hx)
        rw [this]; simp [h2]

/-! ## GroupBy on some columns -/

theorem addKeys (ks l : List Name) (hl : l.Nodup) :
    (ks.foldl (fun ix k => if k ∈ ix then ix else ix ++ [k]) l).Nodup ∧
      (∀ k, k ∈ ks.foldl (fun ix k => if k ∈ ix then ix else ix ++ [k]) l ↔ k ∈ l ∨ k ∈ ks) ∧
      l <+: ks.foldl (fun ix k => if k ∈ ix then ix else ix ++ [k]) l := by
  induction ks generalizing l with
  | nil => simpa using hl
  | cons a ks ih =>
    rw [List.foldl_cons]
    by_cases h : a ∈ l
    · rw [if_pos h]
      obtain ⟨h1, h2, h3⟩ := ih l hl
      refine ⟨h1, fun k => ?_, h3⟩
      rw [h2]
      simp only [List.mem_cons]
      constructor
      · rintro (h' | h')
        · exact Or.inl h'
        · exact Or.inr (Or.inr h')
      · rintro (h' | h' | h')
        · exact Or.inl h'
        · exact Or.inl (h' ▸ h)
        · exact Or.inr h'
    · rw [if_neg h]
      have hnd : (l ++ [a]).Nodup := by
        rw [List.nodup_append]
        exact ⟨hl, by simp, fun x hx b hb => by simp only [List.mem_singleton] at hb; subst hb; exact fun e => h (e ▸ hx)⟩
      obtain ⟨h1, h2, h3⟩ := ih (l ++ [a]) hnd
      refine ⟨h1, fun k => ?_, (List.prefix_append l [a]).trans h3⟩
      rw [h2]
      simp [or_assoc]

theorem takeCols_at {A : Type} (d : List (Name × A)) (l : List Name) (hl : l.Nodup) (hm : ∀ k ∈ l, k ∈ names d) :
    ∃ t, takeCols d l = some t ∧ names t = l ∧ ∀ k ∈ l, at? t k = at? d k := by
  unfold takeCols
  rw [if_pos hl]
  induction l with
  | nil => exact ⟨[], rfl, rfl, by simp⟩
  | cons a l ih =>
    obtain ⟨v, hv⟩ := (at?_isSome d a).2 (hm a (by simp))
    obtain ⟨t, h1, h2, h3⟩ := ih (List.nodup_cons.1 hl).2 fun k hk => hm k (by simp [hk])
    refine ⟨(a, v) :: t, ?_, ?_, ?_⟩
    · rw [List.mapM_cons, hv, h1]; rfl
    · simp only [names, List.map_cons] at h2 ⊢; rw [h2]
    · intro k hk
      rw [at?_cons]
      by_cases hak : a = k
      · simp [hak, ← hv]
      · rw [if_neg hak]
        exact h3 k (by rcases List.mem_cons.1 hk with h | h; exact absurd h.symm hak; exact h)

/-- `gb[l].f()`: the result has the chosen columns in the order chosen (and the keys), each as `gb.f()` has it -/
theorem select_op (e : Env V) (data : List (Name × Col V)) (f : Name) (l : List Name) (hn : (names data).Nodup)
    (hk : (names e.gbkeys).Nodup) (hkd : ∀ k ∈ names e.gbkeys, k ∈ names data) (hl : l.Nodup) (hld : ∀ k ∈ l, k ∈ names data) :
    ∃ d, gbSelect e data l = some d ∧ ∃ t, gbOp e d f {} [] none = some t ∧
      (∀ k, k ∈ l ∨ k ∈ names e.gbkeys → at? t k = at? (calculate e f {} data) k) ∧
      (∀ k, k ∉ l → k ∉ names e.gbkeys → at? t k = none) ∧
      ((names t).filter fun k => decide (k ∉ names e.gbkeys)).Sublist l := by
  obtain ⟨h1, h2, h3⟩ := addKeys (names e.gbkeys) l hl
  obtain ⟨d, hd, hdn, hda⟩ := takeCols_at data _ h1 (fun k hk => ((h2 k).1 hk).elim (hld k) (hkd k))
  have hnd : (names d).Nodup := by rw [hdn]; exact h1
  refine ⟨d, hd, calculate e f {} d, rfl, ?_, ?_, ?_⟩
  · intro k hkl
    by_cases hkk : k ∈ names e.gbkeys
    · rw [calculate_keys _ _ _ _ hk _ hkk, calculate_keys _ _ _ _ hk _ hkk]
    · rw [calculate_at _ _ _ _ hnd hk _ hkk, calculate_at _ _ _ _ hn hk _ hkk, hda k ((h2 k).2 hkl)]
  · intro k hkl hkk
    have : at? d k = none := by
      rw [at?_eq_none, hdn, h2]
      exact fun h => h.elim hkl hkk
    rw [calculate_at _ _ _ _ hnd hk _ hkk, this]; rfl
  · have hord := (op_order e f {} d hnd).2
    rw [hdn] at hord
    have hfin : ∀ ks l : List Name, (∀ k ∈ ks, k ∈ names e.gbkeys) →
        ((ks.foldl (fun ix k => if k ∈ ix then ix else ix ++ [k]) l).filter fun k => decide (k ∉ names e.gbkeys)) =
          l.filter fun k => decide (k ∉ names e.gbkeys) := by
      intro ks
      induction ks with
      | nil => intros; rfl
      | cons a ks ih =>
        intro l hks
        rw [List.foldl_cons, ih _ (fun k hk => hks k (by simp [hk]))]
        split
        · rfl
        · have := hks a (by simp)
          simp [this]
    have := hord.filter fun k => decide (k ∉ names e.gbkeys)
    rw [List.filter_filter, hfin _ _ (fun k hk => hk)] at this
    simp only [Bool.and_self] at this
    exact this.trans List.filter_sublist

end Verif.GbCalc
