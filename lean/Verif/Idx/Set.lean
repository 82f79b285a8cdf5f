import Verif.Idx.Props
/-! # Assigning to rows and columns of a Dataset: lemmas -/
namespace Verif.Idx
open Verif.Items (Dict)

section
variable {V : Type} [DecidableEq V]

/-! ## assigning to one array -/

theorem storeAt_length : ∀ (rows : List Nat) (vals col : List V), (storeAt col rows vals).length = col.length := by
  intro rows
  induction rows with
  | nil => intro vals col; simp [storeAt]
  | cons i rows ih =>
    intro vals col
    cases vals with
    | nil => simp [storeAt]
    | cons v vals => rw [storeAt, ih]; simp

theorem storeAt_other : ∀ (rows : List Nat) (vals col : List V) (i : Nat), i ∉ rows → (storeAt col rows vals)[i]? = col[i]? := by
  intro rows
  induction rows with
  | nil => intro vals col i _; simp [storeAt]
  | cons j rows ih =>
    intro vals col i h
    rw [List.mem_cons, not_or] at h
    cases vals with
    | nil => simp [storeAt]
    | cons v vals => rw [storeAt, ih _ _ _ h.2, List.getElem?_set_ne (fun e => h.1 e.symm)]

theorem storeAt_last : ∀ (rows : List Nat) (vals col : List V) (k i : Nat) (v : V), rows[k]? = some i → i < col.length →
    vals[k]? = some v → (∀ (k' : Nat), k < k' → rows[k']? ≠ some i) → (storeAt col rows vals)[i]? = some v := by
  intro rows
  induction rows with
  | nil => intro vals col k i v h; simp at h
  | cons j rows ih =>
    intro vals col k i v hk hi hv hl
    cases vals with
    | nil => simp at hv
    | cons w vals =>
      rw [storeAt]
      cases k with
      | zero =>
        simp only [List.getElem?_cons_zero, Option.some.injEq] at hk hv
        subst hk
        subst hv
        rw [storeAt_other, List.getElem?_set_self hi]
        intro hm
        obtain ⟨k', hk', he⟩ := List.getElem_of_mem hm
        exact hl (k' + 1) (by omega) (by rw [List.getElem?_cons_succ, List.getElem?_eq_getElem hk', he])
      | succ k =>
        refine ih vals (col.set j w) k i v (by simpa using hk) (by simpa using hi) (by simpa using hv) fun k' hk' => ?_
        have := hl (k' + 1) (by omega)
        simpa using this

theorem mapM_pos_rows (n : Nat) (ks : List Int) (R : List Nat) : ks.mapM (pos n) = some R ↔ ks.map (meant n) = R.map some := by
  induction ks generalizing R with
  | nil => cases R <;> simp
  | cons k ks ih =>
    rw [List.mapM_cons, pos_eq]
    cases hm : meant n k with
    | none =>
      simp only [List.map_cons, hm]
      cases R <;> simp
    | some i =>
      cases hr : ks.mapM (pos n) with
      | none =>
        simp only [List.map_cons, hm]
        cases R with
        | nil => simp
        | cons r R =>
          have := ih R
          rw [hr] at this
          simp only [reduceCtorEq, false_iff] at this
          simp [this]
      | some S =>
        have hS := (ih S).1 hr
        simp only [List.map_cons, hm, hS]
        cases R with
        | nil => simp
        | cons r R =>
          simp only [Option.pure_def, Option.bind_eq_bind, Option.bind_some, Option.some.injEq, List.cons.injEq, List.map_cons]
          constructor
          · rintro ⟨rfl, rfl⟩; exact ⟨rfl, rfl⟩
          · rintro ⟨h1, h2⟩; exact ⟨h1, List.map_injective_iff.2 (Option.some_injective _) h2⟩

theorem map_some_inj {a b : List Nat} (h : a.map some = b.map some) : a = b := List.map_injective_iff.2 (Option.some_injective _) h

theorem targets_ok (n : Nat) (ix : Idx) (R : List Nat) : targets n ix = .ok R ↔ idxRows n ix = some (R.map some) := by
  cases ix with
  | all =>
    simp only [targets, idxRows, Except.ok.injEq, Option.some.injEq]
    exact ⟨fun h => by rw [h], map_some_inj⟩
  | slice a b s =>
    simp only [targets, idxRows]
    split
    · simp
    · simp only [Except.ok.injEq, Option.some.injEq]
      exact ⟨fun h => by rw [h], map_some_inj⟩
  | ints ks =>
    have := mapM_pos_rows n ks R
    simp only [targets, idxRows]
    cases hm : ks.mapM (pos n) with
    | none =>
      rw [hm] at this
      simp only [reduceCtorEq, false_iff] at this
      dsimp only
      by_cases hn : none ∈ ks.map (meant n)
      · rw [if_pos hn]; simp
      · rw [if_neg hn]; simp [this]
    | some S =>
      have hS := (mapM_pos_rows n ks S).1 hm
      rw [if_neg (by rw [hS]; simp)]
      rw [hm] at this
      simpa using this
  | mbints ks =>
    have := mapM_pos_rows n ks R
    simp only [targets, idxRows]
    cases hm : ks.mapM (pos n) with
    | none => rw [hm] at this; simpa using this
    | some S => rw [hm] at this; simpa using this
  | mask m =>
    simp only [targets, idxRows]
    split
    · rw [nonzero_eq]
      simp only [Except.ok.injEq, Option.some.injEq]
      exact ⟨fun h => by rw [h], map_some_inj⟩
    · simp

/-- the number of rows that are assigned and the values given for them fit: as many values, or one for all -/
def fits {V : Type} (vals : List V) (R : List Nat) : Option (List V) :=
  if vals.length = R.length then some vals else match vals with
    | [v] => some (List.replicate R.length v)
    | _ => none

theorem assign_eq (col : List V) (ix : Idx) (vals l : List V) : assign col ix vals = .ok l ↔
    ∃ R w, targets col.length ix = .ok R ∧ fits vals R = some w ∧ l = storeAt col R w := by
  unfold assign fits
  cases ht : targets col.length ix with
  | error e => simp
  | ok R =>
    by_cases hl : vals.length = R.length
    · simp only [hl, if_pos]
      constructor
      · intro h
        simp only [Except.ok.injEq] at h
        exact ⟨R, vals, rfl, by simp [hl], h.symm⟩
      · rintro ⟨R', w, h1, h2, rfl⟩
        simp only [Except.ok.injEq] at h1
        subst h1
        simp only [hl, if_pos, Option.some.injEq] at h2
        rw [h2]
    · simp only [if_neg hl]
      constructor
      · intro h
        match vals, h with
        | [v], h =>
          simp only [Except.ok.injEq] at h
          exact ⟨R, List.replicate R.length v, rfl, by rw [if_neg hl], h.symm⟩
      · rintro ⟨R', w, h1, h2, rfl⟩
        simp only [Except.ok.injEq] at h1
        subst h1
        rw [if_neg hl] at h2
        match vals, h2 with
        | [v], h2 =>
          simp only [Option.some.injEq] at h2
          rw [← h2]

theorem fits_length {vals w : List V} {R : List Nat} (h : fits vals R = some w) : w.length = R.length := by
  unfold fits at h
  split at h
  · rename_i hl; cases h; exact hl
  · split at h
    · cases h; simp
    · simp at h

theorem fits_scalar (x : V) (R : List Nat) : fits [x] R = some (List.replicate R.length x) := by
  unfold fits
  split
  · rename_i h
    rw [← h]; rfl
  · rfl

/-! ## assigning to a column -/

theorem rect_set {t : Table V} {n : Nat} (ht : Rect t n) {c : String} {l : List V} (hl : l.length = n) : Rect (Dict.set t c l) n := by
  refine ⟨Dict.nodup_set ht.1 c l, fun e he => ?_⟩
  have hg : Dict.get (Dict.set t c l) e.1 = some e.2 := Dict.get_of_mem (Dict.nodup_set ht.1 c l) he
  rw [Dict.get_set] at hg
  split at hg
  · cases hg; exact hl
  · exact get_length ht hg

theorem mem_names_get {t : Table V} {c : String} (h : c ∈ t.map Prod.fst) : ∃ col, Dict.get t c = some col := by
  cases hg : Dict.get t c with
  | none => exact absurd h ((Dict.get_eq_none_iff t c).1 hg)
  | some col => exact ⟨col, rfl⟩

/-- nothing but column `c`, and there nothing but the rows `R`, differs -/
structure Only (n : Nat) (C : String → Prop) (R : Nat → Prop) (t t' : Table V) : Prop where
  rect : Rect t n → Rect t' n
  cols : ∀ (c : String), ¬ C c → Dict.get t' c = Dict.get t c
  rows : Rect t n → ∀ (c : String) (i : Nat), ¬ R i → cell t' c i = cell t c i

theorem Only.refl (n : Nat) (C : String → Prop) (R : Nat → Prop) (t : Table V) : Only n C R t t := ⟨id, fun _ _ => rfl, fun _ _ _ _ => rfl⟩

theorem Only.trans {n : Nat} {C : String → Prop} {R : Nat → Prop} {t t' t'' : Table V} (h : Only n C R t t') (h' : Only n C R t' t'') :
    Only n C R t t'' :=
  ⟨fun a => h'.rect (h.rect a), fun c hc => (h'.cols c hc).trans (h.cols c hc),
    fun a c i hi => (h'.rows (h.rect a) c i hi).trans (h.rows a c i hi)⟩

theorem setCol_only (n : Nat) (C : String → Prop) (L : List (Option Nat)) (t : Table V) (c : String) (hc : C c) (ix : Idx)
    (hL : ∀ L', idxRows n ix = some L' → L' = L) (vals : List V) :
    Only n C (fun i => some i ∈ L) t (setCol t c ix vals).1 := by
  unfold setCol
  split
  · exact Only.refl _ _ _ _
  · rename_i col hg
    split
    · exact Only.refl _ _ _ _
    · rename_i l hl
      obtain ⟨R, w, h1, h2, rfl⟩ := (assign_eq col ix vals l).1 hl
      refine ⟨fun ht => rect_set ht (by rw [storeAt_length]; exact get_length ht hg), fun d hd => ?_, fun ht d i hi => ?_⟩
      · rw [Dict.get_set, if_neg (fun (e : d = c) => hd (e ▸ hc))]
      · rw [cell_eq_get, cell_eq_get, Dict.get_set]
        split
        · rename_i hdc
          subst hdc
          rw [hg, Option.bind_some, Option.bind_some, storeAt_other]
          intro hiR
          rw [get_length ht hg, targets_ok] at h1
          exact hi (by rw [← hL _ h1]; exact List.mem_map_of_mem hiR)
        · rfl

theorem setAttr_only (n : Nat) (C : String → Prop) (L : List (Option Nat)) (hL : ∀ (i : Nat), i < n → some i ∈ L) (t : Table V) (c : String)
    (hc : C c) (v : Val V) : Only n C (fun i => some i ∈ L) t (setAttr t n c v).1 := by
  have main : ∀ (l : List V), l.length = n → Only n C (fun i => some i ∈ L) t (Dict.set t c l) := by
    intro l hl
    refine ⟨fun ht => rect_set ht hl, fun d hd => ?_, fun ht d i hi => ?_⟩
    · rw [Dict.get_set, if_neg (fun (e : d = c) => hd (e ▸ hc))]
    · rw [cell_eq_get, cell_eq_get, Dict.get_set]
      split
      · rename_i hdc
        subst hdc
        have hin : n ≤ i := by
          by_contra hn
          exact hi (hL i (by omega))
        rw [Option.bind_some, List.getElem?_eq_none (by omega)]
        cases hg : Dict.get t d with
        | none => rfl
        | some col => rw [Option.bind_some, List.getElem?_eq_none (by rw [get_length ht hg]; omega)]
      · rfl
  unfold setAttr
  cases v with
  | scalar x => exact main _ (by simp)
  | vec l =>
    dsimp only
    split
    · rename_i hl; exact main l hl
    · exact Only.refl _ _ _ _
  | table w k => exact Only.refl _ _ _ _

theorem loop_only {A : Type} {n : Nat} {C : String → Prop} {R : Nat → Prop} (f : Table V → A → Out V) (as : List A) :
    (∀ (t : Table V), ∀ a ∈ as, Only n C R t (f t a).1) → ∀ (t : Table V), Only n C R t (loop f t as).1 := by
  induction as with
  | nil => intro _ t; exact Only.refl _ _ _ _
  | cons a as ih =>
    intro h t
    rw [loop]
    have h1 := h t a (by simp)
    cases hf : f t a with
    | mk t' e =>
      rw [hf] at h1
      cases e with
      | none => exact h1.trans (ih (fun t a ha => h t a (List.mem_cons_of_mem _ ha)) t')
      | some e => exact h1

/-- loops of assignments that succeed: the last one for a column counts -/
theorem loop_value {A : Type} (I : Table V → Prop) (f : Table V → A → Out V) (name : A → String) (val : A → Nat → V → Prop) (as : List A) :
    (∀ (t : Table V), I t → ∀ a ∈ as, ∃ t', f t a = (t', none) ∧ I t' ∧ (∀ (c : String), c ≠ name a → Dict.get t' c = Dict.get t c) ∧
      ∀ (i : Nat) (v : V), val a i v → cell t' (name a) i = some v) →
    ∀ (t : Table V), I t → (loop f t as).2 = none ∧ I (loop f t as).1 ∧
      (∀ (c : String), c ∉ as.map name → Dict.get (loop f t as).1 c = Dict.get t c) ∧
      ∀ (j : Nat) (a : A), as[j]? = some a → (∀ (j' : Nat) (a' : A), j < j' → as[j']? = some a' → name a' ≠ name a) →
        ∀ (i : Nat) (v : V), val a i v → cell (loop f t as).1 (name a) i = some v := by
  induction as with
  | nil => intro _ t ht; exact ⟨rfl, ht, fun _ _ => rfl, by simp⟩
  | cons a as ih =>
    intro h t ht
    obtain ⟨t', h1, h2, h3, h4⟩ := h t ht a (by simp)
    obtain ⟨g1, g2, g3, g4⟩ := ih (fun t ht x hx => h t ht x (List.mem_cons_of_mem _ hx)) t' h2
    have hl : loop f t (a :: as) = loop f t' as := by rw [loop, h1]
    rw [hl]
    refine ⟨g1, g2, fun c hc => ?_, fun j b hj hlast i v hv => ?_⟩
    · rw [List.map_cons, List.mem_cons, not_or] at hc
      rw [g3 c hc.2, h3 c hc.1]
    · cases j with
      | zero =>
        simp only [List.getElem?_cons_zero, Option.some.injEq] at hj
        subst hj
        rw [cell_eq_get, g3, ← cell_eq_get]
        · exact h4 i v hv
        · intro hm
          obtain ⟨x, hx, he⟩ := List.mem_map.1 hm
          obtain ⟨j', hj', hxe⟩ := List.getElem_of_mem hx
          exact hlast (j' + 1) x (by omega) (by rw [List.getElem?_cons_succ, List.getElem?_eq_getElem hj', hxe]) he
      | succ j =>
        refine g4 j b (by simpa using hj) (fun j' a' hj' ha' => ?_) i v hv
        exact hlast (j' + 1) a' (by omega) (by simpa using ha')

end

end Verif.Idx
