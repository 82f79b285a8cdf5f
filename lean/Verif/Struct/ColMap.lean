import Verif.Struct.Path

/-! # Effect of the renames and swaps of `col_map` -/
namespace Verif.Struct
open Verif.Items Dict
variable {V : Type} {cls : Cls} {s s' : St V}

/-! ## Single renames, one after the other -/

/-- where a name ends up after the renames `l` -/
def through : Dict Name Name → Name → Name
  | [], n => n
  | (o, t) :: l, n => through l (if n = o then t else n)

theorem colRename_items (i : Inv cls s) {o n : Name} (h : (colRename cls s o n).2 = none) :
    (colRename cls s o n).1.items = s.items.map (fun e => ((if e.1 = o then n else e.1), e.2)) ∧
    (colRename cls s o n).1.ncols = s.ncols ∧ (colRename cls s o n).1.locked = s.locked ∧
    (colRename cls s o n).1.heap = s.heap := by
  rcases colRename_cases (cls := cls) i.nodup o n with ⟨h1, h2, h3, h4, h5⟩ | hc
  · rw [colRename_eq i.nodup h1 h2 h3 h4 h5]; exact ⟨rfl, rfl, rfl, rfl⟩
  · have e := hc.2.mp h
    subst e
    rw [hc.1]
    refine ⟨?_, rfl, rfl, rfl⟩
    refine ((List.map_congr_left (g := id) ?_).trans (List.map_id _)).symm
    intro a _
    by_cases ha : a.1 = o
    · simp only [if_pos ha, id]; rw [← ha]
    · simp only [if_neg ha, id]

theorem renameAll_items (l : Dict Name Name) : ∀ s : St V, Inv cls s → (renameAll cls s l).2 = none →
    (renameAll cls s l).1.items = s.items.map (fun e => (through l e.1, e.2)) ∧
    (renameAll cls s l).1.ncols = s.ncols ∧ (renameAll cls s l).1.locked = s.locked ∧ (renameAll cls s l).1.heap = s.heap := by
  induction l with
  | nil => intro s i _; exact ⟨by simp [renameAll, through], rfl, rfl, rfl⟩
  | cons e l ih =>
    intro s i h
    obtain ⟨o, n⟩ := e
    have hr := colRename_items i (o := o) (n := n)
    have hi := inv_colRename i o n
    unfold renameAll at h ⊢
    cases hd : colRename cls s o n with
    | mk s1 m =>
      rw [hd] at hr hi h
      cases m with
      | some m => simp at h
      | none =>
        obtain ⟨r1, r2, r3, r4⟩ := hr rfl
        obtain ⟨h1, h2, h3, h4⟩ := ih s1 hi h
        refine ⟨?_, h2.trans r2, h3.trans r3, h4.trans r4⟩
        show (renameAll cls s1 l).1.items = _
        rw [h1, r1, List.map_map]
        rfl

/-- no target is renamed again later -/
def Ordered : Dict Name Name → Prop
  | [] => True
  | (_, t) :: l => t ∉ keys l ∧ Ordered l

theorem through_notMem (l : Dict Name Name) (n : Name) (h : n ∉ keys l) : through l n = n := by
  induction l with
  | nil => rfl
  | cons e l ih =>
    obtain ⟨o, t⟩ := e
    have h' : n ≠ o ∧ n ∉ keys l := by simpa [keys] using h
    unfold through
    rw [if_neg h'.1]
    exact ih h'.2

theorem through_mem (l : Dict Name Name) (ho : Ordered l) (hn : (keys l).Nodup) {n t : Name} (h : (n, t) ∈ l) : through l n = t := by
  induction l with
  | nil => simp at h
  | cons e l ih =>
    obtain ⟨o, t'⟩ := e
    have hn' : o ∉ keys l ∧ (keys l).Nodup := by
      have : (o :: keys l).Nodup := hn
      exact List.nodup_cons.mp this
    unfold through
    rcases List.mem_cons.mp h with h | h
    · have := Prod.mk.inj h
      rw [this.1, if_pos rfl, this.2]
      exact through_notMem l t' ho.1
    · have hm : n ∈ keys l := List.mem_map_of_mem (f := Prod.fst) h
      rw [if_neg (fun e : n = o => hn'.1 (e ▸ hm))]
      exact ih ho.2 hn'.2 h

theorem ordered_append {a b : Dict Name Name} (ha : Ordered a) (hb : Ordered b) (h : ∀ e ∈ a, e.2 ∉ keys b) : Ordered (a ++ b) := by
  induction a with
  | nil => exact hb
  | cons e a ih =>
    obtain ⟨o, t⟩ := e
    refine ⟨?_, ih ha.2 fun e he => h e (by simp [he])⟩
    show t ∉ keys (a ++ b)
    rw [keys_append, List.mem_append]
    rintro (h' | h')
    · exact ha.1 h'
    · exact h (o, t) (by simp) h'

/-- when all the renames go through: each new name is free by then -/
def Free (cls : Cls) : List Name → Dict Name Name → Prop
  | _, [] => True
  | N, (o, t) :: l => o ∈ N ∧ t ∉ N ∧ validName cls t = true ∧ Free cls (N.map fun k => if k = o then t else k) l

theorem renameAll_ok (l : Dict Name Name) : ∀ s : St V, Inv cls s → s.locked = false → Free cls (names s) l →
    (renameAll cls s l).2 = none := by
  induction l with
  | nil => intro s _ _ _; rfl
  | cons e l ih =>
    intro s i hl hf
    obtain ⟨o, t⟩ := e
    obtain ⟨h1, h2, h3, h4⟩ := hf
    have hi := inv_colRename i o t
    have he := colRename_eq (cls := cls) i.nodup (fun e : o = t => h2 (e ▸ h1)) hl h3 h1 h2
    unfold renameAll
    rw [he] at hi ⊢
    refine ih _ hi hl ?_
    convert h4 using 1
    simp [names, keys, Function.comp_def]

theorem free_of (l : Dict Name Name) : ∀ N : List Name, (keys l).Nodup → (vals l).Nodup → (∀ k ∈ keys l, k ∈ N) →
    (∀ e ∈ l, validName cls e.2 = true) → (∀ l1 o t l2, l = l1 ++ (o, t) :: l2 → t ∉ N ∨ t ∈ keys l1) → Free cls N l := by
  induction l with
  | nil => intros; trivial
  | cons e l ih =>
    intro N hk hv hN hval hfree
    obtain ⟨o, t⟩ := e
    have hk' : o ∉ keys l ∧ (keys l).Nodup := by
      have : (o :: keys l).Nodup := hk
      exact List.nodup_cons.mp this
    have hv' : t ∉ vals l ∧ (vals l).Nodup := by
      have : (t :: vals l).Nodup := hv
      exact List.nodup_cons.mp this
    have ht : t ∉ N := by
      rcases hfree [] o t l rfl with h | h
      · exact h
      · simp [keys] at h
    refine ⟨hN o (by simp [keys]), ht, hval (o, t) (by simp), ih _ hk'.2 hv'.2 ?_ (fun e he => hval e (by simp [he])) ?_⟩
    · intro k hk
      refine List.mem_map.mpr ⟨k, hN k (by simp [keys] at hk ⊢; exact .inr hk), ?_⟩
      rw [if_neg (fun e : k = o => hk'.1 (e ▸ hk))]
    · intro l1 o' t' l2 hl
      rcases hfree ((o, t) :: l1) o' t' l2 (by rw [hl]; rfl) with h | h
      · by_cases h1 : t' ∈ keys l1
        · exact .inr h1
        left
        rw [List.mem_map]
        rintro ⟨k, hkN, hk⟩
        by_cases hko : k = o
        · rw [if_pos hko] at hk
          apply hv'.1
          rw [hk, hl]
          simp [vals]
        · rw [if_neg hko] at hk
          exact h (hk ▸ hkN)
      · have h' : t' = o ∨ t' ∈ keys l1 := by simpa [keys] using h
        rcases h' with h' | h'
        · left
          rw [List.mem_map]
          rintro ⟨k, hkN, hk⟩
          by_cases hko : k = o
          · rw [if_pos hko] at hk
            apply hv'.1
            rw [hk, hl]
            simp [vals]
          · rw [if_neg hko] at hk
            exact hko (hk.trans h')
        · exact .inr h'

/-! ## Swaps -/

theorem value_itemSetValue {c : Container V} (k n : Name) (v : V) :
    ((itemSetValue c k v).get n).map Item.val = if n = k then some v else (c.get n).map Item.val := by
  unfold itemSetValue
  by_cases h : n = k
  · subst h
    split <;> simp [get_set]
  · split <;> simp [get_set, h]

theorem swapAssign_ok (temp : Dict Name V) (l : List (Name × Name)) : ∀ s : St V, s.locked = false →
    (∀ n ∈ names s, validName cls n = true) → (∀ e ∈ l, e.1 ∈ names s) → (∀ e ∈ l, (temp.get e.2).isSome) → (l.map Prod.fst).Nodup →
    (swapAssign cls temp s l).2 = none ∧
    (∀ e ∈ l, value (swapAssign cls temp s l).1 e.1 = temp.get e.2) ∧
    (∀ n, n ∉ l.map Prod.fst → value (swapAssign cls temp s l).1 n = value s n) := by
  induction l with
  | nil => intro s _ _ _ _ _; exact ⟨rfl, by simp, fun _ _ => rfl⟩
  | cons e l ih =>
    intro s hl hv he ht hn
    obtain ⟨k1, k2⟩ := e
    have hk1 := he (k1, k2) (by simp)
    have ht1 := ht (k1, k2) (by simp)
    have hn' := List.nodup_cons.mp hn
    cases hg : temp.get k2 with
    | none => simp [hg] at ht1
    | some v =>
      obtain ⟨a, b, c⟩ := same_setAttr (hv k1 hk1) hk1 hl v
      unfold swapAssign
      rw [hg]
      dsimp only
      cases hd : setAttr cls s k1 v with
      | mk s1 m =>
        rw [hd] at a b c
        dsimp only at b c
        subst b
        dsimp only at a
        obtain ⟨h1, h2, h3⟩ := ih s1 (a.lock.trans hl) (fun n hn => hv n (a.names ▸ hn))
          (fun e he' => a.names.symm ▸ he e (by simp [he'])) (fun e he' => ht e (by simp [he'])) hn'.2
        have hval : ∀ n, value s1 n = if n = k1 then some v else value s n := by
          intro n
          unfold value
          rw [c]
          exact value_itemSetValue k1 n v
        refine ⟨h1, ?_, ?_⟩
        · intro e he'
          rcases List.mem_cons.mp he' with rfl | he'
          · show value (swapAssign cls temp s1 l).1 k1 = temp.get k2
            rw [h3 k1 hn'.1, hval, if_pos rfl, hg]
          · exact h2 e he'
        · intro n hnl
          simp only [List.map_cons, List.mem_cons, not_or] at hnl
          show value (swapAssign cls temp s1 l).1 n = _
          rw [h3 n hnl.2, hval, if_neg hnl.1]

theorem mapM_getAttr_ok (frm : List Name) (hv : ∀ n ∈ names s, validName cls n = true) (hf : ∀ k ∈ frm, k ∈ names s) :
    ∃ temp : Dict Name V, frm.mapM (fun k => (getAttr cls s k).map fun v => (k, v)) = Except.ok temp ∧
      (frm.Nodup → ∀ k ∈ frm, temp.get k = value s k) := by
  suffices h : ∃ temp : Dict Name V, frm.mapM (fun k => (getAttr cls s k).map fun v => (k, v)) = Except.ok temp from by
    obtain ⟨temp, ht⟩ := h
    refine ⟨temp, ht, fun hn k hk => ?_⟩
    obtain ⟨h1, h2⟩ := mapM_getAttr ht
    rw [← h1] at hk hn
    obtain ⟨e, he, rfl⟩ := List.mem_map.mp hk
    obtain ⟨it, hit, hval⟩ := h2 e he
    rw [get_of_mem hn he, value, hit, ← hval]
    rfl
  induction frm with
  | nil => exact ⟨[], rfl⟩
  | cons k frm ih =>
    obtain ⟨temp, ht⟩ := ih fun k hk => hf k (by simp [hk])
    have hk := hf k (by simp)
    have hval := hv k hk
    have hattr : cls.attr k = false := by
      unfold validName at hval
      simp only [Bool.and_eq_true, Bool.not_eq_true', Bool.or_eq_false_iff] at hval
      exact hval.2.2
    cases hg : s.items.get k with
    | none => exact absurd hk ((get_eq_none_iff _ _).mp hg)
    | some it =>
      refine ⟨(k, it.val) :: temp, ?_⟩
      rw [List.mapM_cons, ht]
      have : getAttr cls s k = .ok it.val := by unfold getAttr; rw [hattr, hg]; rfl
      rw [this]
      rfl

theorem colSwap_ok {a b : List Name} (hl : s.locked = false) (hv : ∀ n ∈ names s, validName cls n = true) (ha : a.Nodup)
    (hab : b.Perm a) (hN : ∀ k ∈ a, k ∈ names s) :
    (colSwap cls s a b).2 = none ∧ (∀ e ∈ a.zip b, value (colSwap cls s a b).1 e.2 = value s e.1) ∧
    (∀ n, n ∉ b → value (colSwap cls s a b).1 n = value s n) := by
  unfold colSwap
  rw [if_neg (by simp [hl])]
  by_cases he : a = b
  · subst he
    rw [if_pos rfl]
    refine ⟨rfl, fun e he => ?_, fun _ _ => rfl⟩
    have : e.2 = e.1 := by
      have : ∀ (l : List Name), ∀ e ∈ l.zip l, e.2 = e.1 := by
        intro l
        induction l with
        | nil => simp
        | cons x l ih => intro e he; rcases List.mem_cons.mp he with rfl | he; rfl; exact ih e he
      exact this a e he
    rw [this]
  rw [if_neg he, if_neg (not_not.mpr ⟨hab.length_eq.symm, by rw [ha.dedup]; exact hab.length_eq,
    fun k hk => hab.mem_iff.mpr hk, fun k hk => hab.mem_iff.mp hk⟩)]
  obtain ⟨temp, ht, hval⟩ := mapM_getAttr_ok (cls := cls) a hv hN
  rw [ht]
  dsimp only
  have hz : (b.zip a).map Prod.fst = b := List.map_fst_zip hab.length_eq.le
  obtain ⟨h1, h2, h3⟩ := swapAssign_ok (cls := cls) temp (b.zip a) s hl hv
    (fun e he => hN _ (hab.mem_iff.mp (List.of_mem_zip he).1))
    (fun e he => by
      have hm := (List.of_mem_zip he).2
      rw [hval ha _ hm]
      cases hg : s.items.get e.2 with
      | none => exact absurd (hN _ hm) ((get_eq_none_iff _ _).mp hg)
      | some it => simp [value, hg])
    (by rw [hz]; exact hab.nodup_iff.mpr ha)
  refine ⟨h1, fun e he => ?_, fun n hn => h3 n (by rw [hz]; exact hn)⟩
  have hsw : (e.2, e.1) ∈ b.zip a := by
    have : ∀ (x y : List Name), ∀ e ∈ x.zip y, (e.2, e.1) ∈ y.zip x := by
      intro x
      induction x with
      | nil => simp
      | cons a x ih =>
        intro y e he
        cases y with
        | nil => simp at he
        | cons b y =>
          rcases List.mem_cons.mp he with rfl | he
          · simp
          · exact List.mem_cons_of_mem _ (ih y e he)
    exact this a b e he
  rw [h2 (e.2, e.1) hsw, hval ha _ (List.of_mem_zip he).1]

theorem same_colSwap' (hv : ∀ n ∈ names s, validName cls n = true) (e : List Name × List Name) :
    Same s (colSwap cls s e.1 e.2).1 := same_colSwap hv e.1 e.2

/-- swaps on disjoint sets of columns -/
theorem swapAll_ok (l : List (List Name × List Name)) : ∀ s : St V, s.locked = false → (∀ n ∈ names s, validName cls n = true) →
    (∀ e ∈ l, e.1.Nodup ∧ e.2.Perm e.1 ∧ ∀ k ∈ e.1, k ∈ names s) → l.Pairwise (fun a b => ∀ k ∈ a.1, k ∉ b.1) →
    (swapAll cls s l).2 = none ∧ Same s (swapAll cls s l).1 ∧
    (∀ e ∈ l, ∀ p ∈ e.1.zip e.2, value (swapAll cls s l).1 p.2 = value s p.1) ∧
    (∀ n, (∀ e ∈ l, n ∉ e.1) → value (swapAll cls s l).1 n = value s n) := by
  induction l with
  | nil => intro s _ _ _ _; exact ⟨rfl, Same.refl s, by simp, fun _ _ => rfl⟩
  | cons e l ih =>
    intro s hl hv he hp
    obtain ⟨a, b⟩ := e
    obtain ⟨ha, hab, hN⟩ := he (a, b) (by simp)
    have hsame := same_colSwap (cls := cls) hv a b
    obtain ⟨h1, h2, h3⟩ := colSwap_ok (cls := cls) hl hv ha hab hN
    have hp' := List.pairwise_cons.mp hp
    unfold swapAll
    cases hd : colSwap cls s a b with
    | mk s1 m =>
      rw [hd] at h1 h2 h3 hsame
      dsimp only at h1
      subst h1
      dsimp only at h2 h3 hsame
      obtain ⟨g1, g2, g3, g4⟩ := ih s1 (hsame.lock.trans hl) (fun n hn => hv n (hsame.names ▸ hn))
        (fun e he' => ⟨(he e (by simp [he'])).1, (he e (by simp [he'])).2.1, fun k hk => hsame.names.symm ▸ (he e (by simp [he'])).2.2 k hk⟩) hp'.2
      refine ⟨g1, hsame.trans g2, ?_, ?_⟩
      · intro e he' p hpz
        rcases List.mem_cons.mp he' with rfl | he'
        · show value (swapAll cls s1 l).1 p.2 = _
          rw [g4 p.2 fun e he'' => hp'.1 e he'' _ (hab.mem_iff.mp (List.of_mem_zip hpz).2)]
          exact h2 p hpz
        · show value (swapAll cls s1 l).1 p.2 = _
          rw [g3 e he' p hpz]
          refine h3 p.1 fun hm => ?_
          exact hp'.1 e he' _ (hab.mem_iff.mp hm) (List.of_mem_zip hpz).1
      · intro n hn
        show value (swapAll cls s1 l).1 n = _
        rw [g4 n fun e he' => hn e (by simp [he'])]
        exact h3 n fun hm => hn (a, b) (by simp) (hab.mem_iff.mp hm)

/-! ## The plan -/

/-- invariant of the first loop, after the keys `done` -/
structure PlanOk (d : Dict Name Name) (P : List Name) (done : List Name) (p : Plan) : Prop where
  seen : ∀ k ∈ p.seen, k ∈ keys d ∧ (k ∉ P ∨ ∃ e ∈ p.swaps, k ∈ e.1)
  swaps : ∀ e ∈ p.swaps, (∃ c, Cycle d P c ∧ e = (keys c, vals c)) ∧ ∀ k ∈ e.1, k ∈ p.seen
  disj : p.swaps.Pairwise fun a b => ∀ k ∈ a.1, k ∉ b.1
  trans : ∀ t ∈ p.transitions, ∃ x z, Chain d P x t z
  cover : ∀ k ∈ done, k ∈ p.seen ∨ ∃ t ∈ p.transitions, k ∈ keys t

variable {d : Dict Name Name} {P : List Name}

theorem planBody_ok (hv : (vals d).Nodup) {done : List Name} {p p' : Plan} (hp : PlanOk d P done p) {e : Name × Name}
    (he : e ∈ d) (h : planBody d P p e = .ok p') : PlanOk d P (done ++ [e.1]) p' := by
  have cov : ∀ q : Plan, (∀ k ∈ p.seen, k ∈ q.seen) → (∀ t ∈ p.transitions, t ∈ q.transitions) →
      (e.1 ∈ q.seen ∨ ∃ t ∈ q.transitions, e.1 ∈ keys t) → ∀ k ∈ done ++ [e.1], k ∈ q.seen ∨ ∃ t ∈ q.transitions, k ∈ keys t := by
    intro q h1 h2 h3 k hk
    rcases List.mem_append.mp hk with hk | hk
    · rcases hp.cover k hk with hc | ⟨t, ht, hkt⟩
      · exact .inl (h1 k hc)
      · exact .inr ⟨t, h2 t ht, hkt⟩
    · rw [List.mem_singleton.mp hk]; exact h3
  unfold planBody at h
  by_cases hs : e.1 ∈ p.seen
  · rw [if_pos hs] at h
    rw [← Except.ok.inj h]
    exact ⟨hp.seen, hp.swaps, hp.disj, hp.trans, cov p (fun _ h => h) (fun _ h => h) (.inl hs)⟩
  rw [if_neg hs] at h
  by_cases hP : e.1 ∈ P
  · rw [if_neg (not_not.mpr hP)] at h
    cases hg : getSeq d P (d.length + 1) [] e.1 with
    | error m => rw [hg] at h; simp at h
    | ok r =>
      obtain ⟨c, b⟩ := r
      rw [hg] at h
      cases b with
      | true =>
        have h' := (Except.ok.inj h).symm
        subst h'
        obtain ⟨hc, hmem, y, hpath⟩ := getSeq_true hv hP hg
        refine ⟨?_, ?_, ?_, hp.trans, cov _ (fun k hk => List.mem_append_left _ hk) (fun _ h => h) (.inl (List.mem_append_right _ hmem))⟩
        · intro k hk
          rcases List.mem_append.mp hk with hk | hk
          · obtain ⟨h1, h2⟩ := hp.seen k hk
            refine ⟨h1, h2.imp id ?_⟩
            rintro ⟨a, ha, hka⟩
            exact ⟨a, List.mem_append_left _ ha, hka⟩
          · refine ⟨?_, .inr ⟨(keys c, vals c), List.mem_append_right _ (by simp [vals]), hk⟩⟩
            obtain ⟨a, ha, rfl⟩ := List.mem_map.mp hk
            exact List.mem_map_of_mem (hc.sub a ha)
        · intro a ha
          rcases List.mem_append.mp ha with ha | ha
          · exact ⟨(hp.swaps a ha).1, fun k hk => List.mem_append_left _ ((hp.swaps a ha).2 k hk)⟩
          · rw [List.mem_singleton.mp ha]
            exact ⟨⟨c, hc, rfl⟩, fun k hk => List.mem_append_right _ hk⟩
        · refine List.pairwise_append.mpr ⟨hp.disj, by simp, ?_⟩
          intro a ha b hb k hka hkb
          rw [List.mem_singleton.mp hb] at hkb
          obtain ⟨⟨c', hc', rfl⟩, hsub⟩ := hp.swaps a ha
          exact hpath.avoid hc' hv (fun hm => hs (hsub _ hm)) k hkb hka
      | false =>
        have h' := (Except.ok.inj h).symm
        subst h'
        obtain ⟨hmem, z, hc⟩ := getSeq_false hP hg
        refine ⟨hp.seen, hp.swaps, hp.disj, ?_, cov _ (fun _ h => h) (fun t ht => List.mem_append_left _ ht)
          (.inr ⟨c, List.mem_append_right _ (by simp), hmem⟩)⟩
        intro t ht
        rcases List.mem_append.mp ht with ht | ht
        · exact hp.trans t ht
        · rw [List.mem_singleton.mp ht]; exact ⟨_, z, hc⟩
  · rw [if_pos hP] at h
    have h' := (Except.ok.inj h).symm
    subst h'
    refine ⟨?_, fun a ha => ⟨(hp.swaps a ha).1, fun k hk => List.mem_append_left _ ((hp.swaps a ha).2 k hk)⟩, hp.disj, hp.trans,
      cov _ (fun k hk => List.mem_append_left _ hk) (fun _ h => h) (.inl (by simp))⟩
    intro k hk
    rcases List.mem_append.mp hk with hk | hk
    · exact hp.seen k hk
    · rw [List.mem_singleton.mp hk]
      exact ⟨List.mem_map_of_mem he, .inl hP⟩

theorem plan_ok (hv : (vals d).Nodup) (l : Dict Name Name) : ∀ (done : List Name) (p p' : Plan), PlanOk d P done p →
    (∀ e ∈ l, e ∈ d) → l.foldlM (planBody d P) p = .ok p' → PlanOk d P (done ++ keys l) p' := by
  induction l with
  | nil =>
    intro done p p' hp _ h
    rw [List.foldlM_nil] at h
    rw [← Except.ok.inj h]
    simpa [keys] using hp
  | cons e l ih =>
    intro done p p' hp hl h
    rw [List.foldlM_cons] at h
    cases hb : planBody d P p e with
    | error m => rw [hb] at h; cases h
    | ok p1 =>
      rw [hb] at h
      have := ih (done ++ [e.1]) p1 p' (planBody_ok hv hp (hl e (by simp)) hb) (fun a ha => hl a (by simp [ha])) h
      rw [List.append_assoc] at this
      exact this

theorem plan_total (hd : (keys d).Nodup) (ht : ∀ e ∈ d, e.2 ∈ P → e.2 ∈ keys d) (l : Dict Name Name) :
    ∀ p : Plan, (∀ e ∈ l, e ∈ d) → ∃ p', l.foldlM (planBody d P) p = .ok p' := by
  induction l with
  | nil => intro p _; exact ⟨p, rfl⟩
  | cons e l ih =>
    intro p hl
    have : ∃ p1, planBody d P p e = .ok p1 := by
      unfold planBody
      split
      · exact ⟨_, rfl⟩
      split
      · exact ⟨_, rfl⟩
      · obtain ⟨r, hr⟩ := getSeq_total hd ht (d.length + 1) [] e.1 (by simp [keys]) (by simp)
          (List.mem_map_of_mem (hl e (by simp))) (by simp)
        rw [hr]
        obtain ⟨c, b⟩ := r
        cases b <;> exact ⟨_, rfl⟩
    obtain ⟨p1, h1⟩ := this
    obtain ⟨p', h'⟩ := ih p1 fun a ha => hl a (by simp [ha])
    refine ⟨p', ?_⟩
    rw [List.foldlM_cons, h1]
    exact h'

/-! ## Choosing the chains -/

/-- the collected renames -/
structure RenOk (d : Dict Name Name) (P : List Name) (seen0 : List Name) (acc : List Name × Dict Name Name) : Prop where
  seen : ∀ k, k ∈ acc.1 ↔ k ∈ seen0 ∨ k ∈ keys acc.2
  sub : ∀ e ∈ acc.2, e ∈ d
  nodup : (keys acc.2).Nodup
  cols : ∀ k ∈ keys acc.2, k ∈ P
  fresh : ∀ k ∈ keys acc.2, k ∉ seen0
  ordered : Ordered acc.2
  free : ∀ l1 o t l2, acc.2 = l1 ++ (o, t) :: l2 → t ∉ P ∨ t ∈ keys l1

theorem keys_reverse (l : Dict Name Name) : keys l.reverse = (keys l).reverse := by simp [keys]

theorem chain_targets {x z : Name} {t : Dict Name Name} (h : Chain d P x t z) :
    ∀ l1 o n l2, t.reverse = l1 ++ (o, n) :: l2 → (n ∉ P ∨ n ∈ keys l1) := by
  intro l1 o n l2 hl
  have : t = l2.reverse ++ (o, n) :: l1.reverse := by
    have := congrArg List.reverse hl
    simpa using this
  rcases h.path.target _ _ _ _ this with ⟨e, _⟩ | ⟨l3, t', e⟩
  · left; rw [e]; exact h.out
  · right
    have := congrArg List.reverse e
    rw [List.reverse_reverse] at this
    rw [this]
    simp [keys]

theorem ordered_of {l : Dict Name Name} (hn : (keys l).Nodup) (hP : ∀ k ∈ keys l, k ∈ P)
    (h : ∀ l1 o n l2, l = l1 ++ (o, n) :: l2 → (n ∉ P ∨ n ∈ keys l1)) : Ordered l := by
  suffices hs : ∀ l1 l2, l = l1 ++ l2 → Ordered l2 from hs [] l rfl
  intro l1 l2
  induction l2 generalizing l1 with
  | nil => intro _; trivial
  | cons e l2 ih =>
    intro hl
    obtain ⟨o, n⟩ := e
    refine ⟨?_, ih (l1 ++ [(o, n)]) (by rw [hl]; simp)⟩
    intro hm
    have hnk : n ∈ keys l := by rw [hl]; simp [keys] at hm ⊢; exact .inr (.inr hm)
    rcases h l1 o n l2 hl with h' | h'
    · exact h' (hP n hnk)
    · rw [hl, keys_append, List.nodup_append] at hn
      exact hn.2.2 n h' n (by simp [keys] at hm ⊢; exact .inr hm) rfl

theorem transBody_ok {seen0 : List Name} {acc : List Name × Dict Name Name} (hr : RenOk d P seen0 acc) {x z : Name}
    {t : Dict Name Name} (ht : Chain d P x t z) : RenOk d P seen0 (transBody acc t) := by
  unfold transBody
  by_cases h : t.keys.any (fun k => k ∈ acc.1) = true
  · rw [if_pos h]; exact hr
  rw [if_neg h]
  have hnone : ∀ k ∈ keys t, k ∉ acc.1 := by
    intro k hk hka
    exact h (List.any_eq_true.mpr ⟨k, hk, by simpa using hka⟩)
  have hkr : ∀ k, k ∈ keys t.reverse ↔ k ∈ keys t := fun k => by rw [keys_reverse]; simp
  have hnd : (keys (acc.2 ++ t.reverse)).Nodup := by
    rw [keys_append, List.nodup_append]
    refine ⟨hr.nodup, by rw [keys_reverse]; exact List.nodup_reverse.mpr ht.nodup, ?_⟩
    intro a ha b hb e
    exact hnone b ((hkr b).mp hb) ((hr.seen b).mpr (.inr (e ▸ ha)))
  have hcols : ∀ k ∈ keys (acc.2 ++ t.reverse), k ∈ P := by
    intro k hk
    rw [keys_append, List.mem_append] at hk
    rcases hk with hk | hk
    · exact hr.cols k hk
    · exact ht.cols k ((hkr k).mp hk)
  have hfree : ∀ l1 o n l2, acc.2 ++ t.reverse = l1 ++ (o, n) :: l2 → n ∉ P ∨ n ∈ keys l1 := by
    intro l1 o n l2 hl
    rcases List.append_eq_append_iff.mp hl with ⟨m, h1, h2⟩ | ⟨m, h1, h2⟩
    · rcases chain_targets ht m o n l2 h2 with h' | h'
      · exact .inl h'
      · right; rw [h1, keys_append]; exact List.mem_append_right _ h'
    · cases m with
      | nil =>
        rw [List.nil_append] at h2
        rw [List.append_nil] at h1
        rcases chain_targets ht [] o n l2 (by rw [List.nil_append]; exact h2.symm) with h' | h'
        · exact .inl h'
        · simp [keys] at h'
      | cons e m =>
        simp only [List.cons_append, List.cons.injEq] at h2
        rw [← h2.1] at h1
        exact hr.free l1 o n m h1
  refine ⟨?_, ?_, hnd, hcols, ?_, ordered_of hnd hcols hfree, hfree⟩
  · intro k
    show k ∈ acc.1 ++ t.keys.reverse ↔ k ∈ seen0 ∨ k ∈ keys (acc.2 ++ t.reverse)
    rw [keys_append, keys_reverse, List.mem_append, List.mem_append, hr.seen k, or_assoc]
  · intro e he
    rcases List.mem_append.mp he with he | he
    · exact hr.sub e he
    · exact ht.path.sub e (List.mem_reverse.mp he)
  · intro k hk hk0
    have hk' : k ∈ keys acc.2 ++ keys t.reverse := by rw [← keys_append]; exact hk
    rcases List.mem_append.mp hk' with hk' | hk'
    · exact hr.fresh k hk' hk0
    · exact hnone k ((hkr k).mp hk') ((hr.seen k).mpr (.inl hk0))

theorem renames_ok {seen0 : List Name} (l : List (Dict Name Name)) : ∀ acc, RenOk d P seen0 acc →
    (∀ t ∈ l, ∃ x z, Chain d P x t z) → RenOk d P seen0 (l.foldl transBody acc) := by
  induction l with
  | nil => intro acc h _; exact h
  | cons t l ih =>
    intro acc h hl
    obtain ⟨x, z, hc⟩ := hl t (by simp)
    exact ih _ (transBody_ok h hc) fun t ht => hl t (by simp [ht])

theorem renOk_init (seen0 : List Name) : RenOk d P seen0 (seen0, []) :=
  ⟨by simp [keys], by simp, by simp [keys], by simp [keys], by simp [keys], trivial, by simp⟩

/-- longest first: every key of every chain ends up among the seen names -/
theorem renames_cover (hd : (keys d).Nodup) (hv : (vals d).Nodup) {seen0 : List Name} (l : List (Dict Name Name)) :
    ∀ (taken : List (Dict Name Name)) acc, RenOk d P seen0 acc → (∀ t ∈ l, ∃ x z, Chain d P x t z) →
    (∀ t ∈ l, ∀ k ∈ keys t, k ∉ seen0) →
    (∀ e ∈ acc.2, ∃ t ∈ taken, e ∈ t ∧ (∀ e' ∈ t, e' ∈ acc.2) ∧ (∃ x z, Chain d P x t z) ∧ ∀ t' ∈ l, t'.length ≤ t.length) →
    l.Pairwise (fun a b => b.length ≤ a.length) → ∀ t ∈ l, ∀ k ∈ keys t, k ∈ (l.foldl transBody acc).1 := by
  have mono : ∀ (l : List (Dict Name Name)) (acc : List Name × Dict Name Name) (k : Name), k ∈ acc.1 → k ∈ (l.foldl transBody acc).1 := by
    intro l
    induction l with
    | nil => intro acc k h; exact h
    | cons t l ih =>
      intro acc k h
      refine ih _ k ?_
      unfold transBody
      split
      · exact h
      · exact List.mem_append_left _ h
  induction l with
  | nil => intro _ _ _ _ _ _ _ t ht; simp at ht
  | cons t0 l ih =>
    intro taken acc hr hl hs htk hsort t ht k hk
    obtain ⟨x, z, hc⟩ := hl t0 (by simp)
    have hsort' := List.pairwise_cons.mp hsort
    have hr' := transBody_ok hr hc
    rw [List.foldl_cons]
    have h0 : ∀ k ∈ keys t0, k ∈ (transBody acc t0).1 := by
      intro k hk
      unfold transBody
      by_cases h : t0.keys.any (fun k => k ∈ acc.1) = true
      · rw [if_pos h]
        obtain ⟨k0, hk0, hka⟩ := List.any_eq_true.mp h
        rw [decide_eq_true_eq] at hka
        rcases (hr.seen k0).mp hka with h' | h'
        · exact absurd h' (hs t0 (by simp) k0 hk0)
        · obtain ⟨e, he, rfl⟩ := List.mem_map.mp h'
          obtain ⟨t', _, het, hsub, ⟨x', z', hc'⟩, hlen⟩ := htk e he
          have := hc.nested hc' hd hv (hlen t0 (by simp)) hk0 (List.mem_map_of_mem het)
          obtain ⟨e', he', rfl⟩ := List.mem_map.mp hk
          exact (hr.seen _).mpr (.inr (List.mem_map_of_mem (hsub e' (this e' he'))))
      · rw [if_neg h]
        exact List.mem_append_right _ (by rw [List.mem_reverse]; exact hk)
    rcases List.mem_cons.mp ht with rfl | ht
    · exact mono l _ k (h0 k hk)
    refine ih (t0 :: taken) _ hr' (fun t ht => hl t (by simp [ht])) (fun t ht => hs t (by simp [ht])) ?_ hsort'.2 t ht k hk
    intro e he
    by_cases h : t0.keys.any (fun k => k ∈ acc.1) = true
    · have hT : transBody acc t0 = acc := by unfold transBody; rw [if_pos h]
      rw [hT] at he ⊢
      obtain ⟨t', h1, h2, h3, h4, h5⟩ := htk e he
      exact ⟨t', by simp [h1], h2, h3, h4, fun t'' ht'' => h5 t'' (by simp [ht''])⟩
    · have hT : transBody acc t0 = (acc.1 ++ t0.keys.reverse, acc.2 ++ t0.reverse) := by unfold transBody; rw [if_neg h]
      rw [hT] at he ⊢
      dsimp only at he ⊢
      rcases List.mem_append.mp he with he | he
      · obtain ⟨t', h1, h2, h3, h4, h5⟩ := htk e he
        exact ⟨t', by simp [h1], h2, fun e' he' => List.mem_append_left _ (h3 e' he'), h4, fun t'' ht'' => h5 t'' (by simp [ht''])⟩
      · exact ⟨t0, by simp, List.mem_reverse.mp he, fun e' he' => List.mem_append_right _ (List.mem_reverse.mpr he'),
          ⟨x, z, hc⟩, fun t'' ht'' => hsort'.1 t'' ht''⟩

/-! ## The outcome of `_safe_reordering_of_renames` -/

/-- what the caller needs of a plan -/
structure Good (d : Dict Name Name) (P : List Name) (ren : Dict Name Name) (swaps : List (List Name × List Name)) : Prop where
  sub : ∀ e ∈ ren, e ∈ d
  nodup : (keys ren).Nodup
  cols : ∀ k ∈ keys ren, k ∈ P
  ordered : Ordered ren
  cycles : ∀ e ∈ swaps, ∃ c, Cycle d P c ∧ e = (keys c, vals c)
  disj : swaps.Pairwise fun a b => ∀ k ∈ a.1, k ∉ b.1
  apart : ∀ e ∈ swaps, ∀ k ∈ e.1, k ∉ keys ren
  cover : ∀ k ∈ keys d, k ∈ P → k ∈ keys ren ∨ ∃ e ∈ swaps, k ∈ e.1
  free : ∀ l1 o t l2, ren = l1 ++ (o, t) :: l2 → t ∉ P ∨ t ∈ keys l1

theorem good_of_plan {p : Plan} (hp : PlanOk d P (keys d) p) {acc : List Name × Dict Name Name} (hr : RenOk d P p.seen acc)
    (hcov : ∀ k ∈ keys d, k ∈ acc.1) : Good d P acc.2 p.swaps := by
  refine ⟨hr.sub, hr.nodup, hr.cols, hr.ordered, fun e he => (hp.swaps e he).1, hp.disj, ?_, ?_, hr.free⟩
  · intro e he k hk hkr
    exact hr.fresh k hkr ((hp.swaps e he).2 k hk)
  · intro k hk hkP
    rcases (hr.seen k).mp (hcov k hk) with h | h
    · rcases (hp.seen k h).2 with h' | h'
      · exact absurd hkP h'
      · exact .inr h'
    · exact .inl h

theorem seen_sub {p : Plan} (hp : PlanOk d P (keys d) p) {acc : List Name × Dict Name Name} (hr : RenOk d P p.seen acc) :
    ∀ k ∈ acc.1, k ∈ keys d := by
  intro k hk
  rcases (hr.seen k).mp hk with h | h
  · exact (hp.seen k h).1
  · obtain ⟨e, he, rfl⟩ := List.mem_map.mp h
    exact List.mem_map_of_mem (hr.sub e he)

theorem planOk_init : PlanOk d P [] ⟨[], [], []⟩ :=
  ⟨by simp, by simp, by simp, by simp, by simp⟩

theorem safeReordering_good (hd : (keys d).Nodup) (hv : (vals d).Nodup) {ren : Dict Name Name}
    {swaps : List (List Name × List Name)} (h : safeReordering d P = .ok (ren, swaps)) : Good d P ren swaps := by
  unfold safeReordering at h
  cases hf : d.foldlM (planBody d P) ⟨[], [], []⟩ with
  | error e => rw [hf] at h; simp at h
  | ok p =>
    rw [hf] at h
    have hp : PlanOk d P (keys d) p := by
      have := plan_ok hv d [] _ p planOk_init (fun _ h => h) hf
      simpa using this
    have hr : RenOk d P p.seen ((sortByLength p.transitions).foldl transBody (p.seen, [])) := by
      refine renames_ok _ _ (renOk_init p.seen) fun t ht => hp.trans t ?_
      exact (List.perm_insertionSort _ _).mem_iff.mp ht
    dsimp only at h
    split at h
    · simp at h
    · rename_i hlen
      rw [not_not] at hlen
      have := Except.ok.inj h
      simp only [Prod.mk.injEq] at this
      obtain ⟨rfl, rfl⟩ := this
      refine good_of_plan hp hr ?_
      have hsub : ((sortByLength p.transitions).foldl transBody (p.seen, [])).1.dedup ⊆ keys d :=
        fun k hk => seen_sub hp hr k (List.mem_dedup.mp hk)
      have hperm := (List.subperm_of_subset (List.nodup_dedup _) hsub).perm_of_length_le (by
        rw [hlen]; simp [keys])
      intro k hk
      exact List.mem_dedup.mp (hperm.mem_iff.mpr hk)

theorem safeReordering_total (hd : (keys d).Nodup) (hv : (vals d).Nodup) (ht : ∀ e ∈ d, e.2 ∈ P → e.2 ∈ keys d) :
    ∃ r, safeReordering d P = .ok r := by
  obtain ⟨p, hf⟩ := plan_total hd ht d ⟨[], [], []⟩ (fun _ h => h)
  have hp : PlanOk d P (keys d) p := by
    have := plan_ok hv d [] _ p planOk_init (fun _ h => h) hf
    simpa using this
  have hmem : ∀ t ∈ sortByLength p.transitions, ∃ x z, Chain d P x t z := fun t ht =>
    hp.trans t ((List.perm_insertionSort _ _).mem_iff.mp ht)
  have hr := renames_ok _ _ (renOk_init (d := d) (P := P) p.seen) hmem
  have hcov := renames_cover hd hv (sortByLength p.transitions) [] (p.seen, []) (renOk_init p.seen) hmem
    (by
      intro t ht k hk hks
      obtain ⟨x, z, hc⟩ := hmem t ht
      rcases (hp.seen k hks).2 with h | ⟨e, he, hke⟩
      · exact h (hc.cols k hk)
      · obtain ⟨⟨c, hcy, rfl⟩, _⟩ := hp.swaps e he
        exact hc.avoid hd hcy k hk hke)
    (by simp)
    (by
      have : IsTrans (Dict Name Name) (fun a b => a.length ≥ b.length) := ⟨fun a b c h1 h2 => Nat.le_trans h2 h1⟩
      have : Std.Total (α := Dict Name Name) (fun a b => a.length ≥ b.length) := ⟨fun a b => Nat.le_total b.length a.length⟩
      exact List.pairwise_insertionSort _ _)
  have hall : ∀ k ∈ keys d, k ∈ ((sortByLength p.transitions).foldl transBody (p.seen, [])).1 := by
    intro k hk
    rcases hp.cover k hk with h | ⟨t, ht, hkt⟩
    · exact (hr.seen k).mpr (.inl h)
    · exact hcov t ((List.perm_insertionSort _ _).mem_iff.mpr ht) k hkt
  unfold safeReordering
  rw [hf]
  dsimp only
  have hperm : ((sortByLength p.transitions).foldl transBody (p.seen, [])).1.dedup.Perm (keys d) := by
    refine (List.perm_ext_iff_of_nodup (List.nodup_dedup _) hd).mpr fun k => ?_
    rw [List.mem_dedup]
    exact ⟨seen_sub hp hr k, hall k⟩
  rw [if_neg (not_not.mpr (by rw [hperm.length_eq]; simp [keys]))]
  exact ⟨_, rfl⟩

end Verif.Struct
