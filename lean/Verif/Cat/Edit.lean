import Verif.Cat.Lemmas
/-!
# C28: category edits
-/
namespace Verif.Cat

theorem categoryAdd_spec {c : Cat} (hw : WF c) (v : Label) :
    WF (categoryAdd c v).1 ∧
    ((c.locked = true ∨ v ∈ c.list) → (categoryAdd c v).1 = c ∧ (categoryAdd c v).2 ≠ none) ∧
    (c.locked = false → v ∉ c.list → (categoryAdd c v).2 = none ∧ (categoryAdd c v).1.list = c.list ++ [v] ∧
      rows (categoryAdd c v).1 = rows c) := by
  unfold categoryAdd
  cases hl : c.locked with
  | true => simp [hw]
  | false =>
    rw [if_neg (by simp)]
    rcases matchIndex_cases hw v with ⟨hv, hm⟩ | ⟨i, hi, _, hm⟩
    · rw [hm]
      refine ⟨⟨hw.base, ?_, ?_, hw.lo, ?_, ?_⟩, ?_, ?_⟩
      · exact List.Nodup.append hw.nodup (by simp) (by simpa using hv)
      · simp
      · intro k hk
        have := hw.hi k hk
        simp; omega
      · intro l hl
        rcases List.mem_append.1 hl with h | h
        · exact le_trans (hw.wid l h) (Nat.le_max_left _ _)
        · rw [List.mem_singleton.1 h]; exact Nat.le_max_right _ _
      · simp [hv]
      · intro _ _
        refine ⟨rfl, rfl, ?_⟩
        unfold rows
        refine List.map_congr_left fun k hk => ?_
        have := hw.hi k hk
        unfold label?
        dsimp only
        split
        · rfl
        · rw [List.getElem?_append_left (by omega)]
    · rw [hm]
      have hv : v ∈ c.list := List.mem_of_getElem? hi
      exact ⟨hw, by simp, fun _ h => absurd hv h⟩

theorem filter_ne_eq {l : List Label} (hn : l.Nodup) {v : Label} {i : Nat} (hi : l[i]? = some v) :
    l.filter (· ≠ v) = l.take i ++ l.drop (i + 1) := by
  induction l generalizing i with
  | nil => simp at hi
  | cons x xs ih =>
    rw [List.nodup_cons] at hn
    cases i with
    | zero =>
      simp at hi
      subst hi
      rw [List.filter_cons_of_neg (by simp)]
      simp only [List.take_zero, List.nil_append, List.drop_succ_cons, List.drop_zero]
      rw [List.filter_eq_self]
      intro y hy
      have : y ≠ x := fun h => hn.1 (h ▸ hy)
      simpa using this
    | succ i =>
      have hi' : xs[i]? = some v := by simpa using hi
      have hx : x ≠ v := fun h => hn.1 (h ▸ List.mem_of_getElem? hi')
      rw [List.filter_cons_of_pos (by simpa using hx), ih hn.2 hi']
      simp

theorem categoryRemove_spec {c : Cat} (hw : WF c) (v : Label) :
    WF (categoryRemove c v).1 ∧
    ((c.locked = true ∨ v ∉ c.list) → (categoryRemove c v).1 = c ∧ (categoryRemove c v).2 ≠ none) ∧
    (c.locked = false → v ∈ c.list → (categoryRemove c v).2 = none ∧ (categoryRemove c v).1.list = c.list.filter (· ≠ v) ∧
      rows (categoryRemove c v).1 = (rows c).map (relabel v none)) := by
  unfold categoryRemove
  cases hl : c.locked with
  | true => simp [hw]
  | false =>
    rw [if_neg (by simp)]
    rcases matchIndex_cases hw v with ⟨hv, hm⟩ | ⟨i, hi, hlt, hm⟩
    · rw [hm]
      exact ⟨hw, by simp, fun _ h => absurd h hv⟩
    · rw [hm]
      have hv : v ∈ c.list := List.mem_of_getElem? hi
      dsimp only
      rw [show ((i : Int) + c.base - c.base).toNat = i by omega]
      have hlist := filter_ne_eq hw.nodup hi
      have hb := hw.base
      have hlen : (c.list.take i ++ c.list.drop (i + 1)).length = c.list.length - 1 := by
        simp; omega
      refine ⟨⟨hw.base, ?_, ?_, ?_, ?_, ?_⟩, ?_, ?_⟩
      · dsimp only
        rw [← hlist]
        exact hw.nodup.filter _
      · intro hs
        dsimp only
        rw [← hlist]
        exact (hw.srt hs).filter _
      · intro k hk
        dsimp only at hk ⊢
        simp only [List.map_map, List.mem_map, Function.comp] at hk
        obtain ⟨k0, hk0, rfl⟩ := hk
        have := hw.lo k0 hk0
        have := hw.hi k0 hk0
        split <;> split <;> (try split) <;> omega
      · intro k hk
        dsimp only at hk ⊢
        rw [hlen]
        simp only [List.map_map, List.mem_map, Function.comp] at hk
        obtain ⟨k0, hk0, rfl⟩ := hk
        have := hw.lo k0 hk0
        have := hw.hi k0 hk0
        split <;> split <;> (try split) <;> omega
      · intro l hl
        dsimp only at hl ⊢
        rw [← hlist] at hl
        exact hw.wid l (List.mem_of_mem_filter hl)
      · simp [hv]
      · intro _ _
        refine ⟨rfl, hlist.symm, ?_⟩
        unfold rows
        dsimp only
        simp only [List.map_map]
        refine List.map_congr_left fun k hk => ?_
        have hlo := hw.lo k hk
        have hhi := hw.hi k hk
        simp only [Function.comp]
        unfold relabel
        by_cases hki : k = (i : Int) + c.base
        · rw [if_pos hki, (label?_eq_some_iff hw hi k).2 hki, if_pos rfl]
          unfold label?
          rw [if_pos]
          split <;> split <;> omega
        · rw [if_neg hki, if_neg (fun h => hki ((label?_eq_some_iff hw hi k).1 h))]
          unfold label?
          by_cases hgt : k > (i : Int) + c.base
          · rw [if_pos hgt, if_neg (by omega), if_neg (by omega)]
            rw [List.getElem?_append_right (by rw [List.length_take]; omega), List.getElem?_drop, List.length_take]
            congr 1; omega
          · rw [if_neg hgt]
            split
            · rfl
            · rw [List.getElem?_append_left (by rw [List.length_take]; omega), List.getElem?_take_of_lt (by omega)]

theorem set_eq_map {l : List Label} (hn : l.Nodup) {v w : Label} {i : Nat} (hi : l[i]? = some v) :
    l.set i w = l.map fun x => if x = v then w else x := by
  induction l generalizing i with
  | nil => simp at hi
  | cons x xs ih =>
    rw [List.nodup_cons] at hn
    cases i with
    | zero =>
      simp at hi
      subst hi
      rw [List.set_cons_zero, List.map_cons, if_pos rfl]
      congr 1
      symm
      conv_rhs => rw [← List.map_id xs]
      refine List.map_congr_left fun y hy => ?_
      have hyx : y ≠ x := fun h => hn.1 (h ▸ hy)
      rw [if_neg hyx]; rfl
    | succ i =>
      have hi' : xs[i]? = some v := by simpa using hi
      have hx : x ≠ v := fun h => hn.1 (h ▸ List.mem_of_getElem? hi')
      rw [List.set_cons_succ, List.map_cons, if_neg hx, ih hn.2 hi']

theorem categoryReplace_spec {c : Cat} (hw : WF c) (v w : Label) (hf : w.length ≤ c.width) :
    WF (categoryReplace c v w).1 ∧
    ((c.locked = true ∨ v ∉ c.list) → (categoryReplace c v w).1 = c ∧ (categoryReplace c v w).2 ≠ none) ∧
    (c.locked = false → v ∈ c.list → (categoryReplace c v w).2 = none ∧
      (categoryReplace c v w).1.list = (if w ∈ c.list then c.list else c.list.map fun x => if x = v then w else x) ∧
      rows (categoryReplace c v w).1 = (rows c).map (relabel v (some w))) := by
  unfold categoryReplace
  cases hl : c.locked with
  | true => simp [hw]
  | false =>
    rw [if_neg (by simp)]
    rcases matchIndex_cases hw v with ⟨hv, hm⟩ | ⟨i, hi, hlt, hm⟩
    · rw [hm]
      exact ⟨hw, by simp, fun _ h => absurd h hv⟩
    · rw [hm]
      have hv : v ∈ c.list := List.mem_of_getElem? hi
      dsimp only
      rcases matchIndex_cases hw w with ⟨hwl, hm2⟩ | ⟨j, hj, hjlt, hm2⟩
      · rw [hm2]
        dsimp only
        rw [show ((i : Int) + c.base - c.base).toNat = i by omega, List.take_of_length_le hf]
        have hmem : ∀ x ∈ c.list.set i w, x ∈ c.list ∨ x = w := fun x hx => List.mem_or_eq_of_mem_set hx
        refine ⟨⟨hw.base, ?_, by simp, hw.lo, ?_, ?_⟩, by simp [hv], ?_⟩
        · dsimp only
          rw [set_eq_map hw.nodup hi, List.nodup_map_iff_inj_on hw.nodup]
          intro x hx y hy hxy
          split at hxy <;> split at hxy
          · simp_all
          · subst hxy; exact absurd hy hwl
          · subst hxy; exact absurd hx hwl
          · exact hxy
        · intro k hk
          have := hw.hi k hk
          simpa using this
        · intro l hl
          rcases hmem l hl with h | h
          · exact hw.wid l h
          · rw [h]; exact hf
        · intro _ _
          refine ⟨rfl, ?_, ?_⟩
          · rw [if_neg hwl]
            exact set_eq_map hw.nodup hi
          · unfold rows
            rw [List.map_map]
            refine List.map_congr_left fun k hk => ?_
            simp only [Function.comp, relabel]
            by_cases hki : k = (i : Int) + c.base
            · rw [(label?_eq_some_iff hw hi k).2 hki, if_pos rfl]
              unfold label?
              rw [if_neg (by omega), show (k - (c.base : Int)).toNat = i by omega, List.getElem?_set_self hlt]
            · rw [if_neg (fun h => hki ((label?_eq_some_iff hw hi k).1 h))]
              unfold label?
              split
              · rfl
              · rw [List.getElem?_set_ne (by omega)]
      · rw [hm2]
        dsimp only
        have hwm : w ∈ c.list := List.mem_of_getElem? hj
        refine ⟨⟨hw.base, hw.nodup, hw.srt, ?_, ?_, hw.wid⟩, by simp [hv], ?_⟩
        · intro k hk
          simp only [List.mem_map] at hk
          obtain ⟨k0, hk0, rfl⟩ := hk
          have := hw.lo k0 hk0
          dsimp only
          split <;> omega
        · intro k hk
          simp only [List.mem_map] at hk
          obtain ⟨k0, hk0, rfl⟩ := hk
          have := hw.hi k0 hk0
          dsimp only
          split <;> omega
        · intro _ _
          refine ⟨rfl, by rw [if_pos hwm], ?_⟩
          unfold rows
          dsimp only
          rw [List.map_map, List.map_map]
          refine List.map_congr_left fun k hk => ?_
          simp only [Function.comp, relabel]
          by_cases hki : k = (i : Int) + c.base
          · rw [if_pos hki, (label?_eq_some_iff hw hi k).2 hki, if_pos rfl]
            exact (label?_eq_some_iff hw hj _).2 rfl
          · rw [if_neg hki, if_neg (fun h => hki ((label?_eq_some_iff hw hi k).1 h))]

/-- **C28** one edit of an unlocked Categorical: it raises exactly when it should, and then nothing changes; otherwise
the categories and the labels of the rows are those of the specification. -/
theorem step_spec_partial {c : Cat} (hw : WF c) (hl : c.locked = false) (e : Edit) (hf : Fits c e) :
    match editSpec c.list (rows c) e with
    | none => (step c e).2 ≠ none ∧ (step c e).1 = c
    | some (l', r') => (step c e).2 = none ∧ (step c e).1.list = l' ∧ rows (step c e).1 = r' := by
  cases e with
  | add v =>
    obtain ⟨_, h1, h2⟩ := categoryAdd_spec hw v
    simp only [editSpec, step]
    by_cases hv : v ∈ c.list
    · rw [if_pos hv]; exact ⟨(h1 (.inr hv)).2, (h1 (.inr hv)).1⟩
    · rw [if_neg hv]; exact h2 hl hv
  | remove v =>
    obtain ⟨_, h1, h2⟩ := categoryRemove_spec hw v
    simp only [editSpec, step]
    by_cases hv : v ∈ c.list
    · rw [if_pos hv]; exact h2 hl hv
    · rw [if_neg hv]; exact ⟨(h1 (.inr hv)).2, (h1 (.inr hv)).1⟩
  | replace v w =>
    obtain ⟨_, h1, h2⟩ := categoryReplace_spec hw v w hf
    simp only [editSpec, step]
    by_cases hv : v ∈ c.list
    · rw [if_pos hv]; exact h2 hl hv
    · rw [if_neg hv]; exact ⟨(h1 (.inr hv)).2, (h1 (.inr hv)).1⟩

theorem step_wf {c : Cat} (hw : WF c) (e : Edit) (hf : Fits c e) : WF (step c e).1 := by
  cases e with
  | add v => exact (categoryAdd_spec hw v).1
  | remove v => exact (categoryRemove_spec hw v).1
  | replace v w => exact (categoryReplace_spec hw v w hf).1

theorem step_locked (c : Cat) (e : Edit) : (step c e).1.locked = c.locked := by
  cases e with
  | add v => simp only [step, categoryAdd]; split <;> (try split) <;> simp
  | remove v => simp only [step, categoryRemove]; split <;> (try split) <;> simp
  | replace v w => simp only [step, categoryReplace]; split <;> (try split) <;> (try split) <;> simp

/-- **C28** any history of edits whose replacement labels fit: the categories and rows are those of the specification. -/
theorem run_spec_partial (es : List Edit) (c : Cat) (hw : WF c) (hl : c.locked = false) (hf : AllFit c es) :
    ((run c es).list, rows (run c es)) = editsSpec c.list (rows c) es := by
  induction es generalizing c with
  | nil => rfl
  | cons e es ih =>
    have hs := step_spec_partial hw hl e hf.1
    have hih := ih (step c e).1 (step_wf hw e hf.1) (by rw [step_locked]; exact hl) hf.2
    simp only [run, editsSpec]
    split at hs
    · rename_i hn
      rw [hn, hih, hs.2]
    · rename_i l' r' hn
      rw [hn, hih, hs.2.1, hs.2.2]

/-- **C28** a locked Categorical is not changed by edits, and every edit raises. -/
theorem locked_unchanged (c : Cat) (hl : c.locked = true) (e : Edit) : (step c e).1 = c ∧ (step c e).2 ≠ none := by
  cases e <;> simp [step, categoryAdd, categoryRemove, categoryReplace, hl]

/-! ## The other view: `c[i]` -/

/-- `c[i]` and the codes agree as long as the two label lists do. -/
theorem itemOf_correct {c : Cat} (hw : WF c) (hu : c.uniq = c.list) (k : Int) (hk : k ∈ c.fa) :
    (∀ l, itemOf c k = .label l ↔ label? c.base c.list k = some l) ∧
    (c.base = 1 → (itemOf c k = .filtered ↔ label? c.base c.list k = none)) := by
  have hlo := hw.lo k hk
  have hhi := hw.hi k hk
  unfold itemOf label?
  rw [hu]
  dsimp only
  by_cases h : k < c.base
  · rw [if_pos (Or.inl (by omega)), if_pos h]
    constructor
    · intro l; split <;> simp
    · intro hb
      rw [if_pos ⟨hb, by omega⟩]; simp
  · rw [if_neg (by omega), if_neg h]
    have hlt : (k - (c.base : Int)).toNat < c.list.length := by omega
    rw [List.getElem?_eq_getElem hlt]
    simp

/-- Replacements keep the two lists equal while they are one array. -/
theorem replace_shared (c : Cat) (v w : Label) (hs : c.shared = true) (hu : c.uniq = c.list) :
    (categoryReplace c v w).1.shared = true ∧ (categoryReplace c v w).1.uniq = (categoryReplace c v w).1.list := by
  unfold categoryReplace
  split
  · exact ⟨hs, hu⟩
  · split
    · exact ⟨hs, hu⟩
    · split
      · exact ⟨hs, hu⟩
      · simp [hs, hu]

/-- After an addition `c[i]` still gives the labels of the rows. -/
theorem items_after_add {c : Cat} (v : Label) : items (categoryAdd c v).1 = items c := by
  unfold categoryAdd
  split
  · rfl
  · split <;> rfl

/-! ## Examples and counterexamples -/

def exC : Cat where
  base := 1
  bits := 8
  fa := [1, 2, 3, 2, 0]
  list := [['a'], ['b'], ['c']]
  width := 1
  uniq := [['a'], ['b'], ['c']]
  shared := true
  sorted := true
  autoAdd := true
  locked := false

theorem exC_wf : WF exC := by
  refine ⟨by decide, by decide, fun _ => by decide, by decide, by decide, by decide⟩

example : AllFit exC [.add ['z', 'z'], .remove ['b'], .replace ['c'] ['y', 'y'], .replace ['a'] ['z', 'z']] := by
  refine ⟨trivial, trivial, ?_, ?_, trivial⟩ <;> (unfold Fits; decide)

example : rows (run exC [.add ['z', 'z'], .remove ['b'], .replace ['c'] ['y', 'y']]) =
    [some ['a'], none, some ['y', 'y'], none, none] := by decide

/-- After `category_remove("b")`, `c[2]` of the row labelled "c" gives "b". -/
theorem remove_items_counterexample : ∃ c, c = (categoryRemove exC ['b']).1 ∧ WF exC ∧
    (rows c)[2]? = some (some ['c']) ∧ (items c)[2]? = some (.label ['b']) :=
  ⟨_, rfl, exC_wf, by decide, by decide⟩

/-- A replacement label that is too long is cut off, and may become equal to another category. -/
theorem replace_truncates_counterexample : ∃ c, c = (categoryReplace exC ['b'] ['a', 'x']).1 ∧ WF exC ∧
    (categoryReplace exC ['b'] ['a', 'x']).2 = none ∧ (rows c)[1]? = some (some ['a']) ∧ ¬ c.list.Nodup :=
  ⟨_, rfl, exC_wf, by decide, by decide, by decide⟩

/-- A replacement after an addition is not seen by `c[i]`. -/
theorem add_replace_items_counterexample : ∃ c, c = run exC [.add ['d'], .replace ['b'] ['x']] ∧ WF exC ∧
    (rows c)[1]? = some (some ['x']) ∧ (items c)[1]? = some (.label ['b']) :=
  ⟨_, rfl, exC_wf, by decide, by decide⟩

end Verif.Cat
