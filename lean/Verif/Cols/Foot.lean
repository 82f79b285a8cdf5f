import Verif.Cols.Props

/-!
# Properties: footers after a function on all columns (C88), and fill values (C85)
-/
namespace Verif.Cols
open Verif.Items (Dict)
open Spec

variable {V : Type}

theorem whole_map_some (vs : List V) : whole (vs.map some) = some vs := by
  induction vs with
  | nil => rfl
  | cons v vs ih => simp [whole, ih]

theorem every_map {α β γ : Type} (g : α → Option β) (h : γ → α) (k : γ → β) (xs : List γ) (hk : ∀ x ∈ xs, g (h x) = some (k x)) :
    every g (xs.map h) = some (xs.map k) := by
  induction xs with
  | nil => rfl
  | cons x xs ih =>
    simp only [List.map_cons, every, hk x (by simp), ih (fun y hy => hk y (List.mem_cons_of_mem _ hy)), Option.bind_some, Option.map_some]

theorem footCells_ok (summ : List String) (hn : summ.Nodup) (ns : List String) : ∀ (i : Nat) (as : List (Option V)), as.length = ns.length →
    ns.filter (fun n => decide (n ∈ summ)) = summ.drop i →
    footCells summ ns as ((List.range' i (summ.length - i)).map summaryName) = some (List.zip (ns.map (newName summ)) as) := by
  induction ns with
  | nil => intro i as ha _; cases as <;> simp [footCells]
  | cons n ns ih =>
    intro i as ha hf
    cases as with
    | nil => simp at ha
    | cons a as =>
      have ha' : as.length = ns.length := by simpa using ha
      by_cases hm : n ∈ summ
      · have hf' : n :: ns.filter (fun n => decide (n ∈ summ)) = summ.drop i := by rw [← hf]; simp [hm]
        have hi : i < summ.length := by
          by_contra hc
          rw [List.drop_eq_nil_of_le (by omega)] at hf'
          simp at hf'
        have h1 : summ[i]? = some n := by
          have := congrArg (fun l => l[0]?) hf'
          simpa using this.symm
        have h2 : ns.filter (fun n => decide (n ∈ summ)) = summ.drop (i + 1) := by
          have := congrArg List.tail hf'
          simpa using this
        have h3 : summ.idxOf n = i := by
          have hg : summ[i] = n := by
            rw [List.getElem?_eq_getElem hi] at h1; exact Option.some.inj h1
          rw [← hg]; exact List.Nodup.idxOf_getElem hn i hi
        have h4 : (List.range' i (summ.length - i)) = i :: List.range' (i + 1) (summ.length - (i + 1)) := by
          have : summ.length - i = (summ.length - (i + 1)) + 1 := by omega
          rw [this, List.range'_succ]
        rw [h4, List.map_cons]
        simp only [footCells, hm, if_true, List.map_cons, List.zip_cons_cons]
        rw [ih (i + 1) as ha' h2, newName_eq, if_pos hm, h3]
        simp
      · have hf' : ns.filter (fun n => decide (n ∈ summ)) = summ.drop i := by rw [← hf]; simp [hm]
        simp only [footCells, hm, if_false, List.map_cons, List.zip_cons_cons]
        rw [ih i as ha' hf']
        simp [newName, hm]

theorem get_zip_map (keys : List String) : ∀ (as : List (Option V)), keys.Nodup → as.length = keys.length →
    keys.map (fun n => (Dict.get (List.zip keys as) n).join) = as := by
  intro as hn hl
  apply List.ext_getElem (by simp [hl])
  intro i h1 h2
  rw [List.getElem_map]
  have hik : i < keys.length := by simpa using h1
  have hk : Dict.keys (List.zip keys as) = keys := by
    simp [Dict.keys, List.map_fst_zip (Nat.le_of_eq hl.symm)]
  rw [Dict.get_of_mem (v := as[i]) (by rw [hk]; exact hn)]
  · rfl
  · have : (List.zip keys as)[i]'(by simp; omega) = (keys[i], as[i]) := by simp
    rw [← this]
    exact List.getElem_mem _

theorem footRow_ok (labels rest : List String) (as : List (Option V)) (hn : (labels ++ rest).Nodup) (hl : as.length = rest.length) :
    (labels ++ rest).map (fun n => (Dict.get (List.zip rest as) n).join) = List.replicate labels.length none ++ as := by
  rw [List.map_append, get_zip_map rest as (List.Nodup.of_append_right hn) hl]
  congr 1
  apply List.ext_getElem (by simp)
  intro i h1 h2
  rw [List.getElem_map, List.getElem_replicate]
  have hik : i < labels.length := by simpa using h1
  have : Dict.get (List.zip rest as) labels[i] = none := by
    rw [Dict.get_eq_none_iff]
    have hk : Dict.keys (List.zip rest as) = rest := by
      simp [Dict.keys, List.map_fst_zip (Nat.le_of_eq hl.symm)]
    rw [hk]
    intro hm
    exact (List.disjoint_of_nodup_append hn) (List.getElem_mem hik) hm
  rw [this]; rfl

theorem footRows_map (keys : List String) {γ : Type} (h : γ → Dict String (Option V)) (r : γ → List (Option V)) (xs : List γ)
    (hr : ∀ x ∈ xs, keys.map (fun n => ((h x).get n).join) = r x) : ∀ (k : Nat),
    footRows keys k (xs.map h) = (xs.zipIdx k).map fun e => ("Footer" ++ toString e.2, r e.1) := by
  induction xs with
  | nil => intro k; rfl
  | cons x xs ih =>
    intro k
    simp only [List.map_cons, footRows, List.zipIdx_cons, hr x (by simp)]
    rw [ih (fun y hy => hr y (List.mem_cons_of_mem _ hy))]

/-- **C88, partial.** The labels are the first columns, the summaries are named in the order of
the columns, and the footer rows have a value for every column which is not a label: then the
function is applied to each footer row too, and the cell of a column is the function of its
footer value.  The names of the rows become `Footer0`, `Footer1`, … . -/
theorem footers_partial (f : List V → Except Err (Out V)) (g : List V → Col V) (d : Ds V) (hw : Wf d) (rest : List String)
    (hne : d.cols ≠ []) (hk : d.cols.keys = d.labels ++ rest) (ho : rest.filter (fun n => decide (n ∈ d.summaries)) = d.summaries)
    (ht : ¬ Taken d.cols.keys d.summaries) (rows : List (List V))
    (hrows : d.footers.map (fun e => e.2.drop d.labels.length) = rows.map (·.map some))
    (hg : ∀ e ∈ d.cols, e.2.comp = true → e.1 ∉ d.labels → f e.2.vals = .ok (some (g e.2.vals)) ∧ (g e.2.vals).vals.length = e.2.vals.length)
    (hf : ∀ vs ∈ rows, f vs = .ok (some (g vs)) ∧ (g vs).vals.length = vs.length) :
    ∃ r, applyCols f (.all .no) false d = .ok (some r) ∧ r.cols.keys = d.labels ++ rest.map (newName d.summaries) ∧
      r.footers = rows.zipIdx.map fun e => ("Footer" ++ toString e.2, List.replicate d.labels.length none ++ (g e.1).vals.map some) := by
  have key := apply_general f (.all .no) false (mapped g d.labels) d hw hne
    (by intro e _ h _; simp [mapped, h])
    (by
      intro e he h
      have hn : e.1 ∉ d.labels := by rcases h with h | h; exact h; cases h
      cases hc : e.2.comp with
      | true => simp [operate, hc, mapped, hn, (hg e he hc hn).1]
      | false => simp [operate, hc, mapped, FillArg.at])
    (by
      intro e he
      unfold mapped
      split
      · rename_i h; exact (hg e he h.1 h.2).2
      · rfl)
  obtain ⟨h1, h2⟩ := key.2 (by rwa [taken_iff] at ht)
  have hnk : d.cols.keys.map (newName d.summaries) = d.labels ++ rest.map (newName d.summaries) := by
    rw [hk, List.map_append]
    congr 1
    conv_rhs => rw [← List.map_id d.labels]
    apply List.map_congr_left
    intro n hn
    simp [newName, hw.disjoint n hn]
  refine ⟨_, h1, ?_, ?_⟩
  · rw [← hnk]; exact keys_map _ _ _
  · have hlen : ∀ vs ∈ rows, vs.length = rest.length := by
      intro vs hv
      have : vs.map some ∈ d.footers.map (fun e => e.2.drop d.labels.length) := by rw [hrows]; exact List.mem_map.2 ⟨vs, hv, rfl⟩
      obtain ⟨e, he, hee⟩ := List.mem_map.1 this
      have h3 := congrArg List.length hee
      have h4 := hw.rows e he
      have h5 : d.cols.length = d.labels.length + rest.length := by
        have := congrArg List.length hk
        simpa [Dict.keys] using this
      simp at h3
      omega
    have e1 : every (fun row => footOp f (lastFill (.all .no) false d) (row.drop d.labels.length)) (d.footers.map Prod.snd)
        = some (rows.map fun vs => (g vs).vals.map some) := by
      have e2 : ∀ xs : List (List (Option V)), every (fun row => footOp f (lastFill (.all .no) false d) (row.drop d.labels.length)) xs
          = every (footOp f (lastFill (.all .no) false d)) (xs.map (·.drop d.labels.length)) := by
        intro xs
        induction xs with
        | nil => rfl
        | cons x xs ih => simp only [every, List.map_cons, ih]
      rw [e2, List.map_map]
      have : (d.footers.map ((fun x => x.drop d.labels.length) ∘ Prod.snd)) = rows.map (·.map some) := hrows
      rw [this]
      apply every_map
      intro vs hv
      simp [footOp, whole_map_some, (hf vs hv).1]
    simp only [applyFooters, e1, newFooters]
    have hd : d.cols.keys.drop d.labels.length = rest := by rw [hk]; simp
    rw [hd]
    have e3 : every (fun a => footCells d.summaries rest a ((List.range d.summaries.length).map summaryName)) (rows.map fun vs => (g vs).vals.map some)
        = some (rows.map fun vs => List.zip (rest.map (newName d.summaries)) ((g vs).vals.map some)) := by
      apply every_map
      intro vs hv
      have := footCells_ok d.summaries hw.summNodup rest 0 ((g vs).vals.map some) (by simp [(hf vs hv).2, hlen vs hv]) (by simpa using ho)
      rw [← this]
      simp [List.range_eq_range']
    rw [e3]
    simp only
    rw [hnk] at h2 ⊢
    rw [footRows_map _ _ (fun vs => List.replicate d.labels.length none ++ (g vs).vals.map some)]
    intro vs hv
    exact footRow_ok _ _ _ h2 (by simp [(hf vs hv).2, hlen vs hv])

/-! ## Fill values that are numbers, functions that return nothing -/

theorem outs_out (f : List V → Except Err (Out V)) (fill : FillArg V) (labels : List String) (m : String → Col V → Out V) (cs : Dict String (Col V))
    (hl : ∀ e ∈ cs, e.1 ∈ labels → m e.1 e.2 = some e.2)
    (ho : ∀ e ∈ cs, e.1 ∉ labels → operate f (fill.at e.1) e.2 = .ok (m e.1 e.2)) :
    outs f fill labels false cs = .ok (cs.map fun e => (e.1, m e.1 e.2)) := by
  induction cs with
  | nil => rfl
  | cons e es ih =>
    obtain ⟨n, c⟩ := e
    have ih' := ih (fun e he => hl e (List.mem_cons_of_mem _ he)) (fun e he => ho e (List.mem_cons_of_mem _ he))
    simp only [outs, bind, Except.bind, ih', pure, Except.pure, List.map_cons]
    by_cases h : n ∈ labels
    · have := hl (n, c) (by simp) h
      simp only at this
      simp [h, this]
    · have := ho (n, c) (by simp) h
      simp only at this
      simp [h, this]

theorem present_none (od : Dict String (Out V)) (e : String × Out V) (he : e ∈ od) (hn : e.2 = none) : present od = none := by
  induction od with
  | nil => simp at he
  | cons a as ih =>
    obtain ⟨n, o⟩ := a
    rcases List.mem_cons.1 he with rfl | h
    · simp only at hn; simp [present, hn]
    · cases o <;> simp [present, ih h]

/-- **C85, a number as fill value.** Next to a column that is computed or a label, a number as
`fill_value` for a column that is not computable raises, unless the Dataset has one row. -/
theorem fill_number_raises (f : List V → Except Err (Out V)) (g : List V → Col V) (x : Col V) (hx : x.vals.length = 1) (d : Ds V) (hw : Wf d)
    (hg : ∀ e ∈ d.cols, e.2.comp = true → e.1 ∉ d.labels → f e.2.vals = .ok (some (g e.2.vals)) ∧ (g e.2.vals).vals.length = e.2.vals.length)
    (a b : String × Col V) (ha : a ∈ d.cols) (hb : b ∈ d.cols) (ha' : a.2.comp = false) (hal : a.1 ∉ d.labels)
    (hb' : b.2.comp = true ∨ b.1 ∈ d.labels) (h1 : b.2.vals.length ≠ 1) :
    applyCols f (.all (.one x)) false d = .error .value := by
  have h0 := outs_general f (.all (.one x)) d.labels false
    (fun n c => if n ∈ d.labels then c else if c.comp = true then g c.vals else x) d.cols
    (by intro e _ h _; simp [h])
    (by
      intro e he h
      have hn : e.1 ∉ d.labels := by rcases h with h | h; exact h; cases h
      cases hc : e.2.comp with
      | true => simp [operate, hc, hn, (hg e he hc hn).1]
      | false => simp [operate, hc, FillArg.at, hn])
  have hall : (d.cols.map fun e => (e.1, some (if e.1 ∈ d.labels then e.2 else if e.2.comp = true then g e.2.vals else x))).all (fun e => e.2.isNone) = false := by
    rw [List.all_eq_false]
    exact ⟨_, List.mem_map.2 ⟨a, ha, rfl⟩, by simp⟩
  have hev : even (d.cols.map fun e => (e.1, if e.1 ∈ d.labels then e.2 else if e.2.comp = true then g e.2.vals else x)) = false := by
    rw [Bool.eq_false_iff]
    intro h
    have := (even_iff _).1 h _ (List.mem_map.2 ⟨a, ha, rfl⟩) _ (List.mem_map.2 ⟨b, hb, rfl⟩)
    simp only [hal, ha', if_false] at this
    by_cases hbl : b.1 ∈ d.labels
    · simp [hbl] at this
      simp [hx] at this
      exact h1 this.symm
    · have hbc : b.2.comp = true := by rcases hb' with h | h; exact h; exact absurd h hbl
      simp [hbl, hbc, (hg b hb hbc hbl).2] at this
      simp [hx] at this
      exact h1 this.symm
  have hp := present_map d.cols fun n c => if n ∈ d.labels then c else if c.comp = true then g c.vals else x
  simp only [applyCols, h0, hall, construct, hp, hev, bind, Except.bind]
  rfl

/-- **C85, a function that returns nothing** (as with `inplace=True`): the result is `None` if
every column is computed, and raises if there is another column. -/
theorem nothing_exact (f : List V → Except Err (Out V)) (d : Ds V)
    (hf : ∀ e ∈ d.cols, e.2.comp = true → e.1 ∉ d.labels → f e.2.vals = .ok none) :
    ((∀ e ∈ d.cols, e.2.comp = true ∧ e.1 ∉ d.labels) → applyCols f (.all .no) false d = .ok none) ∧
    ((∃ e ∈ d.cols, e.2.comp = true ∧ e.1 ∉ d.labels) → (∃ e ∈ d.cols, ¬ (e.2.comp = true ∧ e.1 ∉ d.labels)) →
      applyCols f (.all .no) false d = .error .value) := by
  have h0 := outs_out f (.all .no) d.labels (fun n c => if c.comp = true ∧ n ∉ d.labels then none else some c) d.cols
    (by intro e _ h; simp [h])
    (by
      intro e he hn
      cases hc : e.2.comp with
      | true => simp [operate, hc, hn, hf e he hc hn]
      | false => simp [operate, hc, FillArg.at])
  constructor
  · intro h
    have hall : (d.cols.map fun e => (e.1, if e.2.comp = true ∧ e.1 ∉ d.labels then none else some e.2)).all (fun e => e.2.isNone) = true := by
      rw [List.all_eq_true]
      intro x hx
      obtain ⟨e, he, rfl⟩ := List.mem_map.1 hx
      rw [if_pos (h e he)]; rfl
    simp only [applyCols, h0, hall, bind, Except.bind]
    rfl
  · rintro ⟨a, ha, ha'⟩ ⟨b, hb, hb'⟩
    have hall : (d.cols.map fun e => (e.1, if e.2.comp = true ∧ e.1 ∉ d.labels then none else some e.2)).all (fun e => e.2.isNone) = false := by
      rw [List.all_eq_false]
      refine ⟨_, List.mem_map.2 ⟨b, hb, rfl⟩, ?_⟩
      rw [if_neg hb']; simp
    have hp : present (d.cols.map fun e => (e.1, if e.2.comp = true ∧ e.1 ∉ d.labels then none else some e.2)) = none :=
      present_none _ _ (List.mem_map.2 ⟨a, ha, rfl⟩) (if_pos ha')
    simp only [applyCols, h0, hall, construct, hp, bind, Except.bind]
    rfl

end Verif.Cols
