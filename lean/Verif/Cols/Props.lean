import Verif.Cols.Lemmas

/-!
# Properties: a function applied to all columns of a Dataset (C85)
-/
namespace Verif.Cols
open Verif.Items (Dict)
open Spec

variable {V : Type}

/-- a Dataset as one can make it: different names, columns of the same length, labels and
summaries among the columns and different, footers along the columns -/
structure Wf (d : Ds V) : Prop where
  nodup : d.cols.keys.Nodup
  even : ∀ e ∈ d.cols, ∀ e' ∈ d.cols, e.2.vals.length = e'.2.vals.length
  labels : ∀ n ∈ d.labels, n ∈ d.cols.keys
  summ : ∀ n ∈ d.summaries, n ∈ d.cols.keys
  summNodup : d.summaries.Nodup
  disjoint : ∀ n ∈ d.labels, n ∉ d.summaries
  rows : ∀ e ∈ d.footers, e.2.length = d.cols.length

theorem newName_eq (ss : List String) (n : String) : newName ss n = if n ∈ ss then summaryName (0 + ss.idxOf n) else n := by
  simp [newName, summaryName]

theorem newName_inj (keys ss : List String) (hc : ¬ Clash keys ss 0) {x y : String} (hx : x ∈ keys) (hy : y ∈ keys)
    (h : newName ss x = newName ss y) : x = y := by
  have key : ∀ a b : String, a ∈ ss → b ∈ keys → b ∉ ss → summaryName (0 + ss.idxOf a) ≠ b := by
    intro a b ha hb hb' e
    refine hc ⟨ss.idxOf a, List.idxOf_lt_length_of_mem ha, by rw [e]; exact hb, ?_⟩
    intro j _ hj
    rw [e] at hj
    exact hb' (List.mem_of_getElem? hj)
  rw [newName_eq, newName_eq] at h
  by_cases h1 : x ∈ ss <;> by_cases h2 : y ∈ ss
  · rw [if_pos h1, if_pos h2] at h
    have := summaryName_inj h
    exact (List.idxOf_inj h1).1 (by omega)
  · rw [if_pos h1, if_neg h2] at h; exact absurd h (key x y h1 hy h2)
  · rw [if_neg h1, if_pos h2] at h; exact absurd h.symm (key y x h2 hx h1)
  · rwa [if_neg h1, if_neg h2] at h

theorem outs_general (f : List V → Except Err (Out V)) (fill : FillArg V) (labels : List String) (lt : Bool) (m : String → Col V → Col V)
    (cs : Dict String (Col V))
    (hl : ∀ e ∈ cs, e.1 ∈ labels → lt = false → m e.1 e.2 = e.2)
    (ho : ∀ e ∈ cs, (e.1 ∉ labels ∨ lt = true) → operate f (fill.at e.1) e.2 = .ok (some (m e.1 e.2))) :
    outs f fill labels lt cs = .ok (cs.map fun e => (e.1, some (m e.1 e.2))) := by
  induction cs with
  | nil => rfl
  | cons e es ih =>
    obtain ⟨n, c⟩ := e
    have ih' := ih (fun e he => hl e (List.mem_cons_of_mem _ he)) (fun e he => ho e (List.mem_cons_of_mem _ he))
    simp only [outs, bind, Except.bind, ih', pure, Except.pure, List.map_cons]
    by_cases h : n ∈ labels ∧ lt = false
    · rw [if_pos h]
      have := hl (n, c) (by simp) h.1 h.2
      simp only at this
      simp only [this]
    · rw [if_neg h]
      have := ho (n, c) (by simp) (by
        by_cases h' : n ∈ labels
        · right; cases lt <;> simp_all
        · exact Or.inl h')
      simp only at this
      rw [this]

/-- the general form: `m` says what becomes of every column -/
theorem apply_general (f : List V → Except Err (Out V)) (fill : FillArg V) (lt : Bool) (m : String → Col V → Col V) (d : Ds V)
    (hw : Wf d) (hne : d.cols ≠ [])
    (hl : ∀ e ∈ d.cols, e.1 ∈ d.labels → lt = false → m e.1 e.2 = e.2)
    (ho : ∀ e ∈ d.cols, (e.1 ∉ d.labels ∨ lt = true) → operate f (fill.at e.1) e.2 = .ok (some (m e.1 e.2)))
    (hlen : ∀ e ∈ d.cols, (m e.1 e.2).vals.length = e.2.vals.length) :
    (Clash d.cols.keys d.summaries 0 → applyCols f fill lt d = .error .value) ∧
    (¬ Clash d.cols.keys d.summaries 0 →
      applyCols f fill lt d = .ok (some
        { cols := d.cols.map fun e => (newName d.summaries e.1, m e.1 e.2)
          labels := d.labels
          summaries := (List.range d.summaries.length).map summaryName
          footers := applyFooters f fill lt d ((List.range d.summaries.length).map summaryName) (d.cols.keys.map (newName d.summaries)) }) ∧
      (d.cols.keys.map (newName d.summaries)).Nodup) := by
  have h0 := outs_general f fill d.labels lt m d.cols hl ho
  have hall : (d.cols.map fun e => (e.1, some (m e.1 e.2))).all (fun e => e.2.isNone) = false := by
    cases hd : d.cols with
    | nil => exact absurd hd hne
    | cons e es => simp
  have hc : construct (d.cols.map fun e => (e.1, some (m e.1 e.2))) = .ok (d.cols.map fun e => (e.1, m e.1 e.2)) := by
    unfold construct
    rw [present_map]
    have : even (d.cols.map fun e => (e.1, m e.1 e.2)) = true := even_map d.cols m id ((even_iff _).2 hw.even) hlen
    simp [this]
  have hk : Dict.keys (d.cols.map fun e => (e.1, m e.1 e.2)) = d.cols.keys := by
    have := keys_map d.cols id m
    simpa using this
  constructor
  · intro hcl
    have hr := renameAll_err d.summaries 0 (d.cols.map fun e => (e.1, m e.1 e.2)) hw.summNodup (by rw [hk]; exact hw.nodup)
      (by rw [hk]; exact hw.summ) (by rw [hk]; exact hcl)
    simp only [applyCols, h0, hall, hc, hr, bind, Except.bind]
    rfl
  · intro hcl
    have hr := renameAll_ok d.summaries 0 (d.cols.map fun e => (e.1, m e.1 e.2)) hw.summNodup (by rw [hk]; exact hw.nodup)
      (by rw [hk]; exact hw.summ) (by rw [hk]; exact hcl)
    have e1 : ((d.cols.map fun e => (e.1, m e.1 e.2)).map fun e => (if e.1 ∈ d.summaries then summaryName (0 + d.summaries.idxOf e.1) else e.1, e.2))
        = d.cols.map fun e => (newName d.summaries e.1, m e.1 e.2) := by
      rw [List.map_map]
      apply List.map_congr_left
      intro e _
      simp only [Function.comp_apply, newName_eq]
    rw [e1] at hr
    have hk' := keys_map d.cols (newName d.summaries) m
    have hlab : d.labels.filter (fun n => Dict.has (d.cols.map fun e => (newName d.summaries e.1, m e.1 e.2)) n) = d.labels := by
      rw [List.filter_eq_self]
      intro n hn
      rw [Dict.has_iff, hk', List.mem_map]
      exact ⟨n, hw.labels n hn, by simp [newName, hw.disjoint n hn]⟩
    refine ⟨?_, ?_⟩
    · simp only [applyCols, h0, hall, hc, hr, bind, Except.bind, pure, Except.pure, hlab, hk']
      rfl
    · exact List.Nodup.map_on (fun x hx y hy h => newName_inj _ _ hcl hx hy h) hw.nodup

theorem taken_iff (keys ss : List String) : Taken keys ss ↔ Clash keys ss 0 := by
  simp [Taken, Clash, summaryName]

/-- **C85.** Applying a function, a unary operator or an operator with a number or an array to a
Dataset: every computable column that is not a label becomes the function of it, all other
columns, the order of the columns, the labels and the summaries stay, and the summary columns are
called `Summary0`, `Summary1`, …; it raises exactly when one of these names is taken. -/
theorem apply_exact (f : List V → Except Err (Out V)) (g : List V → Col V) (d : Ds V) (hw : Wf d) (hne : d.cols ≠ [])
    (hg : ∀ e ∈ d.cols, e.2.comp = true → e.1 ∉ d.labels → f e.2.vals = .ok (some (g e.2.vals)) ∧ (g e.2.vals).vals.length = e.2.vals.length) :
    (Taken d.cols.keys d.summaries → applyCols f (.all .no) false d = .error .value) ∧
    (¬ Taken d.cols.keys d.summaries → ∃ r, applyCols f (.all .no) false d = .ok (some r) ∧
      r.cols = (d.cols.map fun e => (newName d.summaries e.1, mapped g d.labels e.1 e.2)) ∧ r.cols.keys.Nodup ∧
      r.labels = d.labels ∧ r.summaries = (List.range d.summaries.length).map fun (i : Nat) => "Summary" ++ toString i) := by
  rw [taken_iff]
  have := apply_general f (.all .no) false (mapped g d.labels) d hw hne
    (by intro e _ h _; simp [mapped, h])
    (by
      intro e he h
      have hn : e.1 ∉ d.labels := by rcases h with h | h; exact h; cases h
      cases hc : e.2.comp with
      | true => simp [operate, hc, mapped, hn, (hg e he hc hn).1]
      | false => simp [operate, hc, mapped, FillArg.at])
    (by
      intro e he
      unfold mapped
      split
      · rename_i h; exact (hg e he h.1 h.2).2
      · rfl)
  refine ⟨this.1, fun hc => ⟨_, (this.2 hc).1, rfl, ?_, rfl, rfl⟩⟩
  have hk := keys_map d.cols (newName d.summaries) (mapped g d.labels)
  rw [hk]
  exact (this.2 hc).2

/-- **C85, without summaries.** Then nothing is renamed and nothing raises. -/
theorem apply_plain (f : List V → Except Err (Out V)) (g : List V → Col V) (d : Ds V) (hw : Wf d) (hne : d.cols ≠ []) (hs : d.summaries = [])
    (hg : ∀ e ∈ d.cols, e.2.comp = true → e.1 ∉ d.labels → f e.2.vals = .ok (some (g e.2.vals)) ∧ (g e.2.vals).vals.length = e.2.vals.length) :
    ∃ r, applyCols f (.all .no) false d = .ok (some r) ∧ r.cols.keys = d.cols.keys ∧ r.labels = d.labels ∧
      ∀ (n : String) (c : Col V), d.cols.get n = some c → r.cols.get n = some (mapped g d.labels n c) := by
  have hcl : ¬ Taken d.cols.keys d.summaries := by
    rintro ⟨k, hk, _⟩; simp [hs] at hk
  obtain ⟨r, hr, hcols, hn, hl, _⟩ := (apply_exact f g d hw hne hg).2 hcl
  have hk : r.cols.keys = d.cols.keys := by
    have : newName [] = id := by funext n; simp [newName]
    rw [hcols, keys_map, hs, this, List.map_id]
  refine ⟨r, hr, hk, hl, ?_⟩
  intro n c hc
  apply Dict.get_of_mem hn
  rw [hcols, List.mem_map]
  exact ⟨(n, c), Dict.mem_of_get hc, by simp [newName, hs]⟩

/-- **C85, all columns.** With `labels=True` the labels are not spared. -/
theorem apply_labels (f : List V → Except Err (Out V)) (g : List V → Col V) (d : Ds V) (hw : Wf d) (hne : d.cols ≠ []) (hs : d.summaries = [])
    (hg : ∀ e ∈ d.cols, e.2.comp = true → f e.2.vals = .ok (some (g e.2.vals)) ∧ (g e.2.vals).vals.length = e.2.vals.length) :
    ∃ r, applyCols f (.all .no) true d = .ok (some r) ∧
      r.cols = (d.cols.map fun e => (e.1, mapped g [] e.1 e.2)) ∧ r.labels = d.labels := by
  have hcl : ¬ Clash d.cols.keys d.summaries 0 := by
    rintro ⟨k, hk, _⟩; simp [hs] at hk
  have := apply_general f (.all .no) true (mapped g []) d hw hne (by intro e _ _ h; cases h)
    (by
      intro e he _
      cases hc : e.2.comp with
      | true => simp [operate, hc, mapped, (hg e he hc).1]
      | false => simp [operate, hc, mapped, FillArg.at])
    (by
      intro e he
      unfold mapped
      split
      · rename_i h; exact (hg e he h.1).2
      · rfl)
  refine ⟨_, (this.2 hcl).1, ?_, rfl⟩
  simp [newName, hs]

theorem get_map_val {α β : Type} (h : α → β) (fs : Dict String α) (n : String) :
    Dict.get (fs.map fun e => (e.1, h e.2)) n = (fs.get n).map h := by
  induction fs with
  | nil => rfl
  | cons e es ih =>
    obtain ⟨k, a⟩ := e
    rw [List.map_cons, Dict.get_cons, Dict.get_cons, ih]
    split <;> rfl

/-- **C85, functions as fill values.** A dictionary of functions as `fill_value`: a column that
is not computable becomes its own function of it, or stays if it is not in the dictionary. -/
theorem apply_fill (f : List V → Except Err (Out V)) (g : List V → Col V) (fs : Dict String (List V → Col V)) (d : Ds V)
    (hw : Wf d) (hne : d.cols ≠ []) (hs : d.summaries = [])
    (hg : ∀ e ∈ d.cols, e.2.comp = true → e.1 ∉ d.labels → f e.2.vals = .ok (some (g e.2.vals)) ∧ (g e.2.vals).vals.length = e.2.vals.length)
    (hf : ∀ (n : String) (h : List V → Col V), fs.get n = some h → ∀ xs, (h xs).vals.length = xs.length) :
    ∃ r, applyCols f (.byName (fs.map fun e => (e.1, .func fun xs => .ok (some (e.2 xs))))) false d = .ok (some r) ∧ r.labels = d.labels ∧
      r.cols = d.cols.map fun e => (e.1,
        if e.1 ∈ d.labels then e.2
        else if e.2.comp = true then g e.2.vals
        else (fs.get e.1).elim e.2 fun h => h e.2.vals) := by
  have hcl : ¬ Clash d.cols.keys d.summaries 0 := by
    rintro ⟨k, hk, _⟩; simp [hs] at hk
  have hget := get_map_val (fun h : List V → Col V => (Fill.func fun xs => .ok (some (h xs)) : Fill V)) fs
  have := apply_general f (.byName (fs.map fun e => (e.1, .func fun xs => .ok (some (e.2 xs))))) false
    (fun n c => if n ∈ d.labels then c else if c.comp = true then g c.vals else (fs.get n).elim c fun h => h c.vals) d hw hne
    (by intro e _ h _; simp [h])
    (by
      intro e he h
      have hn : e.1 ∉ d.labels := by rcases h with h | h; exact h; cases h
      cases hc : e.2.comp with
      | true => simp [operate, hc, hn, (hg e he hc hn).1]
      | false =>
        simp only [operate, hc, FillArg.at, hget, hn, if_false]
        cases fs.get e.1 <;> simp)
    (by
      intro e he
      by_cases hn : e.1 ∈ d.labels
      · simp [hn]
      · cases hc : e.2.comp with
        | true => simp [hn, (hg e he hc hn).2]
        | false =>
          simp only [hn, if_false]
          cases h : fs.get e.1 with
          | none => simp
          | some k => simp [hf e.1 k h])
  refine ⟨_, (this.2 hcl).1, rfl, ?_⟩
  simp [newName, hs]

end Verif.Cols
