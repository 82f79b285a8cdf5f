import Verif.Reduce.Props

/-!
# Properties: any, all, masks (C91), the kept matrix (C90), cases
-/
namespace Verif.Reduce
open Verif.Items (Dict)
open Spec

variable {V T : Type}

/-- **C91, `any(axis=None)`.** -/
theorem any_whole (t : V → Bool) (d : Ds V T) : anyAll t d = true ↔ SomeTrue t (d.cols.map fun e => e.2.vals) := by
  simp [anyAll, SomeTrue, List.any_eq_true]

/-- **C91, `all(axis=None)`.** -/
theorem all_whole (t : V → Bool) (d : Ds V T) : allAll t d = true ↔ AllTrue t (d.cols.map fun e => e.2.vals) := by
  simp only [allAll, AllTrue, List.all_eq_true, List.mem_map]
  constructor
  · rintro h c ⟨e, he, rfl⟩; exact h e he
  · intro h e he; exact h _ ⟨e, he, rfl⟩

/-- **C91, by column**, under the names of the columns. -/
theorem any_all_columns (t : V → Bool) (d : Ds V T) :
    (any0 t d).keys = d.cols.keys ∧ (all0 t d).keys = d.cols.keys ∧
    ∀ (i : Nat) n c, d.cols[i]? = some (n, c) →
      (∃ b, (any0 t d)[i]? = some (n, b) ∧ (b = true ↔ ∃ v ∈ c.vals, t v = true)) ∧
      (∃ b, (all0 t d)[i]? = some (n, b) ∧ (b = true ↔ ∀ v ∈ c.vals, t v = true)) := by
  refine ⟨by simp [any0, Dict.keys, Function.comp_def], by simp [all0, Dict.keys, Function.comp_def], ?_⟩
  intro i n c h
  refine ⟨⟨_, by rw [any0, List.getElem?_map, h]; rfl, List.any_eq_true⟩, ⟨_, by rw [all0, List.getElem?_map, h]; rfl, List.all_eq_true⟩⟩

theorem anyLoop_get (t : V → Bool) (n : Nat) : ∀ (cs : List (Col V T)) (acc : List Bool), acc.length = n → (∀ c ∈ cs, c.vals.length = n) →
    (anyLoop t cs acc).length = n ∧
    ∀ i : Nat, (anyLoop t cs acc)[i]? = acc[i]?.map fun a => a || cs.any fun c => decide (c.kind ≠ .other) && (c.vals[i]?.map t).getD false := by
  intro cs
  induction cs with
  | nil => intro acc ha _; exact ⟨ha, by intro i; simp [anyLoop]⟩
  | cons c cs ih =>
    intro acc ha hc
    have hcl : c.vals.length = n := hc c (by simp)
    by_cases hk : c.kind = .other
    · simp only [anyLoop, hk, if_true]
      obtain ⟨h1, h2⟩ := ih acc ha (fun x hx => hc x (List.mem_cons_of_mem _ hx))
      refine ⟨h1, fun i => ?_⟩
      rw [h2 i]; simp [hk]
    · simp only [anyLoop, hk, if_false]
      obtain ⟨h1, h2⟩ := ih (List.zipWith (fun a v => a || t v) acc c.vals) (by simp [ha, hcl]) (fun x hx => hc x (List.mem_cons_of_mem _ hx))
      refine ⟨h1, fun i => ?_⟩
      rw [h2 i, List.getElem?_zipWith]
      by_cases hi : i < n
      · rw [List.getElem?_eq_getElem (by omega : i < acc.length), List.getElem?_eq_getElem (by omega : i < c.vals.length)]
        simp [hk, Bool.or_assoc, List.getElem?_eq_getElem (by omega : i < c.vals.length)]
      · rw [List.getElem?_eq_none (by omega : acc.length ≤ i)]
        simp

theorem allLoop_get (t : V → Bool) (n : Nat) : ∀ (cs : List (Col V T)) (acc : List Bool), acc.length = n → (∀ c ∈ cs, c.vals.length = n) →
    (allLoop t cs acc).length = n ∧
    ∀ i : Nat, (allLoop t cs acc)[i]? = acc[i]?.map fun a => a && cs.all fun c => decide (c.kind = .other) || (c.vals[i]?.map t).getD false := by
  intro cs
  induction cs with
  | nil => intro acc ha _; exact ⟨ha, by intro i; simp [allLoop]⟩
  | cons c cs ih =>
    intro acc ha hc
    have hcl : c.vals.length = n := hc c (by simp)
    by_cases hk : c.kind = .other
    · simp only [allLoop, hk, if_true]
      obtain ⟨h1, h2⟩ := ih acc ha (fun x hx => hc x (List.mem_cons_of_mem _ hx))
      refine ⟨h1, fun i => ?_⟩
      rw [h2 i]; simp [hk]
    · simp only [allLoop, hk, if_false]
      obtain ⟨h1, h2⟩ := ih (List.zipWith (fun a v => a && t v) acc c.vals) (by simp [ha, hcl]) (fun x hx => hc x (List.mem_cons_of_mem _ hx))
      refine ⟨h1, fun i => ?_⟩
      rw [h2 i, List.getElem?_zipWith]
      by_cases hi : i < n
      · rw [List.getElem?_eq_getElem (by omega : i < acc.length), List.getElem?_eq_getElem (by omega : i < c.vals.length)]
        simp [hk, Bool.and_assoc, List.getElem?_eq_getElem (by omega : i < c.vals.length)]
      · rw [List.getElem?_eq_none (by omega : acc.length ≤ i)]
        simp

theorem nrows_of (d : Ds V T) {n : Nat} (h : Even (d.cols.map fun e => e.2.vals) n) (hne : d.cols ≠ []) : nrows d = n := by
  unfold nrows
  cases hd : d.cols with
  | nil => exact absurd hd hne
  | cons e es =>
    simp only
    exact h e.2.vals (by rw [hd]; simp)

/-- **C91, by row**: True exactly for the rows with a true entry in a column of numbers or texts
(`any`), with only true entries in these columns (`all`). -/
theorem any_all_rows (t : V → Bool) (d : Ds V T) {n : Nat} (he : Even (d.cols.map fun e => e.2.vals) n) (hne : d.cols ≠ []) :
    (any1 t d).length = n ∧ (all1 t d).length = n ∧
    ∀ i < n,
      (∃ b, (any1 t d)[i]? = some b ∧ (b = true ↔ ∃ e ∈ d.cols, e.2.kind ≠ .other ∧ ∃ v, e.2.vals[i]? = some v ∧ t v = true)) ∧
      (∃ b, (all1 t d)[i]? = some b ∧ (b = true ↔ ∀ e ∈ d.cols, e.2.kind ≠ .other → ∃ v, e.2.vals[i]? = some v ∧ t v = true)) := by
  have hn := nrows_of d he hne
  have hl : ∀ c ∈ d.cols.map Prod.snd, c.vals.length = n := by
    intro c hc
    obtain ⟨e, hm, rfl⟩ := List.mem_map.1 hc
    exact he e.2.vals (List.mem_map.2 ⟨e, hm, rfl⟩)
  obtain ⟨h1, h2⟩ := anyLoop_get t n (d.cols.map Prod.snd) (List.replicate (nrows d) false) (by simp [hn]) hl
  obtain ⟨h3, h4⟩ := allLoop_get t n (d.cols.map Prod.snd) (List.replicate (nrows d) true) (by simp [hn]) hl
  have key : ∀ (c : Col V T) (i : Nat), (c.vals[i]?.map t).getD false = true ↔ ∃ v, c.vals[i]? = some v ∧ t v = true := by
    intro c i; cases c.vals[i]? <;> simp
  refine ⟨h1, h3, fun i hi => ⟨⟨_, by unfold any1; rw [h2 i]; simp [hn, hi]; rfl, ?_⟩, ⟨_, by unfold all1; rw [h4 i]; simp [hn, hi]; rfl, ?_⟩⟩⟩
  · rw [List.any_eq_true]
    constructor
    · rintro ⟨e, hm, hh⟩
      simp only [Function.comp_apply, Bool.and_eq_true, key, Bool.not_eq_true', decide_eq_false_iff_not] at hh
      exact ⟨e, hm, hh.1, hh.2⟩
    · rintro ⟨e, hm, hk, hv⟩
      refine ⟨e, hm, ?_⟩
      simp only [Function.comp_apply, Bool.and_eq_true, key, Bool.not_eq_true', decide_eq_false_iff_not]
      exact ⟨hk, hv⟩
  · rw [List.all_eq_true]
    constructor
    · intro hh e hm hk
      have := hh e hm
      simp only [Function.comp_apply, Bool.or_eq_true, key, decide_eq_true_eq] at this
      exact this.resolve_left hk
    · intro hh e hm
      simp only [Function.comp_apply, Bool.or_eq_true, key, decide_eq_true_eq]
      by_cases hk : e.2.kind = .other
      · exact Or.inl hk
      · exact Or.inr (hh e hm hk)

/-- **C91, the three agree** without columns of other kinds: the whole is the `any` of the rows and
the `any` of the columns, and the same for `all`. -/
theorem any_all_agree_partial (t : V → Bool) (d : Ds V T) {n : Nat} (he : Even (d.cols.map fun e => e.2.vals) n) (hne : d.cols ≠ [])
    (hk : ∀ e ∈ d.cols, e.2.kind ≠ .other) :
    anyAll t d = (any1 t d).any id ∧ anyAll t d = ((any0 t d).map Prod.snd).any id ∧
    allAll t d = (all1 t d).all id ∧ allAll t d = ((all0 t d).map Prod.snd).all id := by
  obtain ⟨h1, h2, h3⟩ := any_all_rows t d he hne
  have hlen : ∀ e ∈ d.cols, e.2.vals.length = n := fun e hm => he e.2.vals (List.mem_map.2 ⟨e, hm, rfl⟩)
  refine ⟨?_, by simp [anyAll, any0, Function.comp_def], ?_, by simp [allAll, all0, Function.comp_def]⟩
  · rw [Bool.eq_iff_iff, any_whole, List.any_eq_true]
    constructor
    · rintro ⟨c, hc, v, hv, ht⟩
      obtain ⟨e, hm, rfl⟩ := List.mem_map.1 hc
      obtain ⟨i, hi, hiv⟩ := List.mem_iff_getElem.1 hv
      obtain ⟨b, hb, hbt⟩ := (h3 i (by rw [← hlen e hm]; exact hi)).1
      exact ⟨b, List.mem_of_getElem? hb, hbt.2 ⟨e, hm, hk e hm, v, by rw [List.getElem?_eq_getElem hi, hiv], ht⟩⟩
    · rintro ⟨b, hb, hbt⟩
      obtain ⟨i, hi, hib⟩ := List.mem_iff_getElem.1 hb
      obtain ⟨b', hb', hbt'⟩ := (h3 i (by omega)).1
      rw [List.getElem?_eq_getElem hi, hib] at hb'
      obtain ⟨e, hm, _, v, hv, ht⟩ := hbt'.1 (by rw [← Option.some.inj hb']; exact hbt)
      exact ⟨e.2.vals, List.mem_map.2 ⟨e, hm, rfl⟩, v, List.mem_of_getElem? hv, ht⟩
  · rw [Bool.eq_iff_iff, all_whole, List.all_eq_true]
    constructor
    · intro h b hb
      obtain ⟨i, hi, hib⟩ := List.mem_iff_getElem.1 hb
      obtain ⟨b', hb', hbt'⟩ := (h3 i (by omega)).2
      rw [List.getElem?_eq_getElem hi, hib] at hb'
      rw [id, Option.some.inj hb']
      apply hbt'.2
      intro e hm _
      have hie : i < e.2.vals.length := by rw [hlen e hm]; omega
      exact ⟨e.2.vals[i], List.getElem?_eq_getElem hie, h e.2.vals (List.mem_map.2 ⟨e, hm, rfl⟩) _ (List.getElem_mem hie)⟩
    · intro h c hc v hv
      obtain ⟨e, hm, rfl⟩ := List.mem_map.1 hc
      obtain ⟨i, hi, hiv⟩ := List.mem_iff_getElem.1 hv
      obtain ⟨b, hb, hbt⟩ := (h3 i (by rw [← hlen e hm]; exact hi)).2
      obtain ⟨v', hv', ht⟩ := hbt.1 (h b (List.mem_of_getElem? hb)) e hm (hk e hm)
      rw [List.getElem?_eq_getElem hi, hiv] at hv'
      rw [Option.some.inj hv']; exact ht

theorem maskLoop_get (t : V → Bool) (isOr : Bool) (n : Nat) : ∀ (cs : List (Col V T)) (m : List Bool), m.length = n → (∀ c ∈ cs, c.vals.length = n) →
    ∃ r, maskLoop t isOr cs (some m) = some r ∧ r.length = n ∧
    ∀ i : Nat, r[i]? = m[i]?.map fun a => if isOr then a || cs.any (fun c => (c.vals[i]?.map t).getD false)
      else a && cs.all (fun c => (c.vals[i]?.map t).getD false) := by
  intro cs
  induction cs with
  | nil => intro m hm _; exact ⟨m, rfl, hm, by intro i; cases isOr <;> simp⟩
  | cons c cs ih =>
    intro m hm hc
    have hcl : c.vals.length = n := hc c (by simp)
    obtain ⟨r, h1, h2, h3⟩ := ih (List.zipWith (fun a b => if isOr then a || b else a && b) m (c.vals.map t)) (by simp [hm, hcl])
      (fun x hx => hc x (List.mem_cons_of_mem _ hx))
    refine ⟨r, h1, h2, fun i => ?_⟩
    rw [h3 i, List.getElem?_zipWith]
    by_cases hi : i < n
    · have h5 : i < (c.vals.map t).length := by simp; omega
      rw [List.getElem?_eq_getElem (by omega : i < m.length), List.getElem?_eq_getElem h5]
      cases isOr <;> simp [Bool.or_assoc, Bool.and_assoc, List.getElem?_eq_getElem (by omega : i < c.vals.length)]
    · rw [List.getElem?_eq_none (by omega : m.length ≤ i)]
      simp

/-- **C91, masks** (`mask_or_isnan`, `mask_and_isfinite`, …): a row is True exactly when the test
holds in some (in each) column that one can compute with and is not a label; without such a column
there is no mask. -/
theorem mask_exact (t : V → Bool) (isOr : Bool) (d : Ds V T) {n : Nat} (he : Even (d.cols.map fun e => e.2.vals) n) :
    (chosen d = [] → maskReduce t isOr d = none) ∧
    (chosen d ≠ [] → ∃ r, maskReduce t isOr d = some r ∧ r.length = n ∧
      ∀ i < n, ∃ b, r[i]? = some b ∧ (b = true ↔
        if isOr then ∃ e ∈ d.cols, e.2.comp = true ∧ e.1 ∉ d.labels ∧ ∃ v, e.2.vals[i]? = some v ∧ t v = true
        else ∀ e ∈ d.cols, e.2.comp = true → e.1 ∉ d.labels → ∃ v, e.2.vals[i]? = some v ∧ t v = true)) := by
  have hlen : ∀ c ∈ (chosen d).map Prod.snd, c.vals.length = n := by
    intro c hc
    obtain ⟨e, hm, rfl⟩ := List.mem_map.1 hc
    exact he e.2.vals (List.mem_map.2 ⟨e, (List.mem_filter.1 hm).1, rfl⟩)
  have key : ∀ (c : Col V T) (i : Nat), (c.vals[i]?.map t).getD false = true ↔ ∃ v, c.vals[i]? = some v ∧ t v = true := by
    intro c i; cases c.vals[i]? <;> simp
  constructor
  · intro h; simp [maskReduce, h, maskLoop]
  · intro h
    cases hc : chosen d with
    | nil => exact absurd hc h
    | cons e es =>
      rw [hc] at hlen
      have hel : e.2.vals.length = n := hlen e.2 (by simp)
      obtain ⟨r, h1, h2, h3⟩ := maskLoop_get t isOr n (es.map Prod.snd) (e.2.vals.map t) (by simp [hel])
        (fun c hc' => hlen c (by rw [List.map_cons]; exact List.mem_cons_of_mem _ hc'))
      have hmem : ∀ x, x ∈ d.cols ∧ (x.2.comp = true ∧ x.1 ∉ d.labels) ↔ x = e ∨ x ∈ es := by
        intro x
        rw [← List.mem_cons, ← hc]
        simp [chosen]
      refine ⟨r, by simp only [maskReduce, hc, List.map_cons, maskLoop, h1], h2, fun i hi => ⟨_, by
        rw [h3 i, List.getElem?_map, List.getElem?_eq_getElem (by omega : i < e.2.vals.length)]; rfl, ?_⟩⟩
      have he' : t e.2.vals[i] = true ↔ ∃ v, e.2.vals[i]? = some v ∧ t v = true := by
        rw [List.getElem?_eq_getElem (by omega : i < e.2.vals.length)]; simp
      cases isOr with
      | true =>
        simp only [if_true, Bool.or_eq_true, he', List.any_eq_true, List.mem_map, key]
        constructor
        · rintro (hv | ⟨c, ⟨x, hx, rfl⟩, hv⟩)
          · obtain ⟨g1, g2, g3⟩ := (hmem e).2 (Or.inl rfl); exact ⟨e, g1, g2, g3, hv⟩
          · obtain ⟨g1, g2, g3⟩ := (hmem x).2 (Or.inr hx); exact ⟨x, g1, g2, g3, hv⟩
        · rintro ⟨x, g1, g2, g3, hv⟩
          rcases (hmem x).1 ⟨g1, g2, g3⟩ with rfl | hx
          · exact Or.inl hv
          · exact Or.inr ⟨x.2, ⟨x, hx, rfl⟩, hv⟩
      | false =>
        simp only [Bool.false_eq_true, if_false, Bool.and_eq_true, he', List.all_eq_true, List.mem_map, key]
        constructor
        · rintro ⟨hv, hvs⟩ x g1 g2 g3
          rcases (hmem x).1 ⟨g1, g2, g3⟩ with rfl | hx
          · exact hv
          · exact hvs x.2 ⟨x, hx, rfl⟩
        · intro hh
          refine ⟨?_, ?_⟩
          · obtain ⟨g1, g2, g3⟩ := (hmem e).2 (Or.inl rfl); exact hh e g1 g2 g3
          · rintro c ⟨x, hx, rfl⟩
            obtain ⟨g1, g2, g3⟩ := (hmem x).2 (Or.inr hx); exact hh x g1 g2 g3

/-! ## The kept matrix -/

/-- the state after a history -/
def run (func : List V → V) (rows : Nat) (s : Kept V) (ops : List (Op V)) : Kept V := ops.foldl (step func rows) s

theorem run_matrix (func : List V → V) (rows : Nat) (m : List (List V)) : ∀ (ops : List (Op V)) (s : Kept V), s.matrix = some m →
    (run func rows s ops).matrix = some m := by
  intro ops
  induction ops with
  | nil => intro s h; exact h
  | cons o os ih =>
    intro s h
    apply ih
    cases o with
    | assign n xs => exact h
    | total n => simp [step, h]

/-- **C90, totals over a history.** A column of totals is computed from the matrix made at the first
request, whatever has been assigned since. -/
theorem totals_first (func : List V → V) (rows : Nat) (s : Kept V) (hs : s.matrix = none) (n n' : String) (ops : List (Op V)) :
    (run func rows s (.total n :: ops ++ [.total n'])).cols.get n' = some (byRows func rows (s.cols.map Prod.snd)) := by
  have h1 : (step func rows s (.total n)).matrix = some (s.cols.map Prod.snd) := by simp [step, hs]
  have h2 := run_matrix func rows _ ops _ h1
  have h3 : run func rows s (.total n :: ops ++ [.total n']) = step func rows (run func rows (step func rows s (.total n)) ops) (.total n') := by
    simp [run, List.foldl_append]
  rw [h3]
  simp only [step] at h2 ⊢
  rw [h2]
  simp [Dict.get_set]

/-- **C90, the first total** is that of the columns. -/
theorem totals_partial (func : List V → V) (rows : Nat) (s : Kept V) (hs : s.matrix = none) (n : String) :
    (step func rows s (.total n)).cols.get n = some ((List.range rows).map fun i => func (rowOf (s.cols.map Prod.snd) i)) := by
  simp [step, hs, Dict.get_set, byRows, rowOf]

/-! ## Cases -/

/-- sum -/
def sum (xs : List Int) : Int := xs.foldr (· + ·) 0

/-- a float of 53 bits, for integers below 2^54: odd ones are rounded -/
def round54 (t : Bool) (v : Int) : Int := if t = true ∧ 9007199254740992 < v then v / 2 * 2 else v

/-- floats if any column has floats -/
def anyFloat (ts : List Bool) : Bool := ts.any id

theorem sum_append (a b : List Int) : sum (a ++ b) = sum a + sum b := by
  induction a with
  | nil => simp [sum]
  | cons x xs ih => simp only [sum, List.cons_append, List.foldr_cons] at ih ⊢; omega

/-- `whole_parts` applies to sums -/
example : ByParts sum := by
  intro parts
  induction parts with
  | nil => rfl
  | cons p ps ih =>
    rw [List.flatten_cons, sum_append, ← ih]
    simp [sum]

/-- **C90, counterexample.** `ds.sum(axis=1)` changes the Dataset: the integers of one column become
floats of 53 bits because of another column. -/
theorem by_row_changes_counterexample :
    let d : Ds Int Bool := { cols := [("id", ⟨.num, true, false, [9007199254740993]⟩), ("x", ⟨.num, true, true, [1]⟩)], labels := [] }
    ∃ res d', reduce1 anyFloat round54 sum (.all .no) d = .ok (res, d') ∧
      d'.cols = [("id", ⟨.num, true, true, [9007199254740992]⟩), ("x", ⟨.num, true, true, [1]⟩)] := by
  refine ⟨[9007199254740993], _, rfl, by decide⟩

/-- **C90, counterexample.** With `fill_value=0` the label is added too. -/
theorem by_row_label_counterexample :
    let d : Ds Int Bool := { cols := [("k", ⟨.num, true, false, [100]⟩), ("x", ⟨.num, true, false, [1]⟩)], labels := ["k"] }
    (reduce1 anyFloat round54 sum (.all .no) d).toOption.map Prod.fst = some [1] ∧
    (reduce1 anyFloat round54 sum (.all (.one 0)) d).toOption.map Prod.fst = some [101] := by decide

/-- **C89, counterexample.** A reduction by column takes the labels along. -/
theorem by_column_label_counterexample :
    let d : Ds Int Bool := { cols := [("k", ⟨.num, true, false, [100, 200]⟩), ("x", ⟨.num, true, false, [1, 2]⟩)], labels := ["k"] }
    reduce0 sum (.all .no) d.cols = [("k", 300), ("x", 3)] := by decide

/-- **C89, counterexample.** The number of entries of a table with a column of texts comes out as
the number of columns. -/
theorem whole_counterexample :
    let d : Ds Int Bool := { cols := [("s", ⟨.text, false, false, [7, 8, 9]⟩), ("x", ⟨.num, true, false, [1, 2, 3]⟩)], labels := [] }
    let len : List Int → Int := fun xs => xs.length
    reduceAll len len (.all (.func len)) d = 2 ∧ reduceAll len len (.all .no) { d with cols := d.cols.drop 1 } = 3 := by decide

/-- **C91, counterexample.** A column of complex numbers is seen by `any(axis=None)` and not by
`any(axis=1)`. -/
theorem any_other_counterexample :
    let d : Ds Int Bool := { cols := [("z", ⟨.other, true, false, [1, 1]⟩)], labels := [] }
    anyAll (fun v => v ≠ 0) d = true ∧ any1 (fun v => v ≠ 0) d = [false, false] := by decide

example : any1 (fun v : Int => decide (v ≠ 0)) ({ cols := [("x", ⟨.num, true, false, [0, 0, 3]⟩), ("s", ⟨.text, false, false, [0, 5, 0]⟩)], labels := [] } : Ds Int Bool)
    = [false, true, true] := by decide

example : maskReduce (fun v : Int => decide (v = 0)) true
    ({ cols := [("k", ⟨.num, true, false, [0, 0, 0]⟩), ("x", ⟨.num, true, false, [0, 1, 3]⟩), ("y", ⟨.num, true, false, [1, 1, 0]⟩)], labels := ["k"] } : Ds Int Bool)
    = some [true, false, true] := by decide

/-- **C90, counterexample.** Totals after a column has been assigned are those of the old column. -/
theorem totals_stale_counterexample :
    let s : Kept Int := { cols := [("x", [1, 2])], matrix := none }
    (run sum 2 s [.total "Sum", .assign "x" [10, 20], .total "Sum"]).cols.get "Sum" = some [1, 2] := by decide

end Verif.Reduce
