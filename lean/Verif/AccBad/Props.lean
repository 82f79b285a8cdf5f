import Verif.AccBad.Model
import Verif.Accum.Props
/-! # Bad rows and columns of `Accum2`: properties (C351 - C355) -/
namespace Verif.AccBad
open Verif.Accum Verif.Items Spec
variable {V : Type}

/-! ## Lists -/

theorem keep_map {α β : Type} (g : α → Bool) (f : α → β) (l : List α) : keep (l.map g) (l.map f) = (l.filter g).map f := by
  induction l with
  | nil => rfl
  | cons a l ih =>
    simp only [List.map_cons, keep, List.filter_cons]
    by_cases h : g a = true
    · rw [if_pos h, if_pos h, ih, List.map_cons]
    · rw [if_neg h, if_neg h, ih]

theorem put_map {α β : Type} (g : α → Bool) (old new : α → β) (l : List α) :
    put (l.map g) (l.map old) ((l.filter g).map new) = l.map fun a => if g a then new a else old a := by
  induction l with
  | nil => rfl
  | cons a l ih =>
    simp only [List.map_cons, List.filter_cons]
    cases h : g a
    · simp only [put, Bool.false_eq_true, if_false, ih]
    · simp only [if_true, List.map_cons, put, ih]

/-- what has one of different keys is what has the first, what has the second, and so on -/
theorem parts_perm {α : Type} (data : List α) (key : α → Nat) (L : List Nat) (hL : L.Nodup) :
    (data.filter fun x => L.contains (key x)).Perm (L.map fun c => data.filter fun x => decide (key x = c)).flatten := by
  induction L with
  | nil => simp
  | cons c L ih =>
    rw [List.nodup_cons] at hL
    rw [List.map_cons, List.flatten_cons]
    refine List.Perm.trans ?_ (List.Perm.append_left _ (ih hL.2))
    refine (List.filter_append_perm (fun x => decide (key x = c)) (data.filter fun x => (c :: L).contains (key x))).symm.trans ?_
    rw [List.filter_filter, List.filter_filter]
    have e1 : (data.filter fun x => decide (key x = c) && (c :: L).contains (key x)) = data.filter fun x => decide (key x = c) := by
      apply List.filter_congr
      intro x _
      by_cases h : key x = c
      · simp [h]
      · simp [h]
    have e2 : (data.filter fun x => !decide (key x = c) && (c :: L).contains (key x)) = data.filter fun x => L.contains (key x) := by
      apply List.filter_congr
      intro x _
      by_cases h : key x = c
      · simp [h, hL.1]
      · simp [h]
    rw [e1, e2]

/-- a total of cells with different codes -/
theorem total_codes {agg func : List V → V} (ht : IsTotal agg func) (data : List (Row V)) (code : Row V → Nat) (L : List Nat) (hL : L.Nodup)
    (P : Row V → Bool) :
    func (L.map fun c => agg ((data.filter fun x => P x && decide (code x = c)).map Row.v)) =
      agg ((data.filter fun x => P x && L.contains (code x)).map Row.v) := by
  have hp := (parts_perm (data.filter P) code L hL).map Row.v
  rw [List.filter_filter, List.map_flatten, List.map_map] at hp
  have := ht (L.map fun c => (data.filter fun x => P x && decide (code x = c)).map Row.v)
    ((data.filter fun x => P x && L.contains (code x)).map Row.v) (by
      have e : (data.filter fun x => L.contains (code x) && P x) = data.filter fun x => P x && L.contains (code x) := by
        apply List.filter_congr
        intro x _
        rw [Bool.and_comm]
      rw [e] at hp
      refine hp.trans (List.Perm.of_eq ?_)
      congr 1
      apply List.map_congr_left
      intro c _
      simp only [Function.comp]
      rw [List.filter_filter]
      congr 1
      apply List.filter_congr
      intro x _
      rw [Bool.and_comm])
  rw [List.map_map] at this
  exact this

/-- the total of a matrix of cells with different codes -/
theorem total_matrix {agg func : List V → V} (ht : IsTotal agg func) (data : List (Row V)) (c1 c2 : Row V → Nat) (L1 L2 : List Nat)
    (h1 : L1.Nodup) (h2 : L2.Nodup) :
    func (L1.map fun r => L2.map fun c => agg ((data.filter fun x => decide (c1 x = r) && decide (c2 x = c)).map Row.v)).flatten =
      agg ((data.filter fun x => L1.contains (c1 x) && L2.contains (c2 x)).map Row.v) := by
  have hp : (data.filter fun x => L1.contains (c1 x) && L2.contains (c2 x)).Perm
      ((L1.map fun r => L2.map fun c => data.filter fun x => decide (c1 x = r) && decide (c2 x = c)).flatten).flatten := by
    have a := parts_perm (data.filter fun x => L2.contains (c2 x)) c1 L1 h1
    rw [List.filter_filter] at a
    refine a.trans ?_
    rw [List.flatten_flatten, List.map_map]
    clear a h1
    induction L1 with
    | nil => exact List.Perm.refl _
    | cons r L1 ih =>
      simp only [List.map_cons, List.flatten_cons]
      refine List.Perm.append ?_ ih
      simp only [Function.comp]
      have b := parts_perm (data.filter fun x => decide (c1 x = r)) c2 L2 h2
      rw [List.filter_filter] at b
      rw [List.filter_filter]
      refine (List.Perm.of_eq ?_).trans (b.trans (List.Perm.of_eq ?_))
      · apply List.filter_congr
        intro x _
        rw [Bool.and_comm]
      · congr 1
        apply List.map_congr_left
        intro c _
        rw [List.filter_filter]
        apply List.filter_congr
        intro x _
        rw [Bool.and_comm]
  have := ht ((L1.map fun r => L2.map fun c =>
    (data.filter fun x => decide (c1 x = r) && decide (c2 x = c)).map Row.v).flatten)
    ((data.filter fun x => L1.contains (c1 x) && L2.contains (c2 x)).map Row.v) (by
      have q := hp.map Row.v
      rw [List.map_flatten, List.map_flatten, List.map_map] at q
      simpa only [Function.comp_def, List.map_map] using q)
  rw [List.map_flatten, List.map_map] at this
  simpa only [Function.comp_def, List.map_map] using this

/-! ## Masks -/

/-- the numbers stand for the labels -/
def Nums (labels : List Name) (nb : List Nat) (bad : List Name) : Prop := List.Forall₂ (fun i b => labels[i]? = some b) nb bad

theorem nums_lt {labels : List Name} {nb : List Nat} {bad : List Name} (h : Nums labels nb bad) : ∀ i ∈ nb, i < labels.length := by
  unfold Nums at h
  induction h with
  | nil => simp
  | cons h _ ih =>
    intro i hi
    rcases List.mem_cons.1 hi with rfl | hi
    · exact (List.getElem?_eq_some_iff.1 h).1
    · exact ih i hi

theorem nums_contains {labels : List Name} (hn : labels.Nodup) {nb : List Nat} {bad : List Name} (h : Nums labels nb bad) {i : Nat} {b : Name}
    (hb : labels[i]? = some b) : bad.contains b = nb.contains i := by
  unfold Nums at h
  induction h with
  | nil => rfl
  | @cons j c nb bad hj _ ih =>
    rw [List.contains_cons, List.contains_cons, ih]
    congr 1
    rw [Bool.eq_iff_iff, beq_iff_eq, beq_iff_eq]
    constructor
    · rintro rfl
      exact (List.Nodup.getElem_inj_iff hn (hi := (List.getElem?_eq_some_iff.1 hb).1) (hj := (List.getElem?_eq_some_iff.1 hj).1)).1
        ((List.getElem?_eq_some_iff.1 hb).2.trans (List.getElem?_eq_some_iff.1 hj).2.symm)
    · rintro rfl
      rw [hb] at hj
      exact Option.some.inj hj

theorem position_some {labels : List Name} {n : Name} (h : n ∈ labels) : ∃ i, position labels n = some i ∧ labels[i]? = some n := by
  unfold position
  cases hf : labels.findIdx? (fun l => l == n) with
  | none =>
    rw [List.findIdx?_eq_none_iff] at hf
    have := hf n h
    simp at this
  | some i =>
    obtain ⟨hi, h1, -⟩ := List.findIdx?_eq_some_iff_getElem.1 hf
    refine ⟨i, rfl, ?_⟩
    rw [List.getElem?_eq_getElem hi]
    rw [beq_iff_eq] at h1
    rw [h1]

theorem positions (labels : List Name) (l : List Name) (h : ∀ b ∈ l, b ∈ labels) :
    ∃ nb, l.mapM (position labels) = some nb ∧ Nums labels nb l := by
  induction l with
  | nil => exact ⟨[], rfl, List.Forall₂.nil⟩
  | cons b l ih =>
    obtain ⟨nb, h1, h2⟩ := ih fun c hc => h c (by simp [hc])
    obtain ⟨i, h3, h4⟩ := position_some (h b (by simp))
    refine ⟨i :: nb, ?_, List.Forall₂.cons h4 h2⟩
    rw [List.mapM_cons, h3]
    simp [h1]

theorem fancy_nums {a : Axis} {s : Slots} {bad : List Name} (h : Means a (some s) bad) : ∃ nb, fancy a s = some nb ∧ Nums a.labels nb bad := by
  cases s with
  | nums l => exact ⟨l, rfl, h⟩
  | names l =>
    obtain ⟨h1, h2⟩ := h
    subst h1
    exact positions a.labels bad h2

theorem maskOf_eq {a : Axis} (hn : a.labels.Nodup) {nb : List Nat} {bad : List Name} (h : Nums a.labels nb bad) (sf : Bool) :
    maskOf (codesAll a.n sf).length (if sf then 1 else 0) nb = some ((codesAll a.n sf).map fun k => good bad (a.label k)) := by
  have hlt := nums_lt h
  have key : ∀ i, i < a.n → (!nb.contains i) = good bad (a.label (i + 1)) := by
    intro i hi
    have hb : a.labels[i]? = some (a.labels[i]'hi) := List.getElem?_eq_getElem hi
    unfold Axis.label
    rw [if_neg (by omega), Nat.add_sub_cancel, hb]
    simp only [good]
    rw [nums_contains hn h hb]
  unfold maskOf
  rw [codesAll_length]
  cases sf with
  | true =>
    simp only [if_true, codesAll]
    rw [if_pos]
    · congr 1
      apply List.map_congr_left
      intro i hi
      have hi' : i < a.n + 1 := by simpa using hi
      cases i with
      | zero => simp [good, Axis.label]
      | succ i =>
        rw [Nat.add_sub_cancel, ← key i (by omega)]
        simp
    · rw [List.all_eq_true]
      intro i hi
      have := hlt i hi
      simpa [Axis.n] using this
  | false =>
    simp only [Bool.false_eq_true, if_false, codesAll, List.map_map]
    rw [if_pos]
    · congr 1
      apply List.map_congr_left
      intro i hi
      have hi' : i < a.n := by simpa using hi
      simp only [Function.comp]
      rw [← key i hi']
      simp
    · rw [List.all_eq_true]
      intro i hi
      have := hlt i hi
      exact decide_eq_true (by simpa [Axis.n] using this)

theorem axisMask_eq {a : Axis} (hn : a.labels.Nodup) {s : Option Slots} {bad : List Name} (h : Means a s bad) (sf : Bool) :
    axisMask a (codesAll a.n sf).length (if sf then 1 else 0) s = some ((codesAll a.n sf).map fun k => good bad (a.label k)) := by
  cases s with
  | none =>
    have : bad = [] := h
    subst this
    exact maskOf_eq hn List.Forall₂.nil sf
  | some s =>
    obtain ⟨nb, h1, h2⟩ := fancy_nums h
    simp only [axisMask, h1, Option.bind_some]
    exact maskOf_eq hn h2 sf

/-! ## Totals from the cells -/

theorem codesAll_nodup (n : Nat) (sf : Bool) : (codesAll n sf).Nodup := by
  unfold codesAll
  cases sf
  · simp only [Bool.false_eq_true, if_false]
    exact List.Nodup.map (fun _ _ h => Nat.succ.inj h) List.nodup_range
  · exact List.nodup_range

theorem codesAll_mem {n : Nat} {sf : Bool} {k : Nat} (h : k ≤ n) : k ∈ codesAll n sf ↔ (sf || decide (k ≠ 0)) = true := by
  unfold codesAll
  cases sf
  · simp only [Bool.false_eq_true, if_false, List.mem_map, List.mem_range, Bool.false_or, decide_eq_true_eq]
    constructor
    · rintro ⟨i, _, rfl⟩
      omega
    · intro h0
      exact ⟨k - 1, by omega, by omega⟩
  · simp only [if_true, List.mem_range, Bool.true_or, iff_true]
    omega

theorem label_none {a : Axis} {k : Nat} (h : k ≤ a.n) : (a.label k).isSome = decide (k ≠ 0) := by
  unfold Axis.label
  by_cases hk : k = 0
  · simp [hk]
  · rw [if_neg hk, List.getElem?_eq_getElem (by unfold Axis.n at h; omega)]
    simp [hk]

theorem shows_codes {a : Axis} {bad : List Name} {sf : Bool} {k : Nat} (h : k ≤ a.n) :
    ((codesAll a.n sf).filter fun k => good bad (a.label k)).contains k = (shows sf (a.label k) && good bad (a.label k)) := by
  rw [Bool.eq_iff_iff, List.contains_iff_mem, List.mem_filter, codesAll_mem h, Bool.and_eq_true]
  unfold shows
  rw [label_none h]

theorem label_inj {a : Axis} (hn : a.labels.Nodup) {k j : Nat} (hk : k ≤ a.n) (hj : j ≤ a.n) : a.label k = a.label j ↔ k = j := by
  constructor
  · intro h
    unfold Axis.label at h
    by_cases h0 : k = 0
    · by_cases h1 : j = 0
      · rw [h0, h1]
      · rw [if_pos h0, if_neg h1, List.getElem?_eq_getElem (by unfold Axis.n at hj; omega)] at h
        cases h
    · by_cases h1 : j = 0
      · rw [if_neg h0, if_pos h1, List.getElem?_eq_getElem (by unfold Axis.n at hk; omega)] at h
        cases h
      · rw [if_neg h0, if_neg h1, List.getElem?_eq_getElem (by unfold Axis.n at hk; omega),
          List.getElem?_eq_getElem (by unfold Axis.n at hj; omega)] at h
        have := (List.Nodup.getElem_inj_iff hn).1 (Option.some.inj h)
        omega
  · rintro rfl
    rfl

section
variable (agg : List V → V) (rows cols : Axis) (data : List (Row V))

theorem cell_eq (hr : rows.labels.Nodup) (hc : cols.labels.Nodup) (hd : DataOK rows cols data) {r c : Nat} (hrn : r ≤ rows.n) (hcn : c ≤ cols.n) :
    cell rows cols data (rows.label r) (cols.label c) =
      (data.filter fun x => decide ((codes x).1 = r) && decide ((codes x).2 = c)).map Row.v := by
  unfold cell
  congr 1
  apply List.filter_congr
  intro x hx
  rw [labels_eq, Bool.eq_iff_iff, decide_eq_true_eq, Prod.mk.injEq, label_inj hr (codes_le hd hx).1 hrn,
    label_inj hc (codes_le hd hx).2 hcn]
  simp

theorem rowVals_codes (hr : rows.labels.Nodup) (hd : DataOK rows cols data) (sf : Bool) (badC : List Name) {r : Nat} (hrn : r ≤ rows.n) :
    rowVals rows cols data sf badC (rows.label r) = (data.filter fun x => decide ((codes x).1 = r) &&
      ((codesAll cols.n sf).filter fun k => good badC (cols.label k)).contains (codes x).2).map Row.v := by
  unfold rowVals
  congr 1
  apply List.filter_congr
  intro x hx
  rw [labels_eq, shows_codes (codes_le hd hx).2]
  congr 1
  rw [Bool.eq_iff_iff, decide_eq_true_eq, decide_eq_true_eq]
  exact label_inj hr (codes_le hd hx).1 hrn

theorem colVals_codes (hc : cols.labels.Nodup) (hd : DataOK rows cols data) (sf : Bool) (badR : List Name) {c : Nat} (hcn : c ≤ cols.n) :
    colVals rows cols data sf badR (cols.label c) = (data.filter fun x => decide ((codes x).2 = c) &&
      ((codesAll rows.n sf).filter fun k => good badR (rows.label k)).contains (codes x).1).map Row.v := by
  unfold colVals
  congr 1
  apply List.filter_congr
  intro x hx
  rw [labels_eq, shows_codes (codes_le hd hx).1]
  congr 1
  rw [Bool.eq_iff_iff, decide_eq_true_eq, decide_eq_true_eq]
  exact label_inj hc (codes_le hd hx).2 hcn

theorem allVals_codes (hd : DataOK rows cols data) (sf : Bool) (badR badC : List Name) :
    allVals rows cols data sf badR badC = (data.filter fun x =>
      ((codesAll rows.n sf).filter fun k => good badR (rows.label k)).contains (codes x).1 &&
      ((codesAll cols.n sf).filter fun k => good badC (cols.label k)).contains (codes x).2).map Row.v := by
  unfold allVals
  congr 1
  apply List.filter_congr
  intro x hx
  rw [labels_eq, shows_codes (codes_le hd hx).1, shows_codes (codes_le hd hx).2]

/-- the totals of a row of cells -/
theorem row_total {func : List V → V} (ht : IsTotal agg func) (hr : rows.labels.Nodup) (hc : cols.labels.Nodup)
    (hd : DataOK rows cols data) (sf : Bool) (badC : List Name) {r : Nat} (hrn : r ≤ rows.n) :
    func (((codesAll cols.n sf).filter fun k => good badC (cols.label k)).map fun c =>
      agg (cell rows cols data (rows.label r) (cols.label c))) = agg (rowVals rows cols data sf badC (rows.label r)) := by
  rw [rowVals_codes rows cols data hr hd sf badC hrn,
    ← total_codes ht data (fun x => (codes x).2) _ ((codesAll_nodup _ sf).filter _) (fun x => decide ((codes x).1 = r))]
  congr 1
  apply List.map_congr_left
  intro c hcm
  rw [cell_eq rows cols data hr hc hd hrn (codesAll_le (List.mem_filter.1 hcm).1)]

theorem col_total {func : List V → V} (ht : IsTotal agg func) (hr : rows.labels.Nodup) (hc : cols.labels.Nodup)
    (hd : DataOK rows cols data) (sf : Bool) (badR : List Name) {c : Nat} (hcn : c ≤ cols.n) :
    func (((codesAll rows.n sf).filter fun k => good badR (rows.label k)).map fun r =>
      agg (cell rows cols data (rows.label r) (cols.label c))) = agg (colVals rows cols data sf badR (cols.label c)) := by
  rw [colVals_codes rows cols data hc hd sf badR hcn,
    ← total_codes ht data (fun x => (codes x).1) _ ((codesAll_nodup _ sf).filter _) (fun x => decide ((codes x).2 = c))]
  congr 1
  apply List.map_congr_left
  intro r hrm
  rw [cell_eq rows cols data hr hc hd (codesAll_le (List.mem_filter.1 hrm).1) hcn]
  congr 2
  apply List.filter_congr
  intro x _
  rw [Bool.and_comm]

theorem all_total {func : List V → V} (ht : IsTotal agg func) (hr : rows.labels.Nodup) (hc : cols.labels.Nodup)
    (hd : DataOK rows cols data) (sf : Bool) (badR badC : List Name) :
    func (((codesAll rows.n sf).filter fun k => good badR (rows.label k)).map fun r =>
      ((codesAll cols.n sf).filter fun k => good badC (cols.label k)).map fun c =>
        agg (cell rows cols data (rows.label r) (cols.label c))).flatten = agg (allVals rows cols data sf badR badC) := by
  rw [allVals_codes rows cols data hd, ← total_matrix ht data (fun x => (codes x).1) (fun x => (codes x).2) _ _
    ((codesAll_nodup _ sf).filter _) ((codesAll_nodup _ sf).filter _)]
  congr 2
  apply List.map_congr_left
  intro r hrm
  apply List.map_congr_left
  intro c hcm
  rw [cell_eq rows cols data hr hc hd (codesAll_le (List.mem_filter.1 hrm).1) (codesAll_le (List.mem_filter.1 hcm).1)]

theorem good_nil (l : Option Name) : good [] l = true := by
  cases l <;> rfl

theorem rowVals_nil (sf : Bool) (r : Option Name) : rowVals rows cols data sf [] r = rowValues rows cols data sf r := by
  unfold rowVals rowValues
  simp only [good_nil, Bool.and_true]

theorem colVals_nil (sf : Bool) (c : Option Name) : colVals rows cols data sf [] c = colValues rows cols data sf c := by
  unfold colVals colValues
  simp only [good_nil, Bool.and_true]

/-- the matrix of cells without bad rows and columns, its totals -/
theorem apply2d_good (func : List V → V) (f : Nat → Nat → V) (L1 L2 : List Nat) :
    apply2d func (L1.map fun r => L2.map fun c => f r c) L2.length true =
      (L2.map fun c => func (L1.map fun r => f r c), L1.map fun r => func (L2.map fun c => f r c)) := by
  unfold apply2d
  simp only [if_true]
  refine Prod.ext ?_ ?_
  · simp only
    apply List.ext_getElem
    · simp
    · intro j h1 h2
      have hj : j < L2.length := by simpa using h2
      simp only [List.getElem_map, List.getElem_range]
      rw [column_of_matrix L1 L2 f (List.getElem?_eq_getElem hj)]
  · simp only [List.map_map]
    rfl

theorem count_mask {α : Type} (g : α → Bool) (l : List α) : ((l.map g).filter fun b => b).length = (l.filter g).length := by
  induction l with
  | nil => rfl
  | cons a l ih =>
    simp only [List.map_cons, List.filter_cons]
    cases g a <;> simp [ih]

theorem display_margins (hr : rows.OK) (hc : cols.OK) (sf : Bool) (f g : Option Name → V) (t : V) :
    display rows cols sf ⟨(codesAll cols.n sf).map fun k => f (cols.label k), (codesAll rows.n sf).map fun k => g (rows.label k), t⟩ =
      ⟨(shownRows cols sf).map f, (shownRows rows sf).map g, t⟩ := by
  unfold display
  simp only
  rw [display_eq hc sf, display_eq hr sf, shownRows_eq hc, shownRows_eq hr, List.map_map, List.map_map]
  rfl

/-- **C351, C352** The totals of functions computed from the cells, exactly: the corner leaves out bad rows and columns; the total of a row
leaves out bad columns, unless the row is bad itself; likewise for columns. -/
theorem onepass_exact {func : List V → V} (ht : IsTotal agg func) (hr : rows.OK) (hc : cols.OK) (hd : DataOK rows cols data) (sf : Bool)
    (slotsR slotsC : Option Slots) (badR badC : List Name) (hmr : Means rows slotsR badR) (hmc : Means cols slotsC badC) :
    accumOne agg func rows cols data sf slotsR slotsC = some
      ⟨(shownRows cols sf).map fun c => agg (colVals rows cols data sf (if good badC c then badR else []) c),
       (shownRows rows sf).map fun r => agg (rowVals rows cols data sf (if good badR r then badC else []) r),
       agg (allVals rows cols data sf badR badC)⟩ := by
  unfold accumOne onepass
  simp only
  rw [apply2d_eq agg rows cols data ht hr.2 hc.2 hd sf]
  simp only [List.length_map]
  by_cases hnone : (slotsR.isNone && slotsC.isNone) = true
  · rw [if_pos hnone]
    rw [Bool.and_eq_true, Option.isNone_iff_eq_none, Option.isNone_iff_eq_none] at hnone
    obtain ⟨rfl, rfl⟩ := hnone
    have e1 : badR = [] := hmr
    have e2 : badC = [] := hmc
    subst e1 e2
    rw [display_margins rows cols hr hc sf (fun c => agg (colValues rows cols data sf c)) (fun r => agg (rowValues rows cols data sf r))]
    simp only [ite_self, rowVals_nil, colVals_nil]
    congr 2
    have hrt : ∀ r ∈ codesAll rows.n sf, agg (rowValues rows cols data sf (rows.label r)) =
        agg ((data.filter fun x => ((codesAll cols.n sf).filter fun k => good [] (cols.label k)).contains (codes x).2 &&
          decide ((codes x).1 = r)).map Row.v) := by
      intro r hrm
      rw [← rowVals_nil, rowVals_codes rows cols data hr.2 hd sf [] (codesAll_le hrm)]
      congr 2
      apply List.filter_congr
      intro x _
      rw [Bool.and_comm]
    rw [List.map_congr_left hrt, total_codes ht data (fun x => (codes x).1) _ (codesAll_nodup _ sf)
      (fun x => ((codesAll cols.n sf).filter fun k => good [] (cols.label k)).contains (codes x).2),
      allVals_codes rows cols data hd]
    congr 2
    apply List.filter_congr
    intro x _
    rw [Bool.and_comm]
    congr 2
    simp only [good_nil, List.filter_true]
  · rw [if_neg hnone, axisMask_eq hr.2 hmr sf, axisMask_eq hc.2 hmc sf]
    simp only
    have him : (if sf then makeImatrix rows cols (calculate agg rows cols data) sf
        else (makeImatrix rows cols (calculate agg rows cols data) sf).drop 1) =
        (codesAll rows.n sf).map fun r => (codesAll cols.n sf).map fun c => agg (cell rows cols data (rows.label r) (cols.label c)) := by
      rw [imatrix_eq agg rows cols data hr.2 hc.2 hd]
      cases sf with
      | true => rfl
      | false =>
        simp only [Bool.false_eq_true, if_false]
        rw [List.range_succ_eq_map]
        simp [codesAll, List.map_map]
    rw [him]
    unfold dirty
    simp only
    rw [keep_map, List.map_map]
    have hkeep : (keep ((codesAll cols.n sf).map fun k => good badC (cols.label k)) ∘ fun r =>
        (codesAll cols.n sf).map fun c => agg (cell rows cols data (rows.label r) (cols.label c))) = fun r =>
        ((codesAll cols.n sf).filter fun k => good badC (cols.label k)).map fun c =>
          agg (cell rows cols data (rows.label r) (cols.label c)) := by
      funext r
      simp only [Function.comp]
      rw [keep_map]
    rw [hkeep, count_mask, apply2d_good func (fun r c => agg (cell rows cols data (rows.label r) (cols.label c))),
      all_total agg rows cols data ht hr.2 hc.2 hd sf badR badC]
    simp only
    rw [put_map, put_map, ← display_margins rows cols hr hc sf
      (fun c => agg (colVals rows cols data sf (if good badC c then badR else []) c))
      (fun r => agg (rowVals rows cols data sf (if good badR r then badC else []) r))]
    congr 2
    refine congrArg₂ (fun a b => Margins.mk a b _) ?_ ?_
    · apply List.map_congr_left
      intro c hcm
      by_cases hg : good badC (cols.label c) = true
      · rw [if_pos hg, if_pos hg, col_total agg rows cols data ht hr.2 hc.2 hd sf badR (codesAll_le hcm)]
      · rw [if_neg hg, if_neg hg, colVals_nil]
    · apply List.map_congr_left
      intro r hrm
      by_cases hg : good badR (rows.label r) = true
      · rw [if_pos hg, if_pos hg, row_total agg rows cols data ht hr.2 hc.2 hd sf badC (codesAll_le hrm)]
      · rw [if_neg hg, if_neg hg, rowVals_nil]

/-- **C351** The totals of functions computed from the cells: nothing of a bad row or column is in the corner, in the total of a row that is
not bad or in the total of a column that is not bad, and all else that is shown is in it. -/
theorem onepass_good {func : List V → V} (ht : IsTotal agg func) (hr : rows.OK) (hc : cols.OK) (hd : DataOK rows cols data) (sf : Bool)
    (slotsR slotsC : Option Slots) (badR badC : List Name) (hmr : Means rows slotsR badR) (hmc : Means cols slotsC badC) :
    ∃ m, accumOne agg func rows cols data sf slotsR slotsC = some m ∧ m.total = agg (allVals rows cols data sf badR badC) ∧
      (∀ (i : Nat) (r : Option Name), (shownRows rows sf)[i]? = some r → good badR r = true →
        m.totalsY[i]? = some (agg (rowVals rows cols data sf badC r))) ∧
      (∀ (i : Nat) (c : Option Name), (shownRows cols sf)[i]? = some c → good badC c = true →
        m.totalsX[i]? = some (agg (colVals rows cols data sf badR c))) := by
  refine ⟨_, onepass_exact agg rows cols data ht hr hc hd sf slotsR slotsC badR badC hmr hmc, rfl, ?_, ?_⟩
  · intro i r hi hg
    simp only [List.getElem?_map, hi, Option.map_some, if_pos hg]
  · intro i c hi hg
    simp only [List.getElem?_map, hi, Option.map_some, if_pos hg]

/-- **C352** The total of a bad row is over all columns, also the bad ones. -/
theorem onepass_bad {func : List V → V} (ht : IsTotal agg func) (hr : rows.OK) (hc : cols.OK) (hd : DataOK rows cols data) (sf : Bool)
    (slotsR slotsC : Option Slots) (badR badC : List Name) (hmr : Means rows slotsR badR) (hmc : Means cols slotsC badC) :
    ∃ m, accumOne agg func rows cols data sf slotsR slotsC = some m ∧
      (∀ (i : Nat) (r : Option Name), (shownRows rows sf)[i]? = some r → good badR r = false →
        m.totalsY[i]? = some (agg (rowValues rows cols data sf r))) ∧
      (∀ (i : Nat) (c : Option Name), (shownRows cols sf)[i]? = some c → good badC c = false →
        m.totalsX[i]? = some (agg (colValues rows cols data sf c))) := by
  refine ⟨_, onepass_exact agg rows cols data ht hr hc hd sf slotsR slotsC badR badC hmr hmc, ?_, ?_⟩
  · intro i r hi hg
    simp only [List.getElem?_map, hi, Option.map_some, hg, Bool.false_eq_true, if_false, rowVals_nil]
  · intro i c hi hg
    simp only [List.getElem?_map, hi, Option.map_some, hg, Bool.false_eq_true, if_false, colVals_nil]

/-! ## Totals from the data -/

theorem notBad_good {a : Axis} (h0 : a.base0 = false) (hn : a.labels.Nodup) {s : Option Slots} {bad : List Name} (h : Means a s bad) {k : Nat}
    (hk : k ≤ a.n) : notBad a k s = good bad (a.label k) := by
  have key : ∀ l : List Nat, Nums a.labels l bad → (!(l.map (· + 1)).contains k) = good bad (a.label k) := by
    intro l hl
    by_cases hz : k = 0
    · subst hz
      have : (l.map (· + 1)).contains 0 = false := by
        rw [← Bool.not_eq_true, List.contains_iff_mem, List.mem_map]
        rintro ⟨i, _, hi⟩
        omega
      rw [this]
      rfl
    · have hlt : k - 1 < a.labels.length := by unfold Axis.n at hk; omega
      have hb : a.labels[k - 1]? = some (a.labels[k - 1]'hlt) := List.getElem?_eq_getElem hlt
      unfold Axis.label
      rw [if_neg hz, hb]
      simp only [good]
      rw [nums_contains hn hl hb]
      congr 1
      rw [Bool.eq_iff_iff, List.contains_iff_mem, List.contains_iff_mem, List.mem_map]
      constructor
      · rintro ⟨i, hi, rfl⟩
        simpa using hi
      · intro hi
        exact ⟨k - 1, hi, by omega⟩
  have hraw : raw a k = k := by
    unfold raw
    rw [h0]
    rfl
  match s, h with
  | none, h =>
    have : bad = [] := h
    subst this
    rw [good_nil]
    rfl
  | some (.nums []), h => simpa [notBad, hraw] using key [] h
  | some (.nums [i]), h =>
    rw [← key [i] h]
    simp only [notBad, hraw, List.map_cons, List.map_nil, List.contains_cons, List.contains_nil, Bool.or_false]
    rfl
  | some (.nums (i :: j :: l)), h =>
    rw [← key (i :: j :: l) h]
    simp only [notBad, hraw]
  | some (.names l), h =>
    obtain ⟨rfl, -⟩ := h
    simp only [notBad]
    cases a.label k <;> rfl

/-- **C353** The totals of functions computed from the data: the total of each row, bad or not, is over what is not in bad columns,
likewise for columns, and the corner leaves out both (axes of base index 1, in the order of the codes; the total of a row also has what
is filtered in the columns). -/
theorem multipass_partial {func : List V → V} (hr : rows.labels.Nodup) (hc : cols.labels.Nodup) (hr0 : rows.base0 = false)
    (hc0 : cols.base0 = false) (hd : DataOK rows cols data) (slotsR slotsC : Option Slots) (badR badC : List Name)
    (hmr : Means rows slotsR badR) (hmc : Means cols slotsC badC) :
    multipass agg func rows cols data false slotsR slotsC =
      ⟨cols.labels.map fun c => agg (colVals rows cols data true badR (some c)),
       rows.labels.map fun r => agg (rowVals rows cols data true badC (some r)),
       func ((data.filter fun x => x.pass && good badR (rows.label x.r) && good badC (cols.label x.c)).map Row.v)⟩ := by
  have hd' : ∀ p : Row V → Bool, DataOK rows cols (data.map fun x => { x with pass := p x }) := by
    intro p x hx
    obtain ⟨y, hy, rfl⟩ := List.mem_map.1 hx
    exact hd y hy
  have vals : ∀ (p q : Row V → Bool), (∀ x ∈ data, q { x with pass := p x } = true → True) →
      ((data.map fun x => { x with pass := p x }).filter q).map Row.v = (data.filter fun x => q { x with pass := p x }).map Row.v := by
    intro p q _
    rw [List.filter_map, List.map_map]
    rfl
  unfold multipass
  simp only
  rw [accum1_rows agg rows cols _ hr0 hr (hd' _), accum1_cols agg rows cols _ hc0 hc (hd' _)]
  simp only [plainRows, Bool.false_eq_true, if_false, List.nil_append, List.map_map]
  rw [Margins.mk.injEq]
  refine ⟨?_, ?_, ?_⟩
  · apply List.map_congr_left
    intro c _
    simp only [Function.comp, colValues, colVals]
    rw [vals _ _ fun _ _ _ => trivial]
    congr 2
    apply List.filter_congr
    intro x hx
    rw [notBad_good hr0 hr hmr (hd x hx).1]
    unfold labels
    simp only [shows, Bool.true_or, Bool.true_and, Bool.and_true]
    by_cases hp : x.pass = true
    · by_cases hg : good badR (rows.label x.r) = true
      · simp [hp, hg]
      · simp [hp, hg]
    · simp [hp]
  · apply List.map_congr_left
    intro r _
    simp only [Function.comp, rowValues, rowVals]
    rw [vals _ _ fun _ _ _ => trivial]
    congr 2
    apply List.filter_congr
    intro x hx
    rw [notBad_good hc0 hc hmc (hd x hx).2]
    unfold labels
    simp only [shows, Bool.true_or, Bool.true_and, Bool.and_true]
    by_cases hp : x.pass = true
    · by_cases hg : good badC (cols.label x.c) = true
      · simp [hp, hg]
      · simp [hp, hg]
    · simp [hp]
  · congr 2
    apply List.filter_congr
    intro x hx
    rw [notBad_good hr0 hr hmr (hd x hx).1, notBad_good hc0 hc hmc (hd x hx).2]
    cases x.pass <;> cases good badR (rows.label x.r) <;> cases good badC (cols.label x.c) <;> rfl

/-! ## Labels and numbers -/

/-- **C354** It is the same to give the labels or their numbers. -/
theorem names_nums {func : List V → V} (ht : IsTotal agg func) (hr : rows.OK) (hc : cols.OK) (hd : DataOK rows cols data) (sf : Bool)
    (slotsC : Option Slots) (badR badC : List Name) (nums : List Nat) (hnum : List.Forall₂ (fun i b => rows.labels[i]? = some b) nums badR)
    (hmc : Means cols slotsC badC) :
    accumOne agg func rows cols data sf (some (.names badR)) slotsC = accumOne agg func rows cols data sf (some (.nums nums)) slotsC := by
  have hmem : ∀ b ∈ badR, b ∈ rows.labels := by
    intro b hb
    clear hmc
    induction hnum with
    | nil => simp at hb
    | cons h _ ih =>
      rcases List.mem_cons.1 hb with rfl | hb
      · exact List.mem_of_getElem? h
      · exact ih hb
  rw [onepass_exact agg rows cols data ht hr hc hd sf (some (.names badR)) slotsC badR badC ⟨rfl, hmem⟩ hmc,
    onepass_exact agg rows cols data ht hr hc hd sf (some (.nums nums)) slotsC badR badC hnum hmc]

/-- **C354** A label or a number that is not there raises. -/
theorem missing_raises (func : List V → V) (arr : List V) (sf : Bool) (badC : Option Slots) (l : List Name)
    (h : ∃ b ∈ l, b ∉ rows.labels) : onepass func rows cols arr sf (some (.names l)) badC = none := by
  have : l.mapM (position rows.labels) = none := by
    obtain ⟨b, hb, hn⟩ := h
    induction l with
    | nil => simp at hb
    | cons c l ih =>
      rw [List.mapM_cons]
      rcases List.mem_cons.1 hb with rfl | hb
      · have : position rows.labels b = none := by
          unfold position
          rw [List.findIdx?_eq_none_iff]
          intro x hx
          rw [beq_eq_false_iff_ne]
          rintro rfl
          exact hn hx
        rw [this]
        rfl
      · cases position rows.labels c with
        | none => rfl
        | some i => simp [ih hb]
  unfold onepass
  simp only [Option.isNone_some, Bool.false_and, Bool.false_eq_true, if_false, axisMask, fancy, this, Option.bind_none]

/-! ## The argument -/

/-- **C355** Numbers given as a list, and all numbers if filtered rows are not shown: all columns of data leave out and note these rows. -/
theorem argument_partial (sf : Bool) (k : Nat) (arg : Arg) (h : sf = false ∨ ∃ l, arg = .list l) :
    columns sf k arg = (List.replicate k (arg.nums, if sf then arg.nums.map (· + 1) else arg.nums), arg) := by
  have hone : oneColumn sf arg = (arg.nums, (if sf then arg.nums.map (· + 1) else arg.nums), arg) := by
    rcases h with rfl | ⟨l, rfl⟩
    · rfl
    · cases sf <;> rfl
  induction k with
  | zero => rfl
  | succ k ih =>
    simp only [columns, hone, ih, List.replicate_succ]

/-- **C355** Numbers given as an array, filtered rows shown: each column of data moves the array by two; the k-th leaves out the rows moved
by 2 k. -/
theorem argument_exact (k : Nat) (l : List Nat) :
    columns true k (.array l) =
      ((List.range k).map fun j => (l.map (· + 2 * j), l.map (· + (2 * j + 2))), .array (l.map (· + 2 * k))) := by
  induction k generalizing l with
  | zero => simp [columns]
  | succ k ih =>
    simp only [columns, oneColumn, if_true, Arg.addOne, Arg.nums, List.map_map]
    rw [ih, List.range_succ_eq_map]
    simp only [List.map_cons, List.map_map]
    refine Prod.ext ?_ ?_
    · simp only
      refine congrArg₂ List.cons (Prod.ext ?_ ?_) ?_
      · simp
      · simp [Function.comp_def]
      · apply List.map_congr_left
        intro j _
        refine Prod.ext ?_ ?_
        · simp only [Function.comp]
          apply List.map_congr_left
          intro i _
          simp only [Function.comp]
          omega
        · simp only [Function.comp]
          apply List.map_congr_left
          intro i _
          simp only [Function.comp]
          omega
    · simp only [Arg.array.injEq]
      apply List.map_congr_left
      intro i _
      simp only [Function.comp]
      omega
end

/-! ## Cases -/

/-- two rows and two columns -/
def ab : Axis := ⟨[['a'], ['b']], false, [0, 1], false⟩

/-- one value in each cell -/
def four : List (Row Int) := [⟨1, 1, 1, true⟩, ⟨1, 2, 10, true⟩, ⟨2, 1, 100, true⟩, ⟨2, 2, 1000, true⟩]

example : ab.OK ∧ DataOK ab ab four ∧ Means ab (some (.names [['a']])) [['a']] ∧ Means ab none [] :=
  ⟨⟨List.Perm.refl _, by decide⟩, by unfold DataOK; decide, ⟨rfl, by decide⟩, rfl⟩

example : accumOne List.sum List.sum ab ab four false (some (.names [['a']])) none = some ⟨[100, 1000], [11, 1100], 1100⟩ := by
  decide +kernel

/-- **C352** A bad row and a bad column: the total of the bad row includes the bad column if it is computed from the cells, and does not if
it is computed from the data. -/
theorem bad_row_counterexample :
    accumOne List.sum List.sum ab ab four false (some (.names [['a']])) (some (.names [['a']])) = some ⟨[101, 1000], [11, 1000], 1000⟩ ∧
    multipass List.sum List.sum ab ab four false (some (.names [['a']])) (some (.names [['a']])) = ⟨[100, 1000], [10, 1000], 1000⟩ := by
  decide +kernel

/-- **C353** An axis of base index 0 whose bad row is given by number: another row is left out of the corner. -/
theorem base0_counterexample :
    (multipass List.sum List.sum { ab with base0 := true } ab four false (some (.nums [0])) none).total = 11 ∧
    (multipass List.sum List.sum ab ab four false (some (.nums [0])) none).total = 1100 := by decide +kernel

/-- **C354** A label that is not there raises with the totals from the cells, and is passed over with those from the data. -/
theorem missing_counterexample :
    accumOne List.sum List.sum ab ab four false (some (.names [['z']])) none = none ∧
    multipass List.sum List.sum ab ab four false (some (.names [['z']])) none = ⟨[101, 1010], [11, 1100], 1111⟩ := by decide +kernel

/-- **C355** Bad rows as an array with filtered rows shown: the rows noted in the first result and those left out of the second are others,
and the array is changed. -/
theorem argument_counterexample :
    columns true 2 (.array [0]) = ([([0], [2]), ([2], [4])], .array [4]) ∧ columns true 2 (.list [0]) = ([([0], [1]), ([0], [1])], .list [0]) := by
  decide +kernel
end Verif.AccBad
