import Verif.Accum.Spec
import Verif.Items.Dict
import Mathlib.Data.List.Range
import Mathlib.Data.List.Perm.Basic
import Mathlib.Data.List.Nodup

namespace Verif.Accum
open Verif.Items

variable {V : Type}

/-! ## Lists -/

theorem slice_get {α : Type} (l : List α) (s e p : Nat) :
    (slice l s e)[p]? = if s + p < e then l[s + p]? else none := by
  unfold slice
  rw [List.getElem?_drop, List.getElem?_take]

theorem gather_get {α : Type} {l : List α} {idx : List Nat} (h : ∀ i ∈ idx, i < l.length) (p : Nat) :
    (gather l idx)[p]? = (idx[p]?).bind fun i => l[i]? := by
  unfold gather
  induction idx generalizing p with
  | nil => simp
  | cons a t ih =>
    have ha : l[a]? = some (l[a]'(h a (by simp))) := List.getElem?_eq_getElem _
    rw [List.filterMap_cons_some ha]
    cases p with
    | zero => simp [ha]
    | succ p =>
      simp only [List.getElem?_cons_succ]
      exact ih (fun i hi => h i (List.mem_cons_of_mem _ hi)) p

theorem gather_length {α : Type} {l : List α} {idx : List Nat} (h : ∀ i ∈ idx, i < l.length) :
    (gather l idx).length = idx.length := by
  unfold gather
  induction idx with
  | nil => rfl
  | cons a t ih =>
    have ha : l[a]? = some (l[a]'(h a (by simp))) := List.getElem?_eq_getElem _
    rw [List.filterMap_cons_some ha]
    simp [ih (fun i hi => h i (List.mem_cons_of_mem _ hi))]

theorem foldl_set_append {κ W : Type} [DecidableEq κ] (l : List (κ × W)) (init : Dict κ W)
    (h : (init.keys ++ l.map Prod.fst).Nodup) :
    l.foldl (fun (d : Dict κ W) p => Dict.set d p.1 p.2) init = init ++ l := by
  induction l generalizing init with
  | nil => simp
  | cons a t ih =>
    have hn : a.1 ∉ init.keys := by
      intro hm
      have := (List.nodup_append.1 h).2.2 a.1 hm a.1 (by simp)
      exact this rfl
    rw [List.foldl_cons, Dict.set_of_notMem hn, ih]
    · simp
    · have : (init ++ [(a.1, a.2)] : Dict κ W).keys = init.keys ++ [a.1] := by simp [Dict.keys]
      rw [this]
      simpa using h

/-! ## Display order -/

/-- positions in display order -/
def Axis.order (a : Axis) : List Nat := if a.sortGb then a.isort else List.range a.n

theorem order_perm {a : Axis} (h : a.OK) : a.order.Perm (List.range a.n) := by
  unfold Axis.order
  split
  · exact h.1
  · exact List.Perm.refl _

theorem order_lt {a : Axis} (h : a.OK) : ∀ i ∈ a.order, i < a.n := by
  intro i hi
  simpa using (order_perm h).mem_iff.1 hi

theorem order_length {a : Axis} (h : a.OK) : a.order.length = a.n := by
  simpa using (order_perm h).length_eq

theorem shown_get {a : Axis} (h : a.OK) (p : Nat) : a.shown[p]? = (a.order[p]?).bind fun i => a.labels[i]? := by
  unfold Axis.shown Axis.order
  split
  · rename_i hs
    have := order_lt h
    unfold Axis.order at this
    rw [if_pos hs] at this
    exact gather_get this p
  · by_cases hp : p < a.n
    · rw [List.getElem?_range hp]; rfl
    · rw [List.getElem?_eq_none (by unfold Axis.n at hp; omega), List.getElem?_eq_none (l := List.range a.n) (by simp; omega)]
      rfl

theorem shown_length {a : Axis} (h : a.OK) : a.shown.length = a.n := by
  unfold Axis.shown
  split
  · rename_i hs
    have := order_lt h
    unfold Axis.order at this
    rw [if_pos hs] at this
    rw [gather_length this, h.1.length_eq]
    simp
  · rfl

theorem shown_some {a : Axis} (h : a.OK) {p : Nat} {l : Name} (hl : a.shown[p]? = some l) :
    ∃ k, a.order[p]? = some k ∧ k < a.n ∧ a.labels[k]? = some l := by
  rw [shown_get h] at hl
  cases ho : a.order[p]? with
  | none => rw [ho] at hl; cases hl
  | some k =>
    rw [ho] at hl
    exact ⟨k, rfl, order_lt h k (List.mem_of_getElem? ho), hl⟩

/-! ## Labels and codes -/

theorem label_inj {a : Axis} (h : a.labels.Nodup) {j k : Nat} (hj : j ≤ a.n) (hk : k ≤ a.n)
    (e : a.label j = a.label k) : j = k := by
  unfold Axis.label Axis.n at *
  by_cases h1 : j = 0
  · by_cases h2 : k = 0
    · omega
    · rw [if_pos h1, if_neg h2, List.getElem?_eq_getElem (by omega)] at e
      cases e
  · by_cases h2 : k = 0
    · rw [if_neg h1, if_pos h2, List.getElem?_eq_getElem (by omega)] at e
      cases e
    · rw [if_neg h1, if_neg h2, List.getElem?_eq_getElem (by omega), List.getElem?_eq_getElem (by omega)] at e
      injection e with e
      have := (List.Nodup.getElem_inj_iff h).1 e
      omega

theorem label_succ {a : Axis} {k : Nat} {l : Name} (h : a.labels[k]? = some l) : a.label (k + 1) = some l := by
  simp [Axis.label, h]

theorem label_zero (a : Axis) : a.label 0 = none := rfl

theorem label_isSome {a : Axis} {k : Nat} (h : k ≤ a.n) : (a.label k).isSome = decide (k ≠ 0) := by
  unfold Axis.label Axis.n at *
  by_cases h0 : k = 0
  · simp [h0]
  · simp [h0]; omega

/-- codes of a row, both 0 if it does not pass -/
def codes (x : Row V) : Nat × Nat := if x.pass then (x.r, x.c) else (0, 0)

theorem labels_eq (rows cols : Axis) (x : Row V) :
    labels rows cols x = (rows.label (codes x).1, cols.label (codes x).2) := by
  unfold labels codes
  split <;> rfl

theorem codes_le {rows cols : Axis} {data : List (Row V)} (h : DataOK rows cols data) {x : Row V} (hx : x ∈ data) :
    (codes x).1 ≤ rows.n ∧ (codes x).2 ≤ cols.n := by
  unfold codes
  split
  · exact h x hx
  · simp

theorem binOf_eq (rows : Axis) (x : Row V) : binOf rows x = (codes x).2 * (rows.n + 1) + (codes x).1 := by
  unfold binOf codes
  split <;> simp

theorem bin_inj {n a b c d : Nat} (h : a * (n + 1) + b = c * (n + 1) + d) (hb : b ≤ n) (hd : d ≤ n) : a = c ∧ b = d := by
  have h1 : (a * (n + 1) + b) / (n + 1) = a := by
    rw [Nat.mul_comm, Nat.mul_add_div (by omega), Nat.div_eq_of_lt (by omega)]; omega
  have h2 : (c * (n + 1) + d) / (n + 1) = c := by
    rw [Nat.mul_comm, Nat.mul_add_div (by omega), Nat.div_eq_of_lt (by omega)]; omega
  have : a = c := by rw [← h1, ← h2, h]
  subst this
  exact ⟨rfl, by omega⟩

theorem calculate_get (agg : List V → V) (rows cols : Axis) (data : List (Row V)) {r c : Nat} (hr : r ≤ rows.n)
    (hc : c ≤ cols.n) (hro : rows.labels.Nodup) (hco : cols.labels.Nodup) (hd : DataOK rows cols data) :
    (calculate agg rows cols data)[c * (rows.n + 1) + r]? = some (agg (cell rows cols data (rows.label r) (cols.label c))) := by
  unfold calculate
  have hlt : c * (rows.n + 1) + r < nbins rows cols + 1 := by
    unfold nbins
    have : c * (rows.n + 1) ≤ cols.n * (rows.n + 1) := Nat.mul_le_mul_right _ hc
    have : (rows.n + 1) * (cols.n + 1) = cols.n * (rows.n + 1) + (rows.n + 1) := by
      rw [Nat.mul_comm, Nat.add_mul]; omega
    omega
  rw [List.getElem?_map, List.getElem?_range hlt]
  simp only [Option.map_some, Option.some.injEq]
  unfold cell
  congr 2
  apply List.filter_congr
  intro x hx
  obtain ⟨h1, h2⟩ := codes_le hd hx
  rw [binOf_eq, labels_eq]
  apply decide_eq_decide.2
  constructor
  · intro e
    obtain ⟨e1, e2⟩ := bin_inj e h1 hr
    rw [e1, e2]
  · intro e
    have e1 := label_inj hro h1 hr (congrArg Prod.fst e)
    have e2 := label_inj hco h2 hc (congrArg Prod.snd e)
    rw [e1, e2]

theorem calculate_length (agg : List V → V) (rows cols : Axis) (data : List (Row V)) :
    (calculate agg rows cols data).length = nbins rows cols + 1 := by simp [calculate]

theorem nbins_gt {rows cols : Axis} {r c : Nat} (hr : r ≤ rows.n) (hc : c ≤ cols.n) :
    c * (rows.n + 1) + r < nbins rows cols := by
  unfold nbins
  have : c * (rows.n + 1) ≤ cols.n * (rows.n + 1) := Nat.mul_le_mul_right _ hc
  have : (rows.n + 1) * (cols.n + 1) = cols.n * (rows.n + 1) + (rows.n + 1) := by
    rw [Nat.mul_comm, Nat.add_mul]; omega
  omega

end Verif.Accum
