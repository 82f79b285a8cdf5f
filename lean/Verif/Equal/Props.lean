import Verif.Items.Dict
import Verif.Equal.Model
import Mathlib.Data.List.Perm.Subperm

/-!
# `Dataset.equals` (C81)
-/
namespace Verif.Equal
open Verif.Items (Dict)
open Spec (Same SameCol SameContents SameInOrder)
variable {C : Type}

/-- what holds of every Dataset: one column for a name, columns of one length, and no rows
without columns -/
structure WF (d : Ds C) : Prop where
  nodup : d.cols.keys.Nodup
  len : ∀ e ∈ d.cols, e.2.length = d.nrows
  empty : d.cols = [] → d.nrows = 0

theorem col_eq_get (d : Ds C) (k : String) : Spec.col d.cols k = d.cols.get k := rfl

theorem allTrue_or (nr cr : Dict String (List Bool)) :
    allTrue (orResult nr cr) = true
      ↔ ∀ e ∈ cr, ∃ v, nr.get e.1 = some v ∧ (List.zipWith or v e.2).all id = true := by
  unfold orResult
  induction cr with
  | nil => simp [allTrue]
  | cons e cr ih =>
    rw [List.mapM_cons]
    cases hg : nr.get e.1 with
    | none => simp [allTrue, hg]
    | some v =>
      cases hm : cr.mapM (fun e => (nr.get e.1).map fun v => (e.1, List.zipWith or v e.2)) with
      | none =>
        rw [hm] at ih
        simp only [allTrue, Bool.false_eq_true, false_iff] at ih
        simp only [Option.map_some, Option.bind_eq_bind, Option.bind_some, Option.bind_none, allTrue,
          Bool.false_eq_true, false_iff]
        intro h
        exact ih fun x hx => h x (List.mem_cons_of_mem _ hx)
      | some r =>
        rw [hm] at ih
        simp only [allTrue] at ih
        simp only [Option.map_some, Option.bind_eq_bind, Option.bind_some, allTrue, Option.pure_def,
          List.all_cons, Bool.and_eq_true, List.forall_mem_cons, ih, hg, Option.some.injEq,
          exists_eq_left']

theorem get_map {A B : Type} (d : Dict String A) (f : String → A → B) (k : String) :
    Dict.get (d.map fun e => (e.1, f e.1 e.2)) k = (d.get k).map (f k) := by
  induction d with
  | nil => rfl
  | cons e d ih =>
    rw [List.map_cons, Dict.get_cons, Dict.get_cons, ih]
    split
    · next h => simp only at h; subst h; simp
    · rfl

theorem nanTable_plain (nan : C → Bool) {d : Ds C} (h : d.summary = []) :
    nanTable nan d = some (d.cols.map fun e => (e.1, e.2.map nan)) := by
  unfold nanTable renames
  rw [h]
  rfl

theorem all_id_iff (l : List Bool) : l.all id = true ↔ ∀ i, i < l.length → l[i]? = some true := by
  rw [List.all_eq_true]
  constructor
  · intro h i hi
    rw [List.getElem?_eq_getElem hi]
    exact congrArg some (h _ (List.getElem_mem hi))
  · intro h x hx
    obtain ⟨i, hi, rfl⟩ := List.getElem_of_mem hx
    have := h i hi
    rw [List.getElem?_eq_getElem hi] at this
    exact Option.some.inj this

/-- the NaN part of the comparison of `x` in `a` with `y` in `b`, column `k`: the Dataset with more
columns is on the left, `b` when they have as many, and a label column is looked at on the left
alone -/
def NanOk (nan : C → Bool) (a b : Ds C) (k : String) (x y : C) : Prop :=
  if a.cols.length > b.cols.length then nan x = true ∧ (k ∈ a.labels ∨ nan y = true)
  else nan y = true ∧ (k ∈ b.labels ∨ nan x = true)

/-- the Dataset on the left -/
def leftOf (a b : Ds C) : Ds C := if a.cols.length > b.cols.length then a else b

theorem nanResult_get (nan : C → Bool) (a b : Ds C) (k : String) :
    (nanResult a b (a.cols.map fun e => (e.1, e.2.map nan)) (b.cols.map fun e => (e.1, e.2.map nan))).get k
      = if a.cols.length > b.cols.length then
          (a.cols.get k).map fun v => andCol a.labels (b.cols.map fun e => (e.1, e.2.map nan)) k (v.map nan)
        else (b.cols.get k).map fun w => andCol b.labels (a.cols.map fun e => (e.1, e.2.map nan)) k (w.map nan) := by
  unfold nanResult andTable
  split
  · rw [List.map_map]
    exact get_map a.cols (fun k v => andCol a.labels (b.cols.map fun e => (e.1, e.2.map nan)) k (v.map nan)) k
  · rw [List.map_map]
    exact get_map b.cols (fun k v => andCol b.labels (a.cols.map fun e => (e.1, e.2.map nan)) k (v.map nan)) k

theorem WF.get_len {d : Ds C} (w : WF d) {k : String} {v : List C} (h : d.cols.get k = some v) :
    v.length = d.nrows := w.len _ (Dict.mem_of_get h)

/-- the columns of the comparison -/
theorem compare_mem {eq : C → C → Bool} {a b : Ds C} (wa : WF a) (wb : WF b)
    (hn : a.nrows = b.nrows) :
    ∃ cr, compare eq a b = some cr ∧ ∀ k u, (k, u) ∈ cr ↔
      (∃ v, a.cols.get k = some v ∧ u = compareCol eq a.nrows v (b.cols.get k))
      ∨ (a.cols.get k = none ∧ (∃ w, b.cols.get k = some w) ∧ u = List.replicate a.nrows false) := by
  unfold compare
  rw [if_neg (by simpa using hn)]
  refine ⟨_, rfl, fun k u => ?_⟩
  rw [List.mem_append, List.mem_map, List.mem_map]
  constructor
  · rintro (⟨e, he, h⟩ | ⟨e, he, h⟩)
    · obtain ⟨rfl, rfl⟩ := Prod.mk.inj h
      exact .inl ⟨e.2, Dict.get_of_mem wa.nodup he, rfl⟩
    · obtain ⟨rfl, rfl⟩ := Prod.mk.inj h
      rw [List.mem_filter] at he
      refine .inr ⟨?_, ⟨e.2, Dict.get_of_mem wb.nodup he.1⟩, rfl⟩
      rw [Dict.get_eq_none_iff, ← Dict.has_false_iff]
      simpa using he.2
  · rintro (⟨v, hv, rfl⟩ | ⟨ha, ⟨w, hw⟩, rfl⟩)
    · exact .inl ⟨(k, v), Dict.mem_of_get hv, rfl⟩
    · refine .inr ⟨(k, w), ?_, rfl⟩
      rw [List.mem_filter]
      refine ⟨Dict.mem_of_get hw, ?_⟩
      rw [Dict.get_eq_none_iff, ← Dict.has_false_iff] at ha
      simp [ha]

/-- **`==` on Datasets**: raises for different numbers of rows; otherwise it has every column of
either, once, comparing element by element where both have the column and `False` elsewhere. -/
theorem compare_cells (eq : C → C → Bool) {a b : Ds C} (wa : WF a) (wb : WF b) :
    (compare eq a b = none ↔ a.nrows ≠ b.nrows)
    ∧ ∀ cr, compare eq a b = some cr → cr.keys.Nodup
      ∧ ∀ k, cr.get k = match a.cols.get k, b.cols.get k with
        | some v, some w => some (List.zipWith eq v w)
        | some _, none => some (List.replicate a.nrows false)
        | none, some _ => some (List.replicate a.nrows false)
        | none, none => none := by
  constructor
  · unfold compare
    split <;> simp_all
  · intro cr hcr
    have hn : a.nrows = b.nrows := by
      by_contra h
      rw [compare, if_pos h] at hcr
      cases hcr
    have hnd : cr.keys.Nodup := by
      unfold compare at hcr
      rw [if_neg (by simpa using hn)] at hcr
      rw [← Option.some.inj hcr]
      unfold Dict.keys
      rw [List.map_append, List.map_map, List.map_map]
      refine List.Nodup.append ?_ ?_ ?_
      · exact wa.nodup
      · have : (b.cols.filter fun e => !a.cols.has e.1).map (Prod.fst ∘ fun e => (e.1, List.replicate a.nrows false))
            = (b.cols.keys).filter fun k => !a.cols.has k := by
          unfold Dict.keys
          rw [List.filter_map]
          rfl
        rw [this]
        exact wb.nodup.filter _
      · intro k h1 h2
        obtain ⟨e, he, rfl⟩ := List.mem_map.mp h1
        obtain ⟨e', he', h'⟩ := List.mem_map.mp h2
        simp only [Function.comp] at h'
        have := (List.mem_filter.mp he').2
        rw [h'] at this
        have hm : e.1 ∈ a.cols.keys := List.mem_map.mpr ⟨e, he, rfl⟩
        rw [(Dict.has_iff _ _).mpr hm] at this
        simp at this
    refine ⟨hnd, fun k => ?_⟩
    obtain ⟨cr', h1, hm⟩ := compare_mem (eq := eq) wa wb hn
    rw [hcr] at h1
    obtain rfl := Option.some.inj h1
    cases ha : a.cols.get k with
    | some v =>
      have := Dict.get_of_mem hnd ((hm k _).mpr (.inl ⟨v, ha, rfl⟩))
      rw [this]
      cases hb : b.cols.get k <;> rfl
    | none =>
      cases hb : b.cols.get k with
      | some w => exact Dict.get_of_mem hnd ((hm k _).mpr (.inr ⟨ha, ⟨w, hb⟩, rfl⟩))
      | none =>
        cases hc : cr.get k with
        | none => rfl
        | some u =>
          rcases (hm k u).mp (Dict.mem_of_get hc) with ⟨v, h, -⟩ | ⟨-, ⟨w, h⟩, -⟩
          · rw [ha] at h; cases h
          · rw [hb] at h; cases h

theorem all_or_of_len {p q : List Bool} {n : Nat} (hp : p.length = n) (hq : q.length = n) :
    (List.zipWith or p q).all id = true ↔ ∀ i, i < n → p[i]? = some true ∨ q[i]? = some true := by
  rw [all_id_iff]
  simp only [List.length_zipWith, hp, hq, Nat.min_self]
  refine forall₂_congr fun i hi => ?_
  rw [List.getElem?_zipWith, List.getElem?_eq_getElem (by omega : i < p.length),
    List.getElem?_eq_getElem (by omega : i < q.length)]
  simp

theorem zip_or_common {eq : C → C → Bool} {nan : C → Bool} {a b : Ds C} (wa : WF a) (wb : WF b)
    (hn : a.nrows = b.nrows) {k : String} {v w : List C} (hv : a.cols.get k = some v)
    (hw : b.cols.get k = some w) :
    (List.zipWith or (if a.cols.length > b.cols.length then
          andCol a.labels (b.cols.map fun e => (e.1, e.2.map nan)) k (v.map nan)
        else andCol b.labels (a.cols.map fun e => (e.1, e.2.map nan)) k (w.map nan))
      (List.zipWith eq v w)).all id = true
      ↔ ∀ (i : Nat) (x y : C), v[i]? = some x → w[i]? = some y → eq x y = true ∨ NanOk nan a b k x y := by
  have lv := wa.get_len hv
  have lw := wb.get_len hw
  have hand : ∀ (i : Nat) (x y : C), v[i]? = some x → w[i]? = some y →
      ((if a.cols.length > b.cols.length then
          andCol a.labels (b.cols.map fun e => (e.1, e.2.map nan)) k (v.map nan)
        else andCol b.labels (a.cols.map fun e => (e.1, e.2.map nan)) k (w.map nan))[i]? = some true
        ↔ NanOk nan a b k x y) := by
    intro i x y hx hy
    unfold NanOk andCol
    rw [get_map b.cols (fun _ w => w.map nan), get_map a.cols (fun _ v => v.map nan), hv, hw]
    simp only [Option.map_some]
    split
    · by_cases hl : k ∈ a.labels
      · simp [hl, hx]
      · simp [hl, List.getElem?_zipWith, hx, hy]
    · by_cases hl : k ∈ b.labels
      · simp [hl, hy]
      · simp [hl, List.getElem?_zipWith, hx, hy]
  rw [all_or_of_len (n := a.nrows)]
  · constructor
    · intro h i x y hx hy
      have hi : i < a.nrows := by
        have := (List.getElem?_eq_some_iff.mp hx).1
        omega
      rcases h i hi with h | h
      · exact .inr ((hand i x y hx hy).mp h)
      · left
        rw [List.getElem?_zipWith, hx, hy] at h
        simpa using h
    · intro h i hi
      have hx := List.getElem?_eq_getElem (l := v) (i := i) (by omega)
      have hy := List.getElem?_eq_getElem (l := w) (i := i) (by omega)
      rcases h i _ _ hx hy with h | h
      · right
        rw [List.getElem?_zipWith, hx, hy]
        simpa using h
      · exact .inl ((hand i _ _ hx hy).mpr h)
  · unfold andCol
    rw [get_map b.cols (fun _ w => w.map nan), get_map a.cols (fun _ v => v.map nan), hv, hw]
    simp only [Option.map_some]
    split <;> split <;> simp <;> omega
  · simp; omega

theorem zip_or_only {u : List Bool} {n : Nat} (hu : u.length = n) :
    (List.zipWith or u (List.replicate n false)).all id = true ↔ ∀ x ∈ u, x = true := by
  rw [all_or_of_len hu (by simp)]
  constructor
  · intro h x hx
    obtain ⟨i, hi, rfl⟩ := List.getElem_of_mem hx
    rcases h i (by omega) with h | h
    · rw [List.getElem?_eq_getElem hi] at h
      exact Option.some.inj h
    · simp [List.getElem?_replicate] at h
  · intro h i hi
    left
    rw [List.getElem?_eq_getElem (by omega : i < u.length)]
    exact congrArg some (h _ (List.getElem_mem _))

/-- **What `equals` tests**, for all Datasets without summary columns: the same number of rows;
where both have a column, each pair of elements equal or passed by the NaN test `NanOk`; no
column in the Dataset with fewer columns alone; and a column in the other alone is all NaN. -/
theorem equals_exact (eq : C → C → Bool) (nan : C → Bool) {a b : Ds C} (wa : WF a) (wb : WF b)
    (sa : a.summary = []) (sb : b.summary = []) (h0 : a.nrows ≠ 0) :
    equals eq nan a b = true ↔ a.nrows = b.nrows ∧ ∀ k,
      (∀ v w, a.cols.get k = some v → b.cols.get k = some w →
        ∀ (i : Nat) (x y : C), v[i]? = some x → w[i]? = some y → eq x y = true ∨ NanOk nan a b k x y)
      ∧ (∀ v, a.cols.get k = some v → b.cols.get k = none →
          a.cols.length > b.cols.length ∧ ∀ x ∈ v, nan x = true)
      ∧ (∀ w, b.cols.get k = some w → a.cols.get k = none →
          ¬ a.cols.length > b.cols.length ∧ ∀ y ∈ w, nan y = true) := by
  unfold equals
  by_cases hn : a.nrows = b.nrows
  swap
  · simp [hn]
  rw [if_neg (by simpa using hn), if_neg h0]
  obtain ⟨cr, hcr, hm⟩ := compare_mem (eq := eq) wa wb hn
  unfold equalsTable
  rw [hcr, nanTable_plain nan sa, nanTable_plain nan sb]
  simp only [Option.bind_some]
  rw [allTrue_or]
  simp only [nanResult_get, hn, true_and]
  have hfa : ∀ (L : List String) (d : Dict String (List Bool)) (k : String) (v : List C),
      d.get k = none → andCol L d k (v.map nan) = v.map nan := by
    intro L d k v hd
    unfold andCol
    rw [hd]
    simp
  constructor
  · intro h k
    refine ⟨fun v w hv hw => ?_, fun v hv hw => ?_, fun w hw hv => ?_⟩
    · obtain ⟨u, hu, hall⟩ := h (k, _) ((hm k _).mpr (.inl ⟨v, hv, rfl⟩))
      rw [hv, hw] at hu
      simp only [hw, compareCol] at hall
      apply (zip_or_common (eq := eq) (nan := nan) wa wb hn hv hw).mp
      rw [← hall]
      congr 2
      split at hu <;> · simp only [*, if_true, if_false]; exact Option.some.inj hu
    · obtain ⟨u, hu, hall⟩ := h (k, _) ((hm k _).mpr (.inl ⟨v, hv, rfl⟩))
      rw [hv, hw] at hu
      split at hu
      · next hlt =>
        refine ⟨hlt, ?_⟩
        simp only [Option.map_some, Option.some.injEq] at hu
        rw [hfa _ _ _ _ (by rw [get_map b.cols (fun _ w => w.map nan), hw]; rfl)] at hu
        simp only [hw, compareCol] at hall
        rw [← hu, zip_or_only (by simp [wa.get_len hv])] at hall
        intro x hx
        exact hall _ (List.mem_map_of_mem hx)
      · simp at hu
    · obtain ⟨u, hu, hall⟩ := h (k, _) ((hm k _).mpr (.inr ⟨hv, ⟨w, hw⟩, rfl⟩))
      rw [hv, hw] at hu
      split at hu
      · simp at hu
      · next hlt =>
        refine ⟨hlt, ?_⟩
        simp only [Option.map_some, Option.some.injEq] at hu
        rw [hfa _ _ _ _ (by rw [get_map a.cols (fun _ w => w.map nan), hv]; rfl)] at hu
        simp only at hall
        rw [← hu, zip_or_only (by simp [wb.get_len hw, hn])] at hall
        intro x hx
        exact hall _ (List.mem_map_of_mem hx)
  · rintro h ⟨k, u⟩ he
    obtain ⟨h1, h2, h3⟩ := h k
    rcases (hm k u).mp he with ⟨v, hv, rfl⟩ | ⟨hv, ⟨w, hw⟩, rfl⟩
    · cases hw : b.cols.get k with
      | some w =>
        have := (zip_or_common (eq := eq) (nan := nan) wa wb hn hv hw).mpr (h1 v w hv hw)
        refine ⟨_, ?_, this⟩
        rw [hv]
        split <;> simp
      | none =>
        obtain ⟨hlt, hx⟩ := h2 v hv hw
        refine ⟨v.map nan, ?_, ?_⟩
        · rw [if_pos hlt, hv, Option.map_some,
            hfa _ _ _ _ (by rw [get_map b.cols (fun _ w => w.map nan), hw]; rfl)]
        · simp only [compareCol]
          rw [zip_or_only (by simp [wa.get_len hv])]
          intro x hx'
          obtain ⟨y, hy, rfl⟩ := List.mem_map.mp hx'
          exact hx y hy
    · obtain ⟨hlt, hx⟩ := h3 w hw hv
      refine ⟨w.map nan, ?_, ?_⟩
      · rw [if_neg hlt, hw, Option.map_some,
          hfa _ _ _ _ (by rw [get_map a.cols (fun _ w => w.map nan), hv]; rfl)]
      · simp only
        rw [zip_or_only (by simp [wb.get_len hw, hn])]
        intro x hx'
        obtain ⟨y, hy, rfl⟩ := List.mem_map.mp hx'
        exact hx y hy

theorem sameNames_iff (a b : Ds C) :
    sameNames a b = true ↔ ∀ k, a.cols.get k = none ↔ b.cols.get k = none := by
  unfold sameNames
  simp only [Bool.and_eq_true, List.all_eq_true, Dict.has_iff, Dict.get_eq_none_iff]
  constructor
  · rintro ⟨h1, h2⟩ k
    exact ⟨fun h hk => h (h2 k hk), fun h hk => h (h1 k hk)⟩
  · intro h
    exact ⟨fun k hk => by by_contra hc; exact (h k).mpr hc hk,
      fun k hk => by by_contra hc; exact (h k).mp hc hk⟩

/-- the test looks at labels only when there are some -/
theorem nanOk_plain {nan : C → Bool} {a b : Ds C} (la : a.labels = []) (lb : b.labels = [])
    (k : String) (x y : C) : NanOk nan a b k x y ↔ nan x = true ∧ nan y = true := by
  unfold NanOk
  split
  · simp [la]
  · simp [lb, and_comm]

theorem sameCol_iff {eq : C → C → Bool} {nan : C → Bool} {o p : Option (List C)} :
    SameCol eq nan o p ↔ (o = none ↔ p = none) ∧ ∀ v w, o = some v → p = some w →
      v.length = w.length ∧ ∀ (i : Nat) (x y : C), v[i]? = some x → w[i]? = some y → Same eq nan x y := by
  constructor
  · rintro (_ | ⟨h, hs⟩)
    · simp
    · refine ⟨by simp, fun v w hv hw => ?_⟩
      obtain rfl := Option.some.inj hv
      obtain rfl := Option.some.inj hw
      refine ⟨h, fun i x y hx hy => ?_⟩
      obtain ⟨h1, rfl⟩ := List.getElem?_eq_some_iff.mp hx
      obtain ⟨h2, rfl⟩ := List.getElem?_eq_some_iff.mp hy
      exact hs i h1 h2
  · rintro ⟨h1, h2⟩
    cases o with
    | none =>
      rw [h1.mp rfl]
      exact .absent
    | some v =>
      cases p with
      | none => exact absurd (h1.mpr rfl) (by simp)
      | some w =>
        obtain ⟨h3, h4⟩ := h2 v w rfl rfl
        exact .present h3 fun i i1 i2 => h4 i _ _ (List.getElem?_eq_getElem i1) (List.getElem?_eq_getElem i2)

theorem sameContents_rows {eq : C → C → Bool} {nan : C → Bool} {a b : Ds C} (wa : WF a) (wb : WF b)
    (h : SameContents eq nan a.cols b.cols) : a.nrows = b.nrows := by
  cases hc : a.cols with
  | nil =>
    have hb : b.cols = [] := by
      cases hb : b.cols with
      | nil => rfl
      | cons e l =>
        have := h e.1
        rw [hc, hb] at this
        simp only [Spec.col, List.find?_nil, List.find?_cons, decide_true, Option.map_none, Option.map_some] at this
        cases this
    rw [wa.empty hc, wb.empty hb]
  | cons e l =>
    have := sameCol_iff.mp (h e.1)
    have hg : Spec.col a.cols e.1 = some e.2 := by simp [Spec.col, hc]
    rw [hg] at this
    cases hw : Spec.col b.cols e.1 with
    | none => rw [hw] at this; simp at this
    | some w =>
      have h2 := (this.2 e.2 w rfl hw).1
      rw [wa.len e (by simp [hc]), wb.get_len hw] at h2
      exact h2

/-- **C81, for Datasets without labels and summaries.**  If no column that only one of them has
is all NaN, `equals` answers whether they have the same elements in each column. -/
theorem equals_partial (eq : C → C → Bool) (nan : C → Bool) {a b : Ds C} (wa : WF a) (wb : WF b)
    (sa : a.summary = []) (sb : b.summary = []) (la : a.labels = []) (lb : b.labels = [])
    (hx : ∀ k v, a.cols.get k = some v → b.cols.get k = none → ∃ x ∈ v, nan x = false)
    (hy : ∀ k w, b.cols.get k = some w → a.cols.get k = none → ∃ y ∈ w, nan y = false) :
    equals eq nan a b = true ↔ SameContents eq nan a.cols b.cols := by
  by_cases h0 : a.nrows = 0
  · by_cases hn : a.nrows = b.nrows
    · unfold equals
      rw [if_neg (by simpa using hn), if_pos h0, sameNames_iff]
      constructor
      · intro h k
        rw [sameCol_iff]
        refine ⟨h k, fun v w hv hw => ?_⟩
        have h1 := wa.get_len hv
        have h2 := wb.get_len hw
        refine ⟨by omega, fun i x y hx' _ => ?_⟩
        rw [List.eq_nil_of_length_eq_zero (h1.trans h0)] at hx'
        simp at hx'
      · intro h k
        exact (sameCol_iff.mp (h k)).1
    · have : equals eq nan a b = false := by unfold equals; rw [if_pos hn]
      rw [this]
      constructor
      · intro h; cases h
      · intro h; exact absurd (sameContents_rows wa wb h) hn
  · rw [equals_exact eq nan wa wb sa sb h0]
    simp only [nanOk_plain la lb]
    constructor
    · rintro ⟨hn, h⟩ k
      rw [sameCol_iff]
      obtain ⟨h1, h2, h3⟩ := h k
      refine ⟨⟨fun hv => ?_, fun hw => ?_⟩, fun v w hv hw => ⟨?_, h1 v w hv hw⟩⟩
      · by_contra hw
        obtain ⟨w, hw'⟩ := Option.ne_none_iff_exists'.mp hw
        obtain ⟨y, hm, hf⟩ := hy k w hw' hv
        rw [(h3 w hw' hv).2 y hm] at hf
        cases hf
      · by_contra hv
        obtain ⟨v, hv'⟩ := Option.ne_none_iff_exists'.mp hv
        obtain ⟨x, hm, hf⟩ := hx k v hv' hw
        rw [(h2 v hv' hw).2 x hm] at hf
        cases hf
      · rw [wa.get_len hv, wb.get_len hw, hn]
    · intro h
      refine ⟨sameContents_rows wa wb h, fun k => ?_⟩
      have hk := sameCol_iff.mp (h k)
      refine ⟨fun v w hv hw => (hk.2 v w hv hw).2, fun v hv hw => ?_, fun w hw hv => ?_⟩
      · exact absurd (hk.1.mpr hw) (by rw [col_eq_get, hv]; simp)
      · exact absurd (hk.1.mp hv) (by rw [col_eq_get, hw]; simp)

/-- **Sufficient without the restriction**: Datasets with the same elements are equal, whatever
columns are all NaN. -/
theorem equals_of_same (eq : C → C → Bool) (nan : C → Bool) {a b : Ds C} (wa : WF a) (wb : WF b)
    (sa : a.summary = []) (sb : b.summary = []) (la : a.labels = []) (lb : b.labels = [])
    (h : SameContents eq nan a.cols b.cols) : equals eq nan a b = true := by
  apply (equals_partial eq nan wa wb sa sb la lb _ _).mpr h
  · intro k v hv hw
    exact absurd ((sameCol_iff.mp (h k)).1.mpr hw) (by rw [col_eq_get, hv]; simp)
  · intro k w hw hv
    exact absurd ((sameCol_iff.mp (h k)).1.mp hv) (by rw [col_eq_get, hw]; simp)

theorem get_none_of_length {a b : Ds C} (wa : WF a) (wb : WF b)
    (hs : ∀ k, b.cols.get k ≠ none → a.cols.get k ≠ none) (hl : a.cols.length ≤ b.cols.length)
    (k : String) (hk : a.cols.get k ≠ none) : b.cols.get k ≠ none := by
  have hsub : b.cols.keys ⊆ a.cols.keys := by
    intro x hx
    by_contra hc
    exact hs x (by rw [ne_eq, Dict.get_eq_none_iff]; simpa using hx) ((Dict.get_eq_none_iff _ _).mpr hc)
  have hp : b.cols.keys.Perm a.cols.keys :=
    (wb.nodup.subperm hsub).perm_of_length_le (by simpa [Dict.keys] using hl)
  rw [ne_eq, Dict.get_eq_none_iff, not_not] at hk ⊢
  exact hp.mem_iff.mpr hk

/-- **Symmetry**, for Datasets without labels and summaries. -/
theorem equals_symm (eq : C → C → Bool) (nan : C → Bool) (hsym : ∀ x y, eq x y = eq y x)
    {a b : Ds C} (wa : WF a) (wb : WF b) (sa : a.summary = []) (sb : b.summary = [])
    (la : a.labels = []) (lb : b.labels = []) : equals eq nan a b = equals eq nan b a := by
  have key : ∀ {a b : Ds C}, WF a → WF b → a.summary = [] → b.summary = [] → a.labels = [] →
      b.labels = [] → equals eq nan a b = true → equals eq nan b a = true := by
    intro a b wa wb sa sb la lb h
    by_cases h0 : a.nrows = 0
    · unfold equals at h ⊢
      by_cases hn : a.nrows = b.nrows
      · rw [if_neg (by simpa using hn), if_pos h0, sameNames_iff] at h
        rw [if_neg (by simpa using hn.symm), if_pos (hn ▸ h0), sameNames_iff]
        exact fun k => (h k).symm
      · rw [if_pos hn] at h; cases h
    · rw [equals_exact eq nan wa wb sa sb h0] at h
      obtain ⟨hn, h⟩ := h
      rw [equals_exact eq nan wb wa sb sa (hn ▸ h0)]
      simp only [nanOk_plain la lb] at h
      simp only [nanOk_plain lb la]
      refine ⟨hn.symm, fun k => ?_⟩
      obtain ⟨h1, h2, h3⟩ := h k
      refine ⟨fun v w hv hw i x y hx hy => ?_, fun w hw hv => ?_, fun v hv hw => ?_⟩
      · rw [hsym, and_comm]; exact h1 w v hw hv i y x hy hx
      · obtain ⟨hl, hall⟩ := h3 w hw hv
        refine ⟨?_, hall⟩
        by_contra hc
        have := get_none_of_length wb wa (fun k' hk' hc' => ?_) (by omega) k (by simp [hw])
        · exact this hv
        · obtain ⟨v, hv'⟩ := Option.ne_none_iff_exists'.mp hk'
          exact hl ((h k').2.1 v hv' hc').1
      · obtain ⟨hl, hall⟩ := h2 v hv hw
        exact ⟨by omega, hall⟩
  cases h1 : equals eq nan a b <;> cases h2 : equals eq nan b a
  · rfl
  · rw [key wb wa sb sa lb la h2] at h1; cases h1
  · rw [key wa wb sa sb la lb h1] at h2; cases h2
  · rfl

/-- **Reflexivity**, when each element is equal to itself or NaN; labels do not matter. -/
theorem equals_refl (eq : C → C → Bool) (nan : C → Bool)
    (hr : ∀ x, eq x x = true ∨ nan x = true) {a : Ds C} (wa : WF a) (sa : a.summary = []) :
    equals eq nan a a = true := by
  by_cases h0 : a.nrows = 0
  · unfold equals
    rw [if_neg (by simp), if_pos h0, sameNames_iff]
    simp
  · rw [equals_exact eq nan wa wa sa sa h0]
    refine ⟨rfl, fun k => ⟨fun v w hv hw i x y hx hy => ?_, fun v hv hw => ?_, fun w hw hv => ?_⟩⟩
    · rw [hv] at hw
      obtain rfl := Option.some.inj hw
      rw [hx] at hy
      obtain rfl := Option.some.inj hy
      rcases hr x with h | h
      · exact .inl h
      · right; unfold NanOk; simp [h]
    · rw [hv] at hw; cases hw
    · rw [hv] at hw; cases hw

/-- **A column of NaNs is not noticed** (general form): adding one to a Dataset with rows gives
a Dataset it equals, both ways. -/
theorem equals_extra_nan (eq : C → C → Bool) (nan : C → Bool)
    (hr : ∀ x, eq x x = true ∨ nan x = true) {a : Ds C} (wa : WF a) (sa : a.summary = [])
    (h0 : a.nrows ≠ 0) {k : String} (hk : k ∉ a.cols.keys) {u : List C} (hu : u.length = a.nrows)
    (hnan : ∀ x ∈ u, nan x = true) :
    equals eq nan a { a with cols := a.cols ++ [(k, u)] } = true
    ∧ equals eq nan { a with cols := a.cols ++ [(k, u)] } a = true := by
  have wb : WF { a with cols := a.cols ++ [(k, u)] } := by
    refine ⟨?_, ?_, by simp⟩
    · have := Dict.nodup_set wa.nodup k u
      rwa [Dict.set_of_notMem hk] at this
    · intro e he
      rcases List.mem_append.mp he with he | he
      · exact wa.len e he
      · simp only [List.mem_singleton] at he; subst he; exact hu
  have hg : ∀ k', Dict.get (a.cols ++ [(k, u)]) k' = if k' = k then some u else a.cols.get k' := by
    intro k'
    have := Dict.get_set a.cols k k' u
    rwa [Dict.set_of_notMem hk] at this
  have hka := (Dict.get_eq_none_iff a.cols k).mpr hk
  constructor
  · rw [equals_exact eq nan wa wb sa sa h0]
    refine ⟨rfl, fun k' => ⟨fun v w hv hw i x y hx hy => ?_, fun v hv hw => ?_, fun w hw hv => ?_⟩⟩
    · simp only [hg] at hw
      split at hw
      · next e => subst e; rw [hka] at hv; cases hv
      · rw [hv] at hw
        obtain rfl := Option.some.inj hw
        rw [hx] at hy
        obtain rfl := Option.some.inj hy
        rcases hr x with h | h
        · exact .inl h
        · right; unfold NanOk; simp [h]
    · simp only [hg] at hw
      split at hw
      · cases hw
      · rw [hv] at hw; cases hw
    · simp only [hg] at hw
      split at hw
      · obtain rfl := Option.some.inj hw
        exact ⟨by simp, hnan⟩
      · rw [hv] at hw; cases hw
  · rw [equals_exact eq nan wb wa sa sa h0]
    refine ⟨rfl, fun k' => ⟨fun v w hv hw i x y hx hy => ?_, fun v hv hw => ?_, fun w hw hv => ?_⟩⟩
    · simp only [hg] at hv
      split at hv
      · next e => subst e; rw [hka] at hw; cases hw
      · rw [hv] at hw
        obtain rfl := Option.some.inj hw
        rw [hx] at hy
        obtain rfl := Option.some.inj hy
        rcases hr x with h | h
        · exact .inl h
        · right; unfold NanOk; simp [h]
    · simp only [hg] at hv
      split at hv
      · obtain rfl := Option.some.inj hv
        exact ⟨by simp, hnan⟩
      · rw [hv] at hw; cases hw
    · simp only [hg] at hv
      split at hv
      · cases hv
      · rw [hv] at hw; cases hw

/-! ## Examples: elements are natural numbers and `none` for NaN -/

/-- IEEE comparison: NaN is equal to nothing -/
def feq : Option Nat → Option Nat → Bool
  | some x, some y => x = y
  | _, _ => false

/-- the NaN test -/
def fnan (x : Option Nat) : Bool := x.isNone

/-- Datasets that meet the hypotheses of the theorems above, with NaNs in the same place, columns
in another order -/
example :
    let a : Ds (Option Nat) := { cols := [("x", [some 1, none]), ("y", [some 3, some 4])], nrows := 2 }
    let b : Ds (Option Nat) := { cols := [("y", [some 3, some 4]), ("x", [some 1, none])], nrows := 2 }
    WF a ∧ WF b ∧ equals feq fnan a b = true ∧ equals feq fnan b a = true := by
  refine ⟨⟨by decide, by simp, by simp⟩, ⟨by decide, by simp, by simp⟩, by decide +kernel, by decide +kernel⟩

/-- A Dataset equals one with a further column of NaNs. -/
theorem equals_columns_counterexample :
    let a : Ds (Option Nat) := { cols := [("x", [some 1])], nrows := 1 }
    let b : Ds (Option Nat) := { cols := [("x", [some 1]), ("y", [none])], nrows := 1 }
    equals feq fnan a b = true ∧ ¬ SameContents feq fnan a.cols b.cols := by
  refine ⟨by decide +kernel, fun h => ?_⟩
  have := (sameCol_iff.mp (h "y")).1.mp (by rfl)
  exact absurd this (by decide)

/-- In a label column a NaN on the right equals anything on the left, and `equals` is not
symmetric. -/
theorem equals_labels_counterexample :
    let a : Ds (Option Nat) := { cols := [("x", [some 1])], nrows := 1, labels := ["x"] }
    let b : Ds (Option Nat) := { cols := [("x", [none])], nrows := 1, labels := ["x"] }
    equals feq fnan a b = true ∧ equals feq fnan b a = false := by decide +kernel

/-- `equals` with summary columns: a Dataset is not equal to itself. -/
theorem equals_summary_counterexample :
    let a : Ds (Option Nat) := { cols := [("x", [some 1]), ("Total", [some 1])], nrows := 1, summary := ["Total"] }
    equals feq fnan a a = false := by decide +kernel

theorem keys_rename {d d' : Dict String (List Bool)} {old new : String} (h : rename d old new = some d')
    (k : String) (hk : k ∈ d'.keys) : (k ∈ d.keys ∧ (k ≠ old ∨ old = new)) ∨ k = new := by
  unfold rename at h
  split at h
  · next e => rw [← Option.some.inj h] at hk; exact .inl ⟨hk, .inr e⟩
  · split at h
    · cases h
    · rw [← Option.some.inj h] at hk
      obtain ⟨e, he, rfl⟩ := List.mem_map.mp hk
      obtain ⟨e', he', rfl⟩ := List.mem_map.mp he
      by_cases ho : e'.1 = old
      · right; simp [ho]
      · left
        simp only [ho, if_false]
        exact ⟨List.mem_map.mpr ⟨e', he', rfl⟩, .inl (by simpa using ho)⟩

theorem renames_lost {T : String} (hT : ∀ n : Nat, T ≠ "Summary" ++ toString n) (l : List (String × Nat)) :
    ∀ {d d' : Dict String (List Bool)},
      l.foldlM (fun d s => rename d s.1 ("Summary" ++ toString s.2)) d = some d' →
      (T ∉ d.keys ∨ T ∈ l.map Prod.fst) → T ∉ d'.keys := by
  induction l with
  | nil =>
    intro d d' h hd
    rw [List.foldlM_nil] at h
    rw [← Option.some.inj h]
    simpa using hd
  | cons s l ih =>
    intro d d' h hd
    rw [List.foldlM_cons] at h
    cases hr : rename d s.1 ("Summary" ++ toString s.2) with
    | none => rw [hr] at h; cases h
    | some d1 =>
      rw [hr] at h
      refine ih h ?_
      by_cases hl : T ∈ l.map Prod.fst
      · exact .inr hl
      · left
        intro hk
        rcases keys_rename hr T hk with ⟨h1, h2⟩ | h1
        · rcases hd with hd | hd
          · exact hd h1
          · rw [List.map_cons, List.mem_cons] at hd
            rcases hd with rfl | hd
            · rcases h2 with h2 | h2
              · exact h2 rfl
              · exact hT _ h2
            · exact hl hd
        · exact hT _ h1

/-- **Summary columns make `equals` answer `False`** (general form): no Dataset that has rows and
a summary column not named `Summary0`, `Summary1`, … equals itself. -/
theorem equals_summary_never (eq : C → C → Bool) (nan : C → Bool) {a : Ds C} (wa : WF a)
    (h0 : a.nrows ≠ 0) {T : String} (hs : T ∈ a.summary) (hc : T ∈ a.cols.keys)
    (hT : ∀ n : Nat, T ≠ "Summary" ++ toString n) : equals eq nan a a = false := by
  unfold equals
  rw [if_neg (by simp), if_neg h0]
  unfold equalsTable
  obtain ⟨cr, hcr, hm⟩ := compare_mem (eq := eq) wa wa rfl
  rw [hcr, Option.bind_some]
  cases hna : nanTable nan a with
  | none => rfl
  | some na =>
    simp only [Option.bind_some]
    rw [Bool.eq_false_iff]
    intro h
    rw [allTrue_or] at h
    obtain ⟨v, hv⟩ := Option.ne_none_iff_exists'.mp
      (show a.cols.get T ≠ none by rw [ne_eq, Dict.get_eq_none_iff]; simpa using hc)
    obtain ⟨u, hu, -⟩ := h (T, _) ((hm T _).mpr (.inl ⟨v, hv, rfl⟩))
    have hlost : T ∉ na.keys := by
      unfold nanTable renames at hna
      exact renames_lost hT _ hna (.inr (by rw [show a.summary.zipIdx.map Prod.fst = a.summary from by simp]; exact hs))
    simp only [nanResult, Nat.lt_irrefl, gt_iff_lt, if_false, andTable] at hu
    rw [get_map na (fun k v => andCol a.labels na k v), (Dict.get_eq_none_iff _ _).mpr hlost] at hu
    simp at hu

end Verif.Equal
