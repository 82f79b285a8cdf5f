import Verif.AccTab.Guard
import Verif.AccTab.Percent
import Verif.Accum.Props
import Mathlib.Tactic.FieldSimp
import Mathlib.Tactic.Ring
import Mathlib.Algebra.BigOperators.Group.List.Basic
import Mathlib.Algebra.BigOperators.Ring.List
import Mathlib.Data.Rat.Defs
/-!
# Tables of several calculations (C120 to C126)
-/
namespace Verif.AccTab
open Verif.Items (Name Dict)
open Verif.Cat (Cat)

variable {L V : Type}

/-! ## Calculations of `Accum2` are cross tables -/

/-- an `Accum2` calculation as a Dataset, its totals called `name` -/
def ofTable (name : Name) (t : Accum.Table V) : Option (Tab Name V) :=
  match t.cols with
  | (k, .keys l) :: rest =>
    (rest.mapM fun (e : Name × Accum.Col V) => match e.2 with
      | .vals v => some (e.1, v)
      | .keys _ => none).map fun cols => ⟨k, l, cols, [name], [(name, t.footer)]⟩
  | _ => none

/-- aggregates of the rows of data with given labels -/
def crossOf (agg : List V → V) (rows cols : Accum.Axis) (data : List (Accum.Row V)) : Cross Name V :=
  { cell := fun r c => agg (Accum.cell rows cols data (some r) (some c))
    row := fun r => agg (Accum.rowValues rows cols data false (some r))
    col := fun c => agg (Accum.colValues rows cols data false (some c))
    all := agg (Accum.allValues rows cols data false) }

theorem mapM_vals {α : Type} (l : List α) (f : α → Name) (g : α → List V) :
    (l.map fun a => (f a, Accum.Col.vals (g a))).mapM (fun (e : Name × Accum.Col V) => match e.2 with
      | .vals v => some (e.1, v)
      | .keys _ => none) = some (l.map fun a => (f a, g a)) := by
  induction l with
  | nil => rfl
  | cons a t ih => simp [ih]

theorem dataNames_shown {cols : Accum.Axis} (hc : cols.OK) (hne : [] ∉ cols.labels) : Accum.dataNames cols false = cols.shown := by
  unfold Accum.dataNames
  simp only [Bool.false_eq_true, if_false, List.nil_append]
  apply List.ext_getElem?
  intro i
  rw [List.getElem?_map]
  by_cases hi : i < cols.n
  · rw [List.getElem?_range hi]
    have hl : i < cols.shown.length := by rw [Accum.shown_length hc]; exact hi
    have hg : cols.shown[i]? = some cols.shown[i] := List.getElem?_eq_getElem hl
    rw [hg, Option.map_some, List.getD_eq_getElem?_getD, hg, Option.getD_some]
    obtain ⟨k, -, hk, hkl⟩ := Accum.shown_some hc hg
    have : cols.shown[i] ≠ [] := fun e => hne (by rw [← e]; exact List.mem_of_getElem? hkl)
    unfold Accum.colName
    rw [if_neg this]
  · rw [List.getElem?_eq_none (by simpa using Nat.le_of_not_lt hi), List.getElem?_eq_none (by rw [Accum.shown_length hc]; omega)]
    rfl

/-- A calculation whose totals are computed from the cells gives the cross table of the aggregates. -/
theorem accum2_cross {agg func : List V → V} (ht : Accum.IsTotal agg func) (rows cols : Accum.Axis) (data : List (Accum.Row V))
    (hr : rows.OK) (hc : cols.OK) (hd : Accum.DataOK rows cols data) (hne : [] ∉ cols.labels) (keyName name : Name)
    (hn : Accum.NamesOK keyName name cols false) :
    ofTable name (Accum.accum2One keyName name agg func rows cols data false) =
      some ((crossOf agg rows cols data).table keyName rows.shown cols.shown name) := by
  have hcells := Accum.accum2_cells agg rows cols data hr hc hd keyName name false hn
  obtain ⟨hk, -, hcol, -⟩ := hcells
  have hX : (if cols.sortGb then Accum.gather ((Accum.codesAll cols.n false).map fun c => agg (Accum.colValues rows cols data false (cols.label c)))
      (Accum.sortIdx cols false) else (Accum.codesAll cols.n false).map fun c => agg (Accum.colValues rows cols data false (cols.label c))) =
      (Accum.shownRows cols false).map fun c => agg (Accum.colValues rows cols data false c) := by
    rw [Accum.display_eq hc false, Accum.shownRows_eq hc, List.map_map]; rfl
  have hY : (if rows.sortGb then Accum.gather ((Accum.codesAll rows.n false).map fun r => agg (Accum.rowValues rows cols data false (rows.label r)))
      (Accum.sortIdx rows false) else (Accum.codesAll rows.n false).map fun r => agg (Accum.rowValues rows cols data false (rows.label r))) =
      (Accum.shownRows rows false).map fun r => agg (Accum.rowValues rows cols data false r) := by
    rw [Accum.display_eq hr false, Accum.shownRows_eq hr, List.map_map]; rfl
  have hT : func ((Accum.codesAll rows.n false).map fun r => agg (Accum.rowValues rows cols data false (rows.label r))) =
      agg (Accum.allValues rows cols data false) := by
    rw [Accum.allValues_codes rows cols data hd false]
    rw [← Accum.total_of_parts agg data ht (fun x => (Accum.codes x).1) rows.n false (fun x hx => (Accum.codes_le hd hx).1)
      (fun x => false || decide ((Accum.codes x).2 ≠ 0))]
    congr 1
    apply List.map_congr_left
    intro r hr'
    rw [Accum.rowValues_codes rows cols data hr.2 hd false (Accum.codesAll_le hr')]
    congr 2
    apply List.filter_congr; intro x _
    rw [Bool.and_comm]
  have hlen : ((Accum.shownRows cols false).map fun c => agg (Accum.colValues rows cols data false c)).length =
      (Accum.dataNames cols false).length := by
    rw [List.length_map, Accum.shownRows_eq hc, List.length_map, Accum.codesShown_length hc, Accum.dataNames_length]
  have heq : Accum.accum2One keyName name agg func rows cols data false =
      ⟨Accum.makeDataset keyName rows cols (Accum.calculate agg rows cols data) false ++
        [(name, .vals ((Accum.shownRows rows false).map fun r => agg (Accum.rowValues rows cols data false r)))],
      (Accum.dataNames cols false).zip ((Accum.shownRows cols false).map fun c => agg (Accum.colValues rows cols data false c)) ++
        [(name, agg (Accum.allValues rows cols data false))]⟩ := by
    unfold Accum.accum2One Accum.onepass
    simp only
    rw [Accum.apply2d_eq agg rows cols data ht hr.2 hc.2 hd false]
    simp only
    rw [hX, hY, hT]
    exact Accum.addTotals_eq cols hn hk hlen
  have hnames := dataNames_shown hc hne
  have hdc : Accum.dataCols rows cols (Accum.calculate agg rows cols data) false =
      cols.shown.map fun c => (c, Accum.Col.vals (rows.shown.map fun r => (crossOf agg rows cols data).cell r c)) := by
    unfold Accum.dataCols
    apply List.ext_getElem?
    intro i
    rw [List.getElem?_map, List.getElem?_map]
    by_cases hi : i < cols.n
    · rw [List.getElem?_range hi]
      have hl : i < cols.shown.length := by rw [Accum.shown_length hc]; exact hi
      have hg : cols.shown[i]? = some cols.shown[i] := List.getElem?_eq_getElem hl
      rw [hg, Option.map_some, Option.map_some]
      have h1 : Accum.colName i (cols.shown.getD i []) = cols.shown[i] := by
        have := congrArg (fun l => l[i]?) hnames
        simp only [Accum.dataNames, Bool.false_eq_true, if_false, List.nil_append] at this
        rw [List.getElem?_map, List.getElem?_range hi, hg, Option.map_some] at this
        exact Option.some.inj this
      rw [h1, Accum.dataColumn_eq agg rows cols data hr hc hd false hg]
      congr 3
      simp [Accum.shownRows, crossOf, Function.comp_def]
    · rw [List.getElem?_eq_none (by simpa using Nat.le_of_not_lt hi), List.getElem?_eq_none (by rw [Accum.shown_length hc]; omega)]
      rfl
  have hrest : cols.shown.map (fun c => (c, Accum.Col.vals (rows.shown.map fun r => (crossOf agg rows cols data).cell r c))) ++
      [(name, Accum.Col.vals (rows.shown.map (crossOf agg rows cols data).row))] =
      ((cols.shown.map fun c => (c, rows.shown.map fun r => (crossOf agg rows cols data).cell r c)) ++
        [(name, rows.shown.map (crossOf agg rows cols data).row)]).map fun e => (e.1, Accum.Col.vals e.2) := by
    simp [Function.comp_def]
  have hsr : (Accum.shownRows rows false).map (fun r => agg (Accum.rowValues rows cols data false r)) =
      rows.shown.map (crossOf agg rows cols data).row := by
    simp [Accum.shownRows, crossOf, Function.comp_def]
  have hzip : (Accum.dataNames cols false).zip ((Accum.shownRows cols false).map fun c => agg (Accum.colValues rows cols data false c)) =
      cols.shown.map fun c => (c, (crossOf agg rows cols data).col c) := by
    rw [hnames]
    have : (Accum.shownRows cols false).map (fun c => agg (Accum.colValues rows cols data false c)) =
        cols.shown.map (crossOf agg rows cols data).col := by
      simp [Accum.shownRows, crossOf, Function.comp_def]
    rw [this, List.zip_eq_zipWith]
    have := zipWith_map_same Prod.mk id (crossOf agg rows cols data).col cols.shown
    rw [List.map_id] at this
    exact this
  rw [heq, Accum.makeDataset_eq rows cols hn, hdc, hsr, hzip]
  simp only [Bool.false_eq_true, if_false, List.nil_append, List.singleton_append]
  unfold ofTable
  simp only [List.cons_append]
  rw [hrest, mapM_vals, Option.map_some]
  simp only [List.map_id'', Prod.mk.eta, List.map_id']
  rfl

/-! ## C120: tables with the totals of several calculations -/

theorem kept_pick {α : Type} (rf : Option (List Bool)) (l : List α) : kept rf l = pick rf l := by
  cases rf with
  | none => rfl
  | some m =>
    induction m generalizing l with
    | nil => cases l <;> simp [kept, kept.go, pick]
    | cons b m ih =>
      cases l with
      | nil => cases b <;> simp [kept, kept.go, pick]
      | cons x l =>
        have h := ih l
        unfold pick at h ⊢
        cases b
        · simpa [kept, kept.go] using h
        · simpa [kept, kept.go] using h

/-- C120.  `gen` shows the wanted table with the totals of the other tables beside and below it;
removing rows and columns (`rf`, `cf`) removes them in all of them alike. -/
theorem gen_shows (h : List (Tab L V)) (t : AT) (key : Name) (R : List L) (C : List Name) (X : Name → Cross L V) (name : Name)
    (rf : Option (List Bool)) (cf : Name → Bool) (hC : C.Nodup) (hm : t.margins.Nodup) (hf : t.footers.Nodup)
    (hX : ∀ n, n = name ∨ n ∈ t.margins ∨ n ∈ t.footers → t.ds h n = some ((X n).table key R C n) ∧ n ∉ C ∧ n ≠ key) :
    gen h t name rf cf = some ((X name).withMargins key (kept rf R) (C.filter cf) name (cf name)
      ((t.margins.filter fun m => m ≠ name).map fun m => (m, X m)) ((t.footers.filter fun f => f ≠ name).map fun f => (f, X f))) :=
  kept_pick rf R ▸ gen_cross h t key R C X name rf cf hC hm hf hX

theorem addKey_mem {l : List Name} {n m : Name} : m ∈ addKey l n ↔ m = n ∨ m ∈ l := by
  unfold addKey
  split
  · rename_i h
    constructor
    · exact Or.inr
    · rintro (rfl | h')
      exacts [h, h']
  · simp [or_comm]

theorem addKey_nodup {l : List Name} (n : Name) (h : l.Nodup) : (addKey l n).Nodup := by
  unfold addKey
  split
  · exact h
  · rename_i hn
    rw [List.nodup_append]
    exact ⟨h, by simp, fun a ha b hb => by simp at hb; subst hb; exact fun e => hn (e ▸ ha)⟩

/-- the tables put into an `AccumTable` -/
structure Filled (h : List (Tab L V)) (t : AT) (key : Name) (R : List L) (C : List Name) (X : Name → Cross L V) (ns : List Name) : Prop where
  margins : t.margins = ns
  footers : t.footers = ns
  ds : ∀ n ∈ ns, t.ds h n = some ((X n).table key R C n) ∧ n ∉ C ∧ n ≠ key
  range : ∀ a ∈ t.inner.map Prod.snd, a < h.length

/-- calculations put in one after another, each a new Dataset -/
def fill (t : List (Tab L V) × AT) : List (Name × Tab L V) → Option (List (Tab L V) × AT)
  | [] => some t
  | (n, d) :: rest => (setItem (t.1 ++ [d]) t.2 n t.1.length).bind fun t' => fill t' rest

theorem fill_filled (key : Name) (R : List L) (C : List Name) (X : Name → Cross L V) (s : Name → Name) (hC : C.Nodup) :
    ∀ (todo done : List Name) (h : List (Tab L V)) (t : AT), Filled h t key R C X done → (done ++ todo).Nodup →
      (∀ n ∈ todo, n ∉ C ∧ n ≠ key ∧ s n ∉ C) →
      ∃ h' t', fill (h, t) (todo.map fun n => (n, (X n).table key R C (s n))) = some (h', t') ∧ Filled h' t' key R C X (done ++ todo) := by
  intro todo
  induction todo with
  | nil =>
    intro done h t hf _ _
    exact ⟨h, t, rfl, by simpa using hf⟩
  | cons n todo ih =>
    intro done h t hf hnd hn
    obtain ⟨h1, h2, h3⟩ := hn n (by simp)
    have hnew : n ∉ done := by
      intro hm
      rw [List.nodup_append] at hnd
      exact hnd.2.2 n hm n (by simp) rfl
    have hset := setItem_table (h ++ [(X n).table key R C (s n)]) t (X n) key R C (s n) (s n) n h.length
      (by simp [table_eq_tableF]) hC h3 h1 h2
    have hf' : Filled ((h ++ [(X n).table key R C (s n)]).set h.length ((X n).table key R C n))
        ⟨t.inner.set n h.length, addKey t.margins n, addKey t.footers n⟩ key R C X (done ++ [n]) := by
      refine ⟨?_, ?_, ?_, ?_⟩
      · show addKey t.margins n = _
        rw [hf.margins, addKey, if_neg hnew]
      · show addKey t.footers n = _
        rw [hf.footers, addKey, if_neg hnew]
      · intro m hm
        by_cases e : m = n
        · subst e
          refine ⟨?_, h1, h2⟩
          unfold AT.ds
          rw [Dict.get_set, if_pos rfl, Option.bind_some, List.getElem?_set_self (by simp)]
        · have hm' : m ∈ done := by
            rcases List.mem_append.1 hm with h | h
            · exact h
            · exact absurd (by simpa using h) e
          obtain ⟨a1, a2, a3⟩ := hf.ds m hm'
          refine ⟨?_, a2, a3⟩
          unfold AT.ds at a1 ⊢
          rw [Dict.get_set, if_neg e]
          cases hg : t.inner.get m with
          | none => rw [hg] at a1; cases a1
          | some a =>
            rw [hg, Option.bind_some] at a1
            rw [Option.bind_some]
            have ha : a < h.length := hf.range a (List.mem_map.2 ⟨(m, a), Dict.mem_of_get hg, rfl⟩)
            rw [List.getElem?_set_ne (by omega), List.getElem?_append_left ha]
            exact a1
      · intro a ha
        rw [List.length_set, List.length_append]
        obtain ⟨e, he, rfl⟩ := List.mem_map.1 ha
        simp only [List.length_cons, List.length_nil]
        by_cases hk : n ∈ t.inner.keys
        · rw [Dict.set_of_mem hk] at he
          obtain ⟨e', he', rfl⟩ := List.mem_map.1 he
          split
          · simp
          · have := hf.range e'.2 (List.mem_map_of_mem he'); omega
        · rw [Dict.set_of_notMem hk] at he
          rcases List.mem_append.1 he with he | he
          · have := hf.range e.2 (List.mem_map_of_mem he); omega
          · simp at he; rw [he]; simp
    obtain ⟨h', t', e1, e2⟩ := ih (done ++ [n]) _ _ hf' (by simpa using hnd) (fun m hm => hn m (List.mem_cons_of_mem _ hm))
    refine ⟨h', t', ?_, by simpa using e2⟩
    rw [List.map_cons, fill, hset, Option.bind_some]
    exact e1

/-- C120.  Calculations with the same rows and columns, put into a new `AccumTable` under different
names: each of them is shown with the totals of all others (in the order in which they were put
in), under the names given to them. -/
theorem fill_gen (key : Name) (R : List L) (C : List Name) (X : Name → Cross L V) (s : Name → Name) (ns : List Name) (name : Name)
    (rf : Option (List Bool)) (cf : Name → Bool) (hC : C.Nodup) (hns : ns.Nodup) (hname : name ∈ ns)
    (hn : ∀ n ∈ ns, n ∉ C ∧ n ≠ key ∧ s n ∉ C) :
    ∃ h t, fill ([], AT.new) (ns.map fun n => (n, (X n).table key R C (s n))) = some (h, t) ∧
      gen h t name rf cf = some ((X name).withMargins key (kept rf R) (C.filter cf) name (cf name)
        ((ns.filter fun m => m ≠ name).map fun m => (m, X m)) ((ns.filter fun m => m ≠ name).map fun m => (m, X m))) ∧
      ∀ ms fs : List Name, ms.Nodup → fs.Nodup → (∀ m ∈ ms ++ fs, m ∈ ns) →
        gen h (setFooters (setMargins t ms) fs) name rf cf =
          some ((X name).withMargins key (kept rf R) (C.filter cf) name (cf name)
            ((ms.filter fun m => m ≠ name).map fun m => (m, X m)) ((fs.filter fun f => f ≠ name).map fun f => (f, X f))) := by
  obtain ⟨h, t, e, hf⟩ := fill_filled key R C X s hC ns [] [] AT.new ⟨rfl, rfl, by simp, by simp [AT.new]⟩ (by simpa using hns) hn
  rw [List.nil_append] at hf
  have hfold : ∀ l acc : List Name, (acc ++ l).Nodup → l.foldl addKey acc = acc ++ l := by
    intro l
    induction l with
    | nil => simp
    | cons a l ih =>
      intro acc hnd
      have : a ∉ acc := by
        intro hm
        rw [List.nodup_append] at hnd
        exact hnd.2.2 a hm a (by simp) rfl
      rw [List.foldl_cons, addKey, if_neg this, ih _ (by simpa using hnd)]
      simp
  refine ⟨h, t, e, ?_, ?_⟩
  · have := gen_shows h t key R C X name rf cf hC (hf.margins ▸ hns) (hf.footers ▸ hns) (by
      rintro n (rfl | hm | hm)
      · exact hf.ds _ hname
      · exact hf.ds _ (hf.margins ▸ hm)
      · exact hf.ds _ (hf.footers ▸ hm))
    rw [hf.margins, hf.footers] at this
    exact this
  · intro ms fs hms hfs hsub
    have hm : (setFooters (setMargins t ms) fs).margins = ms := by
      show ms.foldl addKey [] = ms
      rw [hfold ms [] (by simpa using hms), List.nil_append]
    have hfo : (setFooters (setMargins t ms) fs).footers = fs := by
      show fs.foldl addKey [] = fs
      rw [hfold fs [] (by simpa using hfs), List.nil_append]
    have := gen_shows h (setFooters (setMargins t ms) fs) key R C X name rf cf hC (by rw [hm]; exact hms) (by rw [hfo]; exact hfs) (by
      rintro n (rfl | h' | h')
      · exact hf.ds _ hname
      · rw [hm] at h'
        exact hf.ds _ (hsub n (List.mem_append_left _ h'))
      · rw [hfo] at h'
        exact hf.ds _ (hsub n (List.mem_append_right _ h')))
    rw [hm, hfo] at this
    exact this

/-- small cross tables for examples -/
def exX : Cross Nat Int := ⟨fun r c => r + c.length, fun r => 10 * r, fun c => 100 * c.length, 1000⟩
@[inherit_doc exX] def exY : Cross Nat Int := ⟨fun _ _ => 1, fun _ => 2, fun _ => 3, 4⟩

example : ∃ h t, fill ([], AT.new) [("S".toList, exX.table "k".toList [1, 2] ["a".toList, "bb".toList] "Total".toList),
      ("N".toList, exY.table "k".toList [1, 2] ["a".toList, "bb".toList] "Count".toList)] = some (h, t) ∧
    gen h t "S".toList none (fun _ => true) = some
      { key := "k".toList, rows := [1, 2]
        cols := [("a".toList, [2, 3]), ("bb".toList, [3, 4]), ("S".toList, [10, 20]), ("N".toList, [2, 2])]
        summ := ["S".toList, "N".toList]
        foot := [("S".toList, [("a".toList, 100), ("bb".toList, 200), ("S".toList, 1000)]),
          ("N".toList, [("a".toList, 3), ("bb".toList, 3), ("N".toList, 4)])] } :=
  ⟨_, _, rfl, by decide +kernel⟩

/-- C121.  `at[name] = ds` changes the Dataset it is given: its totals have the new name. -/
theorem setItem_renames_counterexample : ∃ h : List (Tab Nat Int), ∃ t,
    setItem [exX.table "k".toList [1] ["a".toList] "Total".toList] AT.new "S".toList 0 = some (h, t) ∧
    h.map (fun d => d.cols.keys) = [["a".toList, "S".toList]] :=
  ⟨_, _, rfl, by decide +kernel⟩

/-- C121.  The same Dataset put in under two names has the second name only, and the table of the
second name cannot be made. -/
theorem setItem_twice_counterexample : ∃ (h h' : List (Tab Nat Int)) (t t' : AT),
    setItem [exX.table "k".toList [1] ["a".toList] "Total".toList] AT.new "S".toList 0 = some (h, t) ∧
    setItem h t "T".toList 0 = some (h', t') ∧ gen h' t' "T".toList none (fun _ => true) = none ∧
    (gen h' t' "S".toList none (fun _ => true)).map (fun d => d.cols.keys) = some ["a".toList, "T".toList] :=
  ⟨_, _, _, _, rfl, rfl, by decide +kernel, by decide +kernel⟩

/-- C121.  A calculation that has a column with the name of another calculation: its values are
replaced by the totals of the other one. -/
theorem gen_overwrites_counterexample : ∃ (h : List (Tab Nat Int)) (t : AT),
    fill ([], AT.new) [("S".toList, exX.table "k".toList [1, 2] ["a".toList, "N".toList] "Total".toList),
      ("N".toList, { exY.table "k".toList [1, 2] ["a".toList] "Count".toList with foot := [] })] = some (h, t) ∧
    (gen h { t with footers := [] } "S".toList none (fun _ => true)).map (fun d => d.cols.get "N".toList) = some (some [2, 2]) :=
  ⟨_, _, rfl, by decide +kernel⟩

/-! ## C122: `accum_ratio` -/

/-- names that the totals of the two calculations do not have: the categories, also with an
underscore -/
def Clear (c : Cat) (s : Name) : Prop := s ∉ c.list ∧ ∀ k ∈ [nNumer, nDenom, nRatio], s ≠ k ++ ['_']

/-- C122.  If no category is in the way (or can be renamed), every cell is the ratio of the two
cells, every total the ratio of the two totals, and the totals of numerator and denominator are
shown if wanted.  Categories of `cat2` with the names of these columns have an underscore, also in the
Categorical of the caller. -/
theorem accumRatio_shows (op : V → V → V) (nan : V) (cat2 : Cat) (X Y : List Name → Cross L V) (key : Name) (R : List L) (s s' : Name)
    (incN incD : Bool) (rf : Option (List Bool)) (cf : Name → Bool) (hc : Fine cat2) (hs : Clear cat2 s) (hs' : Clear cat2 s')
    (h0 : summaryName 0 ∉ cat2.list) (hkey : ∀ k ∈ [nNumer, nDenom, nRatio], k ≠ key)
    (hno : ∀ k ∈ [nNumer, nDenom, nRatio], ¬ Stuck cat2 k) :
    ∃ c', c'.list = (cat2.list.map fun n => if n ∈ [nNumer, nDenom, nRatio] then n ++ ['_'] else n) ∧
      accumRatio op nan cat2 (fun C => (X C).table key R C s) (fun C => (Y C).table key R C s') incN incD rf cf =
        some (((X c'.list).map2 op (Y c'.list)).withMargins key (kept rf R) (c'.list.filter cf) nRatio (cf nRatio)
          (shownMargins incN incD (nNumer, X c'.list) (nDenom, Y c'.list))
          (shownMargins incN incD (nNumer, X c'.list) (nDenom, Y c'.list)), c') := by
  rw [kept_pick]
  obtain ⟨c', h1, h2, h3, h4⟩ := guard_spec hc
  have hn := guard_names hc h1
  have clear : ∀ {t : Name}, Clear cat2 t → t ∉ c'.list := by
    intro t ht hm
    rcases hn t hm with h | ⟨k, hk, h⟩
    · exact ht.1 h
    · exact ht.2 k hk h
  have h0' : Clear cat2 (summaryName 0) := ⟨h0, by decide⟩
  refine ⟨c', h4 hno, ?_⟩
  unfold accumRatio
  rw [h1, Option.bind_some, h2.same, ratio_cross op nan _ _ key R c'.list s s' incN incD rf cf h2.wf.nodup (clear hs) (clear hs')
    ⟨fun k hk => ⟨fun h => hno k hk ((h3 k hk).1 h), hkey k hk⟩, clear h0'⟩]
  rfl

/-- C122.  Exactly when `accum_ratio` raises: a category of the columns has the name of one of the
columns that are added, and cannot be renamed. -/
theorem accumRatio_raises (op : V → V → V) (nan : V) (cat2 : Cat) (X Y : List Name → Cross L V) (key : Name) (R : List L) (s s' : Name)
    (incN incD : Bool) (rf : Option (List Bool)) (cf : Name → Bool) (hc : Fine cat2) (hs : Clear cat2 s) (hs' : Clear cat2 s')
    (h0 : summaryName 0 ∉ cat2.list) (hkey : ∀ k ∈ [nNumer, nDenom, nRatio], k ≠ key) :
    accumRatio op nan cat2 (fun C => (X C).table key R C s) (fun C => (Y C).table key R C s') incN incD rf cf = none ↔
      ∃ k ∈ [nNumer, nDenom, nRatio], Stuck cat2 k := by
  constructor
  · intro h
    by_contra hno
    push Not at hno
    obtain ⟨c', -, e⟩ := accumRatio_shows op nan cat2 X Y key R s s' incN incD rf cf hc hs hs' h0 hkey hno
    rw [h] at e
    cases e
  · rintro ⟨k, hk, hst⟩
    obtain ⟨c', h1, h2, h3, -⟩ := guard_spec hc
    have hn := guard_names hc h1
    have clear : ∀ {t : Name}, Clear cat2 t → t ∉ c'.list := by
      intro t ht hm
      rcases hn t hm with h | ⟨k, hk, h⟩
      · exact ht.1 h
      · exact ht.2 k hk h
    have h0' : Clear cat2 (summaryName 0) := ⟨h0, by decide⟩
    unfold accumRatio
    rw [h1, Option.bind_some, h2.same, ratio_clash op nan _ _ key R c'.list s s' incN incD rf cf h2.wf.nodup (clear hs) (clear hs')
      hkey (clear h0') ⟨k, hk, (h3 k hk).2 hst⟩]
    rfl

/-- C122, with the calculations of `Accum2`: each cell is the ratio of the two aggregates of the rows
of data with these two labels. -/
theorem accumRatio_accum2 (op : V → V → V) (nan : V) {agg1 func1 agg2 func2 : List V → V} (ht1 : Accum.IsTotal agg1 func1)
    (ht2 : Accum.IsTotal agg2 func2) (rows cols : Accum.Axis) (data1 data2 : List (Accum.Row V))
    (hr : rows.OK) (hc : cols.OK) (hd1 : Accum.DataOK rows cols data1) (hd2 : Accum.DataOK rows cols data2) (hne : [] ∉ cols.labels)
    (key s s' : Name) (hn1 : Accum.NamesOK key s cols false) (hn2 : Accum.NamesOK key s' cols false)
    (incN incD : Bool) (rf : Option (List Bool)) (cf : Name → Bool)
    (hres : ∀ k ∈ [nNumer, nDenom, nRatio], k ∉ cols.shown ∧ k ≠ key) (h0 : summaryName 0 ∉ cols.shown) :
    ∃ t1 t2, ofTable s (Accum.accum2One key s agg1 func1 rows cols data1 false) = some t1 ∧
      ofTable s' (Accum.accum2One key s' agg2 func2 rows cols data2 false) = some t2 ∧
      ratio op nan t1 t2 incN incD rf cf = some (((crossOf agg1 rows cols data1).map2 op (crossOf agg2 rows cols data2)).withMargins
        key (kept rf rows.shown) (cols.shown.filter cf) nRatio (cf nRatio)
        (shownMargins incN incD (nNumer, crossOf agg1 rows cols data1) (nDenom, crossOf agg2 rows cols data2))
        (shownMargins incN incD (nNumer, crossOf agg1 rows cols data1) (nDenom, crossOf agg2 rows cols data2))) := by
  rw [kept_pick]
  refine ⟨_, _, accum2_cross ht1 rows cols data1 hr hc hd1 hne key s hn1, accum2_cross ht2 rows cols data2 hr hc hd2 hne key s' hn2, ?_⟩
  have nd : ∀ {t : Name}, Accum.NamesOK key t cols false → cols.shown.Nodup ∧ t ∉ cols.shown := by
    intro t h
    unfold Accum.NamesOK at h
    rw [dataNames_shown hc hne, List.nodup_cons, List.nodup_append] at h
    exact ⟨h.2.1, fun hm => h.2.2.2 t hm t (by simp) rfl⟩
  exact ratio_cross op nan _ _ key rows.shown cols.shown s s' incN incD rf cf (nd hn1).1 (nd hn1).2 (nd hn2).2 ⟨hres, h0⟩

/-- a Categorical with the categories `l`, in an array of their greatest length -/
def exCat (l : List Name) (w : Nat) : Cat := { list := l, base := 1, bits := 8, fa := [1], sorted := false, autoAdd := false, locked := false, shared := true, uniq := l, width := w }

example : Fine (exCat ["abcdef".toList, nRatio] 6) ∧ Clear (exCat ["abcdef".toList, nRatio] 6) "Sum".toList ∧
    ∀ k ∈ [nNumer, nDenom, nRatio], ¬ Stuck (exCat ["abcdef".toList, nRatio] 6) k :=
  ⟨⟨⟨by decide, by decide, by decide, by decide, by decide, by decide⟩, rfl, rfl, rfl⟩, by unfold Clear; decide, by decide⟩

example : (accumRatio (fun a b : Int => a / b) 0 (exCat ["abcdef".toList, nRatio] 6)
      (fun C => (⟨fun r c => r * c.length, fun _ => 30, fun _ => 60, 120⟩ : Cross Int Int).table "k".toList [1, 2] C "Sum".toList)
      (fun C => (⟨fun r _ => r, fun _ => 3, fun _ => 2, 1⟩ : Cross Int Int).table "k".toList [1, 2] C "Sum".toList) true false none
      fun _ => true).map Prod.fst = some
    { key := "k".toList, rows := [1, 2]
      cols := [("abcdef".toList, [6, 6]), ("Ratio_".toList, [6, 6]), ("Ratio".toList, [10, 10]), ("Numer".toList, [30, 30])]
      summ := ["Ratio".toList, "Numer".toList]
      foot := [("Ratio".toList, [("abcdef".toList, 30), ("Ratio_".toList, 30), ("Ratio".toList, 120)]),
        ("Numer".toList, [("abcdef".toList, 60), ("Ratio_".toList, 60), ("Numer".toList, 120)])] } := by decide +kernel

/-- C123.  A category called `Ratio` in an array that has no place for an underscore: it raises. -/
theorem accumRatio_width_counterexample : accumRatio (fun a b : Int => a / b) 0 (exCat ["a".toList, nRatio] 5)
    (fun C => exX.table "k".toList [1, 2] C "Sum".toList) (fun C => exY.table "k".toList [1, 2] C "Sum".toList) false true none
    (fun _ => true) = none := by decide +kernel

/-- C123.  The Categorical of the caller has other categories afterwards. -/
theorem accumRatio_mutates_counterexample : (accumRatio (fun a b : Int => a / b) 0 (exCat ["abcdef".toList, nRatio] 6)
    (fun C => exX.table "k".toList [1, 2] C "Sum".toList) (fun C => exY.table "k".toList [1, 2] C "Sum".toList) false true none
    (fun _ => true)).map (fun p => p.2.list) = some ["abcdef".toList, "Ratio_".toList] := by decide +kernel

/-- C123.  A category called `Summary0` is lost: the ratio of the totals is in its place. -/
theorem accumRatio_summary0_counterexample : (ratio (fun a b : Int => a / b) 0
    (exX.table "k".toList [1, 2] ["Summary0".toList] "Sum".toList)
    (exY.table "k".toList [1, 2] ["Summary0".toList] "Sum".toList) false true none fun _ => true).map (fun d => d.cols) =
    some [("Ratio".toList, [5, 10]), ("Denom".toList, [2, 2])] := by decide +kernel

/-! ## C124: `accum_ratiop` -/

/-- C124.  `accum_ratiop` shows the percentages of everything, of the rows or of the columns; with
`include_total` also the totals that were not normalized. -/
theorem ratiop_shows (pct : V → V → V) (hundred : V) (by' : Norm) (x : Cross L V) (key : Name) (R : List L) (C : List Name) (s : Name)
    (incTotal : Bool) (rf : Option (List Bool)) (cf : Name → Bool) (hC : C.Nodup) (hs : s ∉ C) (hTR : nTR ∉ C) (hkey : nTR ≠ key)
    (hcf : cf nTR = true) (hT : incTotal = true → nTotal ∉ C ∧ nTotal ≠ key) :
    ratiop pct hundred by' (x.table key R C s) incTotal rf cf =
      some ((x.percent pct hundred by').withMargins key (kept rf R) (C.filter cf) nTR true
        (if incTotal then [(nTotal, x)] else []) (if incTotal then [(nTotal, x)] else [])) := by
  rw [kept_pick]
  have hCf : (C.filter cf).Nodup := hC.filter _
  have hTRf : nTR ∉ C.filter cf := fun h => hTR (List.mem_of_mem_filter h)
  unfold ratiop
  rw [setItem_table [x.table key R C s, x.table key R C s] AT.new x key R C s s nTR 0 rfl hC hs hTR hkey, Option.bind_some]
  simp only [List.set_cons_zero]
  cases incTotal with
  | false =>
    simp only [Bool.false_eq_true, if_false, Option.bind_some]
    rw [gen_cross [x.table key R C nTR, x.table key R C s] _ key R C (fun _ => x) nTR rf cf hC (by decide) (by decide) (by
      intro n hn
      have : n = nTR := by simpa [AT.new, addKey] using hn
      subst this
      exact ⟨rfl, hTR, hkey⟩)]
    rw [Option.bind_some, hcf]
    exact normalize_cross x key _ _ [] [] pct hundred by' hCf hTRf (by simp) (by simp) (by simp)
  | true =>
    obtain ⟨hT1, hT2⟩ := hT rfl
    simp only [if_true]
    rw [setItem_table [x.table key R C nTR, x.table key R C s] _ x key R C s s nTotal 1 rfl hC hs hT1 hT2, Option.bind_some]
    simp only [List.set_cons_succ, List.set_cons_zero]
    rw [gen_cross [x.table key R C nTR, x.table key R C nTotal] _ key R C (fun _ => x) nTR rf cf hC (by decide) (by decide) (by
      intro n hn
      have : n = nTR ∨ n = nTotal := by
        have e1 : addKey (addKey AT.new.margins nTR) nTotal = [nTR, nTotal] := by decide
        have e2 : addKey (addKey AT.new.footers nTR) nTotal = [nTR, nTotal] := by decide
        simp only at hn
        rw [e1, e2] at hn
        simp at hn
        tauto
      rcases this with rfl | rfl
      · exact ⟨rfl, hTR, hkey⟩
      · exact ⟨rfl, hT1, hT2⟩)]
    rw [Option.bind_some, hcf]
    have e1 : (addKey (addKey AT.new.margins nTR) nTotal).filter (fun m => decide (m ≠ nTR)) = [nTotal] := by decide
    have e2 : (addKey (addKey AT.new.footers nTR) nTotal).filter (fun m => decide (m ≠ nTR)) = [nTotal] := by decide
    simp only
    rw [e1, e2]
    exact normalize_cross x key _ _ [(nTotal, x)] [(nTotal, x)] pct hundred by' hCf hTRf
      (by
        intro m hm
        have : m = (nTotal, x) := by simpa using hm
        subst this
        exact ⟨fun h => hT1 (List.mem_of_mem_filter h), show nTotal ≠ nTR by decide⟩) (by simp)
      (by
        intro f hf
        have : f = (nTotal, x) := by simpa using hf
        subst this
        exact show nTotal ≠ nTR by decide)

/-- the totals of a table are the sums of its cells -/
structure Additive (x : Cross L ℚ) (R : List L) (C : List Name) : Prop where
  row : ∀ r ∈ R, (C.map fun c => x.cell r c).sum = x.row r
  col : ∀ c ∈ C, (R.map fun r => x.cell r c).sum = x.col c
  rows : (R.map x.row).sum = x.all
  cols : (C.map x.col).sum = x.all

theorem sum_pct {α : Type} (f : α → ℚ) (t : ℚ) (l : List α) (h : (l.map f).sum = t) (ht : t ≠ 0) :
    (l.map fun a => 100 * f a / t).sum = 100 := by
  have : ∀ l : List α, (l.map fun a => 100 * f a / t).sum = 100 * (l.map f).sum / t := by
    intro l
    induction l with
    | nil => simp
    | cons a l ih => rw [List.map_cons, List.sum_cons, ih, List.map_cons, List.sum_cons]; ring
  rw [this, h]
  field_simp

/-- C124.  Percentages of rows add up to 100 in each row whose total is not 0, percentages of columns
in each column, percentages of everything over the whole table; so do the totals shown with them. -/
theorem percent_sums (x : Cross L ℚ) (R : List L) (C : List Name) (h : Additive x R C) :
    (∀ r ∈ R, x.row r ≠ 0 → (C.map fun c => (x.percent (fun a b => 100 * a / b) 100 .R).cell r c).sum = 100 ∧
      (x.percent (fun a b => 100 * a / b) 100 .R).row r = 100) ∧
    (∀ c ∈ C, x.col c ≠ 0 → (R.map fun r => (x.percent (fun a b => 100 * a / b) 100 .C).cell r c).sum = 100 ∧
      (x.percent (fun a b => 100 * a / b) 100 .C).col c = 100) ∧
    (x.all ≠ 0 → (R.map fun r => (C.map fun c => (x.percent (fun a b => 100 * a / b) 100 .T).cell r c).sum).sum = 100 ∧
      (R.map (x.percent (fun a b => 100 * a / b) 100 .T).row).sum = 100 ∧
      (C.map (x.percent (fun a b => 100 * a / b) 100 .T).col).sum = 100 ∧
      (x.percent (fun a b => 100 * a / b) 100 .T).all = 100) := by
  refine ⟨fun r hr h0 => ⟨sum_pct (fun c => x.cell r c) _ C (h.row r hr) h0, ?_⟩,
    fun c hc h0 => ⟨sum_pct (fun r => x.cell r c) _ R (h.col c hc) h0, rfl⟩, fun h0 => ⟨?_, sum_pct x.row _ R h.rows h0, sum_pct x.col _ C h.cols h0, ?_⟩⟩
  · simp only [Cross.percent]; field_simp
  · have e : (R.map fun r => (C.map fun c => (x.percent (fun a b => 100 * a / b) 100 .T).cell r c).sum) =
        R.map fun r => 100 * x.row r / x.all := by
      apply List.map_congr_left
      intro r hr
      rw [← h.row r hr]
      simp only [Cross.percent]
      induction C with
      | nil => simp
      | cons c C ih =>
        have : ∀ D : List Name, (D.map fun c => 100 * x.cell r c / x.all).sum = 100 * (D.map fun c => x.cell r c).sum / x.all := by
          intro D
          induction D with
          | nil => simp
          | cons a D ih => rw [List.map_cons, List.sum_cons, ih, List.map_cons, List.sum_cons]; ring
        exact this _
    rw [e]
    exact sum_pct x.row _ R h.rows h0
  · simp only [Cross.percent]; field_simp

theorem sum_parts {α : Type} (f : α → Option Name) (p : α → Bool) (v : α → ℚ) (D : List Name) (hD : D.Nodup) (data : List α)
    (h : ∀ x ∈ data, ∀ l, f x = some l → l ∈ D) :
    (D.map fun l => ((data.filter fun x => decide (f x = some l) && p x).map v).sum).sum =
      ((data.filter fun x => (f x).isSome && p x).map v).sum := by
  induction data with
  | nil =>
    simp
  | cons x data ih =>
    have ih := ih fun y hy => h y (List.mem_cons_of_mem _ hy)
    have e : ∀ l, (((x :: data).filter fun x => decide (f x = some l) && p x).map v).sum =
        (if f x = some l ∧ p x = true then v x else 0) + ((data.filter fun x => decide (f x = some l) && p x).map v).sum := by
      intro l
      by_cases hc : f x = some l ∧ p x = true
      · rw [if_pos hc, List.filter_cons_of_pos (by simp [hc]), List.map_cons, List.sum_cons]
      · rw [if_neg hc, List.filter_cons_of_neg (by simpa using hc), zero_add]
    simp only [e]
    rw [List.sum_map_add, ih]
    cases hf : f x with
    | none =>
      rw [List.filter_cons_of_neg (by simp [hf])]
      simp
    | some l =>
      have hl := h x (by simp) l hf
      have hone : ∀ D : List Name, D.Nodup → l ∈ D → (D.map fun l' => if some l = some l' ∧ p x = true then v x else 0).sum =
          if p x = true then v x else 0 := by
        intro D hD hl
        induction D with
        | nil => cases hl
        | cons a D ih =>
          rw [List.nodup_cons] at hD
          rw [List.map_cons, List.sum_cons]
          by_cases ha : l = a
          · subst ha
            have : (D.map fun l' => if some l = some l' ∧ p x = true then v x else 0).sum = 0 := by
              have : (D.map fun l' => if some l = some l' ∧ p x = true then v x else 0) = D.map fun _ => (0 : ℚ) := by
                apply List.map_congr_left
                intro m hm
                rw [if_neg]
                rintro ⟨e, -⟩
                exact hD.1 (Option.some.inj e ▸ hm)
              rw [this]; simp
            rw [this]; simp
          · rw [ih hD.2 (by simpa [ha] using hl)]
            simp [ha]
      rw [hone D hD hl]
      by_cases hp : p x = true
      · rw [if_pos hp, List.filter_cons_of_pos (by simp [hf, hp]), List.map_cons, List.sum_cons]
      · rw [if_neg hp, List.filter_cons_of_neg (by simp [hp]), zero_add]

theorem shown_perm {a : Accum.Axis} (h : a.OK) : a.shown.Perm a.labels := by
  have e1 : a.shown = a.order.map fun i => a.labels.getD i [] := by
    apply List.ext_getElem?
    intro p
    rw [Accum.shown_get h, List.getElem?_map]
    cases ho : a.order[p]? with
    | none => rfl
    | some k =>
      have : k < a.labels.length := Accum.order_lt h k (List.mem_of_getElem? ho)
      simp [List.getElem?_eq_getElem this]
  have e2 : a.labels = (List.range a.n).map fun i => a.labels.getD i [] := by
    apply List.ext_getElem?
    intro p
    rw [List.getElem?_map]
    by_cases hp : p < a.n
    · have : p < a.labels.length := hp
      simp [List.getElem?_range hp, List.getElem?_eq_getElem this]
    · have : ¬ p < a.labels.length := hp
      rw [List.getElem?_eq_none (by omega), List.getElem?_eq_none (by simpa using Nat.le_of_not_lt hp)]; rfl
  rw [e1]
  conv => rhs; rw [e2]
  exact (Accum.order_perm h).map _

theorem label_shown {a : Accum.Axis} (h : a.OK) {k : Nat} {l : Name} (e : a.label k = some l) : l ∈ a.shown := by
  rw [(shown_perm h).mem_iff]
  unfold Accum.Axis.label at e
  split at e
  · cases e
  · exact List.mem_of_getElem? e

/-- The totals of sums are the sums of the cells. -/
theorem sum_additive (rows cols : Accum.Axis) (data : List (Accum.Row ℚ)) (hr : rows.OK) (hc : cols.OK) :
    Additive (crossOf List.sum rows cols data) rows.shown cols.shown := by
  have ndr : rows.shown.Nodup := (shown_perm hr).nodup_iff.2 hr.2
  have ndc : cols.shown.Nodup := (shown_perm hc).nodup_iff.2 hc.2
  have hl1 : ∀ x ∈ data, ∀ l, (Accum.labels rows cols x).1 = some l → l ∈ rows.shown := by
    intro x _ l e
    unfold Accum.labels at e
    split at e
    · exact label_shown hr e
    · cases e
  have hl2 : ∀ x ∈ data, ∀ l, (Accum.labels rows cols x).2 = some l → l ∈ cols.shown := by
    intro x _ l e
    unfold Accum.labels at e
    split at e
    · exact label_shown hc e
    · cases e
  refine ⟨?_, ?_, ?_, ?_⟩
  · intro r _
    have := sum_parts (fun x => (Accum.labels rows cols x).2) (fun x => decide ((Accum.labels rows cols x).1 = some r)) Accum.Row.v
      cols.shown ndc data hl2
    simp only [crossOf, Accum.cell, Accum.rowValues, Accum.shows, Bool.false_or]
    convert this using 5
    · congr 1
      apply List.filter_congr
      intro x _
      rw [← Bool.decide_and]
      congr 1
      rw [Prod.ext_iff]
      exact propext and_comm
    · rw [Bool.and_comm]
  · intro c _
    have := sum_parts (fun x => (Accum.labels rows cols x).1) (fun x => decide ((Accum.labels rows cols x).2 = some c)) Accum.Row.v
      rows.shown ndr data hl1
    simp only [crossOf, Accum.cell, Accum.colValues, Accum.shows, Bool.false_or]
    convert this using 5
    · congr 1
      apply List.filter_congr
      intro x _
      rw [← Bool.decide_and]
      congr 1
      rw [Prod.ext_iff]
    · rw [Bool.and_comm]
  · exact sum_parts (fun x => (Accum.labels rows cols x).1) (fun x => (Accum.labels rows cols x).2.isSome) Accum.Row.v
      rows.shown ndr data hl1
  · have := sum_parts (fun x => (Accum.labels rows cols x).2) (fun x => (Accum.labels rows cols x).1.isSome) Accum.Row.v
      cols.shown ndc data hl2
    simp only [crossOf, Accum.colValues, Accum.allValues, Accum.shows, Bool.false_or]
    rw [this]
    congr 2
    apply List.filter_congr
    intro x _
    rw [Bool.and_comm]

theorem isTotal_sum : Accum.IsTotal (V := ℚ) List.sum List.sum := by
  intro parts l hl
  rw [hl.sum_eq, List.sum_flatten]

/-- C124, for sums calculated by `Accum2`: what `accum_ratiop` shows, and that its percentages add up
to 100. -/
theorem ratiop_accum2 (by' : Norm) (rows cols : Accum.Axis) (data : List (Accum.Row ℚ)) (hr : rows.OK) (hc : cols.OK)
    (hd : Accum.DataOK rows cols data) (hne : [] ∉ cols.labels) (key s : Name) (hn : Accum.NamesOK key s cols false) (incTotal : Bool)
    (hTR : nTR ∉ cols.shown) (hkey : nTR ≠ key) (hT : incTotal = true → nTotal ∉ cols.shown ∧ nTotal ≠ key) :
    ∃ t y, ofTable s (Accum.accum2One key s List.sum List.sum rows cols data false) = some t ∧
      ratiop (fun a b : ℚ => 100 * a / b) 100 by' t incTotal none (fun _ => true) =
        some (Cross.withMargins y key rows.shown cols.shown nTR true
          (if incTotal then [(nTotal, crossOf List.sum rows cols data)] else [])
          (if incTotal then [(nTotal, crossOf List.sum rows cols data)] else [])) ∧
      (by' = .R → ∀ r ∈ rows.shown, (Accum.rowValues rows cols data false (some r)).sum ≠ 0 → (cols.shown.map fun c => y.cell r c).sum = 100) ∧
      (by' = .C → ∀ c ∈ cols.shown, (Accum.colValues rows cols data false (some c)).sum ≠ 0 → (rows.shown.map fun r => y.cell r c).sum = 100) ∧
      (by' = .T → (Accum.allValues rows cols data false).sum ≠ 0 →
        (rows.shown.map fun r => (cols.shown.map fun c => y.cell r c).sum).sum = 100) := by
  have hN := hn
  unfold Accum.NamesOK at hN
  rw [dataNames_shown hc hne, List.nodup_cons, List.nodup_append] at hN
  have hadd := percent_sums _ _ _ (sum_additive rows cols data hr hc)
  refine ⟨_, (crossOf List.sum rows cols data).percent (fun a b => 100 * a / b) 100 by',
    accum2_cross isTotal_sum rows cols data hr hc hd hne key s hn, ?_, ?_, ?_, ?_⟩
  · rw [ratiop_shows _ _ by' _ key rows.shown cols.shown s incTotal none (fun _ => true) hN.2.1
      (fun h => hN.2.2.2 s h s (by simp) rfl) hTR hkey rfl hT]
    simp [kept]
  · rintro rfl r hr' h0
    exact (hadd.1 r hr' h0).1
  · rintro rfl c hc' h0
    exact (hadd.2.1 c hc' h0).1
  · rintro rfl h0
    exact (hadd.2.2 h0).1

/-- axes and data for an example -/
def exAxis : Accum.Axis := ⟨["b".toList, "a".toList], true, [1, 0], false⟩
@[inherit_doc exAxis] def exData : List (Accum.Row ℚ) := [⟨1, 1, 2, true⟩, ⟨1, 2, 3, true⟩, ⟨2, 2, 5, true⟩, ⟨0, 2, 7, true⟩, ⟨2, 1, 9, false⟩]

example : exAxis.OK ∧ Accum.DataOK exAxis exAxis exData ∧ [] ∉ exAxis.labels ∧ Accum.NamesOK "k".toList "Sum".toList exAxis false ∧
    nTR ∉ exAxis.shown ∧ (Accum.allValues exAxis exAxis exData false).sum ≠ 0 := by
  refine ⟨⟨by decide, by decide⟩, ?_, by decide, ?_, by decide, by decide +kernel⟩
  · unfold Accum.DataOK
    intro x hx
    simp only [exData, List.mem_cons, List.not_mem_nil, or_false] at hx
    rcases hx with rfl | rfl | rfl | rfl | rfl <;> decide
  · unfold Accum.NamesOK; decide

example : ratiop (fun a b : ℚ => 100 * a / b) 100 .R
    ((⟨fun r _ => r, fun r => 2 * r, fun _ => 3, 6⟩ : Cross ℚ ℚ).table "k".toList [1, 2] ["a".toList, "b".toList] "Sum".toList) true none
    (fun _ => true) = some
    { key := "k".toList, rows := [1, 2]
      cols := [("a".toList, [50, 50]), ("b".toList, [50, 50]), ("TotalRatio".toList, [100, 100]), ("Total".toList, [2, 4])]
      summ := ["TotalRatio".toList, "Total".toList]
      foot := [("TotalRatio".toList, [("a".toList, 50), ("b".toList, 50), ("TotalRatio".toList, 100)]),
        ("Total".toList, [("a".toList, 3), ("b".toList, 3), ("Total".toList, 6)])] } := by decide +kernel

/-- C125.  A category called `TotalRatio` makes `accum_ratiop` raise. -/
theorem ratiop_name_counterexample : ratiop (fun a b : Int => 100 * a / b) 100 .T
    (exX.table "k".toList [1, 2] ["TotalRatio".toList] "Sum".toList) false none (fun _ => true) = none := by decide +kernel

/-- C125.  If the totals are removed with `remove_blanks` (all are 0), it raises. -/
theorem ratiop_blanks_counterexample : ratiop (fun a b : Int => 100 * a / b) 100 .T
    ((⟨fun r _ => r, fun _ => 0, fun _ => 0, 0⟩ : Cross Int Int).table "k".toList [1, -1] ["a".toList] "Sum".toList) false none
    (fun n => n ≠ nTR) = none := by decide +kernel

/-! ## C126: `accum_cols` -/

/-- the tables calculated for an entry -/
def toVal (key : Name) (R : List L) (s : Name) : Entry L V → Val L V
  | .plain x => .plain (x.table key R [nOne] s)
  | .pct x => .pct (x.table key R [nOne] s)
  | .ratio n d => .ratio (n.table key R [nOne] s) (d.table key R [nOne] s)

theorem current_spec (op pct : V → V → V) (nan hundred : V) (key : Name) (R : List L) (s : Name) (hs : s ≠ nOne)
    (hkey : ∀ k ∈ [nNumer, nDenom, nRatio, nTR], k ≠ key) (e : Entry L V) :
    ∃ t f fs, current op pct nan hundred (toVal key R s e) = some t ∧ t.key = key ∧ t.rows = R ∧
      t.cols.get nOne = some (R.map (e.shown op pct nOne).1) ∧ t.foot = f :: fs ∧ f.2.get nOne = some (e.shown op pct nOne).2 := by
  have hs' : s ∉ [nOne] := by simpa using hs
  cases e with
  | plain x =>
    refine ⟨_, _, _, rfl, rfl, rfl, ?_, rfl, ?_⟩
    · simp [Cross.table, Dict.get_cons, Entry.shown]
    · simp [Dict.get_cons, Entry.shown]
  | pct x =>
    have h := ratiop_shows pct hundred .T x key R [nOne] s false none (fun _ => true) (by simp) hs' (by decide) (hkey _ (by simp)) rfl (by simp)
    refine ⟨_, _, _, h, rfl, rfl, ?_, rfl, ?_⟩
    · simp [Cross.withMargins, Dict.get_cons, Entry.shown, Cross.percent, kept]
    · simp [Dict.get_cons, Entry.shown, Cross.percent]
  | ratio n d =>
    have h := ratio_cross op nan n d key R [nOne] s s false true none (fun _ => true) (by simp) hs' hs'
      ⟨fun k hk => ⟨by revert k hk; decide, hkey k (by
        simp only [List.mem_cons, List.not_mem_nil, or_false] at hk ⊢
        tauto)⟩, by decide⟩
    refine ⟨_, _, _, h, rfl, rfl, ?_, rfl, ?_⟩
    · simp [Cross.withMargins, Dict.get_cons, Entry.shown, Cross.map2, pick]
    · simp [Dict.get_cons, Entry.shown, Cross.map2]

/-- the table that `accum_cols` should show for named entries -/
def colTable (op pct : V → V → V) (key : Name) (R : List L) (l : List (Name × Entry L V)) : Tab L V :=
  { key := key
    rows := R
    cols := l.map fun e => (e.1, R.map (e.2.shown op pct nOne).1)
    summ := []
    foot := [(nTotal, l.map fun e => (e.1, (e.2.shown op pct nOne).2))] }

theorem addCol_step (op pct : V → V → V) (nan hundred zero : V) (key : Name) (R : List L) (s : Name) (hs : s ≠ nOne)
    (hkey : ∀ k ∈ [nNumer, nDenom, nRatio, nTR], k ≠ key) (done : List (Name × Entry L V)) (n : Name) (e : Entry L V)
    (hn : n ∉ done.map Prod.fst) (hnk : n ≠ key) :
    addCol op pct nan hundred zero (some (if done = [] then none else some (colTable op pct key R done))) (toVal key R s e, n) =
      some (some (colTable op pct key R (done ++ [(n, e)]))) := by
  obtain ⟨t, f, fs, h1, h2, h3, h4, h5, h6⟩ := current_spec op pct nan hundred key R s hs hkey e
  unfold addCol
  rw [Option.bind_some]
  simp only
  rw [h1, Option.bind_some, h4, Option.bind_some, h5]
  simp only
  rw [h6, Option.getD_some, h2, h3]
  by_cases hd : done = []
  · subst hd
    simp [hnk, colTable, footerSet, Dict.set, Dict.get, Dict.has]
  · rw [if_neg hd, Option.getD_some]
    have k1 : n ∉ Dict.keys (done.map fun e => (e.1, R.map (e.2.shown op pct nOne).1)) := by
      unfold Dict.keys; rw [List.map_map]; exact hn
    have k2 : n ∉ Dict.keys (done.map fun e => (e.1, (e.2.shown op pct nOne).2)) := by
      unfold Dict.keys; rw [List.map_map]; exact hn
    rw [if_pos ⟨by simp [colTable], hnk⟩]
    have e1 : (colTable op pct key R done).cols.set n (R.map (e.shown op pct nOne).1) = (colTable op pct key R (done ++ [(n, e)])).cols := by
      show Dict.set (done.map fun e => (e.1, R.map (e.2.shown op pct nOne).1)) n _ = _
      rw [Dict.set_of_notMem k1]
      simp [colTable]
    have e2 : footerSet (colTable op pct key R done).foot nTotal [(n, (e.shown op pct nOne).2)] = (colTable op pct key R (done ++ [(n, e)])).foot := by
      show footerSet [(nTotal, done.map fun e => (e.1, (e.2.shown op pct nOne).2))] nTotal _ = _
      unfold footerSet
      have : Dict.get [(nTotal, done.map fun e => (e.1, (e.2.shown op pct nOne).2))] nTotal =
          some (done.map fun e => (e.1, (e.2.shown op pct nOne).2)) := by simp [Dict.get_cons]
      rw [this, Option.getD_some, List.foldl_cons, List.foldl_nil]
      simp only
      rw [Dict.set_of_notMem k2, Dict.set_of_mem (by simp [Dict.keys])]
      simp [colTable]
    rw [e1, e2]
    rfl

/-- C126.  `accum_cols` shows one column for each entry: its values, its percentages of everything or
its ratios, with the total in the footer. -/
theorem accumCols_shows (op pct : V → V → V) (nan hundred zero : V) (key : Name) (R : List L) (s : Name) (hs : s ≠ nOne)
    (hkey : ∀ k ∈ [nNumer, nDenom, nRatio, nTR], k ≠ key) (l : List (Name × Entry L V)) (hne : l ≠ [])
    (hnd : (l.map Prod.fst).Nodup) (hk : key ∉ l.map Prod.fst) :
    accumCols op pct nan hundred zero (l.map fun e => toVal key R s e.2) (l.map Prod.fst) = some (colTable op pct key R l) := by
  have main : ∀ (rest done : List (Name × Entry L V)), ((done ++ rest).map Prod.fst).Nodup → key ∉ (done ++ rest).map Prod.fst →
      ((rest.map fun e => toVal key R s e.2).zip (rest.map Prod.fst)).foldl (addCol op pct nan hundred zero)
        (some (if done = [] then none else some (colTable op pct key R done))) =
        some (if done ++ rest = [] then none else some (colTable op pct key R (done ++ rest))) := by
    intro rest
    induction rest with
    | nil => intro done _ _; simp
    | cons e rest ih =>
      intro done h1 h2
      rw [List.map_cons, List.map_cons, List.zip_cons_cons, List.foldl_cons,
        addCol_step op pct nan hundred zero key R s hs hkey done e.1 e.2
          (by
            intro h
            rw [List.map_append, List.nodup_append] at h1
            exact h1.2.2 _ h _ (by simp) rfl)
          (fun h => h2 (by rw [← h]; simp))]
      have := ih (done ++ [e]) (by simpa using h1) (by simpa using h2)
      rw [if_neg (by simp)] at this
      rw [show (e.1, e.2) = e from rfl, this]
      simp
  have := main l [] (by simpa using hnd) (by simpa using hk)
  rw [if_pos rfl, List.nil_append, if_neg hne] at this
  unfold accumCols
  rw [this]; rfl

example : accumCols (fun a b : Int => a / b) (fun a b : Int => 100 * a / b) 0 100 0
    ([("v".toList, Entry.plain exX), ("p".toList, .pct exX), ("q".toList, .ratio exX exY)].map fun e => toVal "k".toList [1, 2] "Sum".toList e.2)
    ["v".toList, "p".toList, "q".toList] = some
    { key := "k".toList, rows := [1, 2]
      cols := [("v".toList, [11, 12]), ("p".toList, [1, 1]), ("q".toList, [11, 12])]
      summ := []
      foot := [("Total".toList, [("v".toList, 1000), ("p".toList, 100), ("q".toList, 333)])] } := by decide +kernel

/-- C125.  More values than names: the values without a name are left out, nothing is raised. -/
theorem accumCols_names_counterexample : (accumCols (fun a b : Int => a / b) (fun a b : Int => 100 * a / b) 0 100 0
    [toVal "k".toList [1, 2] "Sum".toList (.plain exX), toVal "k".toList [1, 2] "Sum".toList (.plain exY)] ["v".toList]).map
    (fun t => t.cols.keys) = some ["v".toList] := by decide +kernel

end Verif.AccTab
