import Verif.AccTab.Lemmas
/-! # Arithmetic of two cross tables, `accum_ratio` -/
namespace Verif.AccTab
open Verif.Items (Name Dict)

variable {L V : Type}

theorem zipWith_map_same {α β γ δ : Type} (op : β → γ → δ) (f : α → β) (g : α → γ) (l : List α) :
    List.zipWith op (l.map f) (l.map g) = l.map fun a => op (f a) (g a) := by
  induction l with
  | nil => rfl
  | cons a t ih => simp [ih]

theorem keys_table_cols (x : Cross L V) (key : Name) (R : List L) (C : List Name) (s : Name) :
    (x.table key R C s).cols.keys = C ++ [s] := by
  unfold Cross.table; simp only; rw [keys_table]; rfl

theorem summPos_table (x : Cross L V) (key : Name) (R : List L) {C : List Name} {s : Name} (h : s ∉ C) :
    summPos (x.table key R C s) = [C.length] := by
  unfold summPos
  rw [keys_table_cols]
  show [(C ++ [s]).idxOf s] = _
  rw [List.idxOf_append_of_notMem h]
  simp

theorem conform_table (x y : Cross L V) (key key' : Name) (R R' : List L) {C : List Name} {s s' : Name} (h : s ∉ C) (h' : s' ∉ C) :
    conform (x.table key R C s) (y.table key' R' C s') = true := by
  unfold conform
  rw [summPos_table x key R h, summPos_table y key' R' h']
  have hl : ∀ (z : Cross L V) (k : Name) (r : List L) (n : Name), (z.table k r C n).cols.length = C.length + 1 := by
    intro z k r n; simp [Cross.table]
  rw [hl, hl]
  simp [Cross.table, List.range_succ]

theorem opCols_cells (op : V → V → V) (x y : Cross L V) (key key' : Name) (R : List L) (C : List Name) (s s' : Name)
    (hs : s ∉ C) (last : Dict Name (List V)) :
    ∀ (D : List Name) (od : Dict Name (List V)), (∀ c ∈ D, c ∈ C) → (od.keys ++ D).Nodup →
      opCols op true (x.table key R C s) (y.table key' R C s') 0 od (D.map (fun c => (c, R.map fun r => x.cell r c)) ++ last) =
      opCols op true (x.table key R C s) (y.table key' R C s') 0
        (od ++ D.map fun c => (c, R.map fun r => op (x.cell r c) (y.cell r c))) last := by
  intro D
  induction D with
  | nil => intro od _ _; simp
  | cons c D ih =>
    intro od hD hnd
    have hc : c ∈ C := hD c (by simp)
    have hne : c ≠ s := fun e => hs (e ▸ hc)
    have hd : (true && decide (c ∈ (x.table key R C s).summ)) = false := by
      simp [Cross.table, hne]
    rw [List.map_cons, List.cons_append, opCols]
    simp only [hd, Bool.false_eq_true, if_false]
    have hg : (y.table key' R C s').cols.get c = some (R.map fun r => y.cell r c) := by
      unfold Cross.table; simp only
      rw [get_left C (fun c => R.map fun r => y.cell r c) _ hc]
    rw [hg]
    simp only
    rw [if_pos (by simp)]
    rw [zipWith_map_same, Dict.set_of_notMem, ih]
    · simp
    · exact fun c' hc' => hD c' (List.mem_cons_of_mem _ hc')
    · have : Dict.keys (od ++ [(c, R.map fun r => op (x.cell r c) (y.cell r c))]) = od.keys ++ [c] := by simp [Dict.keys]
      rw [this]
      simpa using hnd
    · intro hm
      rw [List.nodup_append] at hnd
      exact hnd.2.2 c hm c (by simp) rfl

theorem opCols_table (op : V → V → V) (x y : Cross L V) (key key' : Name) (R : List L) (C : List Name) (s s' : Name) (hC : C.Nodup)
    (hs : s ∉ C) (hs' : s' ∉ C) (h0 : summaryName 0 ∉ C) :
    opCols op true (x.table key R C s) (y.table key' R C s') 0 [] (x.table key R C s).cols =
      some ((x.map2 op y).table key R C (summaryName 0)).cols := by
  have e : (x.table key R C s).cols = C.map (fun c => (c, R.map fun r => x.cell r c)) ++ [(s, R.map x.row)] := rfl
  rw [e, opCols_cells op x y key key' R C s s' hs _ C [] (fun _ h => h) (by simpa [Dict.keys] using hC)]
  rw [opCols]
  have hd : (true && decide (s ∈ (x.table key R C s).summ)) = true := by simp [Cross.table]
  have hsn : (y.table key' R C s').summ.getD 0 [] = s' := rfl
  simp only [hd, if_true, hsn]
  rw [table_get_name y key' R hs']
  simp only
  rw [if_pos (by simp), opCols, Dict.set_of_notMem, zipWith_map_same]
  · simp [Cross.table, Cross.map2]
  · simp only [List.nil_append, Dict.keys, List.map_map, Function.comp_def]
    simpa using h0

theorem opFoot_table (op : V → V → V) (nan : V) (x y : Cross L V) (key key' : Name) (R R' : List L) (C : List Name) (s s' : Name)
    (hC : C.Nodup) (hs : s ∉ C) (hs' : s' ∉ C) (h0 : summaryName 0 ∉ C) :
    opFoot op nan (x.table key R C s) (y.table key' R' C s') (C.map (fun c => (c, x.col c)) ++ [(s, x.all)])
        (C.map (fun c => (c, y.col c)) ++ [(s', y.all)]) =
      C.map (fun c => (c, op (x.col c) (y.col c))) ++ [(summaryName 0, op x.all y.all)] := by
  have hval : ∀ (z : Cross L V) (n : Name), n ∉ C →
      (C ++ [n]).map (fun m => (Dict.get (C.map (fun c => (c, z.col c)) ++ [(n, z.all)]) m).getD nan) = C.map z.col ++ [z.all] := by
    intro z n hn
    rw [List.map_append]
    congr 1
    · apply List.map_congr_left
      intro c hc
      rw [get_left C z.col _ hc]; rfl
    · simp only [List.map_cons, List.map_nil]
      rw [get_right C z.col _ hn]
      simp [Dict.get_cons]
  unfold opFoot
  rw [keys_table_cols, keys_table_cols, hval x s hs, hval y s' hs']
  have hsm : (x.table key R C s).summ = [s] := rfl
  have hfil : ((C ++ [s]).filter fun m => m ∈ (x.table key R C s).summ) = [s] := by
    rw [hsm, List.filter_append, List.filter_eq_nil_iff.2]
    · simp
    · intro c hc
      simp only [List.mem_singleton, decide_eq_true_eq]
      exact fun e => hs (e ▸ hc)
  have hnames : (C ++ [s]).map (fun n => if n ∈ (x.table key R C s).summ then
        summaryName (((C ++ [s]).filter fun m => m ∈ (x.table key R C s).summ).idxOf n) else n) = C ++ [summaryName 0] := by
    rw [hfil, hsm, List.map_append]
    congr 1
    · conv => rhs; rw [← List.map_id C]
      apply List.map_congr_left
      intro c hc
      have : c ≠ s := fun e => hs (e ▸ hc)
      simp [this]
    · simp
  simp only
  rw [hnames, List.zipWith_append (by simp), zipWith_map_same]
  have hz : (C ++ [summaryName 0]).zip ((C.map fun a => op (x.col a) (y.col a)) ++ List.zipWith op [x.all] [y.all]) =
      C.map (fun c => (c, op (x.col c) (y.col c))) ++ [(summaryName 0, op x.all y.all)] := by
    rw [List.zip_append (by simp)]
    congr 1
    conv => lhs; rw [← List.map_id C]
    rw [List.map_id, List.zip_eq_zipWith]
    have := zipWith_map_same Prod.mk id (fun a => op (x.col a) (y.col a)) C
    rw [List.map_id] at this
    exact this
  rw [hz, setAll_nodup]
  rw [keys_table, List.nodup_append]
  refine ⟨hC, by simp [Dict.keys], ?_⟩
  intro a ha b hb
  simp [Dict.keys] at hb
  subst hb
  exact fun e => h0 (e ▸ ha)

theorem binop_table (op : V → V → V) (nan : V) (x y : Cross L V) (key key' : Name) (R : List L) (C : List Name) (s s' : Name) (hC : C.Nodup)
    (hs : s ∉ C) (hs' : s' ∉ C) (h0 : summaryName 0 ∉ C) :
    binop op nan (x.table key R C s) (y.table key' R C s') =
      some (tableF (x.map2 op y) key R C (summaryName 0) "Footer0".toList) := by
  unfold binop
  simp only
  rw [conform_table x y key key' R R hs hs', opCols_table op x y key key' R C s s' hC hs hs' h0, Option.map_some]
  congr 1
  have h1 : ((x.table key R C s).foot.zip (y.table key' R C s').foot).zip (List.range (x.table key R C s).foot.length) =
      [(((s, C.map (fun c => (c, x.col c)) ++ [(s, x.all)]), (s', C.map (fun c => (c, y.col c)) ++ [(s', y.all)])), 0)] := rfl
  rw [h1]
  simp only [List.map_cons, List.map_nil, if_true]
  rw [opFoot_table op nan x y key key' R R C s s' hC hs hs' h0]
  have h2 : "Footer".toList ++ Nat.toDigits 10 0 = "Footer0".toList := by decide
  rw [h2]
  rfl

/-! ## `accum_ratio` -/

/-- names that must not be categories of the columns -/
def reserved (key : Name) (C : List Name) : Prop :=
  (∀ k ∈ [nNumer, nDenom, nRatio], k ∉ C ∧ k ≠ key) ∧ summaryName 0 ∉ C

theorem setItem_table (h : List (Tab L V)) (t : AT) (x : Cross L V) (key : Name) (R : List L) (C : List Name) (s l n : Name) (a : Nat)
    (ha : h[a]? = some (tableF x key R C s l)) (hC : C.Nodup) (hs : s ∉ C) (hn : n ∉ C) (hk : n ≠ key) :
    setItem h t n a = some (h.set a (x.table key R C n), ⟨t.inner.set n a, addKey t.margins n, addKey t.footers n⟩) := by
  unfold setItem
  rw [ha]
  simp only
  rw [renameSummary_table x key R C s l n hC hs hn hk, Option.map_some]

/-- the margins shown by `accum_ratio` -/
def shownMargins {α : Type} (incN incD : Bool) (a b : α) : List α := (if incN then [a] else []) ++ if incD then [b] else []

theorem mem_shown {incN incD : Bool} {n a b : Name} (h : n ∈ shownMargins incN incD a b) : n = a ∨ n = b := by
  cases incN <;> cases incD <;> simp [shownMargins] at h <;> tauto

/-- `accum_ratio` of two cross tables. -/
theorem ratio_cross (op : V → V → V) (nan : V) (x y : Cross L V) (key : Name) (R : List L) (C : List Name) (s s' : Name)
    (incN incD : Bool) (rf : Option (List Bool)) (cf : Name → Bool) (hC : C.Nodup) (hs : s ∉ C) (hs' : s' ∉ C)
    (hres : reserved key C) :
    ratio op nan (x.table key R C s) (y.table key R C s') incN incD rf cf =
      some ((x.map2 op y).withMargins key (pick rf R) (C.filter cf) nRatio (cf nRatio)
        (shownMargins incN incD (nNumer, x) (nDenom, y)) (shownMargins incN incD (nNumer, x) (nDenom, y))) := by
  obtain ⟨hk, h0⟩ := hres
  obtain ⟨hN1, hN2⟩ := hk nNumer (by simp)
  obtain ⟨hD1, hD2⟩ := hk nDenom (by simp)
  obtain ⟨hR1, hR2⟩ := hk nRatio (by simp)
  unfold ratio
  rw [setItem_table [x.table key R C s, y.table key R C s'] AT.new x key R C s s nNumer 0 rfl hC hs hN1 hN2, Option.bind_some]
  simp only [List.set_cons_zero]
  rw [setItem_table [x.table key R C nNumer, y.table key R C s'] _ y key R C s' s' nDenom 1 rfl hC hs' hD1 hD2, Option.bind_some]
  simp only [List.set_cons_succ, List.set_cons_zero]
  have hdN : AT.ds [x.table key R C nNumer, y.table key R C nDenom]
      ⟨((AT.new.inner.set nNumer 0)).set nDenom 1, addKey (addKey AT.new.margins nNumer) nDenom, addKey (addKey AT.new.footers nNumer) nDenom⟩ nNumer
      = some (x.table key R C nNumer) := rfl
  have hdD : AT.ds [x.table key R C nNumer, y.table key R C nDenom]
      ⟨((AT.new.inner.set nNumer 0)).set nDenom 1, addKey (addKey AT.new.margins nNumer) nDenom, addKey (addKey AT.new.footers nNumer) nDenom⟩ nDenom
      = some (y.table key R C nDenom) := rfl
  rw [hdN, Option.bind_some, hdD, Option.bind_some,
    binop_table op nan x y key key R C nNumer nDenom hC hN1 hD1 h0, Option.bind_some]
  rw [setItem_table _ _ (x.map2 op y) key R C (summaryName 0) "Footer0".toList nRatio 2 rfl hC h0 hR1 hR2, Option.bind_some]
  simp only [List.cons_append, List.nil_append, List.set_cons_succ, List.set_cons_zero]
  have hg := gen_cross [x.table key R C nNumer, y.table key R C nDenom, (x.map2 op y).table key R C nRatio]
    (setFooters (setMargins ⟨((AT.new.inner.set nNumer 0).set nDenom 1).set nRatio 2,
      addKey (addKey (addKey AT.new.margins nNumer) nDenom) nRatio, addKey (addKey (addKey AT.new.footers nNumer) nDenom) nRatio⟩
      (shownMargins incN incD nNumer nDenom)) (shownMargins incN incD nNumer nDenom))
    key R C (fun n => if n = nNumer then x else if n = nDenom then y else x.map2 op y) nRatio rf cf hC
    (by cases incN <;> cases incD <;> decide +kernel) (by cases incN <;> cases incD <;> decide +kernel)
    (by
      have key' : ∀ n, n = nRatio ∨ n = nNumer ∨ n = nDenom →
          Holds [x.table key R C nNumer, y.table key R C nDenom, (x.map2 op y).table key R C nRatio]
          (setFooters (setMargins ⟨((AT.new.inner.set nNumer 0).set nDenom 1).set nRatio 2,
            addKey (addKey (addKey AT.new.margins nNumer) nDenom) nRatio, addKey (addKey (addKey AT.new.footers nNumer) nDenom) nRatio⟩
            (shownMargins incN incD nNumer nDenom)) (shownMargins incN incD nNumer nDenom)) key R C
          (fun n => if n = nNumer then x else if n = nDenom then y else x.map2 op y) n ∧ n ∉ C ∧ n ≠ key := by
        rintro n (rfl | rfl | rfl)
        · exact ⟨rfl, hR1, hR2⟩
        · exact ⟨rfl, hN1, hN2⟩
        · exact ⟨rfl, hD1, hD2⟩
      have hl : (shownMargins incN incD nNumer nDenom).foldl addKey [] = shownMargins incN incD nNumer nDenom := by
        cases incN <;> cases incD <;> decide +kernel
      intro n hn
      apply key'
      rcases hn with h | h | h
      · exact Or.inl h
      · have h : n ∈ (shownMargins incN incD nNumer nDenom).foldl addKey [] := h
        exact Or.inr (mem_shown (by rwa [hl] at h))
      · have h : n ∈ (shownMargins incN incD nNumer nDenom).foldl addKey [] := h
        exact Or.inr (mem_shown (by rwa [hl] at h)))
  cases incN <;> cases incD <;> exact hg

end Verif.AccTab
