import Verif.Idx.Get
/-! # Reading rows and columns of a Dataset: theorems -/
namespace Verif.Idx
open Verif.Items (Dict)

section
variable {V : Type} [DecidableEq V]

theorem eraseDups_filter_step {c : String} {cs ks : List String} (h : c ∉ ks) :
    ((c :: cs).filter fun x => decide (x ∉ ks)).eraseDups = c :: (cs.filter fun x => decide (x ∉ ks ++ [c])).eraseDups := by
  rw [List.filter_cons_of_pos (by simpa using h), List.eraseDups_cons, List.filter_filter]
  congr 2
  refine List.filter_congr fun x _ => ?_
  by_cases h1 : x = c <;> by_cases h2 : x ∈ ks <;> simp [h1, h2]

/-- what `copy_apply` gives -/
theorem copyApply_go (inv : V) (t : Table V) (ix : Idx) (cs : List String) : ∀ (o r : Table V), (Dict.keys o).Nodup →
    cs.foldlM (fun (o : Table V) (c : String) =>
      match Dict.get t c with
      | none => .error .keyError
      | some col => match take inv col ix with
        | .error e => .error e
        | .ok l => .ok (Dict.set o c l)) o = Except.ok (ε := Err) r →
    (Dict.keys r).Nodup ∧ Dict.keys r = Dict.keys o ++ (cs.filter fun x => decide (x ∉ Dict.keys o)).eraseDups ∧
    (∀ (c : String), c ∉ cs → Dict.get r c = Dict.get o c) ∧
    ∀ c ∈ cs, ∃ col l, Dict.get t c = some col ∧ take inv col ix = .ok l ∧ Dict.get r c = some l := by
  induction cs with
  | nil =>
    intro o r ho h
    simp only [List.foldlM_nil, pure, Except.pure, Except.ok.injEq] at h
    subst h
    exact ⟨ho, by simp, fun _ _ => rfl, by simp⟩
  | cons c cs ih =>
    intro o r ho h
    rw [List.foldlM_cons] at h
    cases hg : Dict.get t c with
    | none => rw [hg] at h; simp [bind, Except.bind] at h
    | some col =>
      rw [hg] at h
      cases htk : take inv col ix with
      | error e => simp [htk, bind, Except.bind] at h
      | ok l =>
        simp only [htk, bind, Except.bind] at h
        obtain ⟨h1, h2, h3, h4⟩ := ih (Dict.set o c l) r (Dict.nodup_set ho c l) h
        refine ⟨h1, ?_, ?_, ?_⟩
        · rw [h2]
          by_cases hc : c ∈ Dict.keys o
          · rw [Dict.keys_set_of_mem hc, List.filter_cons_of_neg (by simpa using hc)]
          · rw [Dict.keys_set_of_notMem hc, eraseDups_filter_step hc]
            simp
        · intro d hd
          rw [List.mem_cons, not_or] at hd
          rw [h3 d hd.2, Dict.get_set, if_neg hd.1]
        · intro d hd
          by_cases hdc : d ∈ cs
          · exact h4 d hdc
          · have : d = c := by simpa [hdc] using hd
            subst this
            refine ⟨col, l, hg, htk, ?_⟩
            rw [h3 d hdc, Dict.get_set, if_pos rfl]

theorem copyApply_ok (inv : V) (t : Table V) (ix : Idx) (cs : List String) : ∀ (o : Table V),
    (∀ c ∈ cs, ∃ col l, Dict.get t c = some col ∧ take inv col ix = .ok l) →
    ∃ r, cs.foldlM (fun (o : Table V) (c : String) =>
      match Dict.get t c with
      | none => .error .keyError
      | some col => match take inv col ix with
        | .error e => .error e
        | .ok l => .ok (Dict.set o c l)) o = Except.ok (ε := Err) r := by
  induction cs with
  | nil => intro o _; exact ⟨o, rfl⟩
  | cons c cs ih =>
    intro o h
    obtain ⟨col, l, h1, h2⟩ := h c (by simp)
    rw [List.foldlM_cons]
    simp only [h1, h2, bind, Except.bind]
    exact ih _ fun d hd => h d (List.mem_cons_of_mem _ hd)

theorem reads_of_take {inv : V} {t : Table V} {n : Nat} (ht : Rect t n) {c : String} {col : List V} (hc : Dict.get t c = some col)
    {ix : Idx} {L : List (Option Nat)} (hL : idxRows n ix = some L) {l : List V} (hl : take inv col ix = .ok l) :
    Reads inv t L c l ∧ l.length = L.length := by
  have hn := get_length ht hc
  rw [take_ok, hn] at hl
  obtain ⟨L', h1, rfl⟩ := hl
  rw [hL] at h1
  cases h1
  refine ⟨fun k => ?_, by simp⟩
  rw [List.getElem?_map]
  cases hk : L[k]? with
  | none => rfl
  | some o =>
    cases o with
    | none => simp [pick]
    | some i =>
      have hi := idxRows_lt hL i (List.mem_of_getElem? hk)
      simp only [Option.map_some, Option.bind_some, pick, cell_eq_get, hc]
      rw [List.getElem?_eq_getElem (by omega)]
      rfl

theorem take_idxRows {inv : V} {col : List V} {ix : Idx} {l : List V} (h : take inv col ix = .ok l) : ∃ L, idxRows col.length ix = some L := by
  rw [take_ok] at h
  obtain ⟨L, h1, _⟩ := h
  exact ⟨L, h1⟩

/-- the index `__getitem__` uses -/
theorem rowPart_idx {t : Table V} {n : Nat} {labels : List String} {row : Option (RowArg V)} {ri : Option Idx} {k : Nat}
    (h : rowPart t n labels row = .ok (ri, k)) : match row with
      | none => ri = none ∧ k = n
      | some r => rowIdx t labels r = .ok (ri.getD .all) ∧ rowCount n r (ri.getD .all) = .ok k ∧ ri ≠ some .all := by
  cases row with
  | none =>
    simp only [rowPart, Except.ok.injEq, Prod.mk.injEq] at h
    exact ⟨h.1.symm, h.2.symm⟩
  | some r =>
    simp only [rowPart] at h
    cases hr : rowIdx t labels r with
    | error e => rw [hr] at h; simp at h
    | ok i =>
      rw [hr] at h
      dsimp only at h
      cases hc : rowCount n r i with
      | error e => rw [hc] at h; simp at h
      | ok m =>
        rw [hc] at h
        simp only [Except.ok.injEq, Prod.mk.injEq] at h
        obtain ⟨h1, rfl⟩ := h
        dsimp only
        by_cases hi : i = .all
        · subst hi
          rw [if_pos rfl] at h1
          subst h1
          exact ⟨hr, hc, by simp⟩
        · rw [if_neg hi] at h1
          subst h1
          exact ⟨hr, hc, by simpa using hi⟩

theorem rowPart_rows {t : Table V} {n : Nat} (ht : Rect t n) {labels : List String} {row : Option (RowArg V)} {ri : Option Idx} {k : Nat}
    (h : rowPart t n labels row = .ok (ri, k)) {L : List (Option Nat)} (hL : idxRows n (ri.getD .all) = some L) :
    RowsMeantIn t n labels row L := by
  have := rowPart_idx h
  cases row with
  | none =>
    dsimp only at this
    rw [this.1] at hL
    exact (Option.some.inj hL).symm
  | some r => exact rowIdx_rows ht this.1 hL

theorem rowPart_ok {t : Table V} {n : Nat} (ht : Rect t n) {labels : List String} {row : Option (RowArg V)} {L : List (Option Nat)}
    (ha : Accepted (t.map Prod.fst) labels row) (h : RowsMeantIn t n labels row L) :
    ∃ ri k, rowPart t n labels row = .ok (ri, k) ∧ idxRows n (ri.getD .all) = some L := by
  cases row with
  | none => cases h; exact ⟨none, n, rfl, rfl⟩
  | some r =>
    obtain ⟨ix, h1, h2⟩ := rowIdx_ok ht ha h
    have : ∃ k, rowCount n r ix = .ok k := by
      cases ix with
      | slice a b s =>
        have hs : s ≠ 0 := by
          intro hs
          simp [idxRows, hs] at h2
        cases r <;> simp [rowCount, hs]
      | all => cases r <;> exact ⟨_, rfl⟩
      | ints ks => cases r <;> exact ⟨_, rfl⟩
      | mbints ks => cases r <;> exact ⟨_, rfl⟩
      | mask m => cases r <;> exact ⟨_, rfl⟩
    obtain ⟨k, hk⟩ := this
    simp only [rowPart, h1, hk]
    refine ⟨_, _, rfl, ?_⟩
    by_cases hi : ix = .all
    · rw [if_pos hi, Option.getD_none, ← hi]; exact h2
    · rw [if_neg hi, Option.getD_some]; exact h2

/-- **C72** `ds[rows, columns]`: the Dataset that is returned has the columns asked for, each once, in the order asked for, and each holds
what the Dataset holds in the rows asked for, in the order asked for. -/
theorem getitem_table (inv : V) (t : Table V) (n : Nat) (ht : Rect t n) (labels : List String) (row : Option (RowArg V)) (col : ColArg)
    (t' : Table V) (h : getitem inv t n labels row col = .ok (.table t')) : ∃ cs, ColsMeant (t.map Prod.fst) col cs ∧
      (∀ c ∈ cs, c ∈ t.map Prod.fst) ∧ t'.map Prod.fst = cs.eraseDups ∧
      (t' ≠ [] → ∃ L, RowsMeantIn t n labels row L ∧ Rect t' L.length ∧ ∀ c ∈ cs, ColFrom inv t t' L c) := by
  simp only [getitem, bind, Except.bind] at h
  split at h
  · simp at h
  · rename_i p hp
    obtain ⟨ri, k⟩ := p
    dsimp only at h
    split at h
    · simp at h
    · rename_i c hc
      cases c with
      | inl c =>
        dsimp only at h
        split at h
        · simp at h
        · split at h
          · split at h <;> simp at h
          · split at h <;> simp [pure, Except.pure] at h
      | inr cs =>
        dsimp only at h
        split at h
        · simp at h
        · rename_i r hr
          simp only [pure, Except.pure, Except.ok.injEq, Got.table.injEq] at h
          subst h
          obtain ⟨h1, h2, _, h4⟩ := copyApply_go inv t _ _ [] r (by simp [Dict.keys]) hr
          refine ⟨cs.getD (Dict.keys t), colIdx_cols.2 cs hc, ?_, ?_, ?_⟩
          · intro c hcs
            obtain ⟨col, l, g1, _, _⟩ := h4 c hcs
            exact List.mem_map_of_mem (Dict.mem_of_get g1)
          · have : (cs.getD (Dict.keys t)).filter (fun x => decide (x ∉ Dict.keys ([] : Table V))) = cs.getD (Dict.keys t) := by
              simp [Dict.keys]
            rw [this] at h2
            simpa [Dict.keys] using h2
          · intro hne
            obtain ⟨e, he⟩ := List.exists_mem_of_ne_nil r hne
            have hmem : ∀ e ∈ r, e.1 ∈ cs.getD (Dict.keys t) := by
              intro e he
              have : e.1 ∈ Dict.keys r := List.mem_map_of_mem he
              rw [h2, List.mem_append, List.mem_eraseDups, List.mem_filter] at this
              rcases this with h' | h'
              · simp [Dict.keys] at h'
              · exact h'.1
            obtain ⟨col, l, g1, g2, _⟩ := h4 e.1 (hmem e he)
            obtain ⟨L, hL⟩ := take_idxRows g2
            rw [get_length ht g1] at hL
            refine ⟨L, rowPart_rows ht hp hL, ⟨h1, ?_⟩, ?_⟩
            · intro e' he'
              obtain ⟨col', l', a1, a2, a3⟩ := h4 e'.1 (hmem e' he')
              have : Dict.get r e'.1 = some e'.2 := Dict.get_of_mem h1 he'
              rw [this] at a3
              cases a3
              exact (reads_of_take ht a1 hL a2).2
            · intro c hcs
              obtain ⟨col', l', a1, a2, a3⟩ := h4 c hcs
              intro j
              rw [cell_eq_get, a3, Option.bind_some]
              exact (reads_of_take ht a1 hL a2).1 j

/-- **C72** Whenever rows and columns that exist are asked for, the answer is a Dataset: `getitem_table` says which. -/
theorem getitem_answers (inv : V) (t : Table V) (n : Nat) (ht : Rect t n) (labels : List String) (row : Option (RowArg V)) (col : ColArg)
    (cs : List String) (L : List (Option Nat)) (hs : Several col) (hc : ColsMeant (t.map Prod.fst) col cs)
    (hcs : ∀ c ∈ cs, c ∈ t.map Prod.fst) (ha : Accepted (t.map Prod.fst) labels row) (hr : RowsMeantIn t n labels row L) :
    ∃ t', getitem inv t n labels row col = .ok (.table t') ∧ t'.map Prod.fst = cs.eraseDups ∧
      ∀ c ∈ cs, ColFrom inv t t' L c := by
  obtain ⟨ri, k, h1, h2⟩ := rowPart_ok ht ha hr
  obtain ⟨o, h3, rfl⟩ := colIdx_ok hs hc
  have htk : ∀ c ∈ o.getD (t.map Prod.fst), ∃ col l, Dict.get t c = some col ∧ take inv col (ri.getD .all) = .ok l := by
    intro c hcc
    cases hg : Dict.get t c with
    | none => exact absurd (hcs c hcc) ((Dict.get_eq_none_iff t c).1 hg)
    | some col => exact ⟨col, _, rfl, take_ok.2 ⟨L, by rw [get_length ht hg]; exact h2, rfl⟩⟩
  obtain ⟨r, hr'⟩ := copyApply_ok inv t (ri.getD .all) (o.getD (t.map Prod.fst)) [] htk
  obtain ⟨g1, g2, _, g4⟩ := copyApply_go inv t _ _ [] r (by simp [Dict.keys]) hr'
  refine ⟨r, ?_, ?_, ?_⟩
  · have h3' : colIdx (Dict.keys t) col = .ok (.inr o) := h3
    have hr2 : copyApply inv t (ri.getD .all) (o.getD (Dict.keys t)) = .ok r := hr'
    simp only [getitem, bind, Except.bind, h1, h3', hr2, pure, Except.pure]
  · have : (o.getD (t.map Prod.fst)).filter (fun x => decide (x ∉ Dict.keys ([] : Table V))) = o.getD (t.map Prod.fst) := by
      simp [Dict.keys]
    rw [this] at g2
    simpa [Dict.keys] using g2
  · intro c hcs j
    obtain ⟨col', l', a1, a2, a3⟩ := g4 c hcs
    rw [cell_eq_get, a3, Option.bind_some]
    exact (reads_of_take ht a1 h2 a2).1 j

/-- **C72** `ds[rows, column]` of one column: an array of what the column holds in the rows asked for, or for one row number the item. -/
theorem getitem_column (inv : V) (t : Table V) (n : Nat) (ht : Rect t n) (labels : List String) (row : Option (RowArg V)) (col : ColArg) :
    (∀ (l : List V), getitem inv t n labels row col = .ok (.array l) →
      ∃ c L, ColsMeant (t.map Prod.fst) col [c] ∧ c ∈ t.map Prod.fst ∧ RowsMeantIn t n labels row L ∧ Reads inv t L c l) ∧
    ∀ (v : V), getitem inv t n labels row col = .ok (.scalar v) →
      ∃ c k i, ColsMeant (t.map Prod.fst) col [c] ∧ row = some (.int k) ∧ meant n k = some i ∧ cell t c i = some v := by
  constructor
  · intro l h
    simp only [getitem, bind, Except.bind] at h
    split at h
    · simp at h
    · rename_i p hp
      obtain ⟨ri, k⟩ := p
      dsimp only at h
      split at h
      · simp at h
      · rename_i c hc
        cases c with
        | inr cs =>
          dsimp only at h
          split at h <;> simp [pure, Except.pure] at h
        | inl c =>
          dsimp only at h
          split at h
          · simp at h
          · rename_i a hg
            split at h
            · split at h <;> simp at h
            · split at h
              · simp at h
              · rename_i l' htk
                simp only [pure, Except.pure, Except.ok.injEq, Got.array.injEq] at h
                subst h
                obtain ⟨L, hL⟩ := take_idxRows htk
                rw [get_length ht hg] at hL
                exact ⟨c, L, colIdx_cols.1 c hc, List.mem_map_of_mem (Dict.mem_of_get hg), rowPart_rows ht hp hL,
                  (reads_of_take ht hg hL htk).1⟩
  · intro v h
    simp only [getitem, bind, Except.bind] at h
    split at h
    · simp at h
    · rename_i p hp
      obtain ⟨ri, k⟩ := p
      dsimp only at h
      split at h
      · simp at h
      · rename_i c hc
        cases c with
        | inr cs =>
          dsimp only at h
          split at h <;> simp [pure, Except.pure] at h
        | inl c =>
          dsimp only at h
          split at h
          · simp at h
          · rename_i a hg
            split at h
            · rename_i kk
              split at h
              · rename_i w hw
                simp only [Except.ok.injEq, Got.scalar.injEq] at h
                subst h
                rw [Option.bind_eq_some_iff] at hw
                obtain ⟨i, h1, h2⟩ := hw
                rw [pos_eq, get_length ht hg] at h1
                exact ⟨c, kk, i, colIdx_cols.1 c hc, rfl, h1, by rw [cell_eq_get, hg]; exact h2⟩
              · simp at h
            · split at h <;> simp [pure, Except.pure] at h

/-- **C72** A column that exists is given for all rows that can be asked for. -/
theorem getitem_column_answers (inv : V) (t : Table V) (n : Nat) (ht : Rect t n) (labels : List String) (row : Option (RowArg V))
    (c : String) (L : List (Option Nat)) (hc : c ∈ t.map Prod.fst) (ha : Accepted (t.map Prod.fst) labels row)
    (hr : RowsMeantIn t n labels row L) : (∃ l, getitem inv t n labels row (.name c) = .ok (.array l)) ∨
      ∃ v, getitem inv t n labels row (.name c) = .ok (.scalar v) := by
  obtain ⟨ri, k, h1, h2⟩ := rowPart_ok ht ha hr
  cases hg : Dict.get t c with
  | none => exact absurd hc ((Dict.get_eq_none_iff t c).1 hg)
  | some col =>
    have hn := get_length ht hg
    have htk : take inv col (ri.getD .all) = .ok (L.map (pick inv col)) := take_ok.2 ⟨L, by rw [hn]; exact h2, rfl⟩
    by_cases hint : ∃ kk, row = some (.int kk)
    · obtain ⟨kk, rfl⟩ := hint
      obtain ⟨i, hi, _⟩ := hr
      have hlt := meant_lt hi
      have hp : ((pos col.length kk).bind fun (i : Nat) => col[i]?) = some (col[i]'(by omega)) := by
        rw [pos_eq, show meant col.length kk = some i by rw [hn]; exact hi, Option.bind_some]
        exact List.getElem?_eq_getElem (by omega)
      refine Or.inr ⟨col[i]'(by omega), ?_⟩
      simp only [getitem, bind, Except.bind, h1, colIdx, hg, hp]
    · left
      refine ⟨L.map (pick inv col), ?_⟩
      simp only [getitem, bind, Except.bind, h1, colIdx, hg]
      split
      · rename_i kk
        exact absurd ⟨kk, rfl⟩ hint
      · rw [htk]; rfl

/-! ## `head`, `tail`, `filter` -/

theorem colsMeant_all (names : List String) : ColsMeant names (.slice none none none) names :=
  colIdx_cols.2 none rfl

theorem eraseDups_of_nodup {l : List String} : l.Nodup → l.eraseDups = l := by
  induction l with
  | nil => intro _; rfl
  | cons a l ih =>
    intro h
    rw [List.nodup_cons] at h
    rw [List.eraseDups_cons, List.filter_eq_self.2, ih h.2]
    intro x hx
    have : x ≠ a := fun e => h.1 (e ▸ hx)
    simpa using this

/-- all columns, some rows -/
theorem getitem_rows (inv : V) (t : Table V) (n : Nat) (ht : Rect t n) (labels : List String) (row : Option (RowArg V))
    (L : List (Option Nat)) (ha : Accepted (t.map Prod.fst) labels row) (hr : RowsMeantIn t n labels row L) :
    ∃ t', getitem inv t n labels row (.slice none none none) = .ok (.table t') ∧ t'.map Prod.fst = t.map Prod.fst ∧
      ∀ c ∈ t.map Prod.fst, ColFrom inv t t' L c := by
  obtain ⟨t', h1, h2, h3⟩ := getitem_answers inv t n ht labels row (.slice none none none) (t.map Prod.fst) L trivial
    (colsMeant_all _) (fun c hc => hc) ha hr
  exact ⟨t', h1, by rw [h2, eraseDups_of_nodup ht.1], h3⟩

/-- **C72** `head(k)` is the first `k` rows, all of them if there are fewer. -/
theorem head_rows (inv : V) (t : Table V) (n : Nat) (ht : Rect t n) (labels : List String) (k : Nat) :
    ∃ t', head inv t n labels k = .ok (.table t') ∧ t'.map Prod.fst = t.map Prod.fst ∧
      ∀ c ∈ t.map Prod.fst, ColFrom inv t t' ((List.range (min n k)).map some) c := by
  refine getitem_rows inv t n ht labels _ _ trivial ⟨List.range (min n k), ?_, rfl⟩
  unfold IsSlice
  rw [if_pos (by simp)]
  refine ⟨List.pairwise_lt_range, fun i => ?_⟩
  simp only [List.mem_range, bound, Option.getD_none, one_dvd, and_true]
  rw [if_neg (by omega)]
  omega

/-- **C72** (for positive `k`) `tail(k)` is the last `k` rows, all of them if there are fewer. -/
theorem tail_partial (inv : V) (t : Table V) (n : Nat) (ht : Rect t n) (labels : List String) (k : Nat) (hk : k ≠ 0) :
    ∃ t', tail inv t n labels k = .ok (.table t') ∧ t'.map Prod.fst = t.map Prod.fst ∧
      ∀ c ∈ t.map Prod.fst, ColFrom inv t t' (((List.range n).drop (n - k)).map some) c := by
  refine getitem_rows inv t n ht labels _ _ trivial ⟨(List.range n).drop (n - k), ?_, rfl⟩
  unfold IsSlice
  rw [if_pos (by simp)]
  refine ⟨List.Pairwise.drop List.pairwise_lt_range, fun i => ?_⟩
  have hmem : i ∈ (List.range n).drop (n - k) ↔ n - k ≤ i ∧ i < n := by
    rw [List.mem_iff_getElem?]
    constructor
    · rintro ⟨j, hj⟩
      rw [List.getElem?_drop] at hj
      by_cases hlt : n - k + j < n
      · rw [List.getElem?_range hlt, Option.some.injEq] at hj
        omega
      · rw [List.getElem?_eq_none (by rw [List.length_range]; omega)] at hj
        simp at hj
    · rintro ⟨a, b⟩
      refine ⟨i - (n - k), ?_⟩
      rw [List.getElem?_drop, List.getElem?_range (by omega), Option.some.injEq]
      omega
  rw [hmem]
  simp only [bound, Option.getD_none, one_dvd, and_true]
  by_cases hn : n = 0
  · subst hn; omega
  · rw [if_pos (by omega)]
    omega

/-- **C72** (violation) `tail(0)` is the whole Dataset: `self[-0:]`. -/
theorem tail_zero_counterexample : tail 0 [("a", [1, 2, 3])] 3 [] 0 = .ok (.table [("a", [1, 2, 3])]) := by decide +kernel

theorem map_meant_nat {n : Nat} {R : List Nat} (h : ∀ i ∈ R, i < n) : (R.map fun (i : Nat) => (i : Int)).map (meant n) = R.map some := by
  rw [List.map_map]
  refine List.map_congr_left fun i hi => ?_
  have := h i hi
  simp only [Function.comp, meant]
  rw [if_pos (by omega)]
  simp

theorem trueRows_lt {m : List Bool} : ∀ i ∈ trueRows m, i < m.length := by
  intro i hi
  unfold trueRows at hi
  exact List.mem_range.1 (List.mem_filter.1 hi).1

/-- **C72** `filter` with a mask as long as the Dataset gives exactly the rows where the mask is True, in order; with a mask of another
length it raises. -/
theorem filter_mask (inv : V) (t : Table V) (n : Nat) (ht : Rect t n) (labels : List String) (m : List Bool) :
    if m.length = n then ∃ t', filter inv t n labels (.bools m) = .ok (.table t') ∧ t'.map Prod.fst = t.map Prod.fst ∧
      ∀ c ∈ t.map Prod.fst, ColFrom inv t t' ((trueRows m).map some) c
    else filter inv t n labels (.bools m) = .error .valueError := by
  split
  · rename_i hl
    simp only [filter, ne_eq, hl, not_true, if_false]
    refine getitem_rows inv t n ht labels _ _ trivial ?_
    show _ = _
    rw [nonzero_eq, map_meant_nat]
    intro i hi
    rw [← hl]
    exact trueRows_lt i hi
  · rename_i hl
    simp [filter, hl]

/-- **C72** `filter` with row numbers gives those rows; a number out of range gives a row of invalid values. -/
theorem filter_ints (inv : V) (t : Table V) (n : Nat) (ht : Rect t n) (labels : List String) (ks : List Int) :
    ∃ t', filter inv t n labels (.ints ks) = .ok (.table t') ∧ t'.map Prod.fst = t.map Prod.fst ∧
      ∀ c ∈ t.map Prod.fst, ColFrom inv t t' (ks.map (meant n)) c :=
  getitem_rows inv t n ht labels _ _ trivial rfl

theorem mapM_cols (t : Table V) (f : List V → List V) :
    (t.mapM fun (e : String × List V) => (Except.ok (ε := Err) (e.1, f e.2))) = .ok (t.map fun (e : String × List V) => (e.1, f e.2)) := by
  induction t with
  | nil => rfl
  | cons e t ih => rw [List.mapM_cons, ih]; rfl

theorem get_map (t : Table V) (f : List V → List V) (c : String) :
    Dict.get (t.map fun (e : String × List V) => (e.1, f e.2) : Table V) c = (Dict.get t c).map f := by
  induction t with
  | nil => rfl
  | cons e t ih =>
    rw [List.map_cons, Dict.get_cons, Dict.get_cons, ih]
    split <;> rfl

/-- **C72** `filter(inplace=True)` makes the Dataset what `filter` returns. -/
theorem filterInplace_agrees (inv : V) (t : Table V) (n : Nat) (ht : Rect t n) (hne : t ≠ []) (labels : List String) (f : Filter) :
    match filterInplace inv t n f with
    | .ok (t', n') => filter inv t n labels f = .ok (.table t') ∧ Rect t' n'
    | .error e => filter inv t n labels f = .error e := by
  have main : ∀ (ks : List Int),
      getitem inv t n labels (some (.intArr ks)) (.slice none none none) =
        .ok (.table (t.map fun (e : String × List V) => (e.1, (ks.map (meant n)).map (pick inv e.2)))) ∧
      (t.mapM fun (e : String × List V) => (do let l ← take inv e.2 (.mbints ks); return (e.1, l) : Except Err (String × List V))) =
        .ok (t.map fun (e : String × List V) => (e.1, (ks.map (meant n)).map (pick inv e.2))) ∧
      Rect (t.map fun (e : String × List V) => (e.1, (ks.map (meant n)).map (pick inv e.2))) ks.length := by
    intro ks
    have hkeys : (t.map fun (e : String × List V) => (e.1, (ks.map (meant n)).map (pick inv e.2))).map Prod.fst = t.map Prod.fst := by
      rw [List.map_map]; rfl
    refine ⟨?_, ?_, ?_⟩
    · obtain ⟨t', h1, h2, h3⟩ := getitem_rows inv t n ht labels (some (.intArr ks)) (ks.map (meant n)) trivial rfl
      rw [h1]
      congr 2
      obtain ⟨cs, hcs, _, hk, hex⟩ := getitem_table inv t n ht labels _ _ t' h1
      have hne' : t' ≠ [] := by
        intro h0
        rw [h0] at h2
        simp at h2
        exact hne h2
      obtain ⟨L, hL, hrect, _⟩ := hex hne'
      have hL' : L = ks.map (meant n) := hL
      -- columns agree, entry by entry
      have hlen : t'.length = t.length := by simpa using congrArg List.length h2
      refine List.ext_getElem (by simp [hlen]) fun j hj hj' => ?_
      have hjt : j < t.length := by omega
      have hname : t'[j].1 = t[j].1 := by
        have := congrArg (fun l => l[j]?) h2
        simpa [hj, hjt] using this
      have hg' : Dict.get t' t'[j].1 = some t'[j].2 := Dict.get_of_mem hrect.1 (List.getElem_mem hj)
      have hg : Dict.get t t[j].1 = some t[j].2 := Dict.get_of_mem ht.1 (List.getElem_mem hjt)
      rw [List.getElem_map]
      refine Prod.ext hname (List.ext_getElem? fun k => ?_)
      have := h3 t[j].1 (List.mem_map_of_mem (List.getElem_mem hjt)) k
      rw [← hname, cell_eq_get, hg', Option.bind_some] at this
      rw [this]
      show _ = ((ks.map (meant n)).map (pick inv t[j].2))[k]?
      rw [List.getElem?_map (l := ks.map (meant n))]
      cases hk : (ks.map (meant n))[k]? with
      | none => rfl
      | some o =>
        cases o with
        | none => simp [pick]
        | some i =>
          have hi : i < n := by
            obtain ⟨x, _, hx⟩ := List.mem_map.1 (List.mem_of_getElem? hk)
            exact meant_lt hx
          have hc : i < t[j].2.length := by
            rw [ht.2 _ (List.getElem_mem hjt)]; exact hi
          simp only [Option.bind_some, Option.map_some, pick]
          rw [hname, cell_eq_get, hg, Option.bind_some, List.getElem?_eq_getElem hc]
          rfl
    · have : ∀ e ∈ t, (do let l ← take inv e.2 (.mbints ks); return (e.1, l) : Except Err (String × List V)) =
          Except.ok (e.1, (ks.map (meant n)).map (pick inv e.2)) := by
        intro e he
        have htk := (take_ok (inv := inv) (col := e.2) (ix := .mbints ks)).2 ⟨ks.map (meant e.2.length), rfl, rfl⟩
        rw [htk, ht.2 e he]
        rfl
      rw [← mapM_cols t fun col => (ks.map (meant n)).map (pick inv col)]
      clear hkeys hne ht
      induction t with
      | nil => rfl
      | cons e t ih =>
        rw [List.mapM_cons, List.mapM_cons, this e (by simp), ih fun x hx => this x (List.mem_cons_of_mem _ hx)]
    · refine ⟨by rw [hkeys]; exact ht.1, fun e he => ?_⟩
      obtain ⟨x, _, rfl⟩ := List.mem_map.1 he
      simp
  cases f with
  | ints ks =>
    obtain ⟨m1, m2, m3⟩ := main ks
    simp only [filterInplace, filter, m1, bind, Except.bind]
    simp only [bind, Except.bind] at m2
    rw [m2]
    exact ⟨rfl, m3⟩
  | bools m =>
    by_cases hl : m.length = n
    · obtain ⟨m1, m2, m3⟩ := main ((nonzero 0 m).map fun (i : Nat) => (i : Int))
      simp only [filterInplace, filter, hl, ne_eq, not_true, if_false, m1, bind, Except.bind]
      simp only [bind, Except.bind] at m2
      rw [m2]
      exact ⟨rfl, m3⟩
    · simp [filterInplace, filter, hl]

end

/-- hypotheses of the theorems can be met: every other row from the last, a column twice; labels; a mask -/
example : Rect [("a", [1, 2, 3, 4]), ("b", [5, 6, 7, 8])] 4 ∧
    getitem 0 [("a", [1, 2, 3, 4]), ("b", [5, 6, 7, 8])] 4 [] (some (.slice none none (some (-2)))) (.names ["b", "a", "b"]) =
      .ok (.table [("b", [8, 6]), ("a", [4, 2])]) ∧
    getitem 0 [("a", [1, 2, 3, 4]), ("b", [5, 6, 7, 8])] 4 ["b"] (some (.labels [[8], [5]])) (.ints [-2]) =
      .ok (.table [("a", [1, 4])]) ∧
    getitem 0 [("a", [1, 2, 3, 4]), ("b", [5, 6, 7, 8])] 4 [] (some (.intArr [-1, 9])) (.name "a") = .ok (.array [4, 0]) ∧
    tail 0 [("a", [1, 2, 3, 4])] 4 [] 3 = .ok (.table [("a", [2, 3, 4])]) ∧
    filterInplace 0 [("a", [1, 2, 3, 4])] 4 (.bools [true, false, false, true]) = .ok ([("a", [1, 4])], 2) := by
  refine ⟨⟨by decide, by decide⟩, by decide +kernel, by decide +kernel, by decide +kernel, by decide +kernel, by decide +kernel⟩

end Verif.Idx
