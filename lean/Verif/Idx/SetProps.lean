import Verif.Idx.Set
/-! # Assigning to rows and columns of a Dataset: theorems -/
namespace Verif.Idx
open Verif.Items (Dict)

section
variable {V : Type} [DecidableEq V]

theorem rowPart_count {t : Table V} {n : Nat} {labels : List String} {row : Option (RowArg V)} {ix : Idx} {k : Nat}
    (h : rowPart t n labels row = .ok (some ix, k)) {R : List Nat} (hR : idxRows n ix = some (R.map some)) (h1 : k = 1) (hn : n ≠ 1) :
    R.length = 1 := by
  have := rowPart_idx h
  cases row with
  | none => simp at this
  | some r =>
    obtain ⟨a1, a2, a3⟩ := this
    rw [Option.getD_some] at a1 a2
    subst h1
    have hlen := congrArg (Option.map List.length) hR
    by_cases hint : ∃ kk, r = .int kk
    · obtain ⟨kk, rfl⟩ := hint
      simp only [rowIdx, Except.ok.injEq] at a1
      subst a1
      simp only [idxRows] at hR
      split at hR
      · simp at hR
      · have := congrArg List.length (Option.some.inj hR)
        simpa using this.symm
    · cases ix with
      | all => simp at a3
      | slice a b s =>
        have : (if s = 0 then Except.error Err.valueError else .ok (sliceRows n a b s).length : Except Err Nat) = .ok 1 := by
          rw [← a2]
          cases r <;> first | rfl | exact absurd ⟨_, rfl⟩ hint
        split at this
        · simp at this
        · rename_i hs
          simp only [Except.ok.injEq] at this
          simp only [idxRows, if_neg hs, Option.map_some, Option.some.injEq, List.length_map] at hlen
          omega
      | ints ks =>
        have : (Except.ok ks.length : Except Err Nat) = .ok 1 := by
          rw [← a2]
          cases r <;> first | rfl | exact absurd ⟨_, rfl⟩ hint
        simp only [Except.ok.injEq] at this
        simp only [idxRows] at hlen
        split at hlen
        · simp at hlen
        · simp only [Option.map_some, Option.some.injEq, List.length_map] at hlen
          omega
      | mbints ks =>
        have : (Except.ok ks.length : Except Err Nat) = .ok 1 := by
          rw [← a2]
          cases r <;> first | rfl | exact absurd ⟨_, rfl⟩ hint
        simp only [Except.ok.injEq] at this
        simp only [idxRows, Option.map_some, Option.some.injEq, List.length_map] at hlen
        omega
      | mask m =>
        have : (Except.ok m.length : Except Err Nat) = .ok 1 := by
          rw [← a2]
          cases r <;> first | rfl | exact absurd ⟨_, rfl⟩ hint
        simp only [Except.ok.injEq] at this
        simp only [idxRows] at hR
        split at hR
        · omega
        · simp at hR

theorem RowsMeantIn.unique {t : Table V} {n : Nat} {labels : List String} {row : Option (RowArg V)} {L L' : List (Option Nat)}
    (h : RowsMeantIn t n labels row L) (h' : RowsMeantIn t n labels row L') : L = L' := by
  cases row with
  | none => exact Eq.trans h (Eq.symm h')
  | some r =>
    cases r with
    | int k =>
      obtain ⟨i, a, rfl⟩ := h
      obtain ⟨j, b, rfl⟩ := h'
      rw [a] at b
      cases b
      rfl
    | slice a b s =>
      obtain ⟨R, h1, rfl⟩ := h
      obtain ⟨S, h2, rfl⟩ := h'
      rw [h1.unique h2]
    | boolList m => rw [h.2, h'.2]
    | boolArr m => rw [h.2, h'.2]
    | intList ks => rw [h.1, h'.1]
    | intArr ks => exact Eq.trans h (Eq.symm h')
    | labels ks =>
      obtain ⟨R, a1, rfl, a3⟩ := h
      obtain ⟨S, b1, rfl, b3⟩ := h'
      rw [sorted_ext a1 b1 fun i => by rw [a3, b3]]

/-- a number of rows equal to 1 in a Dataset of another number of rows comes with an index -/
theorem rowPart_none {t : Table V} {n : Nat} {labels : List String} {row : Option (RowArg V)} {k : Nat}
    (h : rowPart t n labels row = .ok (none, k)) : k = n := by
  have := rowPart_idx h
  cases row with
  | none => exact this.2
  | some r =>
    obtain ⟨a1, a2, _⟩ := this
    cases r with
    | int kk => simp [rowIdx] at a1
    | slice a b s => simpa [rowCount] using a2.symm
    | boolList m => simpa [rowCount] using a2.symm
    | boolArr m => simpa [rowCount] using a2.symm
    | intList m => simpa [rowCount] using a2.symm
    | intArr m => simpa [rowCount] using a2.symm
    | labels m => simpa [rowCount] using a2.symm

theorem all_rows {n : Nat} {L : List (Option Nat)} (h : idxRows n .all = some L) : ∀ (i : Nat), i < n → some i ∈ L := by
  intro i hi
  simp only [idxRows, Option.some.injEq] at h
  subst h
  simpa using hi

/-- the columns `__setitem__` works on -/
def colsOf (keys : List String) : String ⊕ Option (List String) → List String
  | .inl c => [c]
  | .inr cs => cs.getD keys

theorem colsOf_meant {keys : List String} {col : ColArg} {c : String ⊕ Option (List String)} (h : colIdx keys col = .ok c) :
    ColsMeant keys col (colsOf keys c) := by
  cases c with
  | inl c => exact colIdx_cols.1 c h
  | inr cs => exact colIdx_cols.2 cs h

/-- `__setitem__` after rows and columns are found -/
def setBody (ofName : String → V) (t : Table V) (n : Nat) (ri : Option Idx) (nr : Nat) (cols : List String) (v : Val V) : Out V :=
    match cols with
    | [] => (t, some .indexError)
    | [c] =>
      if Dict.has t c then
        match ri with
        | none => setAttr t n c v
        | some ix => match v with
          | .table w _ => match nthCol w 0 with
            | none => (t, some .indexError)
            | some l => setCol t c ix l
          | .scalar x => setCol t c ix [x]
          | .vec l => setCol t c ix l
      else if nr = n ∨ nr = 0 then
        match ri with
        | some _ => (t, some .notImplemented)
        | none => setAttr t n c v
      else (t, some .notImplemented)
    | _ =>
      if nr = 1 ∧ n ≠ 1 then
        if cols.all fun c => Dict.has t c then
          let ix := ri.getD .all
          match v with
          | .scalar x => loop (fun t c => setCol t c ix [x]) t cols
          | .table w wn =>
            if wn = 1 ∧ w.length = cols.length then
              loop (fun t (e : String × Nat) => match (nthCol w e.2).bind List.head? with
                | none => (t, some .indexError)
                | some x => setCol t e.1 ix [x]) t (List.zip cols (List.range cols.length))
            else if wn = cols.length then
              loop (fun t (e : String × String) => setCol t e.1 ix [ofName e.2]) t (List.zip cols (Dict.keys w))
            else (t, some .valueError)
          | .vec l =>
            if l.length = cols.length then loop (fun t (e : String × V) => setCol t e.1 ix [e.2]) t (List.zip cols l)
            else (t, some .valueError)
        else (t, some .indexError)
      else
        match v with
        | .scalar x => match ri with
          | some ix => loop (fun t c => setCol t c ix [x]) t cols
          | none => loop (fun t c => setAttr t n c (.scalar x)) t cols
        | .table w _ => loop (setFrom w ri n) t (List.zip cols (List.range cols.length))
        | .vec _ => (t, some .valueError)

theorem setitem_body (ofName : String → V) (t : Table V) (n : Nat) (labels : List String) (row : Option (RowArg V)) (col : ColArg)
    (v : Val V) {ri : Option Idx} {nr : Nat} {c : String ⊕ Option (List String)} (h1 : rowPart t n labels row = .ok (ri, nr))
    (h2 : colIdx (Dict.keys t) col = .ok c) :
    setitem ofName t n labels row col v = setBody ofName t n ri nr (colsOf (Dict.keys t) c) v := by
  simp only [setitem, h1, h2, bind, Except.bind, pure, Except.pure]
  cases c <;> rfl

theorem setBody_only (ofName : String → V) (t : Table V) (n : Nat) (ri : Option Idx) (nr : Nat) (cols : List String) (v : Val V)
    (L : List (Option Nat)) (hL : ∀ L', idxRows n (ri.getD .all) = some L' → L' = L) :
    Only n (fun c => c ∈ cols) (fun i => some i ∈ L) t (setBody ofName t n ri nr cols v).1 := by
  have hsome : ∀ ix, ri = some ix → ∀ L', idxRows n ix = some L' → L' = L := by
    rintro ix rfl
    exact hL
  have hnone : ri = none → ∀ (i : Nat), i < n → some i ∈ L := by
    rintro rfl i hi
    exact all_rows (hL _ rfl ▸ rfl) i hi
  unfold setBody
  split
  · exact Only.refl _ _ _ _
  · rename_i c
    split
    · split
      · exact setAttr_only n _ L (hnone rfl) t c (by simp) v
      · rename_i ix
        split
        · split
          · exact Only.refl _ _ _ _
          · exact setCol_only n _ L t c (by simp) ix (hsome ix rfl) _
        · exact setCol_only n _ L t c (by simp) ix (hsome ix rfl) _
        · exact setCol_only n _ L t c (by simp) ix (hsome ix rfl) _
    · split
      · split
        · exact Only.refl _ _ _ _
        · exact setAttr_only n _ L (hnone rfl) t c (by simp) v
      · exact Only.refl _ _ _ _
  · split
    · split
      · dsimp only
        split
        · exact loop_only _ _ (fun t c hc => setCol_only n _ L t c hc _ hL _) t
        · split
          · refine loop_only _ _ (fun t e he => ?_) t
            split
            · exact Only.refl _ _ _ _
            · exact setCol_only n _ L t e.1 (List.of_mem_zip he).1 _ hL _
          · split
            · exact loop_only _ _ (fun t e he => setCol_only n _ L t e.1 (List.of_mem_zip he).1 _ hL _) t
            · exact Only.refl _ _ _ _
        · split
          · exact loop_only _ _ (fun t e he => setCol_only n _ L t e.1 (List.of_mem_zip he).1 _ hL _) t
          · exact Only.refl _ _ _ _
      · exact Only.refl _ _ _ _
    · split
      · split
        · rename_i ix
          exact loop_only _ _ (fun t c hc => setCol_only n _ L t c hc _ (hsome ix rfl) _) t
        · exact loop_only _ _ (fun t c hc => setAttr_only n _ L (hnone rfl) t c hc _) t
      · refine loop_only _ _ (fun t e he => ?_) t
        unfold setFrom
        split
        · rename_i ix
          split
          · exact Only.refl _ _ _ _
          · split
            · exact Only.refl _ _ _ _
            · exact setCol_only n _ L t e.1 (List.of_mem_zip he).1 _ (hsome ix rfl) _
        · split
          · exact Only.refl _ _ _ _
          · exact setAttr_only n _ L (hnone rfl) t e.1 (List.of_mem_zip he).1 _
      · exact Only.refl _ _ _ _

/-- **C73** Whatever is assigned to `ds[rows, columns]`, and whether or not an exception is raised: columns that are not asked for are as
before, rows that are not asked for are as before in all columns, and all columns still have the same number of rows. -/
theorem setitem_frame (ofName : String → V) (t : Table V) (n : Nat) (ht : Rect t n) (labels : List String) (row : Option (RowArg V))
    (col : ColArg) (v : Val V) : Rect (setitem ofName t n labels row col v).1 n ∧
    (∀ cs, ColsMeant (t.map Prod.fst) col cs → ∀ (c : String), c ∉ cs → ∀ (i : Nat),
      cell (setitem ofName t n labels row col v).1 c i = cell t c i) ∧
    ∀ L, RowsMeantIn t n labels row L → ∀ (c : String) (i : Nat), some i ∉ L →
      cell (setitem ofName t n labels row col v).1 c i = cell t c i := by
  cases h1 : rowPart t n labels row with
  | error e =>
    have : setitem ofName t n labels row col v = (t, some e) := by simp [setitem, h1, bind, Except.bind]
    rw [this]
    exact ⟨ht, fun _ _ _ _ _ => rfl, fun _ _ _ _ _ => rfl⟩
  | ok p =>
    obtain ⟨ri, nr⟩ := p
    cases h2 : colIdx (Dict.keys t) col with
    | error e =>
      have : setitem ofName t n labels row col v = (t, some e) := by simp [setitem, h1, h2, bind, Except.bind]
      rw [this]
      exact ⟨ht, fun _ _ _ _ _ => rfl, fun _ _ _ _ _ => rfl⟩
    | ok c =>
      rw [setitem_body ofName t n labels row col v h1 h2]
      refine ⟨?_, ?_, ?_⟩
      · cases hi : idxRows n (ri.getD .all) with
        | none => exact (setBody_only ofName t n ri nr _ v [] (by rw [hi]; simp)).rect ht
        | some L => exact (setBody_only ofName t n ri nr _ v L (by rw [hi]; simp)).rect ht
      · intro cs hcs d hd i
        rw [← (colsOf_meant h2).unique hcs] at hd
        rw [cell_eq_get, cell_eq_get]
        cases hi : idxRows n (ri.getD .all) with
        | none => rw [(setBody_only ofName t n ri nr _ v [] (by rw [hi]; simp)).cols d hd]
        | some L => rw [(setBody_only ofName t n ri nr _ v L (by rw [hi]; simp)).cols d hd]
      · intro L hL d i hi
        exact (setBody_only ofName t n ri nr _ v L fun L' hL' => (rowPart_rows ht h1 hL').unique hL).rows ht d i hi

/-! ## values -/

theorem setCol_ok {n : Nat} {t : Table V} (ht : Rect t n) {c : String} (hc : c ∈ t.map Prod.fst) {ix : Idx} {R : List Nat}
    (hR : idxRows n ix = some (R.map some)) {vals w : List V} (hw : fits vals R = some w) :
    ∃ t', setCol t c ix vals = (t', none) ∧ Rect t' n ∧ t'.map Prod.fst = t.map Prod.fst ∧
      (∀ (d : String), d ≠ c → Dict.get t' d = Dict.get t d) ∧
      ∀ (k i : Nat) (v : V), R[k]? = some i → (∀ (k' : Nat), k < k' → R[k']? ≠ some i) → w[k]? = some v → cell t' c i = some v := by
  obtain ⟨col, hg⟩ := mem_names_get hc
  have hn := get_length ht hg
  have ha : assign col ix vals = .ok (storeAt col R w) := (assign_eq col ix vals _).2 ⟨R, w, by rw [hn, targets_ok]; exact hR, hw, rfl⟩
  refine ⟨Dict.set t c (storeAt col R w), by rw [setCol, hg]; simp only [ha], rect_set ht (by rw [storeAt_length, hn]),
    Dict.keys_set_of_mem hc _, fun d hd => by rw [Dict.get_set, if_neg hd], fun k i v hk hl hv => ?_⟩
  rw [cell_eq_get, Dict.get_set, if_pos rfl, Option.bind_some]
  refine storeAt_last R w col k i v hk ?_ hv hl
  rw [hn]
  exact idxRows_lt hR i (List.mem_map_of_mem (List.mem_of_getElem? hk))

theorem setAttr_ok {n : Nat} {t : Table V} (ht : Rect t n) {c : String} (hc : c ∈ t.map Prod.fst) {l : List V} (hl : l.length = n) :
    ∃ t', setAttr t n c (.vec l) = (t', none) ∧ Rect t' n ∧ t'.map Prod.fst = t.map Prod.fst ∧
      (∀ (d : String), d ≠ c → Dict.get t' d = Dict.get t d) ∧ ∀ (i : Nat), cell t' c i = l[i]? := by
  refine ⟨Dict.set t c l, by rw [setAttr]; simp only [hl, if_true], rect_set ht hl, Dict.keys_set_of_mem hc _,
    fun d hd => by rw [Dict.get_set, if_neg hd], fun i => ?_⟩
  rw [cell_eq_get, Dict.get_set, if_pos rfl, Option.bind_some]

theorem last_index {R : List Nat} {i : Nat} (h : i ∈ R) : ∃ k, R[k]? = some i ∧ ∀ (k' : Nat), k < k' → R[k']? ≠ some i := by
  induction R with
  | nil => simp at h
  | cons r R ih =>
    by_cases hm : i ∈ R
    · obtain ⟨k, h1, h2⟩ := ih hm
      refine ⟨k + 1, by simpa using h1, fun k' hk' => ?_⟩
      cases k' with
      | zero => omega
      | succ k' => rw [List.getElem?_cons_succ]; exact h2 k' (by omega)
    · have : r = i := by simpa [hm, eq_comm] using h
      subst this
      refine ⟨0, rfl, fun k' hk' => ?_⟩
      cases k' with
      | zero => omega
      | succ k' =>
        rw [List.getElem?_cons_succ]
        intro he
        exact hm (List.mem_of_getElem? he)

theorem last_name {cs : List String} {c : String} (h : c ∈ cs) : ∃ k, cs[k]? = some c ∧ ∀ (k' : Nat), k < k' → cs[k']? ≠ some c := by
  induction cs with
  | nil => simp at h
  | cons r R ih =>
    by_cases hm : c ∈ R
    · obtain ⟨k, h1, h2⟩ := ih hm
      refine ⟨k + 1, by simpa using h1, fun k' hk' => ?_⟩
      cases k' with
      | zero => omega
      | succ k' => rw [List.getElem?_cons_succ]; exact h2 k' (by omega)
    · have : r = c := by simpa [hm, eq_comm] using h
      subst this
      refine ⟨0, rfl, fun k' hk' => ?_⟩
      cases k' with
      | zero => omega
      | succ k' =>
        rw [List.getElem?_cons_succ]
        intro he
        exact hm (List.mem_of_getElem? he)

/-- the columns of the argument -/
theorem colIdx_any {keys : List String} {col : ColArg} {cs : List String} (hs : NonEmpty col) (h : ColsMeant keys col cs) :
    ∃ c, colIdx keys col = .ok c ∧ colsOf keys c = cs := by
  have sev : Several col → ∃ c, colIdx keys col = .ok c ∧ colsOf keys c = cs := by
    intro hs
    obtain ⟨o, h1, h2⟩ := colIdx_ok hs h
    exact ⟨.inr o, h1, h2⟩
  cases col with
  | name c => exact ⟨.inl c, rfl, Eq.symm h⟩
  | int k =>
    obtain ⟨i, d, h1, h2, rfl⟩ := h
    refine ⟨.inl d, ?_, rfl⟩
    simp [colIdx, pos_eq, h1, h2]
  | slice a b s => exact sev trivial
  | names l => exact sev hs
  | ints l => exact sev hs
  | bools l => exact sev hs

theorem rows_some {L : List (Option Nat)} (h : none ∉ L) : ∃ R : List Nat, L = R.map some := by
  induction L with
  | nil => exact ⟨[], rfl⟩
  | cons o L ih =>
    rw [List.mem_cons, not_or] at h
    obtain ⟨R, hR⟩ := ih h.2
    cases o with
    | none => exact absurd rfl h.1
    | some i => exact ⟨i :: R, by rw [hR]; rfl⟩

/-- the state between the statements of a loop -/
def Kept (n : Nat) (names : List String) (t : Table V) : Prop := Rect t n ∧ t.map Prod.fst = names

/-- a loop of scalar assignments -/
theorem loop_scalars {A : Type} {n : Nat} {t : Table V} (ht : Rect t n) {ix : Idx} {R : List Nat} (hR : idxRows n ix = some (R.map some))
    (name : A → String) (x : A → V) (as : List A) (has : ∀ a ∈ as, name a ∈ t.map Prod.fst) (f : Table V → A → Out V)
    (hf : ∀ (t : Table V), ∀ a ∈ as, f t a = setCol t (name a) ix [x a]) :
    (loop f t as).2 = none ∧
    ∀ (j : Nat) (a : A), as[j]? = some a → (∀ (j' : Nat) (a' : A), j < j' → as[j']? = some a' → name a' ≠ name a) →
      ∀ i ∈ R, cell (loop f t as).1 (name a) i = some (x a) := by
  obtain ⟨h1, _, _, h4⟩ := loop_value (Kept n (t.map Prod.fst)) f name (fun a i v => i ∈ R ∧ v = x a) as (by
    rintro s ⟨hs1, hs2⟩ a ha
    obtain ⟨t', g1, g2, g3, g4, g5⟩ := setCol_ok hs1 (by rw [hs2]; exact has a ha) hR (fits_scalar (x a) R)
    refine ⟨t', by rw [hf s a ha]; exact g1, ⟨g2, g3.trans hs2⟩, g4, ?_⟩
    rintro i v ⟨hi, rfl⟩
    obtain ⟨k, hk1, hk2⟩ := last_index hi
    have hkl : k < R.length := by
      by_contra hn
      rw [List.getElem?_eq_none (by omega)] at hk1
      simp at hk1
    exact g5 k i _ hk1 hk2 (by rw [List.getElem?_replicate, if_pos hkl])) t ⟨ht, rfl⟩
  exact ⟨h1, fun j a hj hl i hi => h4 j a hj hl i _ ⟨hi, rfl⟩⟩

/-- **C73** A scalar assigned to rows and columns that exist is afterwards in all of them (`setitem_frame`: and nowhere else is anything
changed). -/
theorem setitem_scalar (ofName : String → V) (t : Table V) (n : Nat) (ht : Rect t n) (labels : List String) (row : Option (RowArg V))
    (col : ColArg) (x : V) (cs : List String) (L : List (Option Nat)) (ha : Accepted (t.map Prod.fst) labels row)
    (hr : RowsMeantIn t n labels row L) (hn : none ∉ L) (hne : NonEmpty col) (hc : ColsMeant (t.map Prod.fst) col cs) (hcs : cs ≠ [])
    (hin : ∀ c ∈ cs, c ∈ t.map Prod.fst) : (setitem ofName t n labels row col (.scalar x)).2 = none ∧
      ∀ c ∈ cs, ∀ (i : Nat), some i ∈ L → cell (setitem ofName t n labels row col (.scalar x)).1 c i = some x := by
  obtain ⟨R, rfl⟩ := rows_some hn
  obtain ⟨ri, nr, h1, h2⟩ := rowPart_ok ht ha hr
  obtain ⟨cc, h3, h4⟩ := colIdx_any hne hc
  rw [setitem_body ofName t n labels row col _ h1 h3]
  have h4' : colsOf (Dict.keys t) cc = cs := h4
  rw [h4']
  have hloop : ∀ ix, idxRows n ix = some (R.map some) → (loop (fun t c => setCol t c ix [x]) t cs).2 = none ∧
      ∀ c ∈ cs, ∀ (i : Nat), some i ∈ R.map some → cell (loop (fun t c => setCol t c ix [x]) t cs).1 c i = some x := by
    intro ix hix
    obtain ⟨a1, a2⟩ := loop_scalars ht hix (fun c => c) (fun _ => x) cs hin (fun t c => setCol t c ix [x]) fun _ _ _ => rfl
    refine ⟨a1, fun c hc i hi => ?_⟩
    obtain ⟨k, hk1, hk2⟩ := last_name hc
    exact a2 k c hk1 (fun j' a' hj' ha' he => hk2 j' hj' (by rw [ha', he])) i (by simpa using hi)
  have hhas : ∀ c ∈ cs, Dict.has t c = true := fun c hc => (Dict.has_iff t c).2 (hin c hc)
  match cs, hcs with
  | [c], _ =>
    simp only [setBody, hhas c (by simp), if_true]
    cases ri with
    | none =>
      simp only [Option.getD_none, idxRows, Option.some.injEq] at h2
      have hRn := map_some_inj h2
      refine ⟨rfl, fun d hd i hi => ?_⟩
      have : d = c := by simpa using hd
      subst this
      have hi' : i ∈ R := by simpa using hi
      rw [← hRn, List.mem_range] at hi'
      simp only [setAttr]
      rw [cell_eq_get, Dict.get_set, if_pos rfl, Option.bind_some, List.getElem?_replicate, if_pos hi']
    | some ix =>
      have := hloop ix h2
      simp only [loop] at this
      dsimp only
      cases hsc : setCol t c ix [x] with
      | mk t' e =>
        rw [hsc] at this
        cases e with
        | none => exact this
        | some e => exact absurd this.1 (by simp)
  | c :: d :: cs, _ =>
    simp only [setBody]
    split
    · rw [if_pos (List.all_eq_true.2 fun c hc => hhas c hc)]
      exact hloop _ h2
    · cases ri with
      | some ix => exact hloop ix h2
      | none =>
        simp only [Option.getD_none, idxRows, Option.some.injEq] at h2
        have hRn := map_some_inj h2
        dsimp only
        obtain ⟨b1, _, _, b4⟩ := loop_value (Kept n (t.map Prod.fst)) (fun t c => setAttr t n c (.scalar x)) (fun c => c)
          (fun _ i v => i ∈ R ∧ v = x) (c :: d :: cs) (by
          rintro s ⟨hs1, hs2⟩ a ha
          obtain ⟨t', g1, g2, g3, g4, g5⟩ := setAttr_ok (l := List.replicate n x) hs1 (by rw [hs2]; exact hin a ha) (by simp)
          have : setAttr s n a (.scalar x) = (t', none) := by
            rw [← g1]; simp [setAttr]
          refine ⟨t', this, ⟨g2, g3.trans hs2⟩, g4, ?_⟩
          rintro i v ⟨hi, rfl⟩
          rw [← hRn, List.mem_range] at hi
          rw [g5, List.getElem?_replicate, if_pos hi]) t ⟨ht, rfl⟩
        refine ⟨b1, fun e he i hi => ?_⟩
        obtain ⟨k, hk1, hk2⟩ := last_name he
        exact b4 k e hk1 (fun j' a' hj' ha' hee => hk2 j' hj' (by rw [ha', hee])) i _ ⟨by simpa using hi, rfl⟩

/-- **C73** An array assigned to the rows of one column that exists: item `k` is afterwards in the `k`-th row asked for; of several items for
one row the last. -/
theorem setitem_array (ofName : String → V) (t : Table V) (n : Nat) (ht : Rect t n) (labels : List String) (row : Option (RowArg V))
    (col : ColArg) (l : List V) (c : String) (L : List (Option Nat)) (ha : Accepted (t.map Prod.fst) labels row)
    (hr : RowsMeantIn t n labels row L) (hn : none ∉ L) (hne : NonEmpty col) (hc : ColsMeant (t.map Prod.fst) col [c])
    (hin : c ∈ t.map Prod.fst) (hl : l.length = L.length) : (setitem ofName t n labels row col (.vec l)).2 = none ∧
      ∀ (k i : Nat), LastAt L k (some i) → cell (setitem ofName t n labels row col (.vec l)).1 c i = l[k]? := by
  obtain ⟨R, rfl⟩ := rows_some hn
  rw [List.length_map] at hl
  obtain ⟨ri, nr, h1, h2⟩ := rowPart_ok ht ha hr
  obtain ⟨cc, h3, h4⟩ := colIdx_any hne hc
  have h4' : colsOf (Dict.keys t) cc = [c] := h4
  rw [setitem_body ofName t n labels row col _ h1 h3, h4']
  simp only [setBody, (Dict.has_iff t c).2 hin, if_true]
  have hkl : ∀ (k i : Nat), LastAt (R.map some) k (some i) → R[k]? = some i ∧ (∀ (k' : Nat), k < k' → R[k']? ≠ some i) ∧ k < R.length := by
    rintro k i ⟨a, b⟩
    have hk : R[k]? = some i := by simpa using a
    refine ⟨hk, fun k' hk' he => b k' hk' (by rw [List.getElem?_map, he]; rfl), ?_⟩
    by_contra hnn
    rw [List.getElem?_eq_none (by omega)] at hk
    simp at hk
  cases ri with
  | none =>
    simp only [Option.getD_none, idxRows, Option.some.injEq] at h2
    have hRn := map_some_inj h2
    have hln : l.length = n := by rw [hl, ← hRn, List.length_range]
    obtain ⟨t', g1, _, _, _, g5⟩ := setAttr_ok (l := l) ht hin hln
    simp only [g1]
    refine ⟨trivial, fun k i hk => ?_⟩
    obtain ⟨k1, _, k3⟩ := hkl k i hk
    rw [g5]
    rw [← hRn, List.length_range] at k3
    rw [← hRn, List.getElem?_range k3, Option.some.injEq] at k1
    rw [k1]
  | some ix =>
    obtain ⟨t', g1, _, _, _, g5⟩ := setCol_ok (vals := l) (w := l) ht hin h2 (by simp [fits, hl])
    rw [Option.getD_some] at g1
    dsimp only
    rw [g1]
    refine ⟨rfl, fun k i hk => ?_⟩
    obtain ⟨k1, k2, k3⟩ := hkl k i hk
    rw [List.getElem?_eq_getElem (show k < l.length by omega)]
    exact g5 k i _ k1 k2 (List.getElem?_eq_getElem _)

/-- **C73** An array with a wrong number of items (not that of the rows asked for, and not one), or for a row that does not exist, is
refused with an exception, and nothing is changed. -/
theorem setitem_array_raises (ofName : String → V) (t : Table V) (n : Nat) (ht : Rect t n) (labels : List String) (row : Option (RowArg V))
    (col : ColArg) (l : List V) (c : String) (L : List (Option Nat)) (ha : Accepted (t.map Prod.fst) labels row)
    (hr : RowsMeantIn t n labels row L) (hne : NonEmpty col) (hc : ColsMeant (t.map Prod.fst) col [c]) (hin : c ∈ t.map Prod.fst)
    (hl : none ∈ L ∨ (l.length ≠ L.length ∧ l.length ≠ 1)) :
    ∃ e, setitem ofName t n labels row col (.vec l) = (t, some e) := by
  obtain ⟨ri, nr, h1, h2⟩ := rowPart_ok ht ha hr
  obtain ⟨cc, h3, h4⟩ := colIdx_any hne hc
  have h4' : colsOf (Dict.keys t) cc = [c] := h4
  rw [setitem_body ofName t n labels row col _ h1 h3, h4']
  simp only [setBody, (Dict.has_iff t c).2 hin, if_true]
  cases ri with
  | none =>
    simp only [Option.getD_none, idxRows, Option.some.injEq] at h2
    subst h2
    have hln : l.length ≠ n := by
      rcases hl with h | h
      · simp at h
      · simpa using h.1
    simp only [setAttr, if_neg hln]
    exact ⟨_, rfl⟩
  | some ix =>
    rw [Option.getD_some] at h2
    obtain ⟨cl, hg⟩ := mem_names_get hin
    have hn' := get_length ht hg
    cases has : assign cl ix l with
    | error e => exact ⟨e, by simp only [setCol, hg, has]⟩
    | ok l' =>
      exfalso
      obtain ⟨R, w, a1, a2, _⟩ := (assign_eq cl ix l l').1 has
      rw [hn', targets_ok, h2, Option.some.injEq] at a1
      subst a1
      rcases hl with h | h
      · simp at h
      · rw [List.length_map] at h
        simp only [fits, if_neg h.1] at a2
        match l, h, a2 with
        | [_], h, _ => exact h.2 rfl

example : setitem (fun _ => 0) [("a", [1, 2, 3])] 3 [] (some (.boolArr [true, false, true])) (.name "a") (.vec [7, 8, 9]) =
    ([("a", [1, 2, 3])], some .valueError) := by decide +kernel

theorem zip_get {A B : Type} {a : List A} {b : List B} {j : Nat} {x : A × B} : (List.zip a b)[j]? = some x ↔ a[j]? = some x.1 ∧ b[j]? = some x.2 :=
  List.getElem?_zip_eq_some

/-- **C73** A list assigned to several columns of one row, in a Dataset of more than one row: item `j` is afterwards in the `j`-th column
asked for; of several items for one column the last. -/
theorem setitem_row (ofName : String → V) (t : Table V) (n : Nat) (ht : Rect t n) (hn1 : n ≠ 1) (labels : List String) (kk : Int)
    (col : ColArg) (l : List V) (cs : List String) (i : Nat) (hi : meant n kk = some i) (hne : NonEmpty col)
    (hc : ColsMeant (t.map Prod.fst) col cs) (hcs : 2 ≤ cs.length) (hin : ∀ c ∈ cs, c ∈ t.map Prod.fst) (hl : l.length = cs.length) :
    (setitem ofName t n labels (some (.int kk)) col (.vec l)).2 = none ∧
      ∀ (j : Nat) (c : String), LastAt cs j c → cell (setitem ofName t n labels (some (.int kk)) col (.vec l)).1 c i = l[j]? := by
  have h1 : rowPart t n labels (some (.int kk)) = .ok (some (.ints [kk]), 1) := by simp [rowPart, rowIdx, rowCount]
  have h2 : idxRows n (.ints [kk]) = some ([i].map some) := by simp [idxRows, hi]
  obtain ⟨cc, h3, h4⟩ := colIdx_any hne hc
  have h4' : colsOf (Dict.keys t) cc = cs := h4
  rw [setitem_body ofName t n labels _ col _ h1 h3, h4']
  have hbody : setBody ofName t n (some (.ints [kk])) 1 cs (.vec l) =
      loop (fun t (e : String × V) => setCol t e.1 (.ints [kk]) [e.2]) t (List.zip cs l) := by
    match cs, hcs with
    | c :: d :: cs, _ =>
      simp only [setBody]
      rw [if_pos ⟨trivial, hn1⟩, if_pos (List.all_eq_true.2 fun c hc => (Dict.has_iff t c).2 (hin c hc)), if_pos hl]
      rfl
  rw [hbody]
  obtain ⟨a1, a2⟩ := loop_scalars ht h2 (fun e : String × V => e.1) (fun e => e.2) (List.zip cs l)
    (fun e he => hin _ (List.of_mem_zip he).1) (fun t (e : String × V) => setCol t e.1 (.ints [kk]) [e.2]) fun _ _ _ => rfl
  refine ⟨a1, fun j c hj => ?_⟩
  obtain ⟨j1, j2⟩ := hj
  have hjl : j < l.length := by
    rw [hl]
    by_contra hnn
    rw [List.getElem?_eq_none (by omega)] at j1
    simp at j1
  rw [List.getElem?_eq_getElem hjl]
  refine a2 j (c, l[j]) (zip_get.2 ⟨j1, List.getElem?_eq_getElem hjl⟩) (fun j' a' hj' ha' he => ?_) i (by simp)
  exact j2 j' hj' (by rw [(zip_get.1 ha').1, he])

/-- **C73** A Dataset with as many rows and columns as are asked for, assigned to them (not to a single whole column): what its `j`-th column
holds in its `k`-th row is afterwards in the `j`-th column and the `k`-th row asked for; of several for one place the last. -/
theorem setitem_table (ofName : String → V) (t : Table V) (n : Nat) (ht : Rect t n) (labels : List String) (row : Option (RowArg V))
    (col : ColArg) (w : Table V) (cs : List String) (L : List (Option Nat)) (ha : Accepted (t.map Prod.fst) labels row)
    (hr : RowsMeantIn t n labels row L) (hn : none ∉ L) (hne : NonEmpty col) (hc : ColsMeant (t.map Prod.fst) col cs)
    (hcs : 2 ≤ cs.length) (hin : ∀ c ∈ cs, c ∈ t.map Prod.fst) (hw : w.length = cs.length) (hwr : Rect w L.length) :
    (setitem ofName t n labels row col (.table w L.length)).2 = none ∧
      ∀ (j k i : Nat) (c d : String), LastAt cs j c → LastAt L k (some i) → (w.map Prod.fst)[j]? = some d →
        cell (setitem ofName t n labels row col (.table w L.length)).1 c i = cell w d k := by
  obtain ⟨R, rfl⟩ := rows_some hn
  obtain ⟨ri, nr, h1, h2⟩ := rowPart_ok ht ha hr
  obtain ⟨cc, h3, h4⟩ := colIdx_any hne hc
  have h4' : colsOf (Dict.keys t) cc = cs := h4
  rw [setitem_body ofName t n labels row col _ h1 h3, h4']
  have hall : (cs.all fun c => Dict.has t c) = true := List.all_eq_true.2 fun c hc => (Dict.has_iff t c).2 (hin c hc)
  have hwd : ∀ (j : Nat) (d : String), (w.map Prod.fst)[j]? = some d → ∃ l, nthCol w j = some l ∧ l.length = R.length ∧
      ∀ (k : Nat), cell w d k = l[k]? := by
    intro j d hd
    rw [List.getElem?_map, Option.map_eq_some_iff] at hd
    obtain ⟨e, he, rfl⟩ := hd
    have hm := List.mem_of_getElem? he
    refine ⟨e.2, by simp [nthCol, he], by simpa using hwr.2 e hm, fun k => ?_⟩
    have hg : Dict.get w e.1 = some e.2 := Dict.get_of_mem hwr.1 hm
    rw [cell_eq_get, hg, Option.bind_some]
  have hcol : ∀ (j : Nat), j < cs.length → ∃ l, nthCol w j = some l ∧ l.length = R.length := by
    intro j hj
    obtain ⟨l, a, b, _⟩ := hwd j _ (List.getElem?_eq_getElem (l := w.map Prod.fst) (i := j) (by rw [List.length_map]; omega))
    exact ⟨l, a, b⟩
  have hkl : ∀ (k i : Nat), LastAt (R.map some) k (some i) → R[k]? = some i ∧ (∀ (k' : Nat), k < k' → R[k']? ≠ some i) ∧ k < R.length := by
    rintro k i ⟨a, b⟩
    have hk : R[k]? = some i := by simpa using a
    refine ⟨hk, fun k' hk' he => b k' hk' (by rw [List.getElem?_map, he]; rfl), ?_⟩
    by_contra hnn
    rw [List.getElem?_eq_none (by omega)] at hk
    simp at hk
  have hzip : ∀ (j : Nat) (c : String), LastAt cs j c → (List.zip cs (List.range cs.length))[j]? = some (c, j) ∧
      ∀ (j' : Nat) (a' : String × Nat), j < j' → (List.zip cs (List.range cs.length))[j']? = some a' → a'.1 ≠ c := by
    rintro j c ⟨a, b⟩
    have hj : j < cs.length := by
      by_contra hnn
      rw [List.getElem?_eq_none (by omega)] at a
      simp at a
    refine ⟨zip_get.2 ⟨a, by rw [List.getElem?_range hj]⟩, fun j' a' hj' ha' he => b j' hj' ?_⟩
    rw [(zip_get.1 ha').1, he]
  have hmemz : ∀ e ∈ List.zip cs (List.range cs.length), e.1 ∈ cs ∧ e.2 < cs.length := fun e he =>
    ⟨(List.of_mem_zip he).1, List.mem_range.1 (List.of_mem_zip he).2⟩
  by_cases hone : nr = 1 ∧ n ≠ 1
  · obtain ⟨ix, rfl⟩ : ∃ ix, ri = some ix := by
      cases ri with
      | some ix => exact ⟨ix, rfl⟩
      | none => exact absurd (rowPart_none h1) (by omega)
    have hR1 := rowPart_count h1 h2 hone.1 hone.2
    have hbody : setBody ofName t n (some ix) nr cs (.table w (R.map some).length) =
        loop (fun t (e : String × Nat) => match (nthCol w e.2).bind List.head? with
                | none => (t, some .indexError)
                | some x => setCol t e.1 ix [x]) t (List.zip cs (List.range cs.length)) := by
      match cs, hcs with
      | c :: d :: cs, _ =>
        simp only [setBody]
        rw [if_pos hone, if_pos hall, if_pos ⟨by rw [List.length_map]; exact hR1, hw⟩]
        rfl
    rw [hbody]
    have hx : ∀ (j : Nat), j < cs.length → ∃ x, (nthCol w j).bind List.head? = some x := by
      intro j hj
      obtain ⟨l, a, b⟩ := hcol j hj
      rw [a, Option.bind_some]
      cases l with
      | nil => simp at b; omega
      | cons x l => exact ⟨x, rfl⟩
    obtain ⟨b1, _, _, b4⟩ := loop_value (Kept n (t.map Prod.fst)) (fun t (e : String × Nat) => match (nthCol w e.2).bind List.head? with
                | none => (t, some .indexError)
                | some x => setCol t e.1 ix [x]) (fun e => e.1) (fun e i v => i ∈ R ∧ (nthCol w e.2).bind List.head? = some v)
      (List.zip cs (List.range cs.length)) (by
        rintro s ⟨hs1, hs2⟩ e he
        obtain ⟨he1, he2⟩ := hmemz e he
        obtain ⟨x, hx⟩ := hx e.2 he2
        obtain ⟨t', g1, g2, g3, g4, g5⟩ := setCol_ok hs1 (by rw [hs2]; exact hin _ he1) h2 (fits_scalar x R)
        refine ⟨t', by simp only [hx]; exact g1, ⟨g2, g3.trans hs2⟩, g4, ?_⟩
        rintro i v ⟨hi, hv⟩
        rw [hx] at hv
        cases hv
        obtain ⟨k, hk1, hk2⟩ := last_index hi
        have hkl : k < R.length := by
          by_contra hn
          rw [List.getElem?_eq_none (by omega)] at hk1
          simp at hk1
        exact g5 k i _ hk1 hk2 (by rw [List.getElem?_replicate, if_pos hkl])) t ⟨ht, rfl⟩
    refine ⟨b1, fun j k i c d hj hk hd => ?_⟩
    obtain ⟨z1, z2⟩ := hzip j c hj
    obtain ⟨k1, k2, k3⟩ := hkl k i hk
    obtain ⟨l, l1, l2, l3⟩ := hwd j d hd
    have hk0 : k = 0 := by omega
    subst hk0
    rw [l3]
    obtain ⟨x, hx'⟩ : ∃ x, l[0]? = some x := ⟨_, List.getElem?_eq_getElem (by omega)⟩
    rw [hx']
    refine b4 j (c, j) z1 z2 i x ⟨List.mem_of_getElem? k1, ?_⟩
    simp only [l1, Option.bind_some]
    rw [List.head?_eq_getElem?]
    exact hx'
  · have hbody : setBody ofName t n ri nr cs (.table w (R.map some).length) =
        loop (setFrom w ri n) t (List.zip cs (List.range cs.length)) := by
      match cs, hcs with
      | c :: d :: cs, _ =>
        simp only [setBody]
        rw [if_neg hone]
    rw [hbody]
    obtain ⟨b1, _, _, b4⟩ := loop_value (Kept n (t.map Prod.fst)) (setFrom w ri n) (fun e => e.1)
      (fun e i v => ∃ k l, LastAt R k i ∧ nthCol w e.2 = some l ∧ l[k]? = some v)
      (List.zip cs (List.range cs.length)) (by
        rintro s ⟨hs1, hs2⟩ e he
        obtain ⟨he1, he2⟩ := hmemz e he
        obtain ⟨l, hl1, hl2⟩ := hcol e.2 he2
        have hmem : e.1 ∈ s.map Prod.fst := by rw [hs2]; exact hin _ he1
        cases ri with
        | none =>
          simp only [Option.getD_none, idxRows, Option.some.injEq] at h2
          have hRn := map_some_inj h2
          have hln : l.length = n := by rw [hl2, ← hRn, List.length_range]
          obtain ⟨t', g1, g2, g3, g4, g5⟩ := setAttr_ok (l := l) hs1 hmem hln
          refine ⟨t', by simp only [setFrom, hl1]; exact g1, ⟨g2, g3.trans hs2⟩, g4, ?_⟩
          rintro i v ⟨k, l', hk, hl', hv⟩
          rw [hl1] at hl'
          cases hl'
          rw [g5, ← hv]
          have hkn : k < n := by
            by_contra hnn
            rw [List.getElem?_eq_none (by omega)] at hv
            simp at hv
          have := hk.1
          rw [← hRn, List.getElem?_range hkn, Option.some.injEq] at this
          rw [this]
        | some ix =>
          obtain ⟨col', hcol'⟩ := mem_names_get hmem
          obtain ⟨t', g1, g2, g3, g4, g5⟩ := setCol_ok (vals := l) (w := l) hs1 hmem h2 (by simp [fits, hl2])
          refine ⟨t', by simp only [setFrom, hcol', hl1]; exact g1, ⟨g2, g3.trans hs2⟩, g4, ?_⟩
          rintro i v ⟨k, l', hk, hl', hv⟩
          rw [hl1] at hl'
          cases hl'
          exact g5 k i v hk.1 hk.2 hv) t ⟨ht, rfl⟩
    refine ⟨b1, fun j k i c d hj hk hd => ?_⟩
    obtain ⟨z1, z2⟩ := hzip j c hj
    obtain ⟨k1, k2, k3⟩ := hkl k i hk
    obtain ⟨l, l1, l2, l3⟩ := hwd j d hd
    rw [l3, List.getElem?_eq_getElem (show k < l.length by omega)]
    exact b4 j (c, j) z1 z2 i _ ⟨k, l, ⟨k1, k2⟩, l1, List.getElem?_eq_getElem (by omega)⟩

/-- **C73** Assigning back what was read changes nothing: for two or more different columns and existing rows,
`ds[rows, columns] = ds[rows, columns]` raises nothing and leaves every cell as it was. -/
theorem setitem_getitem (ofName : String → V) (inv : V) (t : Table V) (n : Nat) (ht : Rect t n) (labels : List String)
    (row : Option (RowArg V)) (col : ColArg) (w : Table V) (cs : List String) (L : List (Option Nat))
    (ha : Accepted (t.map Prod.fst) labels row) (hr : RowsMeantIn t n labels row L) (hn : none ∉ L) (hne : NonEmpty col)
    (hc : ColsMeant (t.map Prod.fst) col cs) (hcs : 2 ≤ cs.length) (hnd : cs.Nodup)
    (h : getitem inv t n labels row col = .ok (.table w)) :
    (setitem ofName t n labels row col (.table w L.length)).2 = none ∧
      ∀ (c : String) (i : Nat), cell (setitem ofName t n labels row col (.table w L.length)).1 c i = cell t c i := by
  obtain ⟨cs', g1, g2, g3, g4⟩ := getitem_table inv t n ht labels row col w h
  have hcc := g1.unique hc
  subst hcc
  rw [eraseDups_of_nodup hnd] at g3
  have hwl : w.length = cs'.length := by rw [← g3]; simp
  obtain ⟨L', a1, a2, a3⟩ := g4 (by rintro rfl; simp at hwl; omega)
  have hLL := a1.unique hr
  subst hLL
  obtain ⟨s1, s2⟩ := setitem_table ofName t n ht labels row col w cs' L' ha hr hn hne hc hcs g2 hwl a2
  obtain ⟨_, f2, f3⟩ := setitem_frame ofName t n ht labels row col (.table w L'.length)
  refine ⟨s1, fun c i => ?_⟩
  by_cases hcm : c ∈ cs'
  · by_cases him : some i ∈ L'
    · obtain ⟨j, j1, j2⟩ := last_name hcm
      obtain ⟨R, hR⟩ := rows_some hn
      have hiR : i ∈ R := by rw [hR] at him; simpa using him
      obtain ⟨k, k1, k2⟩ := last_index hiR
      have hk1 : L'[k]? = some (some i) := by rw [hR, List.getElem?_map, k1]; rfl
      rw [s2 j k i c c ⟨j1, j2⟩ ⟨hk1, fun k' hk' he => k2 k' hk' (by
        rw [hR, List.getElem?_map] at he
        cases hk : R[k']? with
        | none => rw [hk] at he; simp at he
        | some y => rw [hk] at he; simpa using he)⟩ (by rw [g3]; exact j1)]
      rw [a3 c hcm k, hk1]
      rfl
    · exact f3 L' hr c i him
  · exact f2 cs' hc c hcm i

/-! ## `putmask` -/

/-- **C73** `putmask` with a Dataset of the same shape replaces exactly the cells of the rows where the mask is True, columns by position. -/
theorem putmask_table (t : Table V) (n : Nat) (ht : Rect t n) (m : List Bool) (w : Table V) (hw : Rect w n) (hl : w.length = t.length)
    (hm : m.length = n) : (putmask t n m (.table w n)).2 = none ∧ (putmask t n m (.table w n)).1.map Prod.fst = t.map Prod.fst ∧
      ∀ (j i : Nat) (c d : String), (t.map Prod.fst)[j]? = some c → (w.map Prod.fst)[j]? = some d →
        cell (putmask t n m (.table w n)).1 c i = if m[i]? = some true then cell w d i else cell t c i := by
  have hkeys : (List.zipWith (fun (e w : String × List V) => (e.1, List.zipWith (fun (e : V × Bool) (s : V) => if e.2 then s else e.1)
      (List.zip e.2 m) w.2)) t w).map Prod.fst = t.map Prod.fst := by
    refine List.ext_getElem? fun j => ?_
    rw [List.getElem?_map, List.getElem?_map, List.getElem?_zipWith]
    by_cases hj : j < t.length
    · rw [List.getElem?_eq_getElem hj, List.getElem?_eq_getElem (show j < w.length by omega)]
      rfl
    · rw [List.getElem?_eq_none (by omega), List.getElem?_eq_none (by omega)]
  simp only [putmask, hm, hl, ne_eq, not_true, if_false, and_self, if_true]
  refine ⟨trivial, hkeys, fun j i c d hj hd => ?_⟩
  rw [List.getElem?_map, Option.map_eq_some_iff] at hj hd
  obtain ⟨e, he, rfl⟩ := hj
  obtain ⟨f, hf, rfl⟩ := hd
  have hg : Dict.get t e.1 = some e.2 := Dict.get_of_mem ht.1 (List.mem_of_getElem? he)
  have hgw : Dict.get w f.1 = some f.2 := Dict.get_of_mem hw.1 (List.mem_of_getElem? hf)
  have hel := ht.2 e (List.mem_of_getElem? he)
  have hfl := hw.2 f (List.mem_of_getElem? hf)
  have hmem : (e.1, List.zipWith (fun (e : V × Bool) (s : V) => if e.2 then s else e.1) (List.zip e.2 m) f.2) ∈
      List.zipWith (fun (e w : String × List V) => (e.1, List.zipWith (fun (e : V × Bool) (s : V) => if e.2 then s else e.1)
      (List.zip e.2 m) w.2)) t w := List.mem_of_getElem? (i := j) (by rw [List.getElem?_zipWith, he, hf])
  rw [cell_eq_get, cell_eq_get, cell_eq_get, hg, hgw, Dict.get_of_mem (by rw [Dict.keys, hkeys]; exact ht.1) hmem, Option.bind_some,
    Option.bind_some, Option.bind_some, List.getElem?_zipWith]
  by_cases hi : i < n
  · have hz : (List.zip e.2 m)[i]? = some (e.2[i]'(by omega), m[i]'(by omega)) :=
      zip_get.2 ⟨List.getElem?_eq_getElem _, List.getElem?_eq_getElem _⟩
    rw [hz, List.getElem?_eq_getElem (show i < f.2.length by omega), List.getElem?_eq_getElem (show i < m.length by omega),
      List.getElem?_eq_getElem (show i < e.2.length by omega)]
    cases m[i] <;> simp
  · rw [List.getElem?_eq_none (show f.2.length ≤ i by omega), List.getElem?_eq_none (show m.length ≤ i by omega),
      List.getElem?_eq_none (show e.2.length ≤ i by omega)]
    cases (List.zip e.2 m)[i]? <;> simp

end

/-- **C73** (violation) An assignment that raises has already changed the Dataset: a Dataset of one column assigned to two columns. -/
theorem setitem_error_counterexample :
    setitem (fun _ => 0) [("a", [1, 2]), ("b", [3, 4])] 2 [] none (.names ["a", "b"]) (.table [("x", [7, 8])] 2) =
      ([("a", [7, 8]), ("b", [3, 4])], some .indexError) := by decide +kernel

/-- **C73** (violation) A Dataset with as many rows as columns are asked for, assigned to one row: its column names are stored. -/
theorem setitem_names_counterexample :
    setitem id [("a", ["p", "q", "r"]), ("b", ["s", "t", "u"])] 3 [] (some (.int 0)) (.names ["a", "b"])
        (.table [("x", ["1", "2"]), ("y", ["3", "4"])] 2) =
      ([("a", ["x", "q", "r"]), ("b", ["y", "t", "u"])], none) := by decide +kernel

/-- hypotheses of the theorems can be met -/
example : setitem (fun _ => 0) [("a", [1, 2, 3]), ("b", [4, 5, 6])] 3 [] (some (.boolArr [true, false, true])) (.names ["b", "a"])
      (.table [("x", [7, 8]), ("y", [9, 10])] 2) = ([("a", [9, 2, 10]), ("b", [7, 5, 8])], none) ∧
    setitem (fun _ => 0) [("a", [1, 2, 3]), ("b", [4, 5, 6])] 3 [] (some (.int (-1))) (.slice none none none) (.vec [7, 8]) =
      ([("a", [1, 2, 7]), ("b", [4, 5, 8])], none) ∧
    setitem (fun _ => 0) [("a", [1, 2, 3]), ("b", [4, 5, 6])] 3 ["a"] (some (.labels [[2], [3]])) (.int 1) (.scalar 9) =
      ([("a", [1, 2, 3]), ("b", [4, 9, 9])], none) ∧
    putmask [("a", [1, 2, 3])] 3 [true, false, true] (.table [("x", [7, 8, 9])] 3) = ([("a", [7, 2, 9])], none) := by
  refine ⟨by decide +kernel, by decide +kernel, by decide +kernel, by decide +kernel⟩

end Verif.Idx
