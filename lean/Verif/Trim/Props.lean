import Verif.Trim.Model
import Verif.Idx.Props
/-!
# `trim` and `keep` remove exactly the columns and rows without a good item
-/
namespace Verif.Trim
open Verif.Items (Dict)
open Verif.Idx (Table Err Got getitem getitem_answers trueRows)

variable {V : Type}

theorem count_ne_zero (r : List Bool) : r.count true ≠ 0 ↔ true ∈ r := by
  rw [← List.count_pos_iff]; omega

theorem count_ne_length (r : List Bool) : r.count true ≠ r.length ↔ false ∈ r := by
  rw [ne_eq, List.count_eq_length]
  constructor
  · intro h
    by_contra hc
    apply h
    intro b hb
    cases b with
    | true => rfl
    | false => exact absurd hb hc
  · intro h hc
    have := hc false h
    simp at this

section
variable (labels : List String) (computable : String → Bool) (func : List V → Option (List Bool)) (columns rows keep : Bool)

theorem judge_some {e : String × List V} {r : List Bool} (hl : ∀ r, func e.2 = some r → r.length = e.2.length) :
    (judge labels computable func columns keep e).2 = some r ↔
      (e.1 ∉ labels ∧ computable e.1 = true ∧ func e.2 = some r) ∧ (columns = true → ¬ AllBad keep r) := by
  unfold judge
  by_cases h : e.1 ∉ labels ∧ computable e.1 = true
  · rw [if_pos h]
    cases hf : func e.2 with
    | none => simp
    | some r' =>
      dsimp only
      have hadd : (if keep then decide (r'.count true ≠ 0) else decide (r'.count true ≠ e.2.length)) = true ↔ ¬ AllBad keep r' := by
        unfold AllBad
        rw [not_not]
        cases keep with
        | true => rw [if_pos rfl, decide_eq_true_eq, count_ne_zero]
        | false => rw [if_neg (by simp), decide_eq_true_eq, ← hl r' hf, count_ne_length]
      by_cases ha : ((if keep then decide (r'.count true ≠ 0) else decide (r'.count true ≠ e.2.length)) || !columns) = true
      · rw [if_pos ha]
        simp only [Option.some.injEq]
        rw [Bool.or_eq_true, hadd] at ha
        constructor
        · rintro rfl
          refine ⟨⟨h.1, h.2, rfl⟩, fun hc => ?_⟩
          rcases ha with ha | ha
          · exact ha
          · rw [hc] at ha; simp at ha
        · rintro ⟨⟨_, _, h3⟩, _⟩; exact h3
      · rw [if_neg ha]
        rw [Bool.or_eq_true, hadd, not_or] at ha
        simp only [reduceCtorEq, Option.some.injEq, false_iff, not_and]
        rintro ⟨_, _, rfl⟩ hcc
        exact ha.1 (hcc (by simpa using ha.2))
  · rw [if_neg h]
    simp only [reduceCtorEq, false_iff, not_and]
    rintro ⟨h1, h2, _⟩
    exact absurd ⟨h1, h2⟩ h

theorem judge_fst {e : String × List V} (hl : ∀ r, func e.2 = some r → r.length = e.2.length) :
    (judge labels computable func columns keep e).1 = true ↔
      ∀ r, e.1 ∉ labels ∧ computable e.1 = true ∧ func e.2 = some r → columns = true → ¬ AllBad keep r := by
  have hs := @judge_some V labels computable func columns keep e
  unfold judge at hs ⊢
  by_cases h : e.1 ∉ labels ∧ computable e.1 = true
  · rw [if_pos h] at hs ⊢
    cases hf : func e.2 with
    | none => simp
    | some r' =>
      have hs' := hs (r := r') hl
      rw [hf] at hs'
      dsimp only at hs' ⊢
      by_cases ha : ((if keep then decide (r'.count true ≠ 0) else decide (r'.count true ≠ e.2.length)) || !columns) = true
      · rw [if_pos ha] at hs' ⊢
        refine ⟨fun _ => ?_, fun _ => rfl⟩
        rintro r ⟨_, _, hr⟩
        cases hr
        exact (hs'.1 rfl).2
      · rw [if_neg ha] at hs' ⊢
        simp only [Bool.false_eq_true, false_iff]
        intro hall
        have := hs'.2 ⟨⟨h.1, h.2, rfl⟩, hall r' ⟨h.1, h.2, rfl⟩⟩
        simp at this
  · rw [if_neg h]
    simp only [true_iff]
    rintro r ⟨h1, h2, _⟩
    exact absurd ⟨h1, h2⟩ h

end

theorem combine_spec (keep : Bool) (n : Nat) : ∀ (ms : List (List Bool)) (m : List Bool), m.length = n → (∀ x ∈ ms, x.length = n) →
    (combine keep m ms).length = n ∧ ∀ (i : Nat), (combine keep m ms)[i]? = some keep ↔ ∃ x ∈ m :: ms, x[i]? = some keep := by
  intro ms
  induction ms with
  | nil => intro m hm _; exact ⟨hm, fun i => by simp [combine]⟩
  | cons y ms ih =>
    intro m hm hms
    have hy : y.length = n := hms y List.mem_cons_self
    obtain ⟨h1, h2⟩ := ih (List.zipWith (fun (a b : Bool) => if keep then a || b else a && b) m y) (by simp [hm, hy])
      (fun x hx => hms x (List.mem_cons_of_mem _ hx))
    refine ⟨h1, fun i => ?_⟩
    have hstep : combine keep m (y :: ms) = combine keep (List.zipWith (fun (a b : Bool) => if keep then a || b else a && b) m y) ms := rfl
    rw [hstep, h2]
    have hz : (List.zipWith (fun (a b : Bool) => if keep then a || b else a && b) m y)[i]? = some keep ↔ m[i]? = some keep ∨ y[i]? = some keep := by
      by_cases hi : i < n
      · rw [List.getElem?_zipWith, List.getElem?_eq_getElem (by omega : i < m.length), List.getElem?_eq_getElem (by omega : i < y.length)]
        simp only [Option.some.injEq]
        generalize m[i] = a
        generalize y[i] = b
        cases keep <;> cases a <;> cases b <;> simp
      · rw [List.getElem?_eq_none (by simp; omega), List.getElem?_eq_none (by omega), List.getElem?_eq_none (by omega)]
        simp
    simp only [List.mem_cons, exists_eq_or_imp] at *
    rw [hz, or_assoc]

/-- **C79** `trim` and `keep` with a test that gives a result of the same length in a new array: exactly the columns without a good item are
removed, and exactly the rows without a good item in any tested column, unless no tested column stays; the rest is unchanged and in
order, and so is the Dataset itself. -/
theorem trim_table [DecidableEq V] (inv : V) (ofBool : Bool → V) (t : Table V) (n : Nat) (ht : Rect t n) (labels : List String)
    (computable : String → Bool) (func : List V → Option (List Bool)) (hf : ∀ l r, func l = some r → r.length = l.length) (columns rows keep : Bool)
    (hne : ∃ c ∈ t.map Prod.fst, ColStays t labels computable func columns keep c) (inplace : String → Bool) (hin : ∀ c, inplace c = false) :
    ∃ (t' : Table V) (R : List Nat), trim inv ofBool inplace t n labels computable func columns rows keep = (.ok (.table t'), t) ∧
      (t'.map Prod.fst).Sublist (t.map Prod.fst) ∧
      (∀ c ∈ t.map Prod.fst, c ∈ t'.map Prod.fst ↔ ColStays t labels computable func columns keep c) ∧
      R.Pairwise (· < ·) ∧ (∀ (i : Nat), i ∈ R ↔ i < n ∧ RowStays t labels computable func columns rows keep i) ∧
      ∀ c ∈ t'.map Prod.fst, ColFrom inv t t' (R.map some) c := by
  set colFilter := (t.filter fun (e : String × List V) => (judge labels computable func columns keep e).1).map Prod.fst with hcf
  have huniq : ∀ c l l', (c, l) ∈ t → (c, l') ∈ t → l = l' := by
    intro c l l' h h'
    have a := Dict.get_of_mem (d := t) ht.1 h
    have b := Dict.get_of_mem (d := t) ht.1 h'
    rw [a] at b; cases b; rfl
  have hstay : ∀ e ∈ t, (judge labels computable func columns keep e).1 = true ↔ ColStays t labels computable func columns keep e.1 := by
    intro e he
    rw [judge_fst labels computable func columns keep (hf e.2)]
    constructor
    · rintro h r ⟨l, h1, h2, h3, h4⟩
      have := huniq e.1 l e.2 h1 he
      subst this
      exact h r ⟨h2, h3, h4⟩
    · rintro h r ⟨h2, h3, h4⟩
      exact h r ⟨e.2, he, h2, h3, h4⟩
  have hsub : colFilter.Sublist (t.map Prod.fst) := List.Sublist.map _ List.filter_sublist
  have hcfn : colFilter.Nodup := hsub.nodup ht.1
  have hmem : ∀ c ∈ t.map Prod.fst, c ∈ colFilter ↔ ColStays t labels computable func columns keep c := by
    intro c hc
    obtain ⟨e, he, rfl⟩ := List.mem_map.1 hc
    constructor
    · intro h
      obtain ⟨e', he', h'⟩ := List.mem_map.1 h
      obtain ⟨h1, h2⟩ := List.mem_filter.1 he'
      have := (hstay e' h1).1 h2
      rwa [h'] at this
    · intro h
      exact List.mem_map_of_mem (List.mem_filter.2 ⟨he, (hstay e he).2 h⟩)
  have hcne : colFilter ≠ [] := by
    obtain ⟨c, hc, hs⟩ := hne
    intro h
    have := (hmem c hc).2 hs
    rw [h] at this
    simp at this
  set masks := t.filterMap fun (e : String × List V) => (judge labels computable func columns keep e).2.map fun (r : List Bool) => (e.1, r) with hmk
  have hmask : ∀ x : String × List Bool, x ∈ masks ↔ Tested t labels computable func x.1 x.2 ∧ ColStays t labels computable func columns keep x.1 := by
    intro x
    rw [hmk, List.mem_filterMap]
    constructor
    · rintro ⟨e, he, h⟩
      obtain ⟨r, hr, hx⟩ := Option.map_eq_some_iff.1 h
      subst hx
      rw [judge_some labels computable func columns keep (hf e.2)] at hr
      refine ⟨⟨e.2, he, hr.1.1, hr.1.2.1, hr.1.2.2⟩, ?_⟩
      rw [← hstay e he, judge_fst labels computable func columns keep (hf e.2)]
      rintro r' ⟨_, _, h'⟩ hc
      rw [hr.1.2.2] at h'
      cases h'
      exact hr.2 hc
    · rintro ⟨⟨l, h1, h2, h3, h4⟩, hs⟩
      refine ⟨(x.1, l), h1, ?_⟩
      have : (judge labels computable func columns keep (x.1, l)).2 = some x.2 :=
        (judge_some labels computable func columns keep (hf l)).2 ⟨⟨h2, h3, h4⟩, hs x.2 ⟨l, h1, h2, h3, h4⟩⟩
      rw [this]
      rfl
  have hml : ∀ x ∈ masks, x.2.length = n := by
    intro x hx
    obtain ⟨⟨l, h1, _, _, h4⟩, _⟩ := (hmask x).1 hx
    rw [hf l _ h4]
    exact ht.2 _ h1
  generalize hrm' : rowMask rows keep masks = rowmask
  have hrm := hrm'.symm
  clear hrm'
  have htrim : trim inv ofBool inplace t n labels computable func columns rows keep =
      (getitem inv t n labels ((rowFilter keep (rowmask.map Prod.snd)).map .boolArr) (.names colFilter), t) := by
    unfold trim
    rw [← hcf, ← hmk]
    dsimp only
    rw [← hrm]
    have hself : written ofBool inplace t rowmask = t := by
      cases rowmask with
      | none => rfl
      | some m => simp [written, hin]
    rw [hself]
  rw [htrim]
  -- the rows selected
  have hrow : ∃ R : List Nat, Verif.Idx.RowsMeantIn t n labels ((rowFilter keep (rowmask.map Prod.snd)).map .boolArr) (R.map some) ∧
      R.Pairwise (· < ·) ∧ ∀ (i : Nat), i ∈ R ↔ i < n ∧ RowStays t labels computable func columns rows keep i := by
    have hAll : ∀ (o : Option (List Bool)), o = none → (∀ (i : Nat), i < n → RowStays t labels computable func columns rows keep i) →
        ∃ R : List Nat, Verif.Idx.RowsMeantIn t n labels (o.map .boolArr) (R.map some) ∧
          R.Pairwise (· < ·) ∧ ∀ (i : Nat), i ∈ R ↔ i < n ∧ RowStays t labels computable func columns rows keep i := by
      rintro o rfl h
      refine ⟨List.range n, rfl, List.pairwise_lt_range, fun i => ?_⟩
      rw [List.mem_range]
      exact ⟨fun hi => ⟨hi, h i hi⟩, fun hi => hi.1⟩
    cases hm : masks with
    | nil =>
      rw [hm, rowMask] at hrm
      rw [hrm]
      apply hAll _ rfl
      intro i _
      right; right
      rintro ⟨c, r, h1, h2⟩
      have := (hmask (c, r)).2 ⟨h1, h2⟩
      rw [hm] at this
      simp at this
    | cons m ms =>
      rw [hm] at hrm
      rw [rowMask] at hrm
      by_cases hr : rows = true
      · rw [if_pos hr] at hrm
        rw [hrm]
        obtain ⟨hlen, hval⟩ := combine_spec keep n (ms.map Prod.snd) m.2 (hml m (by rw [hm]; simp))
          (fun x hx => by
            obtain ⟨y, hy, rfl⟩ := List.mem_map.1 hx
            exact hml y (by rw [hm]; simp [hy]))
        set rm := combine keep m.2 (ms.map Prod.snd) with hrmdef
        have hstays : ∀ (i : Nat), RowStays t labels computable func columns rows keep i ↔ rm[i]? = some keep := by
          intro i
          rw [hval]
          constructor
          · rintro (h | ⟨c, r, h1, h2⟩ | h)
            · rw [hr] at h; simp at h
            · have hs : ColStays t labels computable func columns keep c := by
                rintro r' ⟨l', a, b, c', d⟩ _ hbad
                obtain ⟨l, a', _, _, d'⟩ := h1
                have := huniq _ _ _ a a'
                subst this
                rw [d] at d'
                cases d'
                exact hbad (List.mem_of_getElem? h2)
              have := (hmask (c, r)).2 ⟨h1, hs⟩
              rw [hm] at this
              exact ⟨r, by rw [← List.map_cons]; exact List.mem_map_of_mem (f := Prod.snd) this, h2⟩
            · exfalso
              have := (hmask m).1 (by rw [hm]; simp)
              exact h ⟨m.1, m.2, this.1, this.2⟩
          · rintro ⟨x, hx, hxi⟩
            right; left
            rw [← List.map_cons] at hx
            obtain ⟨y, hy, rfl⟩ := List.mem_map.1 hx
            exact ⟨y.1, y.2, ((hmask y).1 (by rw [hm]; exact hy)).1, hxi⟩
        have hidx : ∀ (q : List Bool), q.length = n → (∀ (i : Nat), q[i]? = some true ↔ rm[i]? = some keep) →
            ∃ R : List Nat, Verif.Idx.RowsMeantIn t n labels (some (.boolArr q)) (R.map some) ∧
              R.Pairwise (· < ·) ∧ ∀ (i : Nat), i ∈ R ↔ i < n ∧ RowStays t labels computable func columns rows keep i := by
          intro q hq hqi
          refine ⟨trueRows q, ⟨hq, rfl⟩, List.pairwise_lt_range.sublist List.filter_sublist, fun i => ?_⟩
          rw [trueRows, List.mem_filter, List.mem_range, hq, beq_iff_eq, hqi, hstays]
        simp only [Option.map_some]
        have hget : ∀ (i : Nat), i < n → ∃ b, rm[i]? = some b := fun i hi => ⟨_, List.getElem?_eq_getElem (by omega)⟩
        unfold rowFilter
        cases keep with
        | true =>
          dsimp only
          rw [if_pos rfl]
          split
          · exact hidx rm hlen fun i => Iff.rfl
          · rename_i hc
            apply hAll none rfl
            intro i hi
            rw [hstays]
            rw [count_ne_length] at hc
            obtain ⟨b, hb⟩ := hget i hi
            cases b with
            | true => exact hb
            | false => exact absurd (List.mem_of_getElem? hb) hc
        | false =>
          dsimp only
          rw [if_neg (by simp)]
          split
          · apply hidx _ (by simp [hlen])
            intro i
            rw [List.getElem?_map]
            cases rm[i]? with
            | none => simp
            | some b => cases b <;> simp
          · rename_i hc
            apply hAll none rfl
            intro i hi
            rw [hstays]
            rw [count_ne_zero] at hc
            obtain ⟨b, hb⟩ := hget i hi
            cases b with
            | false => exact hb
            | true => exact absurd (List.mem_of_getElem? hb) hc
      · rw [if_neg hr] at hrm
        rw [hrm]
        exact hAll _ rfl fun i _ => Or.inl (by simpa using hr)
  obtain ⟨R, hR1, hR2, hR3⟩ := hrow
  have hacc : Verif.Idx.Accepted (t.map Prod.fst) labels ((rowFilter keep (rowmask.map Prod.snd)).map (Verif.Idx.RowArg.boolArr (V := V))) := by
    cases rowFilter keep (rowmask.map Prod.snd) <;> trivial
  obtain ⟨t', g1, g2, g3⟩ := getitem_answers inv t n ht labels _ (.names colFilter) colFilter (R.map some) hcne rfl
    (fun c hc => hsub.subset hc) hacc hR1
  rw [Verif.Idx.eraseDups_of_nodup hcfn] at g2
  refine ⟨t', R, by rw [g1], by rw [g2]; exact hsub, ?_, hR2, hR3, ?_⟩
  · intro c hc
    rw [g2]
    exact hmem c hc
  · intro c hc
    rw [g2] at hc
    exact g3 c hc

/-- **C79** the same for `Dataset.keep`. -/
theorem keep_table [DecidableEq V] (inv : V) (ofBool : Bool → V) (t : Table V) (n : Nat) (ht : Rect t n) (labels : List String)
    (computable : String → Bool) (func : List V → Option (List Bool)) (hf : ∀ l r, func l = some r → r.length = l.length) (rows : Bool)
    (hne : ∃ c ∈ t.map Prod.fst, ColStays t labels computable func true true c) (inplace : String → Bool) (hin : ∀ c, inplace c = false) :
    ∃ (t' : Table V) (R : List Nat), keepRows inv ofBool inplace t n labels computable func rows = (.ok (.table t'), t) ∧
      (t'.map Prod.fst).Sublist (t.map Prod.fst) ∧
      (∀ c ∈ t.map Prod.fst, c ∈ t'.map Prod.fst ↔ ColStays t labels computable func true true c) ∧
      R.Pairwise (· < ·) ∧ (∀ (i : Nat), i ∈ R ↔ i < n ∧ RowStays t labels computable func true rows true i) ∧
      ∀ c ∈ t'.map Prod.fst, ColFrom inv t t' (R.map some) c :=
  trim_table inv ofBool t n ht labels computable func hf true rows true hne inplace hin

/-- items equal to 0 are bad -/
def isZero (l : List Int) : Option (List Bool) := some (l.map fun (x : Int) => decide (x = 0))

example : trim (-1) (fun b => if b then 1 else 0) (fun _ => false) [("k", [7, 8, 9]), ("a", [0, 0, 0]), ("b", [0, 1, 2]), ("c", [0, 0, 3])] 3 ["k"]
    (fun _ => true) isZero true true false =
    (.ok (.table [("k", [8, 9]), ("b", [1, 2]), ("c", [0, 3])]), [("k", [7, 8, 9]), ("a", [0, 0, 0]), ("b", [0, 1, 2]), ("c", [0, 0, 3])]) := by
  decide +kernel

/-- Disagreement: when every column is bad throughout, the documentation promises an empty Dataset; IndexError is raised. -/
theorem trim_allbad_counterexample : (trim (-1) (fun b => if b then 1 else 0) (fun _ => false) [("a", [0, 0]), ("b", [0, 0])] 2 []
    (fun _ => true) isZero true true false).1 = .error .indexError := by decide +kernel

/-- Disagreement: with a label column and all tested columns bad throughout, every row is bad but all rows stay. -/
theorem trim_rows_counterexample : (trim (-1) (fun b => if b then 1 else 0) (fun _ => false) [("k", [7, 8]), ("a", [0, 0])] 2 ["k"]
    (fun _ => true) isZero true true false).1 = .ok (.table [("k", [7, 8])]) := by decide +kernel

/-- Disagreement: a test that returns the column itself makes `trim` change the Dataset: column `a` becomes the product of the masks. -/
theorem trim_inplace_counterexample : trim (-1) (fun b => if b then 1 else 0) (fun c => c == "a") [("a", [1, 1, 0]), ("b", [0, 1, 1])] 3 []
    (fun _ => true) (fun (l : List Int) => some (l.map fun (x : Int) => decide (x = 1))) true true false =
    (.ok (.table [("a", [0, 0]), ("b", [0, 1])]), [("a", [0, 1, 0]), ("b", [0, 1, 1])]) := by decide +kernel

end Verif.Trim
