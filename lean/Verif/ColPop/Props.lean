import Verif.ColPop.Model
import Verif.Struct.Edit
/-! # Taking columns out of Structs: properties (C364 - C366) -/
namespace Verif.ColPop
open Verif.Items Verif.Struct Dict
variable {V : Type} {cls : Cls} {s : St V}

/-- the other columns are as they were, in their order -/
def Without (s s' : St V) (l : List Name) : Prop :=
  names s' = (names s).filter (· ∉ l) ∧ ∀ m, m ∉ l → value s' m = value s m

/-- the column at a place, from the end for negative numbers -/
def AtPlace (s : St V) (i : Int) (n : Name) : Prop :=
  ∃ k : Nat, (names s)[k]? = some n ∧ (i = k ∨ i = k - (names s).length)

/-- a Struct of these columns, in this order, with their values -/
def Columns (s : St V) (l : List Name) (vs : List (Name × V)) : Prop :=
  vs.map Prod.fst = l ∧ ∀ e ∈ vs, value s e.1 = some e.2

theorem getAttr_value {n : Name} (hv : cls.attr n = false) (hn : n ∈ names s) : ∃ v, getAttr cls s n = .ok v ∧ value s n = some v := by
  unfold getAttr
  rw [if_neg (by simp [hv])]
  unfold value
  cases hg : s.items.get n with
  | none => exact absurd hn ((get_eq_none_iff _ _).1 hg)
  | some it => exact ⟨it.val, rfl, rfl⟩

theorem attrs_values (l : List Name) (hv : ∀ n ∈ l, cls.attr n = false) (hn : ∀ n ∈ l, n ∈ names s) :
    ∃ vs, attrs cls s l = .ok vs ∧ Columns s l vs := by
  induction l with
  | nil => exact ⟨[], rfl, rfl, by simp⟩
  | cons n l ih =>
    obtain ⟨vs, h1, h2, h3⟩ := ih (fun m hm => hv m (by simp [hm])) (fun m hm => hn m (by simp [hm]))
    obtain ⟨v, g1, g2⟩ := getAttr_value (cls := cls) (hv n (by simp)) (hn n (by simp))
    refine ⟨(n, v) :: vs, ?_, by simp [h2], ?_⟩
    · unfold attrs at h1 ⊢
      rw [List.mapM_cons, g1, h1]
      rfl
    · intro e he
      rcases List.mem_cons.1 he with rfl | he
      · exact g2
      · exact h3 e he

theorem any_has (l : List Name) (hn : ∀ n ∈ l, n ∈ names s) : (l.any fun n => !s.items.has n) = false := by
  rw [List.any_eq_false]
  intro n hm
  rw [(has_iff _ _).2 (hn n hm)]
  simp

theorem finish_ok (hl : s.locked = false) (l : List Name) (hn : ∀ n ∈ l, n ∈ names s) (r : Out V) :
    ∃ s', finish s l (.ok r) = (s', .ok r) ∧ Without s s' l := by
  obtain ⟨r1, r2, r3⟩ := col_remove_correct hl l true (fun _ => hn)
  refine ⟨(colRemove s l true).1, ?_, r2, r3⟩
  simp only [finish]
  cases hr : colRemove s l true with
  | mk s' e =>
    rw [hr] at r1
    simp only at r1
    subst r1
    rfl

/-- **C364** One column: its value is returned, and the Struct is without it. -/
theorem pop_one (hl : s.locked = false) (n : Name) (hn : n ∈ names s) (hv : cls.attr n = false) :
    ∃ v s', colPop cls s (.name n) = (s', .ok (.one v)) ∧ value s n = some v ∧ Without s s' [n] := by
  obtain ⟨v, h1, h2⟩ := getAttr_value (cls := cls) hv hn
  obtain ⟨s', h3, h4⟩ := finish_ok hl [n] (by simpa using hn) (Out.one v)
  refine ⟨v, s', ?_, h2, h4⟩
  show popSel cls s (.one n) = _
  simp only [popSel]
  rw [if_pos ((has_iff _ _).2 hn), h1]
  exact h3

theorem popList_ok (hl : s.locked = false) (l : List Name) (h0 : l ≠ []) (hd : l.Nodup) (hn : ∀ n ∈ l, n ∈ names s) (hv : ∀ n ∈ l, cls.attr n = false) :
    ∃ vs s', popList cls s l = (s', .ok (.many vs)) ∧ Columns s l vs ∧ Without s s' l := by
  obtain ⟨vs, h1, h2⟩ := attrs_values l hv hn
  obtain ⟨s', h3, h4⟩ := finish_ok hl l hn (Out.many vs)
  refine ⟨vs, s', ?_, h2, h4⟩
  unfold popList
  rw [any_has l hn, if_neg (by simp)]
  obtain ⟨n, l', rfl⟩ := List.exists_cons_of_ne_nil h0
  have hg : getItem cls s (.names (n :: l')) = .ok (.many vs) := by
    show getMany cls s (n :: l') = _
    unfold getMany
    rw [if_pos hd, h1]
    rfl
  rw [hg]
  exact h3

/-- **C364** Several columns: a Struct of them in the order asked for is returned, and the Struct is without them. -/
theorem pop_many (hl : s.locked = false) (l : List Name) (h0 : l ≠ []) (hd : l.Nodup) (hn : ∀ n ∈ l, n ∈ names s) (hv : ∀ n ∈ l, cls.attr n = false) :
    ∃ vs s', colPop cls s (.names l) = (s', .ok (.many vs)) ∧ Columns s l vs ∧ Without s s' l := by
  obtain ⟨n, l', rfl⟩ := List.exists_cons_of_ne_nil h0
  exact popList_ok hl _ h0 hd hn hv

/-- **C364** `:` takes all columns. -/
theorem pop_all (hl : s.locked = false) (h0 : names s ≠ []) (hd : (names s).Nodup) (hv : ∀ n ∈ names s, cls.attr n = false) :
    ∃ vs s', colPop cls s .all = (s', .ok (.many vs)) ∧ Columns s (names s) vs ∧ names s' = [] := by
  obtain ⟨vs, s', h1, h2, h3⟩ := popList_ok hl (names s) h0 hd (fun _ h => h) hv
  refine ⟨vs, s', h1, h2, ?_⟩
  rw [h3.1, List.filter_eq_nil_iff]
  intro n hn
  simp [hn]

theorem keyAt_ok {i : Int} {n : Name} (h : AtPlace s i n) : keyAt s i = .ok n := by
  obtain ⟨k, hk, hi⟩ := h
  unfold names at hk hi
  have hlt : k < s.items.keys.length := by
    rcases Nat.lt_or_ge k s.items.keys.length with h | h
    · exact h
    · rw [List.getElem?_eq_none h] at hk
      cases hk
  unfold keyAt
  have e : (if i < 0 then i + s.items.keys.length else i) = (k : Int) := by
    rcases hi with rfl | rfl
    · rw [if_neg (by omega)]
    · rw [if_pos (by omega)]
      omega
  rw [e]
  dsimp only
  rw [if_neg (by omega), Int.toNat_natCast, hk]

theorem keyAt_of_ok {i : Int} {n : Name} (h : keyAt s i = .ok n) : AtPlace s i n := by
  unfold keyAt at h
  dsimp only at h
  by_cases h0 : (if i < 0 then i + (s.items.keys.length : Int) else i) < 0
  · rw [if_pos h0] at h
    cases h
  · rw [if_neg h0] at h
    refine ⟨(if i < 0 then i + (s.items.keys.length : Int) else i).toNat, ?_, ?_⟩
    · cases hk : s.items.keys[(if i < 0 then i + (s.items.keys.length : Int) else i).toNat]? with
      | none =>
        rw [hk] at h
        cases h
      | some m =>
        rw [hk] at h
        cases h
        exact hk
    · unfold names
      by_cases hi : i < 0
      · rw [if_pos hi] at h0 ⊢
        right
        omega
      · rw [if_neg hi] at h0 ⊢
        left
        omega

/-- **C364** A number is the column at this place, from the end if it is negative. -/
theorem pop_index (i : Int) (n : Name) (hn : AtPlace s i n) : colPop cls s (.index i) = colPop cls s (.name n) := by
  simp only [colPop, extract, keyAt_ok hn]
  rfl

theorem finish_error (s : St V) (l : List Name) (r : Except String (Out V)) (e : String) (h : (finish s l r).2 = .error e) : (finish s l r).1 = s := by
  cases r with
  | error e' => rfl
  | ok r =>
    simp only [finish] at h ⊢
    by_cases hl : s.locked = true
    · have : colRemove s l true = (s, some "AttributeError: locked") := by simp [colRemove, hl]
      rw [this]
    · by_cases hm : (l.any fun n => !s.items.has n) = true
      · have : colRemove s l true = (s, some "IndexError: unknown column") := by
          unfold colRemove
          rw [if_neg hl, Bool.true_and, if_pos hm]
        rw [this]
      · have hn : ∀ n ∈ l, n ∈ names s := by
          intro n hnl
          by_contra hc
          exact hm (List.any_eq_true.2 ⟨n, hnl, by rw [(has_false_iff _ _).2 hc]; rfl⟩)
        obtain ⟨s', h1, _⟩ := finish_ok (by simpa using hl) l hn r
        simp only [finish] at h1
        rw [h1] at h
        cases h

/-- **C365** If it raises nothing has changed. -/
theorem pop_raises_unchanged (cls : Cls) (s : St V) (a : Arg) (e : String) (h : (colPop cls s a).2 = .error e) : (colPop cls s a).1 = s := by
  have many : ∀ l, (popList cls s l).2 = .error e → (popList cls s l).1 = s := by
    intro l h
    unfold popList at h ⊢
    by_cases h1 : (l.any fun n => !s.items.has n) = true
    · rw [if_pos h1]
    · rw [if_neg h1] at h ⊢
      exact finish_error s l _ e h
  unfold colPop at h ⊢
  cases hx : extract s a with
  | error e' => rfl
  | ok c =>
    rw [hx] at h
    dsimp only at h ⊢
    cases c with
    | one n =>
      simp only [popSel] at h ⊢
      by_cases hh : s.items.has n = true
      · rw [if_pos hh] at h ⊢
        exact finish_error s _ _ e h
      · rw [if_neg hh]
    | list l => exact many l h
    | array l =>
      simp only [popSel]
      by_cases h1 : (l.any fun n => !s.items.has n) = true
      · rw [if_pos h1]
      · rw [if_neg h1]
    | none => exact many _ h

theorem finish_locked (hl : s.locked = true) (l : List Name) (r : Except String (Out V)) : ∃ e, (finish s l r).2 = .error e := by
  cases r with
  | error e => exact ⟨e, rfl⟩
  | ok r => exact ⟨"AttributeError: locked", by simp [finish, colRemove, hl]⟩

/-- **C365** Unknown names, repeated names, no names, places that are not there and locked Structs raise. -/
theorem pop_raises (cls : Cls) (s : St V) :
    (∀ n, n ∉ names s → ∃ e, (colPop cls s (.name n)).2 = .error e) ∧
    (∀ l, (∃ n ∈ l, n ∉ names s) → ∃ e, (colPop cls s (.names l)).2 = .error e) ∧
    (∀ l : List Name, l = [] ∨ ¬ l.Nodup → ∃ e, (colPop cls s (.names l)).2 = .error e) ∧
    (∀ i, (∀ n, ¬ AtPlace s i n) → ∃ e, (colPop cls s (.index i)).2 = .error e) ∧
    (s.locked = true → ∀ a, ∃ e, (colPop cls s a).2 = .error e) := by
  refine ⟨?_, ?_, ?_, ?_, ?_⟩
  · intro n hn
    refine ⟨"IndexError: unknown column", ?_⟩
    simp only [colPop, extract, popSel]
    rw [if_neg (by rw [(has_false_iff _ _).2 hn]; simp)]
  · rintro l ⟨n, h1, h2⟩
    refine ⟨"IndexError: unknown column", ?_⟩
    cases l with
    | nil => cases h1
    | cons m l =>
      show (popList cls s (m :: l)).2 = _
      unfold popList
      rw [if_pos (List.any_eq_true.2 ⟨n, h1, by rw [(has_false_iff _ _).2 h2]; rfl⟩)]
  · rintro l hl
    cases l with
    | nil => exact ⟨_, rfl⟩
    | cons m l =>
      have hd : ¬ (m :: l).Nodup := by simpa using hl
      show ∃ e, (popList cls s (m :: l)).2 = _
      unfold popList
      by_cases h1 : ((m :: l).any fun n => !s.items.has n) = true
      · rw [if_pos h1]
        exact ⟨_, rfl⟩
      · rw [if_neg h1]
        have hg : getItem cls s (.names (m :: l)) = .error "IndexError: duplicates" := by
          show getMany cls s (m :: l) = _
          unfold getMany
          rw [if_neg hd]
        rw [hg]
        exact ⟨_, rfl⟩
  · intro i hi
    cases hk : keyAt s i with
    | ok n => exact absurd (keyAt_of_ok hk) (hi n)
    | error e =>
      refine ⟨e, ?_⟩
      simp only [colPop, extract, hk]
      rfl
  · intro hl a
    have many : ∀ l, ∃ e, (popList cls s l).2 = .error e := by
      intro l
      unfold popList
      by_cases h1 : (l.any fun n => !s.items.has n) = true
      · rw [if_pos h1]
        exact ⟨_, rfl⟩
      · rw [if_neg h1]
        exact finish_locked hl l _
    unfold colPop
    cases extract s a with
    | error e => exact ⟨e, rfl⟩
    | ok c =>
      cases c with
      | one n =>
        simp only [popSel]
        by_cases hh : s.items.has n = true
        · rw [if_pos hh]
          exact finish_locked hl _ _
        · rw [if_neg hh]
          exact ⟨_, rfl⟩
      | list l => exact many l
      | array l =>
        simp only [popSel]
        by_cases h1 : (l.any fun n => !s.items.has n) = true
        · rw [if_pos h1]
          exact ⟨_, rfl⟩
        · rw [if_neg h1]
          exact ⟨_, rfl⟩
      | none => exact many _

theorem getItem_names (n : Name) (l : List Name) : getItem cls s (.names (n :: l)) = getMany cls s (n :: l) := rfl

/-- **C366** What `[]` returns for a name, a number or a list of names that are columns is what `col_pop` returns. -/
theorem pop_is_getitem_partial (hl : s.locked = false) (a : Arg) (ha : (∃ n, a = .name n) ∨ (∃ i, a = .index i) ∨ ∃ l, a = .names l ∧ ∀ n ∈ l, n ∈ names s)
    (r : Out V) (h : getItem cls s a = .ok r) : (colPop cls s a).2 = .ok r := by
  have one : ∀ n, getSel cls s (.one n) = .ok r → (popSel cls s (.one n)).2 = .ok r := by
    intro n h
    simp only [getSel] at h
    simp only [popSel]
    by_cases hh : s.items.has n = true
    · rw [if_pos hh] at h ⊢
      rw [h]
      obtain ⟨s', h1, _⟩ := finish_ok hl [n] (fun m hm => by rw [List.mem_singleton.1 hm]; exact (has_iff _ _).1 hh) r
      rw [h1]
    · rw [if_neg hh] at h
      cases h
  rcases ha with ⟨n, rfl⟩ | ⟨i, rfl⟩ | ⟨l, rfl, hn⟩
  · exact one n h
  · simp only [getItem, extract] at h
    simp only [colPop, extract]
    cases hk : keyAt s i with
    | error e =>
      rw [hk] at h
      cases h
    | ok n =>
      rw [hk] at h
      exact one n h
  · cases l with
    | nil => cases h
    | cons m l =>
      show (popList cls s (m :: l)).2 = _
      unfold popList
      rw [any_has _ hn, if_neg (by simp), h]
      obtain ⟨s', h1, _⟩ := finish_ok hl (m :: l) hn r
      rw [h1]

/-- **C366** exactly: lists of numbers and of bools always raise. -/
theorem pop_array_exact (cls : Cls) (s : St V) :
    (∀ l, ∃ e, colPop cls s (.indices l) = (s, .error e)) ∧ ∀ l, ∃ e, colPop cls s (.mask l) = (s, .error e) := by
  have arr : ∀ r : Except String (List Name), ∀ a, extract s a = r.map .array → ∃ e, colPop cls s a = (s, .error e) := by
    intro r a h
    unfold colPop
    rw [h]
    cases r with
    | error e => exact ⟨e, rfl⟩
    | ok l =>
      show ∃ e, popSel cls s (.array l) = _
      simp only [popSel]
      by_cases h1 : (l.any fun n => !s.items.has n) = true
      · rw [if_pos h1]
        exact ⟨_, rfl⟩
      · rw [if_neg h1]
        exact ⟨_, rfl⟩
  constructor
  · intro l
    cases l with
    | nil => exact ⟨_, rfl⟩
    | cons i l => exact arr ((i :: l).mapM (keyAt s)) _ rfl
  · intro l
    cases l with
    | nil => exact ⟨_, rfl⟩
    | cons b l =>
      by_cases h : (b :: l).length = s.items.keys.length
      · exact arr (.ok (masked s.items.keys (b :: l))) _ (by simp only [extract]; rw [if_pos h]; rfl)
      · exact arr (.error "IndexError: boolean index") _ (by simp only [extract]; rw [if_neg h]; rfl)

/-- **C366** fails: `st[[0, 2]]` and `st[[True, False, True]]` are columns, but cannot be popped. -/
theorem pop_is_getitem_counterexample :
    getItem exCls exSt (.indices [0, 2]) = .ok (.many [("a".toList, 1), ("c".toList, 3)]) ∧
    getItem exCls exSt (.mask [true, false, true]) = .ok (.many [("a".toList, 1), ("c".toList, 3)]) ∧
    (colPop exCls exSt (.indices [0, 2])).2 = .error "TypeError: attribute name must be string" ∧
    (colPop exCls exSt (.mask [true, false, true])).2 = .error "TypeError: attribute name must be string" := by
  decide +kernel

example : exSt.locked = false ∧ "b".toList ∈ names exSt ∧ exCls.attr "b".toList = false ∧
    (colPop exCls exSt (.name "b".toList)).2 = .ok (.one 2) ∧ names (colPop exCls exSt (.name "b".toList)).1 = ["a".toList, "c".toList] := by
  decide +kernel
example : (colPop exCls exSt (.names ["c".toList, "a".toList])).2 = .ok (.many [("c".toList, 3), ("a".toList, 1)]) ∧
    (colPop exCls exSt (.index (-1))).2 = .ok (.one 3) ∧ (colPop exCls exSt .all).2 = .ok (.many [("a".toList, 1), ("b".toList, 2), ("c".toList, 3)]) := by
  decide +kernel
end Verif.ColPop
