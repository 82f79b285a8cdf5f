import Verif.Idx.Lemmas
/-! # Reading rows and columns: lemmas -/
namespace Verif.Idx
open Verif.Items (Dict)

theorem cell_eq_get {V : Type} (t : Table V) (c : String) (i : Nat) : cell t c i = (Dict.get t c).bind fun (l : List V) => l[i]? := by
  unfold cell Dict.get
  cases h : List.find? (fun e => decide (e.1 = c)) t <;> simp [h]

theorem toOption_ok {A : Type} {x : Except Err A} {a : A} : x.toOption = some a ↔ x = .ok a := by
  cases x <;> simp [Except.toOption]

theorem take_ok {V : Type} {inv : V} {col : List V} {ix : Idx} {l : List V} : take inv col ix = .ok l ↔
    ∃ L, idxRows col.length ix = some L ∧ l = L.map (pick inv col) := by
  rw [← toOption_ok, take_eq, Option.map_eq_some_iff]
  constructor
  · rintro ⟨L, a, b⟩; exact ⟨L, a, b.symm⟩
  · rintro ⟨L, a, b⟩; exact ⟨L, a, b.symm⟩

/-! ## the argument for rows -/

theorem fold_and (n : Nat) (ms : List (List Bool)) : ∀ (m : List Bool), m.length = n → (∀ x ∈ ms, x.length = n) →
    (ms.foldl (fun (a b : List Bool) => List.zipWith (fun x y => x && y) a b) m).length = n ∧
    ∀ (i : Nat), (ms.foldl (fun (a b : List Bool) => List.zipWith (fun x y => x && y) a b) m)[i]? = some true ↔
      ∀ x ∈ m :: ms, x[i]? = some true := by
  induction ms with
  | nil => intro m hm _; exact ⟨hm, by simp⟩
  | cons x ms ih =>
    intro m hm h
    have hx := h x (by simp)
    obtain ⟨h1, h2⟩ := ih (List.zipWith (fun x y => x && y) m x) (by simp [hm, hx]) fun y hy => h y (List.mem_cons_of_mem _ hy)
    refine ⟨h1, fun i => ?_⟩
    rw [List.foldl_cons, h2]
    have key : (List.zipWith (fun x y => x && y) m x)[i]? = some true ↔ m[i]? = some true ∧ x[i]? = some true := by
      rw [List.getElem?_zipWith]
      cases m[i]? <;> cases x[i]? <;> simp
    simp only [List.forall_mem_cons, key]
    tauto

theorem fold_or (n : Nat) (ms : List (List Bool)) : ∀ (m : List Bool), m.length = n → (∀ x ∈ ms, x.length = n) →
    (ms.foldl (fun (a b : List Bool) => List.zipWith (fun x y => x || y) a b) m).length = n ∧
    ∀ (i : Nat), (ms.foldl (fun (a b : List Bool) => List.zipWith (fun x y => x || y) a b) m)[i]? = some true ↔
      ∃ x ∈ m :: ms, x[i]? = some true := by
  induction ms with
  | nil => intro m hm _; exact ⟨hm, by simp⟩
  | cons x ms ih =>
    intro m hm h
    have hx := h x (by simp)
    obtain ⟨h1, h2⟩ := ih (List.zipWith (fun x y => x || y) m x) (by simp [hm, hx]) fun y hy => h y (List.mem_cons_of_mem _ hy)
    refine ⟨h1, fun i => ?_⟩
    rw [List.foldl_cons, h2]
    have key : (List.zipWith (fun x y => x || y) m x)[i]? = some true ↔ m[i]? = some true ∨ x[i]? = some true := by
      rw [List.getElem?_zipWith]
      by_cases hi : i < n
      · rw [List.getElem?_eq_getElem (by omega), List.getElem?_eq_getElem (by omega)]
        simp
      · rw [List.getElem?_eq_none (by omega)]
        rw [List.getElem?_eq_none (show x.length ≤ i by omega)]
        simp
    simp only [List.exists_mem_cons_iff, key]
    tauto

theorem mapM_ok_get {A B : Type} {f : A → Except Err B} : ∀ {l : List A} {r : List B}, l.mapM f = .ok r →
    r.length = l.length ∧ ∀ (i : Nat) (a : A) (b : B), l[i]? = some a → r[i]? = some b → f a = .ok b := by
  intro l
  induction l with
  | nil =>
    intro r h
    simp only [List.mapM_nil, pure, Except.pure, Except.ok.injEq] at h
    subst h
    simp
  | cons x l ih =>
    intro r h
    rw [List.mapM_cons] at h
    cases hx : f x with
    | error e => rw [hx] at h; simp [bind, Except.bind] at h
    | ok y =>
      rw [hx] at h
      cases hr : l.mapM f with
      | error e => rw [hr] at h; simp [bind, Except.bind] at h
      | ok ys =>
        rw [hr] at h
        simp only [bind, Except.bind, pure, Except.pure, Except.ok.injEq] at h
        subst h
        obtain ⟨h1, h2⟩ := ih hr
        refine ⟨by simp [h1], fun i a b ha hb => ?_⟩
        cases i with
        | zero => simp at ha hb; subst ha; subst hb; exact hx
        | succ i => exact h2 i a b (by simpa using ha) (by simpa using hb)

theorem mapM_ok_of {A B : Type} (f : A → Except Err B) : ∀ (l : List A), (∀ a ∈ l, ∃ b, f a = .ok b) → ∃ r, l.mapM f = .ok r := by
  intro l
  induction l with
  | nil => intro _; exact ⟨[], rfl⟩
  | cons x l ih =>
    intro h
    obtain ⟨y, hy⟩ := h x (by simp)
    obtain ⟨ys, hys⟩ := ih fun a ha => h a (List.mem_cons_of_mem _ ha)
    refine ⟨y :: ys, ?_⟩
    rw [List.mapM_cons, hy, hys]
    rfl

section
variable {V : Type} [DecidableEq V]

theorem eqMask_get (col : List V) (k : V) (i : Nat) : (eqMask col k)[i]? = some true ↔ col[i]? = some k := by
  unfold eqMask
  rw [List.getElem?_map]
  cases col[i]? <;> simp

theorem zip_range_get {A : Type} (l : List A) (j : Nat) (x : A) (h : l[j]? = some x) : (List.zip (List.range l.length) l)[j]? = some (j, x) := by
  have hj : j < l.length := by
    by_contra hn
    rw [List.getElem?_eq_none (by omega)] at h
    simp at h
  rw [List.getElem?_zip_eq_some]
  exact ⟨by rw [List.getElem?_range hj], h⟩

theorem get_length {t : Table V} {n : Nat} (ht : Rect t n) {c : String} {col : List V} (h : Dict.get t c = some col) : col.length = n :=
  ht.2 _ (Dict.mem_of_get h)

theorem keyMask_spec {t : Table V} {n : Nat} (ht : Rect t n) {labels : List String} {key : List V} {m : List Bool}
    (h : keyMask t labels key = .ok m) : m.length = n ∧ ∀ (i : Nat), m[i]? = some true ↔
      ∀ (j : Nat) (x : V), key[j]? = some x → ∃ c, labels[j]? = some c ∧ cell t c i = some x := by
  simp only [keyMask, bind, Except.bind] at h
  split at h
  · simp at h
  · rename_i ms hms
    obtain ⟨hl, hg⟩ := mapM_ok_get hms
    have hlen : ms.length = key.length := by simpa using hl
    have hget : ∀ (j : Nat) (x : V) (mm : List Bool), key[j]? = some x → ms[j]? = some mm →
        ∃ c col, labels[j]? = some c ∧ Dict.get t c = some col ∧ mm = eqMask col x := by
      intro j x mm hx hm
      have := hg j (j, x) mm (zip_range_get key j x hx) hm
      dsimp only at this
      split at this
      · simp at this
      · rename_i c hc
        split at this
        · simp at this
        · rename_i col hcol
          simp only [Except.ok.injEq] at this
          exact ⟨c, col, hc, hcol, this.symm⟩
    have hall : ∀ mm ∈ ms, mm.length = n := by
      intro mm hmm
      obtain ⟨j, hj, rfl⟩ := List.getElem_of_mem hmm
      obtain ⟨c, col, _, h2, h3⟩ := hget j key[j] _ (List.getElem?_eq_getElem (by omega)) (List.getElem?_eq_getElem hj)
      rw [h3, eqMask, List.length_map, get_length ht h2]
    split at h
    · simp at h
    · rename_i m0 mr
      simp only [Except.ok.injEq] at h
      obtain ⟨h1, h2⟩ := fold_and n mr m0 (hall _ (by simp)) fun x hx => hall _ (List.mem_cons_of_mem _ hx)
      rw [h] at h1 h2
      refine ⟨h1, fun i => ?_⟩
      rw [h2]
      constructor
      · intro ha j x hx
        have hj : j < key.length := by
          by_contra hn
          rw [List.getElem?_eq_none (by omega)] at hx
          simp at hx
        have hmj := List.getElem?_eq_getElem (l := m0 :: mr) (i := j) (by omega)
        obtain ⟨c, col, c1, c2, c3⟩ := hget j x _ hx hmj
        refine ⟨c, c1, ?_⟩
        rw [cell_eq_get, c2, Option.bind_some, ← eqMask_get, ← c3]
        exact ha _ (List.getElem_mem _)
      · intro ha mm hmm
        obtain ⟨j, hj, rfl⟩ := List.getElem_of_mem hmm
        have hkj := List.getElem?_eq_getElem (l := key) (i := j) (by omega)
        obtain ⟨c, col, c1, c2, c3⟩ := hget j _ _ hkj (List.getElem?_eq_getElem hj)
        obtain ⟨c', d1, d2⟩ := ha j _ hkj
        rw [c1] at d1
        cases d1
        rw [c3, eqMask_get]
        rw [cell_eq_get, c2, Option.bind_some] at d2
        exact d2

theorem labelMask_spec {t : Table V} {n : Nat} (ht : Rect t n) {labels : List String} {ks : List (List V)} {m : List Bool}
    (h : labelMask t labels ks = .ok m) : m.length = n ∧ ∀ (i : Nat), m[i]? = some true ↔
      ∃ key ∈ ks, i < n ∧ ∀ (j : Nat) (x : V), key[j]? = some x → ∃ c, labels[j]? = some c ∧ cell t c i = some x := by
  unfold labelMask at h
  split at h
  · simp at h
  · rename_i k0 kr
    split at h
    · simp at h
    · simp only [bind, Except.bind] at h
      split at h
      · simp at h
      · rename_i ms hms
        obtain ⟨hl, hg⟩ := mapM_ok_get hms
        have hall : ∀ mm ∈ ms, mm.length = n := by
          intro mm hmm
          obtain ⟨j, hj, rfl⟩ := List.getElem_of_mem hmm
          exact (keyMask_spec ht (hg j _ _ (List.getElem?_eq_getElem (by omega)) (List.getElem?_eq_getElem hj))).1
        split at h
        · simp at h
        · rename_i m0 mr
          simp only [Except.ok.injEq] at h
          obtain ⟨h1, h2⟩ := fold_or n mr m0 (hall _ (by simp)) fun x hx => hall _ (List.mem_cons_of_mem _ hx)
          rw [h] at h1 h2
          refine ⟨h1, fun i => ?_⟩
          rw [h2]
          constructor
          · rintro ⟨mm, hmm, hi⟩
            have hmn := hall mm hmm
            obtain ⟨j, hj, rfl⟩ := List.getElem_of_mem hmm
            have hjk : j < (k0 :: kr).length := by omega
            refine ⟨(k0 :: kr)[j], List.getElem_mem _, ?_, ?_⟩
            · by_contra hn
              rw [List.getElem?_eq_none (by omega)] at hi
              simp at hi
            · exact ((keyMask_spec ht (hg j _ _ (List.getElem?_eq_getElem hjk) (List.getElem?_eq_getElem hj))).2 i).1 hi
          · rintro ⟨key, hk, _, hi⟩
            obtain ⟨j, hj, rfl⟩ := List.getElem_of_mem hk
            have hjm : j < (m0 :: mr).length := by omega
            exact ⟨(m0 :: mr)[j], List.getElem_mem _,
              ((keyMask_spec ht (hg j _ _ (List.getElem?_eq_getElem hj) (List.getElem?_eq_getElem hjm))).2 i).2 hi⟩

theorem IsSlice.unique {n : Nat} {a b : Option Int} {s : Int} {L R : List Nat} (h1 : IsSlice n a b s L) (h2 : IsSlice n a b s R) : L = R := by
  unfold IsSlice at h1 h2
  by_cases hs : 0 < s
  · rw [if_pos hs] at h1 h2
    exact sorted_ext h1.1 h2.1 fun i => by rw [h1.2, h2.2]
  · rw [if_neg hs] at h1 h2
    have : L.reverse = R.reverse := sorted_ext (List.pairwise_reverse.2 h1.2.1) (List.pairwise_reverse.2 h2.2.1) fun i => by
      rw [List.mem_reverse, List.mem_reverse, h1.2.2, h2.2.2]
    exact List.reverse_injective this

theorem sliceRows_full (n : Nat) : sliceRows n none none 1 = List.range n := by
  refine (sliceRows_isSlice n none none 1 (by omega)).unique ?_
  unfold IsSlice
  rw [if_pos (by omega)]
  refine ⟨List.pairwise_lt_range, fun i => ?_⟩
  simp [bound]

/-- an accepted argument for rows asks for the rows of the index made of it -/
theorem rowIdx_rows {t : Table V} {n : Nat} (ht : Rect t n) {labels : List String} {r : RowArg V} {ix : Idx} {L : List (Option Nat)}
    (h : rowIdx t labels r = .ok ix) (hL : idxRows n ix = some L) : RowsMeant t n labels r L := by
  cases r with
  | int k =>
    simp only [rowIdx, Except.ok.injEq] at h
    subst h
    simp only [idxRows, List.map_cons, List.map_nil] at hL
    split at hL
    · simp at hL
    · rename_i hn
      cases hm : meant n k with
      | none => rw [hm] at hn; simp at hn
      | some i =>
        rw [hm] at hL
        exact ⟨i, hm, (Option.some.inj hL).symm⟩
  | slice a b s =>
    by_cases hf : a = none ∧ b = none ∧ s = none
    · obtain ⟨rfl, rfl, rfl⟩ := hf
      simp only [rowIdx, Except.ok.injEq] at h
      subst h
      simp only [idxRows, Option.some.injEq] at hL
      refine ⟨List.range n, ?_, hL.symm⟩
      rw [← sliceRows_full]
      exact sliceRows_isSlice n none none 1 (by omega)
    · have : rowIdx t labels (.slice a b s) = .ok (.slice a b (s.getD 1)) := by
        cases a <;> cases b <;> cases s <;> first | rfl | simp at hf
      rw [this] at h
      simp only [Except.ok.injEq] at h
      subst h
      simp only [idxRows] at hL
      split at hL
      · simp at hL
      · rename_i hs
        exact ⟨_, sliceRows_isSlice n a b _ hs, (Option.some.inj hL).symm⟩
  | boolList m =>
    cases m with
    | nil => simp [rowIdx] at h
    | cons b m =>
      simp only [rowIdx, Except.ok.injEq] at h
      subst h
      simp only [idxRows] at hL
      split at hL
      · rename_i hl; exact ⟨hl, (Option.some.inj hL).symm⟩
      · simp at hL
  | boolArr m =>
    simp only [rowIdx, Except.ok.injEq] at h
    subst h
    simp only [idxRows] at hL
    split at hL
    · rename_i hl; exact ⟨hl, (Option.some.inj hL).symm⟩
    · simp at hL
  | intList ks =>
    cases ks with
    | nil => simp [rowIdx] at h
    | cons b m =>
      simp only [rowIdx, Except.ok.injEq] at h
      subst h
      simp only [idxRows] at hL
      split at hL
      · simp at hL
      · rename_i hn
        cases hL
        exact ⟨rfl, hn⟩
  | intArr ks =>
    simp only [rowIdx, Except.ok.injEq] at h
    subst h
    simp only [idxRows, Option.some.injEq] at hL
    exact hL.symm
  | labels ks =>
    simp only [rowIdx, Except.map] at h
    split at h
    · simp at h
    · rename_i m hm
      simp only [Except.ok.injEq] at h
      subst h
      obtain ⟨h1, h2⟩ := labelMask_spec ht hm
      simp only [idxRows, if_pos h1, Option.some.injEq] at hL
      refine ⟨trueRows m, trueRows_sorted m, hL.symm, fun i => ?_⟩
      rw [mem_trueRows, h2]
      constructor
      · rintro ⟨k, a, b, c⟩; exact ⟨b, k, a, c⟩
      · rintro ⟨b, k, a, c⟩; exact ⟨k, a, b, c⟩

theorem keyMask_ok {t : Table V} {labels : List String} {key : List V} (hl : key.length = labels.length) (hne : labels ≠ [])
    (hc : ∀ c ∈ labels, c ∈ t.map Prod.fst) : ∃ m, keyMask t labels key = .ok m := by
  obtain ⟨ms, hms⟩ := mapM_ok_of (fun (e : Nat × V) =>
    match labels[e.1]? with
    | none => Except.error Err.indexError
    | some c => match Dict.get t c with
      | none => .error .attributeError
      | some col => .ok (eqMask col e.2)) (List.zip (List.range key.length) key) (by
    rintro ⟨j, x⟩ he
    have hj : j < labels.length := by
      have := (List.of_mem_zip he).1
      rw [List.mem_range] at this
      omega
    dsimp only
    rw [List.getElem?_eq_getElem hj]
    dsimp only
    cases hg : Dict.get t labels[j] with
    | none => exact absurd (hc _ (List.getElem_mem hj)) ((Dict.get_eq_none_iff t _).1 hg)
    | some col => exact ⟨_, rfl⟩)
  have hlen := (mapM_ok_get hms).1
  simp only [keyMask, bind, Except.bind]
  erw [hms]
  cases ms with
  | nil =>
    have : labels.length = 0 := by simp at hlen; omega
    exact absurd (List.length_eq_zero_iff.1 this) hne
  | cons m ms => exact ⟨_, rfl⟩

theorem labelMask_ok {t : Table V} {labels : List String} {ks : List (List V)} (hk : ks ≠ []) (hne : labels ≠ [])
    (hl : ∀ key ∈ ks, key.length = labels.length) (hc : ∀ c ∈ labels, c ∈ t.map Prod.fst) : ∃ m, labelMask t labels ks = .ok m := by
  cases ks with
  | nil => exact absurd rfl hk
  | cons k0 kr =>
    obtain ⟨ms, hms⟩ := mapM_ok_of (keyMask t labels) (k0 :: kr) fun key hkey => keyMask_ok (hl key hkey) hne hc
    simp only [labelMask, bind, Except.bind]
    rw [if_neg (by rw [hl k0 (by simp)]; simp), hms]
    cases ms with
    | nil => have := (mapM_ok_get hms).1; simp at this
    | cons m ms => exact ⟨_, rfl⟩

/-- an argument that asks for rows is accepted -/
theorem rowIdx_ok {t : Table V} {n : Nat} (ht : Rect t n) {labels : List String} {r : RowArg V} {L : List (Option Nat)}
    (ha : Accepted (t.map Prod.fst) labels (some r)) (h : RowsMeant t n labels r L) :
    ∃ ix, rowIdx t labels r = .ok ix ∧ idxRows n ix = some L := by
  cases r with
  | int k =>
    obtain ⟨i, h1, rfl⟩ := h
    exact ⟨_, rfl, by simp [idxRows, h1]⟩
  | slice a b s =>
    obtain ⟨R, h1, rfl⟩ := h
    have hs : s.getD 1 ≠ 0 := by
      intro h0
      unfold IsSlice at h1
      rw [h0, if_neg (by omega)] at h1
      exact h1.1 rfl
    have hR := (sliceRows_isSlice n a b _ hs).unique h1
    by_cases hf : a = none ∧ b = none ∧ s = none
    · obtain ⟨rfl, rfl, rfl⟩ := hf
      refine ⟨.all, rfl, ?_⟩
      simp only [Option.getD_none] at hR
      rw [sliceRows_full] at hR
      rw [← hR]
      rfl
    · have : rowIdx t labels (.slice a b s) = .ok (.slice a b (s.getD 1)) := by
        cases a <;> cases b <;> cases s <;> first | rfl | simp at hf
      exact ⟨_, this, by rw [idxRows, if_neg hs, hR]⟩
  | boolList m =>
    obtain ⟨h1, rfl⟩ := h
    cases m with
    | nil => exact absurd rfl ha
    | cons b m => exact ⟨_, rfl, by rw [idxRows, if_pos h1]⟩
  | boolArr m =>
    obtain ⟨h1, rfl⟩ := h
    exact ⟨_, rfl, by rw [idxRows, if_pos h1]⟩
  | intList ks =>
    obtain ⟨rfl, h2⟩ := h
    cases ks with
    | nil => exact absurd rfl ha
    | cons b m => exact ⟨_, rfl, by rw [idxRows, if_neg h2]⟩
  | intArr ks =>
    cases h
    exact ⟨_, rfl, rfl⟩
  | labels ks =>
    obtain ⟨R, h1, rfl, h3⟩ := h
    obtain ⟨a1, a2, a3, a4⟩ := ha
    obtain ⟨m, hm⟩ := labelMask_ok (t := t) a1 a2 a3 a4
    obtain ⟨b1, b2⟩ := labelMask_spec ht hm
    refine ⟨.mask m, by simp [rowIdx, hm, Except.map], ?_⟩
    rw [idxRows, if_pos b1]
    have : trueRows m = R := sorted_ext (trueRows_sorted m) h1 fun i => by
      rw [mem_trueRows, b2, h3]
      constructor
      · rintro ⟨k, a, b, c⟩; exact ⟨b, k, a, c⟩
      · rintro ⟨b, k, a, c⟩; exact ⟨k, a, b, c⟩
    rw [this]

/-! ## the argument for columns -/

theorem map_some_pick (keys : List String) (L : List (Option Nat)) (hn : none ∉ L) (hb : ∀ (i : Nat), some i ∈ L → i < keys.length) :
    (L.map (pick "" keys)).map some = L.map fun (o : Option Nat) => o.bind fun (i : Nat) => keys[i]? := by
  rw [List.map_map]
  refine List.map_congr_left fun o ho => ?_
  cases o with
  | none => exact absurd ho hn
  | some i =>
    have := hb i ho
    simp [pick, List.getElem?_eq_getElem this]

theorem colIdx_cols {keys : List String} {col : ColArg} : (∀ (c : String), colIdx keys col = .ok (.inl c) → ColsMeant keys col [c]) ∧
    ∀ (cs : Option (List String)), colIdx keys col = .ok (.inr cs) → ColsMeant keys col (cs.getD keys) := by
  have hsl : ∀ (a b : Option Int) (s : Option Int) (cs : List String), take "" keys (.slice a b (s.getD 1)) = .ok cs →
      ColsMeant keys (.slice a b s) cs := by
    intro a b s cs h
    rw [take_ok] at h
    obtain ⟨L, h1, rfl⟩ := h
    have hb := idxRows_lt h1
    simp only [idxRows] at h1
    split at h1
    · simp at h1
    · rename_i hs
      cases h1
      refine ⟨_, sliceRows_isSlice keys.length a b _ hs, ?_⟩
      rw [map_some_pick keys _ (by simp) hb, List.map_map]
      rfl
  cases col with
  | name c =>
    simp only [colIdx, Except.ok.injEq, Sum.inl.injEq, reduceCtorEq, false_implies, implies_true, and_true]
    rintro c' rfl
    rfl
  | int k =>
    simp only [colIdx]
    constructor
    · intro c h
      split at h
      · rename_i c' hc
        simp only [Except.ok.injEq, Sum.inl.injEq] at h
        subst h
        rw [Option.bind_eq_some_iff] at hc
        obtain ⟨i, h1, h2⟩ := hc
        rw [pos_eq] at h1
        exact ⟨i, _, h1, h2, rfl⟩
      · simp at h
    · intro cs h
      split at h <;> simp at h
  | slice a b s =>
    by_cases hf : a = none ∧ b = none ∧ s = none
    · obtain ⟨rfl, rfl, rfl⟩ := hf
      simp only [colIdx, Except.ok.injEq, reduceCtorEq, false_implies, implies_true, true_and, Sum.inr.injEq]
      rintro cs rfl
      rw [Option.getD_none]
      refine ⟨List.range keys.length, ?_, ?_⟩
      · rw [← sliceRows_full]
        exact sliceRows_isSlice _ none none 1 (by omega)
      · refine List.ext_getElem? fun k => ?_
        rw [List.getElem?_map, List.getElem?_map]
        by_cases hk : k < keys.length
        · rw [List.getElem?_range hk, List.getElem?_eq_getElem hk]; simp [hk]
        · rw [List.getElem?_eq_none (by omega), List.getElem?_eq_none (by rw [List.length_range]; omega)]; rfl
    · have : colIdx keys (.slice a b s) = (take "" keys (.slice a b (s.getD 1))).map fun l => .inr (some l) := by
        cases a <;> cases b <;> cases s <;> first | rfl | simp at hf
      rw [this]
      cases ht : take "" keys (.slice a b (s.getD 1)) with
      | error e => simp [Except.map]
      | ok l =>
        simp only [Except.map, Except.ok.injEq, reduceCtorEq, false_implies, implies_true, true_and, Sum.inr.injEq]
        rintro cs rfl
        exact hsl a b s l ht
  | names l =>
    cases l with
    | nil => simp [colIdx]
    | cons c l =>
      simp only [colIdx, Except.ok.injEq, reduceCtorEq, false_implies, implies_true, true_and, Sum.inr.injEq]
      rintro cs rfl
      rfl
  | ints ks =>
    cases ks with
    | nil => simp [colIdx]
    | cons k ks =>
      simp only [colIdx]
      cases ht : take "" keys (.ints (k :: ks)) with
      | error e => simp [Except.map]
      | ok l =>
        simp only [Except.map, Except.ok.injEq, reduceCtorEq, false_implies, implies_true, true_and, Sum.inr.injEq]
        rintro cs rfl
        rw [take_ok] at ht
        obtain ⟨L, h1, rfl⟩ := ht
        have hb := idxRows_lt h1
        simp only [idxRows] at h1
        split at h1
        · simp at h1
        · rename_i hn
          cases h1
          simp only [ColsMeant, Option.getD_some]
          rw [map_some_pick keys _ hn hb, List.map_map]
          rfl
  | bools m =>
    cases m with
    | nil => simp [colIdx]
    | cons k m =>
      simp only [colIdx]
      cases ht : take "" keys (.mask (k :: m)) with
      | error e => simp [Except.map]
      | ok l =>
        simp only [Except.map, Except.ok.injEq, reduceCtorEq, false_implies, implies_true, true_and, Sum.inr.injEq]
        rintro cs rfl
        rw [take_ok] at ht
        obtain ⟨L, h1, rfl⟩ := ht
        have hb := idxRows_lt h1
        simp only [idxRows] at h1
        split at h1
        · rename_i hl
          cases h1
          refine ⟨hl, ?_⟩
          simp only [Option.getD_some]
          rw [map_some_pick keys _ (by simp) hb, List.map_map]
          rfl
        · simp at h1

theorem ColsMeant.unique {keys : List String} {col : ColArg} {a b : List String} (h1 : ColsMeant keys col a) (h2 : ColsMeant keys col b) :
    a = b := by
  have inj : ∀ {x y : List String}, x.map some = y.map some → x = y := fun h => List.map_injective_iff.2 (Option.some_injective _) h
  cases col with
  | name c => exact h1.trans h2.symm
  | int k =>
    obtain ⟨i, c, a1, a2, rfl⟩ := h1
    obtain ⟨j, d, b1, b2, rfl⟩ := h2
    rw [a1] at b1
    cases b1
    rw [a2] at b2
    cases b2
    rfl
  | slice x y s =>
    obtain ⟨R, a1, a2⟩ := h1
    obtain ⟨S, b1, b2⟩ := h2
    rw [a1.unique b1, ← b2] at a2
    exact inj a2
  | names l => exact h1.trans h2.symm
  | ints ks => exact inj (h1.trans h2.symm)
  | bools m => exact inj (h1.2.trans h2.2.symm)

theorem colIdx_ok {keys : List String} {col : ColArg} {cs : List String} (hs : Several col) (h : ColsMeant keys col cs) :
    ∃ o, colIdx keys col = .ok (.inr o) ∧ o.getD keys = cs := by
  suffices ∃ o, colIdx keys col = .ok (.inr o) by
    obtain ⟨o, ho⟩ := this
    exact ⟨o, ho, (colIdx_cols.2 o ho).unique h⟩
  cases col with
  | name c => exact absurd hs (by simp [Several])
  | int c => exact absurd hs (by simp [Several])
  | slice a b s =>
    obtain ⟨R, h1, _⟩ := h
    by_cases hf : a = none ∧ b = none ∧ s = none
    · obtain ⟨rfl, rfl, rfl⟩ := hf
      exact ⟨none, rfl⟩
    · have : colIdx keys (.slice a b s) = (take "" keys (.slice a b (s.getD 1))).map fun l => .inr (some l) := by
        cases a <;> cases b <;> cases s <;> first | rfl | simp at hf
      have h0 : s.getD 1 ≠ 0 := by
        intro h0
        unfold IsSlice at h1
        rw [h0, if_neg (by omega)] at h1
        exact h1.1 rfl
      rw [this, take, if_neg h0]
      exact ⟨_, rfl⟩
  | names l =>
    cases l with
    | nil => exact absurd rfl hs
    | cons c l => exact ⟨_, rfl⟩
  | ints ks =>
    cases ks with
    | nil => exact absurd rfl hs
    | cons k ks =>
      have hn : none ∉ (k :: ks).map (meant keys.length) := by
        intro hn
        rw [List.mem_map] at hn
        obtain ⟨x, hx, he⟩ := hn
        have : none ∈ cs.map some := by
          rw [h, List.mem_map]
          exact ⟨x, hx, by rw [he]; rfl⟩
        simp at this
      have ht : take "" keys (.ints (k :: ks)) = .ok (((k :: ks).map (meant keys.length)).map (pick "" keys)) := by
        rw [take_ok]
        exact ⟨_, by rw [idxRows, if_neg hn], rfl⟩
      simp only [colIdx, ht]
      exact ⟨_, rfl⟩
  | bools m =>
    cases m with
    | nil => exact absurd rfl hs
    | cons k m =>
      have ht : take "" keys (.mask (k :: m)) = .ok (((trueRows (k :: m)).map some).map (pick "" keys)) := by
        rw [take_ok]
        exact ⟨_, by rw [idxRows, if_pos h.1], rfl⟩
      simp only [colIdx, ht]
      exact ⟨_, rfl⟩

end
end Verif.Idx
