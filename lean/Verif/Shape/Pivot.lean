import Verif.Shape.Melt
/-!
# `pivot`: every cell of the wide table
-/
namespace Verif.Shape
open Verif.Items (Dict)
open Verif.Idx (Err Table cell_eq_get)

variable {V : Type}

theorem radix {b a r a' r' : Nat} (h1 : r < b) (h2 : r' < b) (h : a * b + r = a' * b + r') : a = a' ∧ r = r' := by
  have e1 : (a * b + r) / b = a := by rw [Nat.add_comm, Nat.add_mul_div_right _ _ (by omega), Nat.div_eq_of_lt h1, Nat.zero_add]
  have e2 : (a' * b + r') / b = a' := by rw [Nat.add_comm, Nat.add_mul_div_right _ _ (by omega), Nat.div_eq_of_lt h2, Nat.zero_add]
  have : a = a' := by rw [← e1, ← e2, h]
  subst this
  exact ⟨rfl, by omega⟩

theorem get_range_map {A : Type} (n i : Nat) (f : Nat → A) : ((List.range n).map f)[i]? = if i < n then some (f i) else none := by
  rw [List.getElem?_map]
  by_cases h : i < n
  · rw [List.getElem?_range h, if_pos h]; rfl
  · rw [List.getElem?_eq_none (by simpa using h), if_neg h]; rfl

theorem contents_get (t : Table V) (cols : List String) (n i : Nat) : (contents t cols n)[i]? =
    if i < n then some (cols.map fun c => cell t c i) else none := by
  rw [contents, get_range_map]

theorem slice_get {A : Type} (l : List A) (a b i : Nat) : (slice l a b)[i]? = if a + i < b then l[a + i]? else none := by
  rw [slice, List.getElem?_drop, List.getElem?_take]

theorem slice_length {A : Type} (l : List A) (a b : Nat) (h : b ≤ l.length) : (slice l a b).length = b - a := by
  rw [slice, List.length_drop, List.length_take]; omega

/-- a loop that adds columns with new names -/
theorem fold_set_new {A : Type} (name : Nat → String) (f : Nat → A) : ∀ (L : List Nat) (d : Dict String A), (L.map name).Nodup →
    (∀ i ∈ L, name i ∉ Dict.keys d) →
    L.foldl (fun (o : Dict String A) (i : Nat) => Dict.set o (name i) (f i)) d = d ++ L.map fun (i : Nat) => (name i, f i) := by
  intro L
  induction L with
  | nil => intro d _ _; simp
  | cons i L ih =>
    intro d h1 h2
    rw [List.map_cons, List.nodup_cons] at h1
    rw [List.foldl_cons, Dict.set_of_notMem (h2 i List.mem_cons_self), ih _ h1.2, List.append_assoc]
    · rfl
    · intro j hj
      rw [Dict.keys, List.map_append, List.mem_append]
      rintro (h | h)
      · exact h2 j (List.mem_cons_of_mem _ hj) h
      · simp at h
        exact h1.1 (h ▸ List.mem_map_of_mem hj)

theorem Grouped.count {t : Table V} {n : Nat} {cols : List String} {g : Grp V} {m : Nat} (h : Grouped t n cols g.codes g.uniq m)
    (hne : cols ≠ []) : g.count = m := by
  rw [Grp.count]
  cases hu : g.uniq with
  | nil => have := h.names; rw [hu] at this; exact absurd this.symm hne
  | cons e r => exact h.rect.2 e (by rw [hu]; exact List.mem_cons_self)

theorem colName_joined (uname : V → String) {uniq : Table V} {cols : List String} (hn : uniq.map Prod.fst = cols) {m : Nat}
    (hr : Rect uniq m) (i : Nat) : colName uname uniq i = joined uname (cols.map fun c => cell uniq c i) := by
  rw [colName, joined]
  congr 1
  subst hn
  rw [List.map_map, List.map_map]
  apply List.map_congr_left
  intro e he
  have : cell uniq e.1 i = e.2[i]? := by
    rw [cell_eq_get, Dict.get_of_mem hr.1 he]; rfl
  simp only [Function.comp]
  rw [this]
  cases e.2[i]? <;> rfl

theorem passes_iff {n : Nat} {filter : Option (List Bool)} {i : Nat} (hi : i < n) : passes filter i = true ↔ Kept n filter i := by
  cases filter with
  | none => simp [passes, Kept, hi]
  | some m =>
    simp only [passes, Kept, hi, true_and]
    cases m[i]? <;> simp

section
variable {t : Table V} {n : Nat} {labels columns : List String} {gr gc : Grp V} {R C : Nat}

/-- codes in terms of contents -/
theorem Grouped.code_at {cols : List String} {g : Grp V} {m : Nat} (h : Grouped t n cols g.codes g.uniq m) (hf : Full g.codes) {i : Nat} (hi : i < n) :
    ∃ x, g.codes[i]? = some (x + 1) ∧ x < m ∧ cols.map (fun c => cell g.uniq c x) = cols.map (fun c => cell t c i) := by
  have hl : g.codes.length = n := by rw [h.coded.len, contents, List.length_map, List.length_range]
  cases hc : g.codes[i]? with
  | none => rw [List.getElem?_eq_none_iff] at hc; omega
  | some y =>
    cases y with
    | zero => exact absurd (List.mem_of_getElem? hc) hf
    | succ x =>
      obtain ⟨k, h1, h2⟩ := h.coded.code i x hc
      rw [contents_get, if_pos hi] at h1
      rw [contents_get] at h2
      by_cases hx : x < m
      · rw [if_pos hx] at h2
        cases h1
        exact ⟨x, rfl, hx, Option.some.inj h2⟩
      · rw [if_neg hx] at h2; simp at h2

theorem Grouped.uniq_inj {cols : List String} {g : Grp V} {m : Nat} (h : Grouped t n cols g.codes g.uniq m) {x y : Nat} (hx : x < m) (hy : y < m)
    (he : cols.map (fun c => cell g.uniq c x) = cols.map (fun c => cell g.uniq c y)) : x = y := by
  have h1 : (contents g.uniq cols m)[x]? = some (cols.map fun c => cell g.uniq c x) := by rw [contents_get, if_pos hx]
  have h2 : (contents g.uniq cols m)[y]? = some (cols.map fun c => cell g.uniq c y) := by rw [contents_get, if_pos hy]
  have hlx : x < (contents g.uniq cols m).length := by simpa [contents] using hx
  exact (List.getElem?_inj hlx h.coded.nodup).1 (by rw [h1, h2, he])

variable (hr : Grouped t n labels gr.codes gr.uniq R) (hc : Grouped t n columns gc.codes gc.uniq C) (hl : labels ≠ [])
  (hcn : columns ≠ []) (hfr : Full gr.codes) (hfc : Full gc.codes) (filter : Option (List Bool))
include hr hc hl hfr hfc

theorem bins_kept {i : Nat} (hi : i < n) (hk : passes filter i = true) : ∃ r c, (binsOf gr gc filter n)[i]? = some ((c + 1) * (R + 1) + (r + 1)) ∧
    r < R ∧ c < C ∧ labels.map (fun c => cell gr.uniq c r) = labels.map (fun c => cell t c i) ∧
    columns.map (fun x => cell gc.uniq x c) = columns.map (fun x => cell t x i) := by
  obtain ⟨r, r1, r2, r3⟩ := hr.code_at hfr hi
  obtain ⟨c, c1, c2, c3⟩ := hc.code_at hfc hi
  refine ⟨r, c, ?_, r2, c2, r3, c3⟩
  rw [binsOf, get_range_map, if_pos hi, hr.count hl, r1, c1]
  rw [if_pos hk]; rfl

omit hl hr hc hfr hfc in
theorem bins_dropped {i : Nat} (hi : i < n) (hk : passes filter i = false) : (binsOf gr gc filter n)[i]? = some 0 := by
  rw [binsOf, get_range_map, if_pos hi]
  rw [if_neg (by rw [hk]; simp)]

/-- the bin of row `i` is that of the keys `r`, `c` exactly when it takes part and holds them -/
theorem bins_iff {i r c : Nat} (hi : i < n) (hrR : r < R) (hcC : c < C) :
    (binsOf gr gc filter n)[i]? = some ((c + 1) * (R + 1) + (r + 1)) ↔ Kept n filter i ∧
      Holds t labels i (labels.map fun x => cell gr.uniq x r) ∧ Holds t columns i (columns.map fun x => cell gc.uniq x c) := by
  rw [← passes_iff hi]
  cases hk : passes filter i with
  | false =>
    rw [bins_dropped (gr := gr) (gc := gc) filter hi hk]
    constructor
    · intro h
      have h' := Option.some.inj h
      omega
    · rintro ⟨h, _⟩; exact absurd h (by simp)
  | true =>
    obtain ⟨r', c', h1, h2, h3, h4, h5⟩ := bins_kept hr hc hl hfr hfc filter hi hk
    rw [h1]
    constructor
    · intro h
      have h' := Option.some.inj h
      obtain ⟨a, b⟩ := radix (b := R + 1) (by omega) (by omega) h'
      have a' : c' = c := by omega
      have b' : r' = r := by omega
      subst a'; subst b'
      exact ⟨rfl, h4.symm, h5.symm⟩
    · rintro ⟨_, g1, g2⟩
      have e1 : r' = r := hr.uniq_inj h2 hrR (h4.trans g1)
      have e2 : c' = c := hc.uniq_inj h3 hcC (h5.trans g2)
      rw [e1, e2]

/-- the duplicate check -/
theorem hasDup_iff (count0 : Bool) : hasDup (binsOf gr gc filter n) (passes filter) count0 = true ↔
    ¬ (Single t n labels columns filter ∧
      (count0 = true → ∀ (i j : Nat), i < n → j < n → ¬ Kept n filter i → ¬ Kept n filter j → i = j)) := by
  have hlen : (binsOf gr gc filter n).length = n := by rw [binsOf, List.length_map, List.length_range]
  have hsame : ∀ (i j : Nat), i < n → j < n → passes filter i = true → passes filter j = true →
      ((binsOf gr gc filter n)[i]? = (binsOf gr gc filter n)[j]? ↔
        labels.map (fun c => cell t c i) = labels.map (fun c => cell t c j) ∧
        columns.map (fun c => cell t c i) = columns.map (fun c => cell t c j)) := by
    intro i j hi hj h1 h2
    obtain ⟨r, c, b1, b2, b3, b4, b5⟩ := bins_kept hr hc hl hfr hfc filter hj h2
    rw [b1, bins_iff hr hc hl hfr hfc filter hi b2 b3, ← passes_iff hi, Holds, Holds, b4, b5]
    simp [h1]
  have hne : ∀ (i j : Nat), i < n → j < n → passes filter i = true → passes filter j = false →
      (binsOf gr gc filter n)[i]? ≠ (binsOf gr gc filter n)[j]? := by
    intro i j hi hj h1 h2 h
    obtain ⟨r, c, b1, _⟩ := bins_kept hr hc hl hfr hfc filter hi h1
    rw [b1, bins_dropped (gr := gr) (gc := gc) filter hj h2] at h
    have := Option.some.inj h
    omega
  have main : ∀ (i j : Nat), i < n → j < n → ((decide ((binsOf gr gc filter n)[i]? = (binsOf gr gc filter n)[j]?) &&
      (count0 || (passes filter i && passes filter j))) = true ↔
      (Kept n filter i ∧ Kept n filter j ∧ labels.map (fun c => cell t c i) = labels.map (fun c => cell t c j) ∧
        columns.map (fun c => cell t c i) = columns.map (fun c => cell t c j)) ∨
      (count0 = true ∧ ¬ Kept n filter i ∧ ¬ Kept n filter j)) := by
    intro i j hi hj
    rw [Bool.and_eq_true, decide_eq_true_eq, ← passes_iff hi, ← passes_iff hj]
    cases h1 : passes filter i with
    | true =>
      cases h2 : passes filter j with
      | true => rw [hsame i j hi hj h1 h2]; simp
      | false =>
        have := hne i j hi hj h1 h2
        constructor
        · rintro ⟨h, _⟩; exact absurd h this
        · rintro (⟨_, h, _⟩ | ⟨_, h, _⟩)
          · simp at h
          · simp at h
    | false =>
      cases h2 : passes filter j with
      | true =>
        have := hne j i hj hi h2 h1
        constructor
        · rintro ⟨h, _⟩; exact absurd h.symm this
        · rintro (⟨h, _⟩ | ⟨_, _, h⟩)
          · simp at h
          · simp at h
      | false =>
        rw [bins_dropped (gr := gr) (gc := gc) filter hi h1, bins_dropped (gr := gr) (gc := gc) filter hj h2]
        simp
  rw [hasDup, List.any_eq_true]
  constructor
  · rintro ⟨i, hi, hx⟩
    rw [List.any_eq_true] at hx
    obtain ⟨j, hj, hx⟩ := hx
    rw [hlen, List.mem_range] at hi
    rw [List.mem_range] at hj
    rintro ⟨hs, h0⟩
    rcases (main i j hi (by omega)).1 hx with ⟨a1, a2, a3, a4⟩ | ⟨a1, a2, a3⟩
    · have := hs i j a1 a2 a3 a4; omega
    · have := h0 a1 i j hi (by omega) a2 a3; omega
  · intro h
    by_contra hno
    apply h
    have key : ∀ (i j : Nat), i < n → j < i → ¬ ((Kept n filter i ∧ Kept n filter j ∧ labels.map (fun c => cell t c i) = labels.map (fun c => cell t c j) ∧
        columns.map (fun c => cell t c i) = columns.map (fun c => cell t c j)) ∨
      (count0 = true ∧ ¬ Kept n filter i ∧ ¬ Kept n filter j)) := by
      intro i j hi hj hx
      apply hno
      refine ⟨i, by rw [hlen]; exact List.mem_range.2 hi, ?_⟩
      rw [List.any_eq_true]
      exact ⟨j, List.mem_range.2 hj, (main i j hi (by omega)).2 hx⟩
    constructor
    · intro i j k1 k2 e1 e2
      rcases Nat.lt_trichotomy i j with hlt | heq | hgt
      · exact absurd (Or.inl ⟨k2, k1, e1.symm, e2.symm⟩) (key j i k2.1 hlt)
      · exact heq
      · exact absurd (Or.inl ⟨k1, k2, e1, e2⟩) (key i j k1.1 hgt)
    · intro h0 i j hi hj k1 k2
      rcases Nat.lt_trichotomy i j with hlt | heq | hgt
      · exact absurd (Or.inr ⟨h0, k2, k1⟩) (key j i hj hlt)
      · exact heq
      · exact absurd (Or.inr ⟨h0, k1, k2⟩) (key i j hi hgt)

include hcn in
/-- one value column -/
theorem makeDataset_wide (inv : V) (uname : V → String) (ht : Rect t n) (hs : Single t n labels columns filter)
    (hnames : (labels ++ (contents gc.uniq columns C).map (joined uname)).Nodup) {v : String} {val : List V} (hv : Dict.get t v = some val) :
    IsWide inv t n labels columns filter (contents gr.uniq labels R) (contents gc.uniq columns C) (joined uname) v
      (makeDataset inv uname gc (gr.count + 1) (ifirst (binsOf gr gc filter n) ((gr.count + 1) * (gc.count + 1))) val gr.uniq) := by
  have hlen : (binsOf gr gc filter n).length = n := by rw [binsOf, List.length_map, List.length_range]
  have hcolnames : (List.range C).map (colName uname gc.uniq) = (contents gc.uniq columns C).map (joined uname) := by
    rw [contents, List.map_map]
    apply List.map_congr_left
    intro i _
    exact colName_joined uname hc.names hc.rect i
  rw [List.nodup_append] at hnames
  obtain ⟨hn1, hn2, hn3⟩ := hnames
  rw [← hcolnames] at hn2 hn3
  rw [hr.count hl, hc.count hcn]
  set first := ifirst (binsOf gr gc filter n) ((R + 1) * (C + 1)) with hfirst
  set long := first.map fun (o : Option Nat) => (o.bind fun (i : Nat) => val[i]?).getD inv with hlong
  set f := fun (i : Nat) => slice long ((R + 1) * (i + 1)) ((R + 1) * (i + 1) + (R + 1) - 1) with hf
  have hds : makeDataset inv uname gc (R + 1) first val gr.uniq = gr.uniq ++ (List.range C).map fun (i : Nat) => (colName uname gc.uniq i, f i) := by
    rw [makeDataset, hc.count hcn]
    refine fold_set_new (colName uname gc.uniq) f (List.range C) gr.uniq hn2 ?_
    intro i hi hmem
    rw [Dict.keys, hr.names] at hmem
    exact hn3 _ hmem _ (List.mem_map_of_mem hi) rfl
  rw [hds]
  set ds := gr.uniq ++ (List.range C).map fun (i : Nat) => (colName uname gc.uniq i, f i) with hdsdef
  have hdsn : ds.map Prod.fst = labels ++ (List.range C).map (colName uname gc.uniq) := by
    rw [hdsdef, List.map_append, hr.names, List.map_map]; rfl
  have hdsnd : (ds.map Prod.fst).Nodup := by
    rw [hdsn, List.nodup_append]; exact ⟨hn1, hn2, hn3⟩
  have hlonglen : long.length = (R + 1) * (C + 1) := by simp [hlong, hfirst, ifirst]
  have hfl : ∀ (i : Nat), i < C → (f i).length = R := by
    intro i hi
    have h2 : (R + 1) * (i + 1) + (R + 1) ≤ (R + 1) * (C + 1) := by
      rw [← Nat.mul_succ]; exact Nat.mul_le_mul_left _ (by omega)
    rw [hf]
    dsimp only
    rw [slice_length _ _ _ (by rw [hlonglen]; omega)]
    omega
  have hcellc : ∀ (c r : Nat), c < C → r < R → cell ds (colName uname gc.uniq c) r = long[(R + 1) * (c + 1) + r]? := by
    intro c r hcC hrR
    have : Dict.get ds (colName uname gc.uniq c) = some (f c) := by
      apply Dict.get_of_mem hdsnd
      rw [hdsdef, List.mem_append]
      exact Or.inr (List.mem_map.2 ⟨c, List.mem_range.2 hcC, rfl⟩)
    rw [cell_eq_get, this, Option.bind_some, hf]
    dsimp only
    rw [slice_get, if_pos (by omega)]
  have hlongat : ∀ (c r : Nat), c < C → r < R → long[(R + 1) * (c + 1) + r]? =
      some (((List.range n).find? (fun (i : Nat) => decide ((binsOf gr gc filter n)[i]? = some ((c + 1) * (R + 1) + (r + 1)))) |>.bind
        fun (i : Nat) => val[i]?).getD inv) := by
    intro c r hcC hrR
    have hlt : (R + 1) * (c + 1) + r < (R + 1) * (C + 1) := by
      have h2 : (R + 1) * (c + 1) + (R + 1) ≤ (R + 1) * (C + 1) := by
        rw [← Nat.mul_succ]; exact Nat.mul_le_mul_left _ (by omega)
      omega
    rw [hlong, List.getElem?_map, hfirst, ifirst, get_range_map, if_pos hlt, hlen, Nat.mul_comm (R + 1) (c + 1)]
    rfl
  have hkeyr : ∀ {r : Nat} {k : List (Option V)}, (contents gr.uniq labels R)[r]? = some k → r < R ∧ k = labels.map fun c => cell gr.uniq c r := by
    intro r k h
    rw [contents_get] at h
    by_cases hx : r < R
    · rw [if_pos hx] at h; exact ⟨hx, (Option.some.inj h).symm⟩
    · rw [if_neg hx] at h; simp at h
  have hkeyc : ∀ {c : Nat} {k : List (Option V)}, (contents gc.uniq columns C)[c]? = some k → c < C ∧ k = columns.map fun x => cell gc.uniq x c := by
    intro r k h
    rw [contents_get] at h
    by_cases hx : r < C
    · rw [if_pos hx] at h; exact ⟨hx, (Option.some.inj h).symm⟩
    · rw [if_neg hx] at h; simp at h
  refine ⟨by rw [hdsn, hcolnames], ⟨hdsnd, ?_⟩, ?_, ?_, ?_⟩
  · intro e he
    rw [contents, List.length_map, List.length_range]
    rw [hdsdef, List.mem_append] at he
    rcases he with he | he
    · exact hr.rect.2 e he
    · obtain ⟨i, hi, rfl⟩ := List.mem_map.1 he
      exact hfl i (List.mem_range.1 hi)
  · intro r k hk
    obtain ⟨_, rfl⟩ := hkeyr hk
    rw [Holds]
    apply List.map_congr_left
    intro c hcl
    rw [cell_eq_get, cell_eq_get]
    congr 1
    cases hg : Dict.get gr.uniq c with
    | none =>
      have := (Dict.get_eq_none_iff gr.uniq c).1 hg
      rw [Dict.keys, hr.names] at this
      exact absurd hcl this
    | some col =>
      apply Dict.get_of_mem hdsnd
      rw [hdsdef, List.mem_append]
      exact Or.inl (Dict.mem_of_get hg)
  · intro r c i k kc hk hkc hkept h1 h2
    obtain ⟨hrR, rfl⟩ := hkeyr hk
    obtain ⟨hcC, rfl⟩ := hkeyc hkc
    rw [← colName_joined uname hc.names hc.rect c, hcellc c r hcC hrR, hlongat c r hcC hrR]
    have hb := (bins_iff hr hc hl hfr hfc filter hkept.1 hrR hcC).2 ⟨hkept, h1, h2⟩
    have hfind : (List.range n).find? (fun (i : Nat) => decide ((binsOf gr gc filter n)[i]? = some ((c + 1) * (R + 1) + (r + 1)))) = some i := by
      cases hf' : (List.range n).find? (fun (i : Nat) => decide ((binsOf gr gc filter n)[i]? = some ((c + 1) * (R + 1) + (r + 1)))) with
      | none =>
        rw [List.find?_eq_none] at hf'
        exact absurd (by simpa using hb) (hf' i (List.mem_range.2 hkept.1))
      | some j =>
        have hj := List.find?_some hf'
        have hjn := List.mem_range.1 (List.mem_of_find?_eq_some hf')
        obtain ⟨q1, q2, q3⟩ := (bins_iff hr hc hl hfr hfc filter hjn hrR hcC).1 (by simpa using hj)
        rw [hs j i q1 hkept (q2.trans h1.symm) (q3.trans h2.symm)]
    rw [hfind, Option.bind_some, cell_eq_get, hv, Option.bind_some]
    have : i < val.length := by rw [ht.2 _ (Dict.mem_of_get hv)]; exact hkept.1
    rw [List.getElem?_eq_getElem this]; rfl
  · intro r c k kc hk hkc hno
    obtain ⟨hrR, rfl⟩ := hkeyr hk
    obtain ⟨hcC, rfl⟩ := hkeyc hkc
    rw [← colName_joined uname hc.names hc.rect c, hcellc c r hcC hrR, hlongat c r hcC hrR]
    have hfind : (List.range n).find? (fun (i : Nat) => decide ((binsOf gr gc filter n)[i]? = some ((c + 1) * (R + 1) + (r + 1)))) = none := by
      rw [List.find?_eq_none]
      intro i hi hb
      exact hno ⟨i, (bins_iff hr hc hl hfr hfc filter (List.mem_range.1 hi) hrR hcC).1 (by simpa using hb)⟩
    rw [hfind]; rfl

end

end Verif.Shape
