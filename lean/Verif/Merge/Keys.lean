import Verif.Merge.Lemmas

/-! Masks, scatter assignments and the key maps. -/
namespace Verif.Merge

/-! ### masks -/

@[simp] theorem maskSel_nil_left {β : Type} (m : List Bool) : maskSel ([] : List β) m = [] := rfl
@[simp] theorem maskSel_nil_right {β : Type} (a : List β) : maskSel a [] = [] := by simp [maskSel]
@[simp] theorem maskSel_cons {β : Type} (x : β) (a : List β) (b : Bool) (m : List Bool) :
    maskSel (x :: a) (b :: m) = if b then x :: maskSel a m else maskSel a m := by
  cases b <;> simp [maskSel]

theorem maskSel_map {β γ : Type} (f : β → γ) : ∀ (a : List β) (m : List Bool),
    (maskSel a m).map f = maskSel (a.map f) m
  | [], m => by simp
  | x :: a, [] => by simp
  | x :: a, b :: m => by cases b <;> simp [maskSel_map f a m]

theorem maskSel_zip {β γ : Type} : ∀ (a : List β) (b : List γ) (m : List Bool), a.length = b.length →
    (maskSel a m).zip (maskSel b m) = maskSel (a.zip b) m
  | [], b, m, h => by simp
  | x :: a, [], m, h => by simp at h
  | x :: a, y :: b, [], h => by simp
  | x :: a, y :: b, c :: m, h => by
    have := maskSel_zip a b m (by simpa using h)
    cases c <;> simp [this]

theorem mem_maskSel {β : Type} (x : β) : ∀ (a : List β) (m : List Bool),
    x ∈ maskSel a m ↔ ∃ i : Nat, a[i]? = some x ∧ m[i]? = some true
  | [], m => by simp
  | y :: a, [] => by simp
  | y :: a, c :: m => by
    have ih := mem_maskSel x a m
    constructor
    · intro h
      cases c
      · simp only [maskSel_cons, Bool.false_eq_true, if_false] at h
        obtain ⟨i, hi⟩ := ih.mp h
        exact ⟨i + 1, by simpa using hi⟩
      · simp only [maskSel_cons, if_true, List.mem_cons] at h
        rcases h with h | h
        · exact ⟨0, by simp [h]⟩
        · obtain ⟨i, hi⟩ := ih.mp h
          exact ⟨i + 1, by simpa using hi⟩
    · rintro ⟨i, hi, hm⟩
      cases i with
      | zero =>
        simp at hi hm
        subst hi; subst hm; simp
      | succ i =>
        have : x ∈ maskSel a m := ih.mpr ⟨i, by simpa using hi, by simpa using hm⟩
        cases c <;> simp [this]

theorem nodup_maskSel {β : Type} : ∀ (a : List β) (m : List Bool),
    (∀ (i j : Nat) (x : β), a[i]? = some x → a[j]? = some x → m[i]? = some true → m[j]? = some true → i = j) →
    (maskSel a m).Nodup
  | [], m, h => by simp
  | y :: a, [], h => by simp
  | y :: a, c :: m, h => by
    have ih := nodup_maskSel a m fun i j x h1 h2 h3 h4 => by
      have := h (i + 1) (j + 1) x (by simpa using h1) (by simpa using h2) (by simpa using h3) (by simpa using h4)
      omega
    cases c
    · simpa using ih
    · simp only [maskSel_cons, if_true, List.nodup_cons]
      refine ⟨fun hm => ?_, ih⟩
      obtain ⟨i, hi, hmi⟩ := (mem_maskSel y a m).mp hm
      have := h 0 (i + 1) y (by simp) (by simpa using hi) (by simp) (by simpa using hmi)
      omega

theorem replicate_maskSel {β γ : Type} (v : γ) (a : List β) (m : List Bool) :
    List.replicate (maskSel a m).length v = maskSel (List.replicate a.length v) m := by
  have : maskSel (List.replicate a.length v) m = (maskSel a m).map fun _ => v := by
    rw [maskSel_map]; congr 1; simp
  rw [this]; simp

/-- `base[a[m]] = b[m]` for targets without repetition -/
theorem scatter_mask {β : Type} (base : List β) (a : List Nat) (b : List β) (m : List Bool)
    (hab : a.length = b.length)
    (hinj : ∀ (i j x : Nat), a[i]? = some x → a[j]? = some x → m[i]? = some true → m[j]? = some true → i = j) :
    (∀ (i x : Nat) (y : β), a[i]? = some x → b[i]? = some y → m[i]? = some true → x < base.length →
      (scatter base (maskSel a m) (maskSel b m))[x]? = some y) ∧
    (∀ x : Nat, (∀ i : Nat, a[i]? = some x → m[i]? ≠ some true) →
      (scatter base (maskSel a m) (maskSel b m))[x]? = base[x]?) := by
  have hfst : (maskSel (a.zip b) m).map Prod.fst = maskSel a m := by
    rw [maskSel_map]; congr 1
    exact List.map_fst_zip (by omega)
  unfold scatter
  rw [maskSel_zip _ _ _ hab]
  constructor
  · intro i x y ha hb hm hx
    refine applyWrites_getElem?_mem _ _ _ (by rw [hfst]; exact nodup_maskSel _ _ hinj) ?_ _ hx
    rw [mem_maskSel]
    exact ⟨i, by simp [List.getElem?_zip_eq_some, ha, hb], hm⟩
  · intro x hx
    refine applyWrites_getElem?_notMem _ _ ?_ _
    rw [hfst, mem_maskSel]
    rintro ⟨i, h1, h2⟩
    exact hx i h1 h2

/-! ### groupings -/
section
variable {K : Type} [DecidableEq K]

/-- The right group (0-based) with the key of left group number `c`. -/
def partner (L R : Grouping K) (c : Nat) : Option Nat :=
  if c = 0 then none else (L.gbkeys[c - 1]?).bind fun k => R.gbkeys.findIdx? fun y => decide (y = k)

theorem findIdx?_eq_some_nodup {l : List K} (hn : l.Nodup) (k : K) (i : Nat) :
    (l.findIdx? fun y => decide (y = k)) = some i ↔ l[i]? = some k := by
  rw [List.findIdx?_eq_some_iff_getElem]
  constructor
  · rintro ⟨h, h1, _⟩
    rw [List.getElem?_eq_getElem h]
    simpa using h1
  · intro h
    obtain ⟨hi, hk⟩ := List.getElem?_eq_some_iff.mp h
    refine ⟨hi, by simpa using hk, fun j hj => ?_⟩
    simp only [decide_eq_true_eq]
    intro hjk
    have : j = i := (List.Nodup.getElem_inj_iff hn).mp (hjk.trans hk.symm)
    omega

theorem partner_eq_some {L R : Grouping K} (hR : R.gbkeys.Nodup) (c r : Nat) :
    partner L R c = some r ↔ 0 < c ∧ ∃ k, L.gbkeys[c - 1]? = some k ∧ R.gbkeys[r]? = some k := by
  unfold partner
  split
  · simp; omega
  · simp only [Option.bind_eq_some_iff, findIdx?_eq_some_nodup hR]
    constructor
    · rintro h; exact ⟨by omega, h⟩
    · rintro h; exact h.2

variable {lkeys rkeys : List (Option K)} {L R : Grouping K}

theorem mem_rowsOf (ikey : List Nat) (c i : Nat) : i ∈ rowsOf ikey c ↔ ikey[i]? = some c := by
  simp only [rowsOf, List.mem_filter, List.mem_range, beq_iff_eq, and_iff_right_iff_imp]
  intro h
  exact (List.getElem?_eq_some_iff.mp h).1

theorem WF.length (h : R.WF rkeys) : R.ikey.length = rkeys.length := by
  rw [h.decode]; simp

theorem WF.gbkeys_nil (h : R.WF rkeys) (h0 : R.ikey = []) : R.gbkeys = [] := by
  by_contra hne
  have : 1 ≤ R.gbkeys.length := List.length_pos_iff.mpr hne
  have := h.used 1 le_rfl this
  simp [h0] at this

theorem rowsOf_ne_nil (h : R.WF rkeys) (r : Nat) (hr : r < R.gbkeys.length) :
    rowsOf R.ikey (r + 1) ≠ [] := by
  have := h.used (r + 1) (by omega) (by omega)
  obtain ⟨i, hi⟩ := List.getElem?_of_mem this
  have : i ∈ rowsOf R.ikey (r + 1) := (mem_rowsOf _ _ _).mpr hi
  intro h0; simp [h0] at this

theorem decode_getElem? (h : R.WF rkeys) (i : Nat) :
    rkeys[i]? = (R.ikey[i]?).map fun c => if c = 0 then none else R.gbkeys[c - 1]? := by
  conv_lhs => rw [h.decode]
  simp

/-- key of a group number -/
def keyOf (g : Grouping K) (c : Nat) : Option K := if c = 0 then none else g.gbkeys[c - 1]?

theorem matching_keyOf (hR : R.WF rkeys) (r : Nat) (k : K) (hk : R.gbkeys[r]? = some k) :
    matching rkeys (some k) = rowsOf R.ikey (r + 1) := by
  unfold matching rowsOf
  rw [WF.length hR]
  apply List.filter_congr
  intro j hj
  rw [decode_getElem? hR]
  cases hc : R.ikey[j]? with
  | none => simp
  | some c =>
    simp only [Option.map_some]
    rw [Bool.eq_iff_iff]
    simp only [beq_iff_eq, Option.some.injEq]
    split
    · simp; omega
    · have hle := hR.inRange c (List.mem_of_getElem? hc)
      obtain ⟨hr, hk'⟩ := List.getElem?_eq_some_iff.mp hk
      constructor
      · intro h
        obtain ⟨h1, h2⟩ := List.getElem?_eq_some_iff.mp h
        have := (List.Nodup.getElem_inj_iff hR.nodup).mp (h2.trans hk'.symm)
        omega
      · rintro rfl; simpa using hk

theorem matching_absent (hR : R.WF rkeys) (k : K) (hk : k ∉ R.gbkeys) :
    matching rkeys (some k) = [] := by
  unfold matching
  rw [List.filter_eq_nil_iff]
  intro j _
  rw [decode_getElem? hR]
  cases hc : R.ikey[j]? with
  | none => simp
  | some c =>
    simp only [Option.map_some, beq_iff_eq, Option.some.injEq]
    split
    · simp
    · intro h; exact hk (List.mem_of_getElem? h)

/-- right rows that match a left group number -/
def rowsFor (L R : Grouping K) (c : Nat) : List Nat :=
  match partner L R c with
  | none => []
  | some r => rowsOf R.ikey (r + 1)

theorem matching_eq_rowsFor (hR : R.WF rkeys) (c : Nat) (hc : c ≤ L.gbkeys.length) :
    matching rkeys (keyOf L c) = rowsFor L R c := by
  unfold rowsFor keyOf
  cases hp : partner L R c with
  | some r =>
    obtain ⟨h0, k, h1, h2⟩ := (partner_eq_some hR.nodup c r).mp hp
    simp only [show c ≠ 0 by omega, if_false, h1]
    exact matching_keyOf hR r k h2
  | none =>
    split
    · rfl
    · have hlt : c - 1 < L.gbkeys.length := by omega
      rw [List.getElem?_eq_getElem hlt]
      apply matching_absent hR
      intro hm
      obtain ⟨r, hr⟩ := List.getElem?_of_mem hm
      have := (partner_eq_some (L := L) hR.nodup c r).mpr ⟨by omega, _, List.getElem?_eq_getElem hlt, hr⟩
      simp [hp] at this

theorem rowsFor_eq_nil (hR : R.WF rkeys) (c : Nat) : rowsFor L R c = [] ↔ partner L R c = none := by
  unfold rowsFor
  cases hp : partner L R c with
  | none => simp
  | some r =>
    obtain ⟨h0, k, h1, h2⟩ := (partner_eq_some hR.nodup c r).mp hp
    have := rowsOf_ne_nil hR r (List.getElem?_eq_some_iff.mp h2).1
    simp [this]

@[simp] theorem ncountgroup_length (g : Grouping K) : g.ncountgroup.length = g.gbkeys.length + 1 := by
  simp [Grouping.ncountgroup]

theorem ncountgroup_getElem? (g : Grouping K) (c : Nat) (h : c ≤ g.gbkeys.length) :
    g.ncountgroup[c]? = some (rowsOf g.ikey c).length := by
  simp [Grouping.ncountgroup, List.getElem?_range (show c < g.gbkeys.length + 1 by omega)]

theorem ifirstgroup_getD (g : Grouping K) (c : Nat) (h : c ≤ g.gbkeys.length) :
    g.ifirstgroup.getD c 0 = ((List.range c).map fun d => (rowsOf g.ikey d).length).sum := by
  simp [Grouping.ifirstgroup, List.getElem?_range (show c < g.gbkeys.length + 1 by omega)]

@[simp] theorem ifirstgroup_length (g : Grouping K) : g.ifirstgroup.length = g.gbkeys.length + 1 := by
  simp [Grouping.ifirstgroup]

theorem igroup_slice (g : Grouping K) (c : Nat) (h : c ≤ g.gbkeys.length) :
    (g.igroup.drop (g.ifirstgroup.getD c 0)).take (rowsOf g.ikey c).length = rowsOf g.ikey c := by
  have hsplit : List.range (g.gbkeys.length + 1) =
      List.range c ++ (c :: (List.range' (c + 1) (g.gbkeys.length - c))) := by
    have := List.range'_append_1 (s := 0) (m := c) (n := g.gbkeys.length - c + 1)
    rw [Nat.zero_add] at this
    rw [List.range_eq_range', List.range_eq_range', ← List.range'_succ, this]
    congr 1; omega
  rw [ifirstgroup_getD g c h]
  unfold Grouping.igroup
  rw [hsplit, List.flatMap_append, List.flatMap_cons]
  have hlen : ((List.range c).flatMap (rowsOf g.ikey)).length =
      ((List.range c).map fun d => (rowsOf g.ikey d).length).sum := by
    rw [List.length_flatMap]
  rw [← hlen, List.drop_left, List.take_left]

theorem igroup_getD (g : Grouping K) (c j : Nat) (h : c ≤ g.gbkeys.length)
    (hj : j < (rowsOf g.ikey c).length) :
    g.igroup.getD (g.ifirstgroup.getD c 0 + j) 0 = (rowsOf g.ikey c)[j] := by
  have h1 := igroup_slice g c h
  have h2 : (rowsOf g.ikey c)[j]? = g.igroup[g.ifirstgroup.getD c 0 + j]? := by
    conv_lhs => rw [← h1]
    rw [List.getElem?_take, if_pos hj, List.getElem?_drop]
  rw [List.getD_eq_getElem?_getD, ← h2, List.getElem?_eq_getElem hj]
  rfl

/-! ### key maps -/

theorem keyMaps_r2l (hL : L.WF lkeys) (hR : R.WF rkeys) (hl : L.ikey ≠ []) (hr : R.ikey ≠ []) :
    (keyMaps L R).2.1 = ismember R.gbkeys L.gbkeys ∧
      (keyMaps L R).1 = (ismember R.gbkeys L.gbkeys).map Option.isSome := by
  unfold keyMaps
  simp [hl, hr]

theorem ismember_getElem? (hL : L.gbkeys.Nodup) (r l : Nat) :
    (ismember R.gbkeys L.gbkeys)[r]? = some (some l) ↔
      ∃ k, R.gbkeys[r]? = some k ∧ L.gbkeys[l]? = some k := by
  unfold ismember
  simp only [List.getElem?_map, Option.map_eq_some_iff, findIdx?_eq_some_nodup hL]

theorem ismember_partner (hL : L.gbkeys.Nodup) (hR : R.gbkeys.Nodup) (r l : Nat) :
    (ismember R.gbkeys L.gbkeys)[r]? = some (some l) ↔ partner L R (l + 1) = some r := by
  rw [ismember_getElem? hL, partner_eq_some hR]
  constructor
  · rintro ⟨k, h1, h2⟩; exact ⟨by omega, k, by simpa using h2, h1⟩
  · rintro ⟨_, k, h1, h2⟩; exact ⟨k, h2, by simpa using h1⟩

/-- scatter through the right→left map: cell `l + d` holds the value of its
partner, or the initial value -/
theorem scatter_partner {β : Type} (hL : L.gbkeys.Nodup) (hR : R.gbkeys.Nodup)
    (d : Nat) (base vals : List β) (hv : vals.length = R.gbkeys.length)
    (hb : L.gbkeys.length + d ≤ base.length) (l : Nat) (hl : l < L.gbkeys.length) :
    (scatter base
      ((maskSel (ismember R.gbkeys L.gbkeys) ((ismember R.gbkeys L.gbkeys).map Option.isSome)).map
        fun o => o.getD 0 + d)
      (maskSel vals ((ismember R.gbkeys L.gbkeys).map Option.isSome)))[l + d]? =
    match partner L R (l + 1) with
    | none => base[l + d]?
    | some r => vals[r]? := by
  set im := ismember R.gbkeys L.gbkeys with him
  have hlen : im.length = R.gbkeys.length := by simp [him, ismember]
  rw [maskSel_map]
  have hcell : ∀ (i x : Nat), (im.map fun o => o.getD 0 + d)[i]? = some x →
      (im.map Option.isSome)[i]? = some true → ∃ l', x = l' + d ∧ partner L R (l' + 1) = some i := by
    intro i x h1 h2
    simp only [List.getElem?_map, Option.map_eq_some_iff] at h1 h2
    obtain ⟨o, ho, hx⟩ := h1
    obtain ⟨o', ho', hs⟩ := h2
    rw [ho] at ho'
    obtain rfl := Option.some.inj ho'
    obtain ⟨l', rfl⟩ := Option.isSome_iff_exists.mp hs
    exact ⟨l', by simpa using hx.symm, (ismember_partner hL hR i l').mp ho⟩
  have hs := scatter_mask base (im.map fun o => o.getD 0 + d) vals (im.map Option.isSome)
    (by simp [hlen, hv]) (by
      intro i j x h1 h2 h3 h4
      obtain ⟨l1, e1, p1⟩ := hcell i x h1 h3
      obtain ⟨l2, e2, p2⟩ := hcell j x h2 h4
      have : l1 = l2 := by omega
      subst this
      exact Option.some.inj (p1.symm.trans p2))
  cases hp : partner L R (l + 1) with
  | none =>
    apply hs.2
    intro i h1 h2
    obtain ⟨l', e, p⟩ := hcell i _ h1 h2
    have : l' = l := by omega
    subst this
    simp [hp] at p
  | some r =>
    have hi := (ismember_partner hL hR r l).mpr hp
    obtain ⟨_, k, _, hk⟩ := (partner_eq_some hR _ _).mp hp
    have hr : r < vals.length := hv ▸ (List.getElem?_eq_some_iff.mp hk).1
    have := hs.1 r (l + d) vals[r] (by simp [← him] at hi ⊢; simp [hi]) (List.getElem?_eq_getElem hr)
      (by simp [← him] at hi ⊢; simp [hi]) (by omega)
    rw [this]; simp [List.getElem?_eq_getElem hr]

end
end Verif.Merge
