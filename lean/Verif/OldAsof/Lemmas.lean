import Verif.OldAsof.Model
import Verif.OldAsof.Spec
/-! # Sorting, aligning and going back -/
namespace Verif.OldAsof
open Verif.Merge Verif.Merge2 Verif.Asof Verif.Items Verif.AsofDs

variable {V α δ : Type}

/-- the permutation that stands for no permutation -/
def perm (n : Nat) (o : Option (List Nat)) : List Nat := o.getD (List.range n)

/-- `o` puts the column in order; equal keys keep their order -/
structure Orders [LinearOrder α] (v : List α) (o : Option (List Nat)) : Prop where
  perm : (perm v.length o).Perm (List.range v.length)
  lex : ∀ (k k' i i' : Nat) (p q : α), k < k' → (OldAsof.perm v.length o)[k]? = some i → (OldAsof.perm v.length o)[k']? = some i' →
    v[i]? = some p → v[i']? = some q → p < q ∨ (p = q ∧ i < i')

/-- contract of what lies outside the model -/
structure OWorld.OK [AddCommGroup α] [LinearOrder α] (x : OWorld V α δ) : Prop where
  ord : ∀ l, (x.ord l).Perm l
  issorted : ∀ l, x.issorted l = true ↔ l.Pairwise (· ≤ ·)
  argsort : ∀ l, Orders l (some (x.argsort l))
  align : ∀ lk rk lt rt fwd exact, lk.length = lt.length → rk.length = rt.length → lt.Pairwise (· ≤ ·) → rt.Pairwise (· ≤ ·) →
    (x.align lk rk lt rt fwd exact).length = lt.length ∧
    ∀ (i : Nat) (y : α), lt[i]? = some y → ∃ r, (x.align lk rk lt rt fwd exact)[i]? = some r ∧
      if fwd then IsForward exact none (sameKey lk rk rt i) y r else IsBackward exact none (sameKey lk rk rt i) y r

theorem orders_none [LinearOrder α] {v : List α} (h : v.Pairwise (· ≤ ·)) : Orders v none := by
  refine ⟨List.Perm.refl _, ?_⟩
  intro k k' i i' p q hk h1 h2 hp hq
  unfold perm at h1 h2
  simp only [Option.getD_none] at h1 h2
  have e1 : k = i := by
    obtain ⟨a, b⟩ := List.getElem?_eq_some_iff.1 h1
    simpa using b
  have e2 : k' = i' := by
    obtain ⟨a, b⟩ := List.getElem?_eq_some_iff.1 h2
    simpa using b
  subst e1; subst e2
  obtain ⟨a1, b1⟩ := List.getElem?_eq_some_iff.1 hp
  obtain ⟨a2, b2⟩ := List.getElem?_eq_some_iff.1 hq
  have := List.pairwise_iff_getElem.1 h k k' a1 a2 hk
  rw [b1, b2] at this
  rcases lt_or_eq_of_le this with h | h
  · exact Or.inl h
  · exact Or.inr ⟨h, hk⟩

theorem range_gather {β : Type} (l : List β) : (List.range l.length).filterMap (fun i => l[i]?) = l := by
  induction l with
  | nil => rfl
  | cons a l ih =>
    rw [List.length_cons, List.range_succ_eq_map, List.filterMap_cons_some (f := fun i : Nat => (a :: l)[i]?) (b := a) rfl, List.filterMap_map]
    congr 1

theorem optGather_eq {β : Type} (l : List β) (o : Option (List Nat)) : optGather l o = (perm l.length o).filterMap fun i => l[i]? := by
  cases o with
  | none => exact (range_gather l).symm
  | some p => rfl

theorem gather_get {β : Type} (l : List β) : ∀ (p : List Nat), (∀ i ∈ p, i < l.length) → ∀ k : Nat,
    (p.filterMap fun i => l[i]?)[k]? = (p[k]?).bind fun i => l[i]? := by
  intro p
  induction p with
  | nil => intro _ k; simp
  | cons a p ih =>
    intro h k
    have ha : l[a]? = some (l[a]'(h a (by simp))) := List.getElem?_eq_getElem (h a (by simp))
    rw [List.filterMap_cons_some ha]
    cases k with
    | zero => simp [ha]
    | succ k => simpa using ih (fun i hi => h i (List.mem_cons_of_mem _ hi)) k

theorem perm_lt {n : Nat} {o : Option (List Nat)} (h : (perm n o).Perm (List.range n)) : ∀ i ∈ perm n o, i < n :=
  fun i hi => by simpa using h.mem_iff.1 hi

theorem optGather_get {β : Type} (l : List β) (o : Option (List Nat)) (h : (perm l.length o).Perm (List.range l.length)) (k : Nat) :
    (optGather l o)[k]? = ((perm l.length o)[k]?).bind fun i => l[i]? := by
  rw [optGather_eq]
  exact gather_get l _ (perm_lt h) k

theorem optGather_length {β : Type} (l : List β) (o : Option (List Nat)) (h : (perm l.length o).Perm (List.range l.length)) :
    (optGather l o).length = l.length := by
  rw [optGather_eq]
  have : ∀ p : List Nat, (∀ i ∈ p, i < l.length) → (p.filterMap fun i => l[i]?).length = p.length := by
    intro p
    induction p with
    | nil => intro _; rfl
    | cons a p ih =>
      intro h
      have ha : l[a]? = some (l[a]'(h a (by simp))) := List.getElem?_eq_getElem (h a (by simp))
      rw [List.filterMap_cons_some ha, List.length_cons, ih (fun i hi => h i (List.mem_cons_of_mem _ hi)), List.length_cons]
  rw [this _ (perm_lt h), h.length_eq]
  simp

theorem perm_nodup {n : Nat} {o : Option (List Nat)} (h : (perm n o).Perm (List.range n)) : (perm n o).Nodup :=
  h.nodup_iff.2 List.nodup_range

theorem perm_surj {n : Nat} {o : Option (List Nat)} (h : (perm n o).Perm (List.range n)) {i : Nat} (hi : i < n) :
    ∃ k : Nat, (perm n o)[k]? = some i :=
  List.getElem?_of_mem (h.mem_iff.2 (by simpa using hi))

theorem perm_inj {n : Nat} {o : Option (List Nat)} (h : (perm n o).Perm (List.range n)) {i k k' : Nat}
    (h1 : (perm n o)[k]? = some i) (h2 : (perm n o)[k']? = some i) : k = k' := by
  obtain ⟨a1, b1⟩ := List.getElem?_eq_some_iff.1 h1
  obtain ⟨a2, b2⟩ := List.getElem?_eq_some_iff.1 h2
  exact (List.Nodup.getElem_inj_iff (perm_nodup h)).1 (b1.trans b2.symm)

theorem sorted_gather [LinearOrder α] {v : List α} {o : Option (List Nat)} (h : Orders v o) : (optGather v o).Pairwise (· ≤ ·) := by
  rw [List.pairwise_iff_getElem]
  intro k k' hk hk' hlt
  have e1 := optGather_get v o h.perm k
  have e2 := optGather_get v o h.perm k'
  rw [List.getElem?_eq_getElem hk] at e1
  rw [List.getElem?_eq_getElem hk'] at e2
  obtain ⟨i, hi, hi'⟩ := Option.bind_eq_some_iff.1 e1.symm
  obtain ⟨j, hj, hj'⟩ := Option.bind_eq_some_iff.1 e2.symm
  rcases h.lex k k' i j _ _ hlt hi hj hi' hj' with h | ⟨h, -⟩
  · exact le_of_lt h
  · exact le_of_eq h

/-! ## Going back to the left rows -/

theorem fold_set_length {β : Type} (l : List (Nat × β)) (out : List β) :
    (l.foldl (fun (out : List β) (e : Nat × β) => out.set e.1 e.2) out).length = out.length := by
  induction l generalizing out with
  | nil => rfl
  | cons e l ih => rw [List.foldl_cons, ih, List.length_set]

theorem fold_set_other {β : Type} (l : List (Nat × β)) (out : List β) (i : Nat) (h : i ∉ l.map Prod.fst) :
    (l.foldl (fun (out : List β) (e : Nat × β) => out.set e.1 e.2) out)[i]? = out[i]? := by
  induction l generalizing out with
  | nil => rfl
  | cons e l ih =>
    rw [List.map_cons, List.mem_cons, not_or] at h
    rw [List.foldl_cons, ih _ h.2, List.getElem?_set_ne (fun e' => h.1 e'.symm)]

theorem fold_set_mem {β : Type} (l : List (Nat × β)) (out : List β) (hn : (l.map Prod.fst).Nodup) (e : Nat × β) (he : e ∈ l)
    (hlt : e.1 < out.length) : (l.foldl (fun (out : List β) (e : Nat × β) => out.set e.1 e.2) out)[e.1]? = some e.2 := by
  induction l generalizing out with
  | nil => cases he
  | cons d l ih =>
    rw [List.map_cons, List.nodup_cons] at hn
    rw [List.foldl_cons]
    rcases List.mem_cons.1 he with rfl | he
    · rw [fold_set_other _ _ _ hn.1, List.getElem?_set_self hlt]
    · exact ih _ hn.2 he (by rw [List.length_set]; exact hlt)

theorem scatter_length (p : List (Option Nat)) (o : Option (List Nat)) : (scatter p o).length = p.length := by
  cases o with
  | none => rfl
  | some la => exact fold_set_length _ _

theorem scatter_get (p : List (Option Nat)) (o : Option (List Nat)) (h : (perm p.length o).Perm (List.range p.length)) {k i : Nat}
    (hk : (perm p.length o)[k]? = some i) : (scatter p o)[i]? = p[k]? := by
  cases o with
  | none =>
    unfold perm at hk
    obtain ⟨a, b⟩ := List.getElem?_eq_some_iff.1 hk
    have : k = i := by simpa using b
    rw [this]; rfl
  | some la =>
    have hla : la.Perm (List.range p.length) := h
    have hlen : la.length = p.length := by simpa using hla.length_eq
    have hk' : la[k]? = some i := hk
    obtain ⟨a, b⟩ := List.getElem?_eq_some_iff.1 hk'
    have hkp : k < p.length := by omega
    have hmem : (i, p[k]) ∈ la.zip p := by
      apply List.mem_of_getElem? (i := k)
      rw [List.getElem?_zip_eq_some]
      exact ⟨hk', List.getElem?_eq_getElem hkp⟩
    have hfst : (la.zip p).map Prod.fst = la := List.map_fst_zip (by omega)
    have hi : i < p.length := by
      have := hla.mem_iff.1 (List.mem_of_getElem? hk')
      simpa using this
    have := fold_set_mem (la.zip p) p (by rw [hfst]; exact hla.nodup_iff.2 List.nodup_range) (i, p[k]) hmem hi
    rw [List.getElem?_eq_getElem hkp]
    exact this

theorem backTo_get {v : List α} (p : List (Option Nat)) (o : Option (List Nat)) (i : Nat) (r : Option Nat) (h : p[i]? = some r)
    (hr : ∀ k, r = some k → k < v.length) : (backTo p o)[i]? = some (r.bind fun k => (perm v.length o)[k]?) := by
  cases o with
  | none =>
    show p[i]? = _
    rw [h]
    congr 1
    cases r with
    | none => rfl
    | some k =>
      have := hr k rfl
      simp [perm, List.getElem?_range this]
  | some ra =>
    show (p.map _)[i]? = _
    rw [List.getElem?_map, h]; rfl

/-! ## From the sorted to the given order -/

section
variable [AddCommGroup α] [LinearOrder α] {K : Type} {lk rk : List (Option K)} {lt rt : List α} {la ra : Option (List Nat)}

theorem cand_back (hlk : lk.length = lt.length) (hrk : rk.length = rt.length) (hl : Orders lt la) (hr : Orders rt ra) {k i : Nat}
    (hki : (perm lt.length la)[k]? = some i) (k2 : Nat) (y : α) :
    sameKey (optGather lk la) (optGather rk ra) (optGather rt ra) k k2 y ↔
      ∃ j, (perm rt.length ra)[k2]? = some j ∧ sameKey lk rk rt i j y := by
  unfold sameKey
  rw [optGather_get lk la (by rw [hlk]; exact hl.perm), optGather_get rk ra (by rw [hrk]; exact hr.perm), optGather_get rt ra hr.perm,
    hlk, hrk, hki, Option.bind_some]
  cases hj : (perm rt.length ra)[k2]? with
  | none => simp
  | some j => simp

theorem latest_back {exact : Bool} (hr : Orders rt ra) (cand cand' : Nat → α → Prop) (x : α) (r : Option Nat)
    (hc : ∀ (k : Nat) (y : α), cand' k y ↔ ∃ j, (perm rt.length ra)[k]? = some j ∧ cand j y) (hv : ∀ (j : Nat) (y : α), cand j y → rt[j]? = some y)
    (h : IsBackward exact none cand' x r) : IsLatest exact cand x (r.bind fun k => (perm rt.length ra)[k]?) := by
  have hlex : ∀ {k k' j j' : Nat} {y y' : α}, k < k' → (perm rt.length ra)[k]? = some j → (perm rt.length ra)[k']? = some j' → cand j y → cand j' y' →
      y < y' ∨ (y = y' ∧ j < j') := fun hk h1 h2 c1 c2 => hr.lex _ _ _ _ _ _ hk h1 h2 (hv _ _ c1) (hv _ _ c2)
  have hsurj : ∀ {j : Nat} {y : α}, cand j y → ∃ k : Nat, (perm rt.length ra)[k]? = some j := by
    intro j y hj
    exact perm_surj hr.perm (List.getElem?_eq_some_iff.1 (hv j y hj)).1
  intro j
  constructor
  · intro e
    obtain ⟨k, rfl, hk⟩ := Option.bind_eq_some_iff.1 e
    obtain ⟨y, c, b, -, m⟩ := (h k).1 rfl
    obtain ⟨j1, hj1, c1⟩ := (hc k y).1 c
    have : j1 = j := by rw [hk] at hj1; exact (Option.some.inj hj1).symm
    subst this
    refine ⟨y, c1, b, ?_⟩
    intro j' y' c' b'
    obtain ⟨k', hk'⟩ := hsurj c'
    have hle := m k' y' ((hc k' y').2 ⟨j', hk', c'⟩) b'
    rcases Nat.lt_or_eq_of_le hle with hlt | rfl
    · rcases hlex hlt hk' hk c' c1 with h | ⟨h1, h2⟩
      · exact Or.inl h
      · exact Or.inr ⟨h1, le_of_lt h2⟩
    · have e : j' = j1 := by rw [hk] at hk'; exact (Option.some.inj hk').symm
      subst e
      have := (hv _ _ c').symm.trans (hv _ _ c1)
      exact Or.inr ⟨Option.some.inj this, Nat.le_refl _⟩
  · rintro ⟨y, c, b, m⟩
    obtain ⟨k, hk⟩ := hsurj c
    have : r = some k := by
      rw [h k]
      refine ⟨y, (hc k y).2 ⟨j, hk, c⟩, b, (fun t ht => by cases ht), ?_⟩
      intro k' y' c' b'
      obtain ⟨j', hj', c''⟩ := (hc k' y').1 c'
      by_contra hlt
      rcases hlex (Nat.lt_of_not_le hlt) hk hj' c c'' with h1 | ⟨h1, h2⟩ <;> rcases m j' y' c'' b' with h3 | ⟨h3, h4⟩
      · exact absurd h1 (not_lt_of_gt h3)
      · exact absurd h1 (by rw [h3]; exact lt_irrefl _)
      · exact absurd h3 (by rw [h1]; exact lt_irrefl _)
      · omega
    rw [this, Option.bind_some]
    exact hk

theorem earliest_back {exact : Bool} (hr : Orders rt ra) (cand cand' : Nat → α → Prop) (x : α) (r : Option Nat)
    (hc : ∀ (k : Nat) (y : α), cand' k y ↔ ∃ j, (perm rt.length ra)[k]? = some j ∧ cand j y) (hv : ∀ (j : Nat) (y : α), cand j y → rt[j]? = some y)
    (h : IsForward exact none cand' x r) : IsEarliest exact cand x (r.bind fun k => (perm rt.length ra)[k]?) := by
  have hlex : ∀ {k k' j j' : Nat} {y y' : α}, k < k' → (perm rt.length ra)[k]? = some j → (perm rt.length ra)[k']? = some j' → cand j y → cand j' y' →
      y < y' ∨ (y = y' ∧ j < j') := fun hk h1 h2 c1 c2 => hr.lex _ _ _ _ _ _ hk h1 h2 (hv _ _ c1) (hv _ _ c2)
  have hsurj : ∀ {j : Nat} {y : α}, cand j y → ∃ k : Nat, (perm rt.length ra)[k]? = some j := by
    intro j y hj
    exact perm_surj hr.perm (List.getElem?_eq_some_iff.1 (hv j y hj)).1
  intro j
  constructor
  · intro e
    obtain ⟨k, rfl, hk⟩ := Option.bind_eq_some_iff.1 e
    obtain ⟨y, c, b, -, m⟩ := (h k).1 rfl
    obtain ⟨j1, hj1, c1⟩ := (hc k y).1 c
    have : j1 = j := by rw [hk] at hj1; exact (Option.some.inj hj1).symm
    subst this
    refine ⟨y, c1, b, ?_⟩
    intro j' y' c' b'
    obtain ⟨k', hk'⟩ := hsurj c'
    have hle := m k' y' ((hc k' y').2 ⟨j', hk', c'⟩) b'
    rcases Nat.lt_or_eq_of_le hle with hlt | rfl
    · rcases hlex hlt hk hk' c1 c' with h | ⟨h1, h2⟩
      · exact Or.inl h
      · exact Or.inr ⟨h1, le_of_lt h2⟩
    · have e : j' = j1 := by rw [hk] at hk'; exact (Option.some.inj hk').symm
      subst e
      have := (hv _ _ c1).symm.trans (hv _ _ c')
      exact Or.inr ⟨Option.some.inj this, Nat.le_refl _⟩
  · rintro ⟨y, c, b, m⟩
    obtain ⟨k, hk⟩ := hsurj c
    have : r = some k := by
      rw [h k]
      refine ⟨y, (hc k y).2 ⟨j, hk, c⟩, b, (fun t ht => by cases ht), ?_⟩
      intro k' y' c' b'
      obtain ⟨j', hj', c''⟩ := (hc k' y').1 c'
      by_contra hlt
      rcases hlex (Nat.lt_of_not_le hlt) hj' hk c'' c with h1 | ⟨h1, h2⟩ <;> rcases m j' y' c'' b' with h3 | ⟨h3, h4⟩
      · exact absurd h1 (not_lt_of_gt h3)
      · exact absurd h1 (by rw [h3]; exact lt_irrefl _)
      · exact absurd h3 (by rw [h1]; exact lt_irrefl _)
      · omega
    rw [this, Option.bind_some]
    exact hk

end

/-! ## Keys -/

theorem alignKeys_eq (x : OWorld V α δ) (ds : DS V) (by' : List Name) : alignKeys x ds by' = rowKeys x.inv x.isnull ds by' := by
  unfold alignKeys rowKeys maskKeys keyTuples tupleNull
  rw [List.map_map]
  apply List.map_congr_left
  intro i _
  simp

theorem rowKeys_length (inv : V) (isnull : V → Bool) (ds : DS V) (by' : List Name) : (rowKeys inv isnull ds by').length = ds.nrows := by
  simp [rowKeys]

/-- without `by` columns the order of the keys does not matter -/
theorem gather_noby (inv : V) (isnull : V → Bool) (ds : DS V) (o : Option (List Nat)) (h : (perm ds.nrows o).Perm (List.range ds.nrows)) :
    optGather (rowKeys inv isnull ds []) o = rowKeys inv isnull ds [] := by
  have e : rowKeys inv isnull ds [] = List.replicate ds.nrows (some []) := by
    simp [rowKeys]
  rw [e]
  have hp : (perm (List.replicate ds.nrows (some ([] : List V))).length o).Perm (List.range (List.replicate ds.nrows (some ([] : List V))).length) := by
    simpa using h
  rw [List.eq_replicate_iff]
  refine ⟨by rw [optGather_length _ _ hp]; simp, ?_⟩
  intro b hb
  rw [optGather_eq] at hb
  obtain ⟨i, -, hi⟩ := List.mem_filterMap.1 hb
  exact List.eq_of_mem_replicate (List.mem_of_getElem? hi)

end Verif.OldAsof
