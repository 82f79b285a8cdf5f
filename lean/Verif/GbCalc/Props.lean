import Verif.GbCalc.Names
/-!
# What group-by operations return

Parameters: the calculation of one column (`Env.agg`), the key columns and the order in which the groups are shown.
-/
namespace Verif.GbCalc

variable {V : Type}

/-! ## Names of arrays -/

theorem rawNames_given (l : List (Option Name)) : rawNames l = given l := by
  unfold rawNames given
  rw [List.mapIdx_eq_zipIdx_map]
  refine List.map_congr_left fun p _ => ?_
  rcases p with ⟨_ | n, i⟩ <;> rfl

/-- every array gets a name -/
theorem headers_length (l : List (Option Name)) : (headerNames l).length = l.length := by
  rw [(header_inv l).len, rawNames_given]; simp [given]

/-- the first array of a name keeps it; a later one gets the name followed by a number, which no array has as its name -/
theorem headers_names (l : List (Option Name)) (i : Nat) (n : Name) (hn : (given l)[i]? = some n) :
    (n ∉ (given l).take i ∧ (headerNames l)[i]? = some n) ∨
      (n ∈ (given l).take i ∧ ∃ k, (headerNames l)[i]? = some (n ++ Nat.toDigits 10 k) ∧ n ++ Nat.toDigits 10 k ∉ given l) := by
  have h := header_inv l
  rw [rawNames_given] at h
  have hi : i < (headerNames l).length := by
    rw [h.len]; exact (List.getElem?_eq_some_iff.1 hn).1
  have ho : (headerNames l)[i]? = some (headerNames l)[i] := List.getElem?_eq_getElem hi
  rcases h.ent i n _ hn ho with ⟨h1, h2⟩ | ⟨h1, k, c, h2, h3, _, _⟩
  · exact Or.inl ⟨h2, by rw [ho, h1]⟩
  · exact Or.inr ⟨h1, k, by rw [ho, h2]; rfl, by rw [h2] at h3; exact h3⟩

/-- the names are different, provided no repeated name is another repeated name followed by digits -/
theorem headers_distinct (l : List (Option Name)) (hc : NoDigitClash (given l)) : (headerNames l).Nodup := by
  have h := header_inv l
  rw [rawNames_given] at h
  rw [List.nodup_iff_getElem?_ne_getElem?]
  intro i j hij hj he
  have hlen := h.len
  have hoi : (headerNames l)[i]? = some (headerNames l)[i] := List.getElem?_eq_getElem (by omega)
  have hoj : (headerNames l)[j]? = some (headerNames l)[i] := by rw [← he, hoi]
  have hni : (given l)[i]? = some (given l)[i] := List.getElem?_eq_getElem (by omega)
  have hnj : (given l)[j]? = some (given l)[j] := List.getElem?_eq_getElem (by omega)
  generalize (headerNames l)[i] = o at *
  generalize (given l)[i] = n at *
  generalize (given l)[j] = m at *
  have hrep : ∀ {x : Nat} {a : Name}, (given l)[x]? = some a → a ∈ (given l).take x → 2 ≤ times (given l) a := by
    intro x a hx hm
    obtain ⟨y, hy, hy'⟩ := mem_take_idx hm
    exact times_two hy hy' hx
  rcases h.ent i n o hni hoi with ⟨h1, h2⟩ | ⟨h1, k, c, h2, h3, h4, h5⟩ <;>
    rcases h.ent j m o hnj hoj with ⟨g1, g2⟩ | ⟨g1, k', c', g2, g3, g4, g5⟩
  · have : m = n := g1.symm.trans h1
    refine g2 ?_
    rw [this]
    refine List.mem_iff_getElem?.2 ⟨i, ?_⟩
    rw [List.getElem?_take, if_pos hij]; exact hni
  · exact g3 (h1 ▸ List.mem_of_getElem? hni)
  · exact h3 (g1 ▸ List.mem_of_getElem? hnj)
  · by_cases hnm : n = m
    · subst hnm
      exact h.dis i j n o hij hni hnj hoi hoj
    · have he' : n ++ str k = m ++ str k' := h2.symm.trans g2
      have hn2 := hrep hni h1
      have hm2 := hrep hnj g1
      rcases List.append_eq_append_iff.1 he' with ⟨a, ha, hb⟩ | ⟨a, ha, hb⟩
      · refine hc n (List.mem_of_getElem? hni) m (List.mem_of_getElem? hnj) hn2 hm2 a ?_ ?_ ha
        · rintro rfl
          exact hnm (by simpa using ha.symm)
        · exact fun c hc => str_digits k c (by rw [hb]; exact List.mem_append_left _ hc)
      · refine hc m (List.mem_of_getElem? hnj) n (List.mem_of_getElem? hni) hm2 hn2 a ?_ ?_ ha
        · rintro rfl
          exact hnm (by simpa using ha)
        · exact fun c hc => str_digits k' c (by rw [hb]; exact List.mem_append_left _ hc)

/-! ## Columns of a result -/

theorem removed_accepts (f : Name) (k : Kind) : removed f k = !accepts f k := by
  cases k with
  | number => rfl
  | span => rfl
  | date => exact decide_not (p := f ∈ dateAllowed)
  | category => exact decide_not (p := f ∈ categoricalAllowed)
  | text => exact decide_not (p := f ∈ stringAllowed)

theorem names_filter (p : Name × V → Bool) (q : Name → Bool) (d : List (Name × V)) (h : ∀ x ∈ d, p x = q x.1) :
    names (d.filter p) = (names d).filter q := by
  induction d with
  | nil => rfl
  | cons x d ih =>
    have hx := h x (by simp)
    have := ih fun y hy => h y (by simp [hy])
    simp only [names, List.filter_cons, List.map_cons, hx] at this ⊢
    cases q x.1 <;> simp [this]

theorem at?_filterMap {A B : Type} (g : Name × A → Option B) (d : List (Name × A)) (hn : (names d).Nodup) (k : Name) :
    at? (d.filterMap fun p => (g p).map fun v => (p.1, v)) k = (at? d k).bind fun c => g (k, c) := by
  induction d with
  | nil => simp [at?_nil]
  | cons p d ih =>
    simp only [names, List.map_cons, List.nodup_cons] at hn
    rw [List.filterMap_cons, at?_cons]
    by_cases hp : p.1 = k
    · rw [if_pos hp]
      have hd : at? d k = none := (at?_eq_none d k).2 (hp ▸ hn.1)
      have : p = (k, p.2) := by rw [← hp]
      cases hg : g p with
      | none =>
        simp only [Option.map_none, ih hn.2, hd, Option.bind_none, Option.bind_some]
        rw [← this, hg]
      | some v =>
        simp only [Option.map_some, at?_cons, hp, if_true, Option.bind_some]
        rw [← this, hg]
    · rw [if_neg hp]
      cases hg : g p with
      | none => simp only [Option.map_none, ih hn.2]
      | some v => simp only [Option.map_some, at?_cons, hp, if_false, ih hn.2]

theorem names_filterMap_sublist {A B : Type} (g : Name × A → Option B) (d : List (Name × A)) :
    (names (d.filterMap fun p => (g p).map fun v => (p.1, v))).Sublist (names d) := by
  induction d with
  | nil => simp [names]
  | cons p d ih =>
    rw [List.filterMap_cons]
    cases g p with
    | none => exact List.Sublist.cons _ ih
    | some v => exact List.Sublist.cons_cons _ ih

/-- `col_idx`, if given, has the name -/
def optHas : Option Sel → Name → Bool
  | none, _ => true
  | some s, k => s.has k

/-- the columns that enter the calculation -/
theorem calcDict_at (keys : List Name) (f : Name) (o : Opts) (orig : List (Name × Col V)) (hn : (names orig).Nodup) (k : Name) :
    at? (calcDict keys f o.sel o.returnAll o.computable orig) k =
      (at? orig k).bind fun c =>
        if ((optHas o.sel k || decide (k ∈ keys)) && (o.returnAll || decide (k ∉ keys)) &&
          (!o.computable || accepts f c.kind)) = true then some c else none := by
  have key : ∀ (q : Name × Col V → Bool) (d : List (Name × Col V)), (names d).Nodup →
      at? (d.filter q) k = (at? d k).bind fun c => if q (k, c) = true then some c else none := by
    intro q d hd
    have := at?_filterMap (fun p => if q p = true then some p.2 else none) d hd k
    have e : (d.filterMap fun p => (if q p = true then some p.2 else none).map fun v => (p.1, v)) = d.filter q := by
      rw [← List.filterMap_eq_filter]
      refine List.filterMap_congr fun p _ => ?_
      cases h : q p <;> simp [Option.guard, h]
    rw [← e, this]
  have nd : ∀ (q : Name × Col V → Bool) (d : List (Name × Col V)), (names d).Nodup → (names (d.filter q)).Nodup := by
    intro q d hd
    exact hd.sublist (List.filter_sublist.map Prod.fst)
  unfold calcDict
  cases ho : at? orig k with
  | none =>
    cases o.sel <;> cases o.returnAll <;> cases o.computable <;>
      simp [key, hn, ho]
  | some c =>
    cases hs : o.sel with
    | none =>
      by_cases h1 : k ∈ keys <;> cases h2 : accepts f c.kind <;> cases o.returnAll <;> cases o.computable <;>
        simp [key, hn, ho, removed_accepts, optHas, h1, h2]
    | some s =>
      by_cases h1 : k ∈ keys <;> cases h2 : accepts f c.kind <;> cases h3 : s.has k <;> cases o.returnAll <;>
        cases o.computable <;> simp [key, hn, ho, removed_accepts, optHas, h1, h2, h3]

theorem calcDict_nodup (keys : List Name) (f : Name) (sel : Option Sel) (ra cp : Bool) (orig : List (Name × Col V))
    (hn : (names orig).Nodup) : (names (calcDict keys f sel ra cp orig)).Nodup := by
  have nd : ∀ (q : Name × Col V → Bool) (d : List (Name × Col V)), (names d).Nodup → (names (d.filter q)).Nodup := by
    intro q d hd
    exact hd.sublist (List.filter_sublist.map Prod.fst)
  unfold calcDict
  cases sel <;> cases ra <;> cases cp <;> simp [nd, hn]

theorem pick_rowsFrom (rows : List Nat) (v : List V) (h : ∀ i ∈ rows, i < v.length) : RowsFrom rows v (pick rows v) := by
  induction rows with
  | nil => exact ⟨rfl, by simp⟩
  | cons a rows ih =>
    have ha : v[a]? = some (v[a]'(h a (by simp))) := List.getElem?_eq_getElem _
    obtain ⟨h1, h2⟩ := ih fun i hi => h i (by simp [hi])
    have e : pick (a :: rows) v = (v[a]'(h a (by simp))) :: pick rows v := by simp [pick, ha]
    rw [e]
    refine ⟨by simp [h1], ?_⟩
    intro r i hr
    cases r with
    | zero => simp only [List.getElem?_cons_zero, Option.some.injEq] at hr ⊢; rw [← hr, ha]
    | succ r => simpa using h2 r i (by simpa using hr)

/-- the rows of a column as they are shown -/
def sortedCol (isort : Option (List Nat)) (v : List V) : List V := match isort with | some rows => pick rows v | none => v

theorem sortedCol_shown (isort : Option (List Nat)) (v : List V) (h : ∀ rows, isort = some rows → ∀ i ∈ rows, i < v.length) :
    Shown isort v (sortedCol isort v) := by
  cases isort with
  | none => rfl
  | some rows => exact pick_rowsFrom rows v (h rows rfl)

theorem finalize_at (isort : Option (List Nat)) (gbkeys d : List (Name × List V)) (hk : (names gbkeys).Nodup) (k : Name) :
    at? (finalize isort gbkeys d) k =
      if k ∈ names gbkeys then at? gbkeys k else (at? d k).map (sortedCol isort) := by
  unfold finalize sortData
  rw [at?_foldl_put, at?_reverse hk]
  by_cases hkk : k ∈ names gbkeys
  · obtain ⟨v, hv⟩ := (at?_isSome gbkeys k).2 hkk
    rw [if_pos hkk, hv]; rfl
  · rw [if_neg hkk, (at?_eq_none gbkeys k).2 hkk, Option.none_or]
    cases isort with
    | none => cases at? d k <;> rfl
    | some rows =>
      simp only
      induction d with
      | nil => rfl
      | cons p d ih =>
        rw [List.map_cons, at?_cons, at?_cons, ih]
        by_cases hp : p.1 = k
        · have : p.1 ∉ names gbkeys := fun h => hkk (hp ▸ h)
          rw [if_neg this]
          simp [hp, sortedCol]
        · by_cases hpk : p.1 ∈ names gbkeys <;> simp [hpk, hp]

theorem newDict_at (inv : Col V → List V) (ra : Bool) (gbkeys : List (Name × List V)) (orig : List (Name × Col V))
    (acc : List (Name × List V)) (hn : (names orig).Nodup) (k : Name) (hk : k ∉ names gbkeys) :
    at? (newDict inv ra gbkeys orig acc) k =
      (at? orig k).bind fun c => match at? acc k with | some v => some v | none => if ra then some (inv c) else none := by
  have := at?_filterMap (fun p : Name × Col V => match at? acc p.1 with
    | some v => some v
    | none => match at? gbkeys p.1 with | some v => some v | none => if ra then some (inv p.2) else none) orig hn k
  have e : newDict inv ra gbkeys orig acc = orig.filterMap fun p => (match at? acc p.1 with
    | some v => some v
    | none => match at? gbkeys p.1 with | some v => some v | none => if ra then some (inv p.2) else none).map fun v => (p.1, v) := by
    unfold newDict
    refine List.filterMap_congr fun p _ => ?_
    cases at? acc p.1 with
    | some v => rfl
    | none =>
      cases at? gbkeys p.1 with
      | some v => rfl
      | none => cases ra <;> rfl
  rw [e, this]
  simp only [(at?_eq_none gbkeys k).2 hk]

/-- the key columns are those of the grouping -/
theorem calculate_keys (e : Env V) (f : Name) (o : Opts) (orig : List (Name × Col V)) (hk : (names e.gbkeys).Nodup) (k : Name)
    (h : k ∈ names e.gbkeys) : at? (calculate e f o orig) k = at? e.gbkeys k := by
  unfold calculate
  rw [finalize_at _ _ _ hk, if_pos h]

/-- the value under a name that is not a key -/
theorem calculate_at (e : Env V) (f : Name) (o : Opts) (orig : List (Name × Col V)) (hn : (names orig).Nodup)
    (hk : (names e.gbkeys).Nodup) (k : Name) (h : k ∉ names e.gbkeys) :
    at? (calculate e f o orig) k =
      ((at? orig k).bind fun c =>
        match (if (optHas o.sel k && (!o.computable || accepts f c.kind)) = true
          then e.agg f c else none) with
        | some v => some v
        | none => if o.returnAll then some (e.inv c) else none).map (sortedCol e.isort) := by
  unfold calculate
  rw [finalize_at _ _ _ hk, if_neg h, newDict_at _ _ _ _ _ hn _ h]
  congr 1
  have hacc : at? (accumDict e.agg f (calcDict (names e.gbkeys) f o.sel o.returnAll o.computable orig)) k =
      (at? (calcDict (names e.gbkeys) f o.sel o.returnAll o.computable orig) k).bind fun c => e.agg f c := by
    unfold accumDict
    exact at?_filterMap (fun p : Name × Col V => e.agg f p.2) _ (calcDict_nodup _ _ _ _ _ _ hn) k
  rw [hacc, calcDict_at _ _ _ _ hn]
  cases ho : at? orig k with
  | none => rfl
  | some c =>
    simp only [Option.bind_some, h, decide_false, Bool.or_false, not_false_eq_true, decide_true, Bool.or_true, Bool.and_true]
    cases hcp : (!o.computable || accepts f c.kind) <;> cases hh : optHas o.sel k <;> simp

end Verif.GbCalc
