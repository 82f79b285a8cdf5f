import Verif.CatOps.Props
/-!
# C102-C104: duplicate categories, filtering and merging of mappings
-/
namespace Verif.CatOps
open Verif.Cat

variable {L : Type}

/-! ## category_make_unique -/

theorem mapM_get {A B : Type} (f : A → Option B) : ∀ (l : List A) (r : List B), l.mapM f = some r →
    r.length = l.length ∧ ∀ (i : Nat) (x : A), l[i]? = some x → ∃ y, f x = some y ∧ r[i]? = some y := by
  intro l
  induction l with
  | nil =>
    intro r h
    have : r = [] := by simpa using h.symm
    subst this
    exact ⟨rfl, fun i x hx => by simp at hx⟩
  | cons a l ih =>
    intro r h
    rw [List.mapM_cons] at h
    rcases ha : f a with _ | b
    · rw [ha] at h; simp at h
    · rcases hl : l.mapM f with _ | bs
      · rw [ha, hl] at h; simp at h
      · rw [ha, hl] at h
        have : r = b :: bs := by simpa using h.symm
        subst this
        obtain ⟨h1, h2⟩ := ih bs hl
        refine ⟨by simp [h1], fun i x hx => ?_⟩
        cases i with
        | zero =>
          simp only [List.getElem?_cons_zero, Option.some.injEq] at hx
          subst hx
          exact ⟨b, ha, rfl⟩
        | succ i => exact h2 i x (by simpa using hx)

theorem mapM_total {A B : Type} (f : A → Option B) (l : List A) (h : ∀ x ∈ l, ∃ y, f x = some y) : ∃ r, l.mapM f = some r := by
  induction l with
  | nil => exact ⟨[], rfl⟩
  | cons a l ih =>
    obtain ⟨b, hb⟩ := h a (by simp)
    obtain ⟨bs, hbs⟩ := ih fun x hx => h x (by simp [hx])
    exact ⟨b :: bs, by rw [List.mapM_cons, hb, hbs]; rfl⟩

/-- what making a Categorical of the categories gives: distinct categories, used ones only, and the same labels row by row -/
structure UniqueOf (base : Nat) (labels : List L) (uc : C L) : Prop where
  wf : uc.WF
  base_eq : uc.base = base
  rows : uc.rows = labels.map some
  used : ∀ l ∈ uc.labels, l ∈ labels

theorem rows_get (c : C L) (i : Nat) : c.rows[i]? = c.codes[i]?.map (label? c.base c.labels) := by
  unfold C.rows
  rw [List.getElem?_map]

/-- **C103** `category_make_unique()` changes no row: every row, filtered or not, keeps its label; afterwards the categories differ
and are the labels there were before. `c` may have the same label at several places. -/
theorem makeUnique_correct (c uc : C L) (hb : c.base ≤ 1) (lo : ∀ k ∈ c.codes, 0 ≤ k)
    (hi : ∀ k ∈ c.codes, k < (c.base : Int) + c.labels.length) (hu : UniqueOf c.base c.labels uc) :
    ∃ r, makeUnique c uc = some r ∧ r.rows = c.rows ∧ r.labels.Nodup ∧ ∀ l, l ∈ r.labels ↔ l ∈ c.labels := by
  have hlen : uc.codes.length = c.labels.length := by
    have := congrArg List.length hu.rows
    simpa [C.rows] using this
  have hmem : ∀ l, l ∈ uc.labels ↔ l ∈ c.labels := by
    intro l
    refine ⟨hu.used l, fun h => ?_⟩
    have : some l ∈ uc.rows := by rw [hu.rows]; exact List.mem_map_of_mem h
    obtain ⟨k, _, hk⟩ := List.mem_map.1 this
    unfold label? at hk
    split at hk
    · simp at hk
    · exact List.mem_of_getElem? hk
  -- the category of an old code
  have hcat : ∀ (j : Nat) (p : Int), uc.codes[j]? = some p → label? c.base uc.labels p = c.labels[j]? := by
    intro j p hp
    have h1 := rows_get uc j
    rw [hp, hu.rows, List.getElem?_map, Option.map_some, hu.base_eq] at h1
    rcases hl : c.labels[j]? with _ | l
    · rw [hl] at h1; simp at h1
    · rw [hl] at h1
      exact (Option.some.inj h1).symm
  unfold makeUnique
  by_cases he : c.labels.length = uc.labels.length
  · rw [if_pos he]
    refine ⟨c, rfl, rfl, ?_, fun l => Iff.rfl⟩
    have hsub := List.subperm_of_subset hu.wf.nodup fun l hl => hu.used l hl
    exact (hsub.perm_of_length_le (by omega)).nodup_iff.1 hu.wf.nodup
  · have hpos : 0 < c.labels.length := by
      rcases hl : c.labels with _ | ⟨a, l⟩
      · exfalso
        rw [hl] at he
        rcases hu' : uc.labels with _ | ⟨b, l'⟩
        · rw [hu'] at he; exact he rfl
        · have := hu.used b (by rw [hu']; simp)
          rw [hl] at this; simp at this
      · simp
    rw [if_neg he]
    by_cases hb0 : 0 < c.base
    · rw [if_pos hb0]
      have hb1 : c.base = 1 := by omega
      have htot : ∀ k ∈ c.codes, ∃ y, npGet uc.codes (k - c.base) = some y := by
        intro k hk
        have h1 := lo k hk
        have h2 := hi k hk
        unfold npGet
        by_cases h0 : 0 ≤ k - (c.base : Int)
        · rw [if_pos h0]
          exact ⟨_, List.getElem?_eq_getElem (by omega)⟩
        · rw [if_neg h0, if_pos (by omega)]
          exact ⟨_, List.getElem?_eq_getElem (by omega)⟩
      obtain ⟨ptr, hptr⟩ := mapM_total _ c.codes htot
      obtain ⟨hl, hg⟩ := mapM_get _ c.codes ptr hptr
      rw [hptr]
      refine ⟨_, rfl, ?_, hu.wf.nodup, hmem⟩
      apply List.ext_getElem?
      intro i
      rw [rows_get, rows_get]
      rcases hk : c.codes[i]? with _ | k
      · have : ptr[i]? = none := by
          rw [List.getElem?_eq_none_iff] at hk ⊢
          omega
        simp [List.getElem?_zipWith, hk]
      · obtain ⟨y, h1, h2⟩ := hg i k hk
        have hk0 := lo k (List.mem_of_getElem? hk)
        have hk1 := hi k (List.mem_of_getElem? hk)
        simp only [List.getElem?_zipWith, hk, h2, Option.map_some]
        congr 1
        by_cases h0 : k = 0
        · rw [if_pos h0, h0]
          unfold label?
          rw [if_pos (by omega), if_pos (by omega)]
        · rw [if_neg h0]
          unfold npGet at h1
          rw [if_pos (by omega)] at h1
          rw [hcat _ _ h1]
          unfold label?
          rw [if_neg (by omega)]
    · rw [if_neg hb0]
      have hb1 : c.base = 0 := by omega
      have htot : ∀ k ∈ c.codes, ∃ y, npGet uc.codes k = some y := by
        intro k hk
        have h1 := lo k hk
        have h2 := hi k hk
        unfold npGet
        rw [if_pos h1]
        exact ⟨_, List.getElem?_eq_getElem (by omega)⟩
      obtain ⟨ptr, hptr⟩ := mapM_total _ c.codes htot
      obtain ⟨hl, hg⟩ := mapM_get _ c.codes ptr hptr
      rw [hptr]
      refine ⟨_, rfl, ?_, hu.wf.nodup, hmem⟩
      apply List.ext_getElem?
      intro i
      rw [rows_get, rows_get]
      rcases hk : c.codes[i]? with _ | k
      · have : ptr[i]? = none := by
          rw [List.getElem?_eq_none_iff] at hk ⊢
          omega
        simp [this]
      · obtain ⟨y, h1, h2⟩ := hg i k hk
        have hk0 := lo k (List.mem_of_getElem? hk)
        show Option.map (label? c.base uc.labels) ptr[i]? = _
        rw [h2, Option.map_some, Option.map_some]
        congr 1
        unfold npGet at h1
        rw [if_pos hk0] at h1
        rw [hcat _ _ h1]
        unfold label?
        rw [if_neg (by omega), hb1]
        simp

example : UniqueOf 1 ["x", "y", "x"] (⟨1, [1, 2, 1], ["x", "y"]⟩ : C String) ∧
    makeUnique (⟨1, [3, 0, 1, 2], ["x", "y", "x"]⟩ : C String) ⟨1, [1, 2, 1], ["x", "y"]⟩ = some ⟨1, [1, 0, 1, 2], ["x", "y"]⟩ :=
  ⟨⟨⟨by decide, by decide, by decide, by decide⟩, rfl, by decide, by decide⟩, by decide +kernel⟩

/-! ## set_valid with a mapping -/

theorem lookup_filter_key {A B : Type} [DecidableEq A] (p : A → Bool) (m : List (A × B)) (k : A) (hk : p k = true) :
    (m.filter fun e => p e.1).lookup k = m.lookup k := by
  induction m with
  | nil => rfl
  | cons e m ih =>
    obtain ⟨a, b⟩ := e
    by_cases hp : p a = true
    · rw [List.filter_cons_of_pos (by simpa using hp), List.lookup_cons, List.lookup_cons, ih]
    · rw [List.filter_cons_of_neg (by simpa using hp), ih, List.lookup_cons]
      have : (k == a) = false := by
        rw [beq_eq_false_iff_ne]
        rintro rfl
        exact hp hk
      rw [this]

theorem lookup_filter_none {A B : Type} [DecidableEq A] (p : A → Bool) (m : List (A × B)) (k : A) (hk : p k = false) :
    (m.filter fun e => p e.1).lookup k = none := by
  induction m with
  | nil => rfl
  | cons e m ih =>
    obtain ⟨a, b⟩ := e
    by_cases hp : p a = true
    · rw [List.filter_cons_of_pos (by simpa using hp), List.lookup_cons, ih]
      have : (k == a) = false := by
        rw [beq_eq_false_iff_ne]
        rintro rfl
        rw [hp] at hk; simp at hk
      rw [this]
    · rw [List.filter_cons_of_neg (by simpa using hp), ih]

theorem lookup_append' {A B : Type} [DecidableEq A] (m m' : List (A × B)) (k : A) : (m ++ m').lookup k = (m.lookup k).or (m'.lookup k) := by
  induction m with
  | nil => simp
  | cons e m ih =>
    obtain ⟨a, b⟩ := e
    rw [List.cons_append, List.lookup_cons, List.lookup_cons, ih]
    cases k == a <;> rfl

/-- **C102** `set_valid(filter)` with a mapping: in the result the rows that pass keep their label, the others have the label
"Filtered". A row that passes but already had the invalid code is "Filtered" too. -/
theorem setValidEnum_rows [DecidableEq L] (inv : Int) (name : L) (codes : List Int) (mapping : List (Int × L)) (f : List Bool)
    (hl : f.length = codes.length) (i : Nat) (k : Int) (hk : codes[i]? = some k) :
    ((setValidEnum inv name codes mapping (some f)).2.1[i]?.map fun (x : Int) =>
      (setValidEnum inv name codes mapping (some f)).2.2.lookup x) =
    some (if f[i]? = some true ∧ k ≠ inv then mapping.lookup k else some name) := by
  have hi : i < f.length := by rw [hl]; exact (List.getElem?_eq_some_iff.1 hk).1
  have hf := List.getElem?_eq_getElem hi
  have hz : (List.zipWith (fun (k : Int) (b : Bool) => if b then k else inv) codes f)[i]? = some (if f[i] then k else inv) := by
    rw [List.getElem?_zipWith, hk, hf]
  show ((List.zipWith (fun (k : Int) (b : Bool) => if b then k else inv) codes f)[i]?.map fun (x : Int) =>
    (((mapping.filter fun (e : Int × L) => decide (e.1 ∈ List.zipWith (fun (k : Int) (b : Bool) => if b then k else inv) codes f)).filter
      fun (e : Int × L) => decide (e.1 ≠ inv)) ++ [(inv, name)]).lookup x) = _
  rw [hz, Option.map_some, lookup_append']
  congr 1
  rw [hf]
  by_cases hb : f[i] = true ∧ k ≠ inv
  · rw [if_pos (⟨by rw [hb.1], hb.2⟩ : some f[i] = some true ∧ k ≠ inv), if_pos hb.1,
      lookup_filter_key (fun x => decide (x ≠ inv)) _ k (by simpa using hb.2),
      lookup_filter_key (fun x => decide (x ∈ List.zipWith (fun (k : Int) (b : Bool) => if b then k else inv) codes f)) _ k
        (by simp only [decide_eq_true_eq]; rw [if_pos hb.1] at hz; exact List.mem_of_getElem? hz)]
    have : ([(inv, name)] : List (Int × L)).lookup k = none := by
      rw [List.lookup_cons, show (k == inv) = false by rw [beq_eq_false_iff_ne]; exact hb.2]
      rfl
    rw [this, Option.or_none]
  · rw [if_neg (show ¬(some f[i] = some true ∧ k ≠ inv) by simpa using hb)]
    have he : (if f[i] = true then k else inv) = inv := by
      by_cases h1 : f[i] = true
      · rw [if_pos h1]
        by_contra h2
        exact hb ⟨h1, h2⟩
      · rw [if_neg h1]
    rw [he, lookup_filter_none (fun x => decide (x ≠ inv)) _ inv (by simp)]
    simp

/-- **C102** Without a filter every row keeps its code and its label, and the mapping is left with the codes in use only. -/
theorem setValidEnum_nofilter [DecidableEq L] (inv : Int) (name : L) (codes : List Int) (mapping : List (Int × L)) :
    (setValidEnum inv name codes mapping none).2.1 = codes ∧
    ∀ k : Int, (setValidEnum inv name codes mapping none).2.2.lookup k = if k ∈ codes then mapping.lookup k else none := by
  refine ⟨rfl, fun k => ?_⟩
  show (mapping.filter fun (e : Int × L) => decide (e.1 ∈ codes)).lookup k = _
  by_cases h : k ∈ codes
  · rw [if_pos h, lookup_filter_key (fun x => decide (x ∈ codes)) _ k (by simpa using h)]
  · rw [if_neg h, lookup_filter_none (fun x => decide (x ∈ codes)) _ k (by simpa using h)]

/-- **C102** The Categorical `set_valid` is called on: its rows change as well, exactly the rows that do not pass. -/
theorem setValidEnum_self_exact [DecidableEq L] (inv : Int) (name : L) (codes : List Int) (mapping : List (Int × L)) (f : List Bool)
    (hl : f.length = codes.length) :
    (setValidEnum inv name codes mapping (some f)).1 = codes ↔ ∀ (i : Nat) (k : Int), codes[i]? = some k → f[i]? = some false → k = inv := by
  show List.zipWith (fun (k : Int) (b : Bool) => if b then k else inv) codes f = codes ↔ _
  constructor
  · intro h i k hk hf
    have := congrArg (fun l => l[i]?) h
    simp only [List.getElem?_zipWith, hk, hf] at this
    simpa using this.symm
  · intro h
    apply List.ext_getElem?
    intro i
    rw [List.getElem?_zipWith]
    rcases hk : codes[i]? with _ | k
    · rfl
    · have hi : i < f.length := by rw [hl]; exact (List.getElem?_eq_some_iff.1 hk).1
      have hf := List.getElem?_eq_getElem hi
      rw [hf]
      rcases hb : f[i] with _ | _
      · rw [hb] at hf
        simp [h i k hk hf]
      · simp

/-- **C102** `set_valid` is documented to return a new Categorical; with a mapping it destroys the labels of the Categorical itself. -/
theorem setValidEnum_self_counterexample :
    ¬ ∀ (inv : Int) (name : String) (codes : List Int) (mapping : List (Int × String)) (f : List Bool), f.length = codes.length →
      (setValidEnum inv name codes mapping (some f)).1 = codes := fun h =>
  absurd (h (-128) "Filtered" [1, 2] [(1, "a"), (2, "b")] [true, false] rfl) (by decide)

example : setValidEnum (-128) "Filtered" [1, 2, 1] [(1, "a"), (2, "b"), (3, "c")] (some [true, true, false]) =
    ([1, 2, -128], [1, 2, -128], [(1, "a"), (2, "b"), (-128, "Filtered")]) := by decide +kernel

/-! ## merging mappings -/

/-- no label with two codes, no code with two labels, across the mappings -/
def Consistent [DecidableEq L] (ms : List (Dicts L)) : Prop :=
  (∀ a ∈ ms, ∀ b ∈ ms, ∀ (s : L) (i j : Int), a.str2int.lookup s = some i → b.str2int.lookup s = some j → i = j) ∧
  (∀ a ∈ ms, ∀ b ∈ ms, ∀ (k : Int) (s t : L), a.int2str.lookup k = some s → b.int2str.lookup k = some t → s = t)

theorem lookup_mem {A B : Type} [DecidableEq A] (m : List (A × B)) (k : A) (v : B) (h : m.lookup k = some v) : (k, v) ∈ m := by
  induction m with
  | nil => simp at h
  | cons e m ih =>
    obtain ⟨a, b⟩ := e
    rw [List.lookup_cons] at h
    by_cases hk : k = a
    · subst hk
      simp at h
      subst h
      simp
    · rw [show (k == a) = false by rw [beq_eq_false_iff_ne]; exact hk] at h
      exact List.mem_cons_of_mem _ (ih h)

theorem lookup_some {A B : Type} [DecidableEq A] (m : List (A × B)) (k : A) (h : k ∈ m.map Prod.fst) : ∃ v, m.lookup k = some v := by
  induction m with
  | nil => simp at h
  | cons e m ih =>
    obtain ⟨a, b⟩ := e
    rw [List.lookup_cons]
    by_cases hk : k = a
    · subst hk
      exact ⟨b, by simp⟩
    · rw [show (k == a) = false by rw [beq_eq_false_iff_ne]; exact hk]
      rw [List.map_cons, List.mem_cons] at h
      exact ih (h.resolve_left hk)

theorem agree_iff {A B : Type} [DecidableEq A] [DecidableEq B] {M : Type} (g : M → List (A × B)) (ms : List M) :
    (ms.all fun a => (g a).all fun e => ms.all fun b => decide ((g b).lookup e.1 = none ∨ (g b).lookup e.1 = (g a).lookup e.1)) = true ↔
    ∀ a ∈ ms, ∀ b ∈ ms, ∀ (s : A) (i j : B), (g a).lookup s = some i → (g b).lookup s = some j → i = j := by
  simp only [List.all_eq_true, decide_eq_true_eq]
  constructor
  · intro h a ha b hb s i j hi hj
    rcases h a ha _ (lookup_mem _ _ _ hi) b hb with h1 | h1
    · rw [show ((s, i) : A × B).1 = s from rfl, hj] at h1; simp at h1
    · rw [show ((s, i) : A × B).1 = s from rfl, hj, hi] at h1
      exact (Option.some.inj h1).symm
  · intro h a ha e he b hb
    obtain ⟨v, hv⟩ := lookup_some (g a) e.1 (List.mem_map_of_mem he)
    rcases hj : (g b).lookup e.1 with _ | j
    · exact .inl rfl
    · right
      rw [hv, h a ha b hb e.1 v j hv hj]

/-- **C104** `categorical_merge_dict`: it raises exactly if some label has two codes or some code has two labels; otherwise the merged
mapping has every label once, and gives it the code it has in every one of the mappings that know it. -/
theorem mergeDict_correct [DecidableEq L] (ms : List (Dicts L)) :
    (Consistent ms → ∃ m, mergeDict ms = .ok m ∧ (m.map Prod.fst).Nodup ∧
      ∀ (s : L) (i : Int), (s, i) ∈ m ↔ ∃ d ∈ ms, d.str2int.lookup s = some i) ∧
    (¬ Consistent ms → mergeDict ms = .error .value) := by
  have hs : mergeSafe ms = true ↔ Consistent ms := by
    unfold mergeSafe Consistent
    rw [Bool.and_eq_true, agree_iff (fun d : Dicts L => d.str2int), agree_iff (fun d : Dicts L => d.int2str)]
  unfold mergeDict
  refine ⟨fun h => ?_, fun h => by rw [if_neg (fun h' => h (hs.1 h'))]⟩
  rw [if_pos (hs.2 h)]
  refine ⟨_, rfl, ?_, fun s i => ?_⟩
  · have : ∀ l : List L, l.Nodup → ((l.filterMap fun (s : L) => (ms.findSome? fun m => m.str2int.lookup s).map fun i => (s, i)).map Prod.fst).Nodup := by
      intro l
      induction l with
      | nil => intro _; simp
      | cons a l ih =>
        intro hn
        rw [List.nodup_cons] at hn
        rcases hf : (ms.findSome? fun m => m.str2int.lookup a) with _ | v
        · rw [List.filterMap_cons_none (by rw [hf]; rfl)]
          exact ih hn.2
        · rw [List.filterMap_cons_some (b := (a, v)) (by rw [hf]; rfl), List.map_cons, List.nodup_cons]
          refine ⟨fun hc => hn.1 ?_, ih hn.2⟩
          obtain ⟨e, he, hea⟩ := List.mem_map.1 hc
          obtain ⟨x, hx, hxe⟩ := List.mem_filterMap.1 he
          rw [Option.map_eq_some_iff] at hxe
          obtain ⟨_, _, rfl⟩ := hxe
          have : x = a := hea
          exact this ▸ hx
    exact this _ (List.nodup_dedup _)
  · rw [List.mem_filterMap]
    constructor
    · rintro ⟨x, _, hx⟩
      rw [Option.map_eq_some_iff] at hx
      obtain ⟨v, hv, he⟩ := hx
      obtain ⟨rfl, rfl⟩ := Prod.mk.inj he
      obtain ⟨d, hd, hdv⟩ := List.exists_of_findSome?_eq_some hv
      exact ⟨d, hd, hdv⟩
    · rintro ⟨d, hd, hdi⟩
      refine ⟨s, List.mem_dedup.2 (List.mem_flatMap.2 ⟨d, hd, List.mem_map.2 ⟨(s, i), lookup_mem _ _ _ hdi, rfl⟩⟩), ?_⟩
      rcases hf : (ms.findSome? fun m => m.str2int.lookup s) with _ | v
      · rw [List.findSome?_eq_none_iff] at hf
        have := hf d hd
        rw [hdi] at this
        simp at this
      · obtain ⟨d', hd', hv⟩ := List.exists_of_findSome?_eq_some hf
        rw [hf, h.1 d' hd' d hd s v i hv hdi]
        rfl

example : Consistent ([⟨[("a", 1), ("b", 2)], [(1, "a"), (2, "b")]⟩, ⟨[("c", 3), ("a", 1)], [(3, "c"), (1, "a")]⟩] : List (Dicts String)) ∧
    mergeDict ([⟨[("a", 1), ("b", 2)], [(1, "a"), (2, "b")]⟩, ⟨[("c", 3), ("a", 1)], [(3, "c"), (1, "a")]⟩] : List (Dicts String)) =
      .ok [("b", 2), ("c", 3), ("a", 1)] ∧
    mergeDict ([⟨[("a", 1)], [(1, "a")]⟩, ⟨[("b", 1)], [(1, "b")]⟩] : List (Dicts String)) = .error .value := by
  refine ⟨?_, by decide +kernel, by decide +kernel⟩
  constructor <;> rw [← agree_iff] <;> decide +kernel

end Verif.CatOps
