import Verif.CatSds.Lemmas
/-! # Saving and loading Categoricals (C296 - C298) -/
namespace Verif.CatSds
open Verif.Items Verif.CatSds.Spec
variable {V M : Type}

theorem rowOf_get (cols : List (List V)) (n : Nat) (h : ∀ c ∈ cols, n < c.length) :
    (rowOf cols n).length = cols.length ∧
    ∀ (j : Nat) (col : List V), cols[j]? = some col → ∃ v, col[n]? = some v ∧ (rowOf cols n)[j]? = some v := by
  induction cols with
  | nil => exact ⟨rfl, fun j col hc => by simp at hc⟩
  | cons c cs ih =>
    obtain ⟨i1, i2⟩ := ih (fun c hc => h c (List.mem_cons_of_mem _ hc))
    have hc : c[n]? = some (c[n]'(h c (by simp))) := List.getElem?_eq_getElem _
    have he : rowOf (c :: cs) n = c[n]'(h c (by simp)) :: rowOf cs n := by
      unfold rowOf; rw [List.filterMap_cons, hc]
    rw [he]
    refine ⟨by simp [i1], ?_⟩
    intro j col hj
    cases j with
    | zero =>
      have : c = col := by simpa using hj
      subst this
      exact ⟨_, hc, rfl⟩
    | succ j => simpa using i2 j col (by simpa using hj)

/-- what a row of a Categorical with key columns shows, of any Categorical -/
theorem shown_keys (c : C V M) (cols : Dict String (Col V M)) (h : c.cats = .keys cols) (hne : cols ≠ [])
    (hlen : ∀ e ∈ cols, ∀ e' ∈ cols, e.2.vals.length = e'.2.vals.length) (k : Int) :
    ShowsKeys (cols.map fun e => e.2.vals) c.base c.filtered k (shown c k) := by
  unfold shown
  rw [h]
  dsimp only
  have hu : ∀ e ∈ cols, uniqueCount (cols.map fun e => e.2.vals) = e.2.vals.length := by
    intro e he
    cases cols with
    | nil => exact absurd rfl hne
    | cons e0 cs => exact hlen e0 (by simp) e he
  obtain ⟨e0, he0⟩ := List.exists_mem_of_ne_nil cols hne
  split
  · rename_i hr
    split
    · rename_i hf
      exact .filtered hf.1 hf.2
    · rename_i hf
      refine .outside ?_ hf
      rcases hr with hr | hr
      · exact .inl (by omega)
      · refine .inr fun col hc => ?_
        obtain ⟨e, he, rfl⟩ := List.mem_map.1 hc
        rw [hu e he] at hr
        omega
  · rename_i hr
    have hr' : 0 ≤ k - c.base ∧ k - (c.base : Int) < uniqueCount (cols.map fun e => e.2.vals) := by omega
    obtain ⟨n, hn⟩ : ∃ n : Nat, k - (c.base : Int) = n := ⟨(k - c.base).toNat, by omega⟩
    rw [hn] at hr' ⊢
    have hall : ∀ col ∈ (cols.map fun e => e.2.vals), n < col.length := by
      intro col hc
      obtain ⟨e, he, rfl⟩ := List.mem_map.1 hc
      have := hu e he
      omega
    obtain ⟨r1, r2⟩ := rowOf_get _ n hall
    exact .category n _ (by omega) r1 r2

/-- C296: a Categorical with key columns that is saved can be loaded; every row then shows the values it showed, the base, the
order, the label of missing values and the name of filtered rows are kept; with two or more key columns their names and classes
are the same, a single key column is named "key_0" afterwards. -/
theorem keys_exact (c : C V M) (cols : Dict String (Col V M)) (h : c.cats = .keys cols) (hne : cols ≠ [])
    (hn : (cols.map Prod.fst).Nodup) (hlen : ∀ e ∈ cols, ∀ e' ∈ cols, e.2.vals.length = e'.2.vals.length)
    (hj : c.invalid.json = true) :
    ∃ (f : File V M) (c' : C V M), save c = .ok f ∧ load f = .ok c' ∧ c'.codes = c.codes ∧
      (∀ k, ShowsKeys (cols.map fun e => e.2.vals) c.base c.filtered k (shown c' k)) ∧ rows c' = rows c ∧
      c'.base = c.base ∧ c'.ordered = c.ordered ∧ c'.invalid = c.invalid ∧ c'.filtered = c.filtered ∧
      (c'.sortGb = true ↔ c.sortGb = true ∧ c.ordered = false) ∧
      (2 ≤ cols.length → c'.cats = .keys cols) ∧
      (∀ name col, cols = [(name, col)] → c'.cats = .keys [("key_0", col)]) := by
  obtain ⟨codes, cats, base, ordered, sortGb, invalid, filtered⟩ := c
  subst h
  dsimp only at hj
  match cols, hne, hn, hlen with
  | [(name, col)], _, _, hlen =>
    refine ⟨⟨codes, ⟨1, false, base, ordered, sortGb, invalid, filtered, ["key_0"], nestedOf [("key_0", col)]⟩,
      [some (.vals col.vals)]⟩, ⟨codes, .keys [("key_0", col)], base, ordered, sortGb && !ordered, invalid, filtered⟩,
      ?_, ?_, rfl, ?_, ?_, rfl, rfl, rfl, rfl, ?_, ?_, ?_⟩
    · simp [save, build, hj]
    · have := loadCols_eq [("key_0", col)] (by simp)
      simp only [List.map_cons, List.map_nil, List.zip_cons_cons, List.zip_nil_right] at this
      simp [load, loadCats, FCol.values, this]
    · intro k
      exact shown_keys (⟨codes, .keys [("key_0", col)], base, ordered, sortGb && !ordered, invalid, filtered⟩ : C V M)
        [("key_0", col)] rfl (by simp) (by simp) k
    · rfl
    · simp
    · simp
    · intro name' col' hc
      simp only [List.cons.injEq, Prod.mk.injEq, and_true] at hc
      rw [hc.2]
  | e1 :: e2 :: cs, hne, hn, hlen =>
    refine ⟨⟨codes, ⟨1, false, base, ordered, sortGb, invalid, filtered, (e1 :: e2 :: cs).map Prod.fst,
      nestedOf (e1 :: e2 :: cs)⟩, (e1 :: e2 :: cs).map fun e => some (.vals e.2.vals)⟩,
      ⟨codes, .keys (e1 :: e2 :: cs), base, ordered, sortGb && !ordered, invalid, filtered⟩,
      ?_, ?_, rfl, ?_, ?_, rfl, rfl, rfl, rfl, ?_, ?_, ?_⟩
    · simp only [save, build, hj, if_true]
    · have h1 := loadCols_eq (e1 :: e2 :: cs) hn
      have h2 : ((e1 :: e2 :: cs).map fun e => (FCol.vals e.2.vals : FCol V)).map FCol.values =
          (e1 :: e2 :: cs).map fun e => e.2.vals := by rw [List.map_map]; rfl
      unfold load loadCats
      dsimp only
      rw [any_none_map (e1 :: e2 :: cs) (fun e => (FCol.vals e.2.vals : FCol V)),
        filterMap_some_map (e1 :: e2 :: cs) (fun e => (FCol.vals e.2.vals : FCol V)), h2, h1]
      rfl
    · intro k
      exact shown_keys (⟨codes, .keys (e1 :: e2 :: cs), base, ordered, sortGb && !ordered, invalid, filtered⟩ : C V M)
        (e1 :: e2 :: cs) rfl hne hlen k
    · rfl
    · simp
    · intro _; rfl
    · intro name col hc; simp at hc

/-- two key columns with a date class, base 1, a filtered row and a code outside -/
example : ∃ f, save (⟨[1, 2, 0, 5], .keys [("a", ⟨["x", "y"], some 3⟩), ("b", ⟨["u", "v"], none⟩)], 1, false, true,
      .text "Inv", "Filtered"⟩ : C String Nat) = .ok f ∧
    (load f).map rows = .ok [.labels ["x", "u"], .labels ["y", "v"], .text "Filtered", .code 5] :=
  ⟨_, rfl, by decide +kernel⟩

/-- the name of a single key column is not kept -/
theorem name_counterexample :
    ¬ ∀ (c c' : C String Nat) (f : File String Nat), save c = .ok f → load f = .ok c' → c'.cats = c.cats := by
  intro h
  have := h ⟨[1], .keys [("Symbol", ⟨["x"], none⟩)], 1, false, false, .none, "Filtered"⟩ _ _ rfl rfl
  revert this
  decide

/-- C298: a label of missing values that is a numpy integer or bytes is refused when saving -/
theorem invalid_refused (c : C V M) (h : c.invalid.json = false) : ∃ e, save c = .error e := by
  unfold save
  cases hb : build c with
  | error e => exact ⟨e, rfl⟩
  | ok f =>
    have : f.meta_.invalid = c.invalid := by
      unfold build at hb
      split at hb <;> simp only [Except.ok.injEq, reduceCtorEq] at hb <;> subst hb <;> rfl
    dsimp only
    rw [this, h]
    exact ⟨_, rfl⟩

/-- C298: which labels these are: numpy integers and bytes, whatever their value -/
theorem invalid_kinds (c : C V M) (h : (∃ z, c.invalid = .npInt z) ∨ ∃ s, c.invalid = .bytes s) : ∃ e, save c = .error e := by
  refine invalid_refused c ?_
  rcases h with ⟨z, h⟩ | ⟨s, h⟩ <;> rw [h] <;> rfl

example : (⟨[1], .keys [("a", ⟨[7], none⟩)], 1, false, false, .npInt 7, "Filtered"⟩ : C Nat Nat).invalid.json = false := rfl

/-- C298: loading is refused when an array of the categories is not in the file or the file was written by a later version -/
theorem load_refused (f : File V M) (h : none ∈ f.cols ∨ 2 ≤ f.meta_.version) : ∃ e, load f = .error e := by
  unfold load
  split
  · exact ⟨_, rfl⟩
  · rcases h with h | h
    · rw [if_pos (List.any_eq_true.2 ⟨none, h, rfl⟩)]
      exact ⟨_, rfl⟩
    · omega

example : (none : Option (FCol Nat)) ∈ [some (FCol.vals [1]), none] := by simp

/-! ## mappings -/

theorem lastWith_iff (m : List (Int × String)) (k : Int) (l : String) :
    (dictOf (m.map Prod.swap)).get l = some k ↔ ∃ p : Nat, m[p]? = some (k, l) ∧ LastWith m p l := by
  rw [get_dictOf]
  constructor
  · rintro ⟨p, hp, hl⟩
    rw [List.getElem?_map, Option.map_eq_some_iff] at hp
    obtain ⟨⟨k', l'⟩, he, hs⟩ := hp
    simp only [Prod.swap, Prod.mk.injEq] at hs
    obtain ⟨rfl, rfl⟩ := hs
    refine ⟨p, he, ⟨k', he⟩, fun q c hq hc => hl q c hq ?_⟩
    rw [List.getElem?_map, hc]; rfl
  · rintro ⟨p, hp, -, hl⟩
    refine ⟨p, by rw [List.getElem?_map, hp]; rfl, fun q w hq hc => ?_⟩
    rw [List.getElem?_map, Option.map_eq_some_iff] at hc
    obtain ⟨⟨k', l'⟩, he, hs⟩ := hc
    simp only [Prod.swap, Prod.mk.injEq] at hs
    obtain ⟨rfl, rfl⟩ := hs
    exact hl q k' hq he

theorem reverse_get (d : Dict String Int) (hd : d.keys.Nodup)
    (hv : ∀ a b k, (a, k) ∈ d → (b, k) ∈ d → a = b) (k : Int) (l : String) :
    (reverse d).get k = some l ↔ d.get l = some k := by
  have hn : ((d.map fun e => (e.2, e.1)).map Prod.fst).Nodup := by
    rw [List.map_map]
    refine List.Nodup.map_on ?_ ?_
    · rintro ⟨a, k⟩ ha ⟨b, k'⟩ hb he
      have he' : k = k' := he
      subst he'
      rw [hv a b k ha hb]
    · exact List.Nodup.of_map Prod.fst hd
  unfold reverse
  rw [dictOf_nodup _ hn, Dict.get_iff hn, Dict.get_iff hd]
  constructor
  · intro h
    obtain ⟨⟨a, b⟩, he, hs⟩ := List.mem_map.1 h
    simp only [Prod.mk.injEq] at hs
    obtain ⟨rfl, rfl⟩ := hs
    exact he
  · intro h
    exact List.mem_map.2 ⟨(l, k), h, rfl⟩

/-- C297, what saving and loading does with any mapping: a code keeps its label exactly if no later code of the mapping has
the same label; the code of a label is the last one that had it. -/
theorem mapping_exact (c : C V M) (i2s : Dict Int String) (s2i : Dict String Int) (h : c.cats = .mapping i2s s2i)
    (hn : i2s.keys.Nodup) (hne : i2s ≠ []) (hj : c.invalid.json = true) :
    ∃ (f : File V M) (c' : C V M), save c = .ok f ∧ load f = .ok c' ∧ c'.codes = c.codes ∧ c'.invalid = c.invalid ∧
      c'.filtered = c.filtered ∧ c'.ordered = c.ordered ∧
      (∀ (k : Int) (l : String), shown c' k = .text l ↔ ∃ p : Nat, i2s[p]? = some (k, l) ∧ LastWith i2s p l) ∧
      (∀ (k : Int), (¬ ∃ (p : Nat) (l : String), i2s[p]? = some (k, l) ∧ LastWith i2s p l) → shown c' k = .code k) ∧
      (∀ (l : String) (k : Int), codeOf c' l = some k ↔ ∃ p : Nat, i2s[p]? = some (k, l) ∧ LastWith i2s p l) := by
  obtain ⟨codes, cats, base, ordered, sortGb, invalid, filtered⟩ := c
  subst h
  dsimp only at hj
  have hd := nodup_dictOf (i2s.map Prod.swap)
  have hv : ∀ a b k, (a, k) ∈ dictOf (i2s.map Prod.swap) → (b, k) ∈ dictOf (i2s.map Prod.swap) → a = b := by
    intro a b k ha hb
    obtain ⟨p, hp, -⟩ := (lastWith_iff i2s k a).1 (Dict.get_of_mem hd ha)
    obtain ⟨q, hq, -⟩ := (lastWith_iff i2s k b).1 (Dict.get_of_mem hd hb)
    have h1 := Dict.get_of_mem hn (List.mem_of_getElem? hp)
    have h2 := Dict.get_of_mem hn (List.mem_of_getElem? hq)
    rw [h1] at h2
    exact Option.some.inj h2
  have hempty : (dictOf (i2s.map Prod.swap)).isEmpty = false := by
    cases hc : (dictOf (i2s.map Prod.swap)) with
    | cons a b => rfl
    | nil =>
      obtain ⟨e, he⟩ := List.exists_mem_of_ne_nil i2s hne
      have : e.2 ∈ (dictOf (i2s.map Prod.swap)).keys :=
        (keys_dictOf _ _).2 (List.mem_map.2 ⟨e.swap, List.mem_map.2 ⟨e, he, rfl⟩, rfl⟩)
      rw [hc] at this
      simp [Dict.keys] at this
  refine ⟨⟨codes, ⟨1, true, base, ordered, sortGb, invalid, filtered, ["codes", "values"], []⟩,
      [some (.ints (i2s.map Prod.fst)), some (.strs (i2s.map Prod.snd))]⟩,
      ⟨codes, .mapping (reverse (dictOf (i2s.map Prod.swap))) (dictOf (i2s.map Prod.swap)), base, ordered,
        sortGb && !ordered, invalid, filtered⟩, ?_, ?_, rfl, rfl, rfl, rfl, ?_, ?_, ?_⟩
  · simp [save, build, hj]
  · simp [load, loadCats, FCol.integers, FCol.strings, swap_zip, hempty]
  · intro k l
    rw [← lastWith_iff, ← reverse_get _ hd hv]
    unfold shown
    dsimp only
    cases (reverse (dictOf (i2s.map Prod.swap))).get k with
    | none => simp
    | some l' => simp
  · intro k hno
    unfold shown
    dsimp only
    cases hg : (reverse (dictOf (i2s.map Prod.swap))).get k with
    | none => rfl
    | some l' =>
      obtain ⟨p, hp⟩ := (lastWith_iff i2s k l').1 ((reverse_get _ hd hv k l').1 hg)
      exact absurd ⟨p, l', hp⟩ hno
  · intro l k
    exact lastWith_iff i2s k l

/-- C297, partial: a mapping that gives no label to two codes is kept, row by row.  (Missing: mappings in which two codes
have one label, see `mapping_counterexample`.) -/
theorem mapping_partial (c : C V M) (i2s : Dict Int String) (s2i : Dict String Int) (h : c.cats = .mapping i2s s2i)
    (hn : i2s.keys.Nodup) (hne : i2s ≠ []) (hj : c.invalid.json = true)
    (hl : ∀ a b l, (a, l) ∈ i2s → (b, l) ∈ i2s → a = b) :
    ∃ (f : File V M) (c' : C V M), save c = .ok f ∧ load f = .ok c' ∧ c'.codes = c.codes ∧ rows c' = rows c ∧
      (∀ (l : String) (k : Int), codeOf c' l = some k ↔ (k, l) ∈ i2s) := by
  obtain ⟨f, c', h1, h2, h3, -, -, -, hs, hno, hc⟩ := mapping_exact c i2s s2i h hn hne hj
  have key : ∀ (k : Int) (l : String), (∃ p : Nat, i2s[p]? = some (k, l) ∧ LastWith i2s p l) ↔ (k, l) ∈ i2s := by
    intro k l
    constructor
    · rintro ⟨p, hp, -⟩
      exact List.mem_of_getElem? hp
    · intro hm
      obtain ⟨p, hp⟩ := List.mem_iff_getElem?.1 hm
      refine ⟨p, hp, ⟨k, hp⟩, fun q c hq hcq => ?_⟩
      have := hl k c l hm (List.mem_of_getElem? hcq)
      subst this
      have hn' : i2s.Nodup := List.Nodup.of_map Prod.fst hn
      obtain ⟨hp1, hp2⟩ := List.getElem?_eq_some_iff.1 hp
      obtain ⟨hq1, hq2⟩ := List.getElem?_eq_some_iff.1 hcq
      have := (hn'.getElem_inj_iff (hi := hp1) (hj := hq1)).1 (hp2.trans hq2.symm)
      omega
  refine ⟨f, c', h1, h2, h3, ?_, fun l k => (hc l k).trans (key k l)⟩
  unfold rows
  rw [h3]
  refine List.map_congr_left fun k _ => ?_
  have hk : shown c k = match i2s.get k with
    | some l => .text l
    | none => .code k := by unfold shown; rw [h]; rfl
  rw [hk]
  cases hg : i2s.get k with
  | none =>
    refine hno k ?_
    rintro ⟨p, l, hp, -⟩
    rw [Dict.get_of_mem hn (List.mem_of_getElem? hp)] at hg
    exact nomatch hg
  | some l => exact (hs k l).2 ((key k l).2 (Dict.mem_of_get hg))

example : (Dict.keys ([(1, "a"), (-3, "b")] : Dict Int String)).Nodup ∧
    ∀ a b l, (a, l) ∈ ([(1, "a"), (-3, "b")] : Dict Int String) → (b, l) ∈ ([(1, "a"), (-3, "b")] : Dict Int String) → a = b := by
  refine ⟨by decide, ?_⟩
  intro a b l ha hb
  simp only [List.mem_cons, Prod.mk.injEq, List.not_mem_nil, or_false] at ha hb
  rcases ha with ⟨rfl, rfl⟩ | ⟨rfl, rfl⟩ <;> rcases hb with ⟨rfl, h⟩ | ⟨rfl, h⟩ <;> first | rfl | (exact absurd h (by decide))

/-- a mapping in which two codes have one label is not kept: rows with the first code have no label afterwards -/
theorem mapping_counterexample :
    ∃ (c c' : C String Nat) (f : File String Nat), save c = .ok f ∧ load f = .ok c' ∧
      rows c = [.text "x", .text "x"] ∧ rows c' = [.code 1, .text "x"] :=
  ⟨⟨[1, 2], .mapping [(1, "x"), (2, "x")] [("x", 2)], 1, false, false, .none, "Filtered"⟩, _, _, rfl, rfl,
    by decide, by decide⟩

/-- C297: a mapping from which every code was removed is saved but cannot be loaded -/
theorem empty_counterexample (c : C V M) (s2i : Dict String Int) (h : c.cats = .mapping [] s2i)
    (hj : c.invalid.json = true) : ∃ (f : File V M) (e : String), save c = .ok f ∧ load f = .error e := by
  obtain ⟨codes, cats, base, ordered, sortGb, invalid, filtered⟩ := c
  subst h
  dsimp only at hj
  refine ⟨_, _, by simp only [save, build, hj, if_true]; rfl, by simp [load, loadCats, FCol.strings, dictOf]; rfl⟩

end Verif.CatSds
