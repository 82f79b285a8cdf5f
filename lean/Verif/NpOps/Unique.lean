import Verif.NpOps.Model
import Verif.CatNew.Values
import Mathlib.Tactic.IntervalCases
/-! # unique (C172, C173, C174) -/
namespace Verif.NpOps
open Verif.CatNew
variable {S : Type} [LinearOrder S]

omit [LinearOrder S] in
theorem takesPart_iff {filter : Option (List Bool)} {n i : Nat} : TakesPart filter n i ↔ i < n ∧ Passes filter i := by
  cases filter <;> simp [TakesPart, Passes]

/-- the list of the groups of a grouping -/
def groupsOf (g : Grouping S) : List (List S) := (List.range g.count).map (rowAt g.uniq)

/-- a grouping with base index 1: what its codes say -/
structure Reads (row : Nat → List S) (filter : Option (List Bool)) (n : Nat) (g : Grouping S) : Prop where
  len : g.codes.length = n
  diff : Different row filter n (groupsOf g)
  code : ∀ (i j : Nat), j < g.count → (g.codes[i]? = some ((j : Int) + 1) ↔ TakesPart filter n i ∧ (groupsOf g)[j]? = some (row i))
  out : ∀ i < n, ¬ TakesPart filter n i → g.codes[i]? = some 0

theorem groups_get {g : Grouping S} {j : Nat} (h : j < g.count) : (groupsOf g)[j]? = some (rowAt g.uniq j) := by
  unfold groupsOf
  rw [List.getElem?_map, List.getElem?_range h]; rfl

theorem groups_length (g : Grouping S) : (groupsOf g).length = g.count := by simp [groupsOf]

theorem reads_of {d : Cols S} {n : Nat} {filter : Option (List Bool)} {g : Grouping S} (hc : CodesOK d n filter g) (hb : g.base = 1)
    (hd : Different (rowAt d) filter n (groupsOf g)) : Reads (rowAt d) filter n g := by
  refine ⟨hc.len, hd, fun i j hj => ?_, fun i hi hp => ?_⟩
  · constructor
    · intro hcode
      have hi : i < n := by rw [← hc.len]; exact (List.getElem?_eq_some_iff.1 hcode).1
      by_cases hp : Passes filter i
      · obtain ⟨j', hj', h1, h2⟩ := hc.inn i hi hp
        rw [hb, hcode, Option.some.injEq] at h1
        have : j' = j := by omega
        subst this
        exact ⟨takesPart_iff.2 ⟨hi, hp⟩, by rw [groups_get hj', h2]⟩
      · rw [(hc.out i hi hp).2, Option.some.injEq] at hcode
        omega
    · rintro ⟨ht, hg⟩
      obtain ⟨hi, hp⟩ := takesPart_iff.1 ht
      obtain ⟨j', hj', h1, h2⟩ := hc.inn i hi hp
      have he : (groupsOf g)[j']? = (groupsOf g)[j]? := by rw [hg, groups_get hj', h2]
      have : j' = j := (List.getElem?_inj (by rw [groups_length]; exact hj') hd.once).1 he
      subst this
      rw [h1, hb]; rfl
  · exact (hc.out i hi (fun h => hp (takesPart_iff.2 ⟨hi, h⟩))).2

theorem count_eq_rows (codes : List Int) (a : Int) :
    codes.count a = ((List.range codes.length).filter fun i => decide (codes[i]? = some a)).length := by
  have h1 : codes.map some = (List.range codes.length).map fun i => codes[i]? := by
    refine List.ext_getElem? fun k => ?_
    rw [List.getElem?_map, List.getElem?_map]
    by_cases hk : k < codes.length
    · rw [List.getElem?_range hk, List.getElem?_eq_getElem hk]; simp [hk]
    · rw [List.getElem?_eq_none (by omega), List.getElem?_eq_none (by simp; omega)]; rfl
  have h2 : codes.count a = (codes.map some).countP (· == some a) := by
    rw [List.countP_map, List.count_eq_countP]
    exact List.countP_congr fun x _ => by simp
  rw [h2, h1, List.countP_map, ← List.countP_eq_length_filter]
  exact List.countP_congr fun i _ => by simp

/-- the four results -/
theorem readOff_ok {row : Nat → List S} {filter : Option (List Bool)} {n : Nat} {g : Grouping S} (h : Reads row filter n g) (hb : g.base = 1) :
    Different row filter n (readOff g g.codes).un ∧ FirstRows row filter n (readOff g g.codes).un (readOff g g.codes).index ∧
      Positions row filter n (readOff g g.codes).un (readOff g g.codes).inverse ∧ Counted row filter n (readOff g g.codes).un (readOff g g.codes).counts := by
  have hlt : ∀ (j : Nat) k, (groupsOf g)[j]? = some k → j < g.count := fun j k hj => by
    have := (List.getElem?_eq_some_iff.1 hj).1
    rwa [groups_length] at this
  refine ⟨h.diff, ⟨?_, fun j k hj => ?_⟩, ⟨?_, fun i hi => ⟨fun ht => ?_, fun ht => ?_⟩⟩, ⟨?_, fun j k hj => ?_⟩⟩
  · show (firstOfCodes g.codes g.count).length = (groupsOf g).length
    rw [groups_length]; simp [firstOfCodes]
  · have hj : (groupsOf g)[j]? = some k := hj
    have hjc := hlt j k hj
    obtain ⟨i, ht, hr⟩ := (h.diff.all k).1 (List.mem_of_getElem? hj)
    have hmem : ((j : Int) + 1) ∈ g.codes := List.mem_of_getElem? ((h.code i j hjc).2 ⟨ht, by rw [hj, hr]⟩)
    have hix := List.idxOf_lt_length_iff.2 hmem
    have hget : g.codes[g.codes.idxOf ((j : Int) + 1)]? = some ((j : Int) + 1) := by
      rw [List.getElem?_eq_getElem hix, List.getElem_idxOf]
    obtain ⟨h1, h2⟩ := (h.code _ j hjc).1 hget
    refine ⟨g.codes.idxOf ((j : Int) + 1), ?_, h1, ?_, ?_⟩
    · show (firstOfCodes g.codes g.count)[j]? = _
      unfold firstOfCodes
      rw [List.getElem?_map, List.getElem?_range hjc]; rfl
    · rw [hj] at h2; exact (Option.some.inj h2).symm
    · intro i' hi' ht' hr'
      have := (h.code i' j hjc).2 ⟨ht', by rw [hj, hr']⟩
      have hl : i' < g.codes.length := by omega
      rw [List.getElem?_eq_getElem hl, Option.some.injEq] at this
      have hne := List.not_of_lt_findIdx (p := (· == ((j : Int) + 1))) (xs := g.codes) hi'
      exact absurd this (by simpa using hne)
  · show (if g.base = 1 then _ else _ : List Int).length = n
    rw [if_pos hb, List.length_map, h.len]
  · obtain ⟨j, hj⟩ := List.mem_iff_getElem?.1 ((h.diff.all (row i)).2 ⟨i, ht, rfl⟩)
    refine ⟨j, ?_, hj⟩
    show (if g.base = 1 then _ else _ : List Int)[i]? = _
    rw [if_pos hb, List.getElem?_map, (h.code i j (hlt j _ hj)).2 ⟨ht, hj⟩]
    simp
  · show (if g.base = 1 then _ else _ : List Int)[i]? = _
    rw [if_pos hb, List.getElem?_map, h.out i hi ht]
    rfl
  · show (countsOfCodes g.codes g.count).length = (groupsOf g).length
    rw [groups_length]; simp [countsOfCodes]
  · have hj : (groupsOf g)[j]? = some k := hj
    have hjc := hlt j k hj
    refine ⟨(List.range g.codes.length).filter fun i => decide (g.codes[i]? = some ((j : Int) + 1)), List.nodup_range.filter _, fun i => ?_, ?_⟩
    · rw [List.mem_filter, List.mem_range, decide_eq_true_eq, h.code i j hjc, hj, Option.some.injEq]
      constructor
      · rintro ⟨_, ht, he⟩; exact ⟨ht, he.symm⟩
      · rintro ⟨ht, he⟩; exact ⟨by rw [h.len]; exact ht.1, ht, he.symm⟩
    · show (countsOfCodes g.codes g.count)[j]? = _
      unfold countsOfCodes
      rw [List.getElem?_map, List.getElem?_range hjc, ← count_eq_rows]
      rfl

theorem unique_opts (arrs : List (Option Name × List S)) (sorted lex : Bool) (filter : Option (List Bool)) :
    uniqueArrays arrs sorted lex filter = (newOfArrays arrs { ordered := some (sorted && !lex), lex := some lex, filter := filter }).map fun c => readOff c.g (ikey c.g) := by
  unfold uniqueArrays
  cases sorted <;> cases lex <;> simp

/-- **C172** `unique` of arrays: the different rows among those that take part, each once, ascending (or in the order of their first rows);
`return_index` has their first rows, `return_inverse` the position of every row (-1 for rows that do not take part) and `return_counts` the numbers of rows. -/
theorem unique_arrays {arrs : List (Option Name × List S)} {sorted lex : Bool} {filter : Option (List Bool)} {u : Uniq (List S)}
    (h : uniqueArrays arrs sorted lex filter = .ok u) (hn : ∀ a ∈ arrs, a.2.length < 2 ^ 63) (hc : NoClash arrs) :
    ∃ n, (∀ a ∈ arrs, a.2.length = n) ∧ Different (keysOf (arrs.map (·.2))) filter n u.un ∧
      FirstRows (keysOf (arrs.map (·.2))) filter n u.un u.index ∧ Positions (keysOf (arrs.map (·.2))) filter n u.un u.inverse ∧
      Counted (keysOf (arrs.map (·.2))) filter n u.un u.counts ∧
      (sorted = true ∨ lex = true → u.un.Pairwise (· < ·)) ∧ (sorted = false → lex = false → u.index.Pairwise (· < ·)) := by
  rw [unique_opts] at h
  obtain ⟨c, hcat, rfl⟩ : ∃ c, newOfArrays arrs { ordered := some (sorted && !lex), lex := some lex, filter := filter } = .ok c ∧ readOff c.g (ikey c.g) = u := by
    cases hq : newOfArrays arrs { ordered := some (sorted && !lex), lex := some lex, filter := filter } with
    | error e => rw [hq] at h; cases h
    | ok c => rw [hq] at h; cases h; exact ⟨c, rfl, rfl⟩
  obtain ⟨n, hne, hlen, _, _, rfl⟩ := newOfArrays_eq hcat
  obtain ⟨a, ha⟩ := List.exists_mem_of_ne_nil _ hne
  have hn' : n < 2 ^ 63 := by rw [← hlen a ha]; exact hn a ha
  obtain ⟨hg, hbase⟩ := groupingOf_ok (rect_data hc hlen) filter (base := 1) (le_refl 1) (fun h => by cases h) hn' (sorted && !lex) lex none
  dsimp only [ofGrouping, orderedOr, Option.getD_some, Option.getD_none]
  generalize groupingOf (dataAsDict 0 [] arrs) n filter 1 (sorted && !lex) lex none = g at *
  have hik : ikey g = g.codes := by unfold ikey; rw [if_neg (by omega)]
  rw [hik]
  have hkey : rowAt (dataAsDict 0 [] arrs) = keysOf (arrs.map (·.2)) := by
    funext i; rw [rowAt_eq, dataAsDict_all hc]
  obtain ⟨first, hf, hrows, hs1, hs2⟩ := hg.groups
  have hdiff : Different (rowAt (dataAsDict 0 [] arrs)) filter n (groupsOf g) := by
    have : groupsOf g = first.map (rowAt (dataAsDict 0 [] arrs)) := hrows
    rw [this]
    refine ⟨hf.inj, fun k => ?_⟩
    rw [List.mem_map]
    constructor
    · rintro ⟨i, hi, rfl⟩
      exact ⟨i, takesPart_iff.2 ⟨hf.lt i hi, hf.pass i hi⟩, rfl⟩
    · rintro ⟨i, ht, rfl⟩
      obtain ⟨hi, hp⟩ := takesPart_iff.1 ht
      exact List.mem_map.1 (hf.all i hi hp)
  obtain ⟨r1, r2, r3, r4⟩ := readOff_ok (reads_of hg.codes hbase hdiff) hbase
  rw [hkey] at r1 r2 r3 r4
  refine ⟨n, hlen, r1, r2, r3, r4, fun hs => ?_, fun h1 h2 => ?_⟩
  · show (groupsOf g).Pairwise (· < ·)
    have : groupsOf g = first.map (rowAt (dataAsDict 0 [] arrs)) := hrows
    rw [this]
    refine hs1 ?_
    rcases hs with hs | hs <;> cases sorted <;> cases lex <;> simp_all
  · have hfirst := hs2 (by rw [h1, h2]; rfl)
    have hsame : (readOff g g.codes).index = first := by
      have hll : (groupsOf g).length = first.length := by
        have : groupsOf g = first.map (rowAt (dataAsDict 0 [] arrs)) := hrows
        rw [this, List.length_map]
      refine List.ext_getElem? fun j => ?_
      by_cases hj : j < first.length
      · have hgj : (groupsOf g)[j]? = some (rowAt (dataAsDict 0 [] arrs) first[j]) := by
          have : groupsOf g = first.map (rowAt (dataAsDict 0 [] arrs)) := hrows
          rw [this, List.getElem?_map, List.getElem?_eq_getElem hj]; rfl
        obtain ⟨i, hi1, hi2, hi3, hi4⟩ := r2.2 j _ hgj
        rw [hi1, List.getElem?_eq_getElem hj, Option.some.injEq]
        have hmem : first[j] ∈ hashFirst (dataAsDict 0 [] arrs) n filter := hfirst ▸ List.getElem_mem hj
        obtain ⟨m1, m2, m3⟩ := mem_hashFirst.1 hmem
        obtain ⟨t1, t2⟩ := takesPart_iff.1 hi2
        rw [← hkey] at hi3 hi4
        rcases Nat.lt_trichotomy i first[j] with hlt | he | hgt
        · exact absurd hi3 (m3 i hlt t2)
        · exact he
        · exact absurd rfl (hi4 _ hgt (takesPart_iff.2 ⟨m1, m2⟩))
      · have hlen2 : (readOff g g.codes).index.length = first.length := r2.1.trans hll
        rw [List.getElem?_eq_none (by omega), List.getElem?_eq_none (by omega)]
    rw [hsame, hfirst]
    exact hashFirst_sorted

/-- **C172** It is refused exactly if there is no array, or arrays or filter have different lengths. -/
theorem unique_ok_iff (arrs : List (Option Name × List S)) (sorted lex : Bool) (filter : Option (List Bool)) :
    (∃ u, uniqueArrays arrs sorted lex filter = .ok u) ↔ ∃ n, arrs ≠ [] ∧ (∀ a ∈ arrs, a.2.length = n) ∧ ∀ f, filter = some f → f.length = n := by
  have := newOfArrays_ok_iff arrs { ordered := some (sorted && !lex), lex := some lex, filter := filter }
  rw [unique_opts]
  constructor
  · rintro ⟨u, hu⟩
    cases hq : newOfArrays arrs { ordered := some (sorted && !lex), lex := some lex, filter := filter } with
    | error e => rw [hq] at hu; cases hu
    | ok c =>
      obtain ⟨n, h1, h2, h3⟩ := this.1 ⟨c, hq⟩
      exact ⟨n, h1, h2, fun f hf => (h3 f hf).1⟩
  · rintro ⟨n, h1, h2, h3⟩
    obtain ⟨c, hq⟩ := this.2 ⟨n, h1, h2, fun f hf => ⟨h3 f hf, by simp⟩⟩
    exact ⟨_, by rw [hq]; rfl⟩

/-! ## lists and types (C173) -/

/-- **C173 (partial)** `unique` of a list of values has their different values, ascending. Missing: the empty list, see the counterexample. -/
theorem unique_list_partial {l : List S} (h : l ≠ []) (hn : l.length < 2 ^ 63) (filter : Option (List Bool)) (hf : ∀ f, filter = some f → f.length = l.length) :
    ∃ arrs u, listArrays (.values l) = .ok arrs ∧ uniqueArrays arrs true false filter = .ok u ∧
      Different (fun i => (l[i]?).toList) filter l.length u.un ∧ u.un.Pairwise (· < ·) := by
  have he : listArrays (.values l) = .ok [(none, l)] := by
    cases l with
    | nil => exact absurd rfl h
    | cons a l => rfl
  obtain ⟨u, hu⟩ := (unique_ok_iff [((none : Option Name), l)] true false filter).2 ⟨l.length, by simp, by simp, hf⟩
  obtain ⟨n, h1, h2, _, _, _, h3, _⟩ := unique_arrays hu (by simpa using hn) (Or.inl rfl)
  have hn : l.length = n := h1 _ (List.mem_singleton.2 rfl)
  subst hn
  refine ⟨_, u, he, hu, ?_, h3 (Or.inl rfl)⟩
  have hk : keysOf ([((none : Option Name), l)].map (·.2)) = fun i => (l[i]?).toList := by
    funext i
    simp only [keysOf, List.map_cons, List.map_nil]
    cases hq : l[i]? <;> simp [hq]
  rw [hk] at h2
  exact h2

/-- **C173 (partial)** `unique` of a list of lists has their different rows, ascending. -/
theorem unique_lists_partial {l : List (List S)} {n : Nat} (h : l ≠ []) (hl : ∀ v ∈ l, v.length = n) (hn : n < 2 ^ 63) (filter : Option (List Bool))
    (hf : ∀ f, filter = some f → f.length = n) :
    ∃ arrs u, listArrays (.lists l) = .ok arrs ∧ uniqueArrays arrs true false filter = .ok u ∧
      Different (fun i => l.filterMap fun v => v[i]?) filter n u.un ∧ u.un.Pairwise (· < ·) := by
  have he : listArrays (.lists l) = .ok (l.map fun v => (none, v)) := by
    cases l with
    | nil => exact absurd rfl h
    | cons a l => rfl
  obtain ⟨u, hu⟩ := (unique_ok_iff (l.map fun v => ((none : Option Name), v)) true false filter).2 ⟨n, by simpa using h, by simpa using hl, hf⟩
  have hlt : ∀ v ∈ l, v.length < 2 ^ 63 := fun v hv => by rw [hl v hv]; exact hn
  obtain ⟨m, h1, h2, _, _, _, h3, _⟩ := unique_arrays hu (by simpa using hlt) (Or.inr (by simp))
  obtain ⟨v, hv⟩ := List.exists_mem_of_ne_nil _ h
  have hm : m = n := by
    rw [← hl v hv]
    exact (h1 (none, v) (List.mem_map.2 ⟨v, hv, rfl⟩)).symm
  subst hm
  refine ⟨_, u, he, hu, ?_, h3 (Or.inl rfl)⟩
  have hk : (l.map fun v => ((none : Option Name), v)).map (·.2) = l := by simp
  rw [hk] at h2
  exact h2

/-- **C173** violated: `unique([])` raises IndexError, though the array of no values has no different values. -/
theorem unique_empty_counterexample : listArrays (.values ([] : List Nat)) = .error .indexError ∧
    ∃ u, uniqueArrays [(none, ([] : List Nat))] true false none = .ok u ∧ u.un = [] :=
  ⟨rfl, (unique_ok_iff [(none, ([] : List Nat))] true false none).2 ⟨0, by simp, by simp, by simp⟩ |> fun ⟨u, hu⟩ => ⟨u, hu, by
    obtain ⟨n, h1, h2, _⟩ := unique_arrays hu (by simp) (Or.inl rfl)
    have hn : n = 0 := by simpa using (h1 _ (List.mem_singleton.2 rfl)).symm
    subst hn
    rcases hun : u.un with _ | ⟨k, ks⟩
    · rfl
    · obtain ⟨i, hi, _⟩ := (h2.all k).1 (by rw [hun]; simp)
      exact absurd hi.1 (by omega)⟩⟩

/-- **C173** violated: a type is not accepted as `dtype` (TypeError), and the name of a type is ignored. -/
theorem unique_dtype_counterexample : checkDtype .other = .error .typeError ∧ checkDtype (.str "int64".toList) = .ok none ∧
    checkDtype (.str "l".toList) = .ok (some "l".toList) := by decide +kernel

/-! ## Categoricals (C174) -/

/-- **C174 (partial)** `unique` of a Categorical with one key and base index 1, whose categories all have rows: its categories in their order,
and for every row the position of its category. Missing: base index 0, categories without rows, and more than one key, see the counterexamples. -/
theorem uniqueCat_partial {c : C S} (hb : c.g.base = 1) (hk : c.g.uniq.length = 1) {row : Nat → List S} {filter : Option (List Bool)}
    (h : Reads row filter c.g.codes.length c.g) :
    ∃ u, uniqueCat c = .ok u ∧ u.un = groupsOf c.g ∧ Different row filter c.g.codes.length u.un ∧ FirstRows row filter c.g.codes.length u.un u.index ∧
      Positions row filter c.g.codes.length u.un u.inverse ∧ Counted row filter c.g.codes.length u.un u.counts := by
  have hik : ikey c.g = c.g.codes := by unfold ikey; rw [if_neg (by omega)]
  obtain ⟨r1, r2, r3, r4⟩ := readOff_ok h hb
  exact ⟨readOff c.g c.g.codes, by unfold uniqueCat; rw [if_neg (by omega), hik], rfl, r1, r2, r3, r4⟩

/-- **C174** violated for base index 0: the inverse is one too great. -/
theorem uniqueCat_base0_counterexample : ∃ c : C Nat, ∃ u, c.g.base = 0 ∧ uniqueCat c = .ok u ∧ u.un = [[5], [6]] ∧ getItem c 0 = some (.label [5]) ∧
    getItem c 1 = some (.label [6]) ∧ u.inverse = [1, 2] :=
  ⟨ofGrouping { base := 0, codes := [0, 1], uniq := [("key_0".toList, [5, 6])], count := 2, ordered := true } none false, _, rfl, rfl, by decide, by decide, by decide, by decide⟩

/-- **C174** violated: a category without rows is returned; a Categorical with two keys raises AttributeError. -/
theorem uniqueCat_unused_counterexample : ∃ c d : C Nat, ∃ u, c.g.base = 1 ∧ uniqueCat c = .ok u ∧ u.un = [[5], [6]] ∧ u.counts = [2, 0] ∧
    c.g.codes = [1, 1] ∧ d.g.uniq.length = 2 ∧ uniqueCat d = .error .attributeError :=
  ⟨ofGrouping { base := 1, codes := [1, 1], uniq := [("key_0".toList, [5, 6])], count := 2, ordered := true } none false,
   ofGrouping { base := 1, codes := [1, 1], uniq := [("key_0".toList, [5]), ("key_1".toList, [7])], count := 1, ordered := true } none false,
   _, rfl, rfl, by decide, by decide, rfl, rfl, rfl⟩

/-! ## cases -/

/-- a sorted `unique` of two arrays with a filter -/
example : ∃ u, uniqueArrays [(none, [3, 1, 3, 2]), (none, [0, 0, 0, 7])] true false (some [true, true, true, false]) = .ok u ∧ u.un = [[1, 0], [3, 0]] ∧
    u.index = [1, 0] ∧ u.inverse = [1, 0, 1, -1] ∧ u.counts = [1, 2] := ⟨_, rfl, by decide +kernel, by decide +kernel, by decide +kernel, by decide +kernel⟩

/-- in the order of the first rows -/
example : ∃ u, uniqueArrays [(none, [3, 1, 3, 2])] false false none = .ok u ∧ u.un = [[3], [1], [2]] ∧ u.index = [0, 1, 3] :=
  ⟨_, rfl, by decide +kernel, by decide +kernel⟩

example : NoClash [((none : Option Name), [3, 1, 3, 2]), (none, [0, 0, 0, 7])] := Or.inr (by intro a ha; simp at ha; rcases ha with rfl | rfl <;> simp)

/-- a Categorical that `uniqueCat_partial` is about -/
example : Reads (fun i => [[5, 6, 5].getD i 0]) none 3 { base := 1, codes := [1, 2, 1], uniq := [("key_0".toList, [5, 6])], count := 2, ordered := true } := by
  have h := reads_of (d := [("a".toList, [5, 6, 5])]) (n := 3) (filter := none)
    (g := { base := 1, codes := [1, 2, 1], uniq := [("key_0".toList, [5, 6])], count := 2, ordered := true })
    ⟨rfl, fun i hi _ => ?_, fun i _ hp => absurd trivial hp⟩ rfl ⟨by decide, fun k => ?_⟩
  · refine ⟨h.len, ⟨h.diff.once, fun k => ?_⟩, fun i j hj => ?_, h.out⟩
    · rw [h.diff.all]
      refine exists_congr fun i => and_congr_right fun ht => ?_
      have : i < 3 := ht.1
      interval_cases i <;> simp [rowAt]
    · rw [h.code i j hj]
      refine and_congr_right fun ht => ?_
      have : i < 3 := ht.1
      interval_cases i <;> simp [rowAt]
  · interval_cases i
    · exact ⟨0, by decide, rfl, by decide⟩
    · exact ⟨1, by decide, rfl, by decide⟩
    · exact ⟨0, by decide, rfl, by decide⟩
  · have : groupsOf ({ base := 1, codes := [1, 2, 1], uniq := [("key_0".toList, [5, 6])], count := 2, ordered := true } : Grouping Nat) = [[5], [6]] := by decide
    rw [this]
    constructor
    · intro hk
      simp at hk
      rcases hk with rfl | rfl
      · exact ⟨0, ⟨by omega, by simp⟩, by decide⟩
      · exact ⟨1, ⟨by omega, by simp⟩, by decide⟩
    · rintro ⟨i, ⟨hi, _⟩, rfl⟩
      interval_cases i <;> decide

end Verif.NpOps
