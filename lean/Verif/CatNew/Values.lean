import Verif.CatNew.Lemmas
import Verif.PDs.Names
/-! # Categoricals made of values (C156, C157) -/
namespace Verif.CatNew
variable {S : Type} [LinearOrder S]

/-! ## codes -/

/-- the codes of the rows -/
structure CodesOK (d : Cols S) (n : Nat) (filter : Option (List Bool)) (g : Grouping S) : Prop where
  len : g.codes.length = n
  inn : ∀ i, i < n → Passes filter i → ∃ j, j < g.count ∧ g.codes[i]? = some ((j : Int) + g.base) ∧ rowAt g.uniq j = rowAt d i
  out : ∀ i, i < n → ¬ Passes filter i → g.base = 1 ∧ g.codes[i]? = some 0

theorem finalCodes_ok {d u : Cols S} {n m : Nat} {filter : Option (List Bool)} {key : List Int} {base : Nat} {ordered : Bool} (req : Option Nat)
    (hb1 : base ≤ 1) (hb : base = 0 → filter = none) (hm : m < 2 ^ 63) (hk : KeysOK d n filter u m key) :
    CodesOK d n filter { base := base, codes := finalCodes base m req key, uniq := u, count := m, ordered := ordered } := by
  refine ⟨?_, ?_, ?_⟩
  · show (finalCodes base m req key).length = n
    unfold finalCodes recast
    split_ifs <;> simp [hk.len]
  · intro i hi hp
    obtain ⟨j, hj, hkey, hrow⟩ := hk.inn i hi hp
    refine ⟨j, hj, ?_, hrow⟩
    show (finalCodes base m req key)[i]? = some ((j : Int) + base)
    unfold finalCodes recast
    split_ifs with h0
    · rw [List.getElem?_map, hkey, h0]; simp
    · rw [List.getElem?_map, hkey]
      have : base = 1 := by omega
      subst this
      simp only [Option.map_some, Nat.cast_one, Option.some.injEq]
      exact store_recast req hm (by omega) (by omega)
  · intro i hi hp
    have h0 : base ≠ 0 := fun h => by
      have := hb h
      subst this
      exact hp trivial
    refine ⟨by show base = 1; omega, ?_⟩
    show (finalCodes base m req key)[i]? = some 0
    unfold finalCodes recast
    rw [if_neg h0, List.getElem?_map, hk.out i hi hp]
    simp only [Option.map_some, Option.some.injEq]
    exact store_recast req hm (by omega) (by omega)

/-! ## the groups -/

theorem lexFirst_perm (d : Cols S) (n : Nat) (filter : Option (List Bool)) : (hashFirst d n filter).Perm (lexFirst d n filter) := by
  have hp := lexsort_perm (d.map (·.2)).reverse n
  unfold lexFirst
  refine (List.perm_ext_iff_of_nodup (hashFirst_sorted.imp fun h => Nat.ne_of_lt h) ((hp.nodup_iff.2 List.nodup_range).filter _)).2 fun i => ?_
  rw [List.mem_filter, hp.mem_iff, List.mem_range]
  constructor
  · intro h; exact ⟨(mem_hashFirst.1 h).1, by simpa using h⟩
  · rintro ⟨_, h⟩; simpa using h

theorem lexFirst_sorted (d : Cols S) (n : Nat) (filter : Option (List Bool)) : ((lexFirst d n filter).map (rowAt d)).Pairwise (· ≤ ·) := by
  rw [List.pairwise_map]
  refine List.Pairwise.filter _ ?_
  have := lexsort_sorted (d.map (·.2)).reverse n
  rw [List.reverse_reverse] at this
  exact this.imp fun {i j} h => by rw [rowAt_eq, rowAt_eq]; exact h

theorem pickAt_range {A : Type} (l : List A) : pickAt l (List.range l.length) = l := by
  refine List.ext_getElem? fun k => ?_
  rw [pickAt_get (by simp)]
  by_cases hk : k < l.length
  · rw [List.getElem?_range hk]; rfl
  · rw [List.getElem?_eq_none (by simp; omega), List.getElem?_eq_none (by omega)]; rfl

theorem hashFirst_length (d : Cols S) (n : Nat) (filter : Option (List Bool)) : (hashFirst d n filter).length ≤ n := by
  unfold hashFirst
  exact (List.length_filter_le _ _).trans (by simp)

/-- what the grouping of key columns is -/
structure GroupsOK (d : Cols S) (n : Nat) (filter : Option (List Bool)) (srt : Bool) (g : Grouping S) : Prop where
  codes : CodesOK d n filter g
  groups : ∃ first, FirstOK d n filter first ∧ (List.range g.count).map (rowAt g.uniq) = first.map (rowAt d) ∧
    (srt = true → (first.map (rowAt d)).Pairwise (· < ·)) ∧ (srt = false → first = hashFirst d n filter)
  ordered : g.ordered = srt

theorem groupingOf_ok {d : Cols S} {n : Nat} (hd : Rect d n) (filter : Option (List Bool)) {base : Nat} (hb1 : base ≤ 1)
    (hb : base = 0 → filter = none) (hn : n < 2 ^ 63) (ordered lex : Bool) (req : Option Nat) :
    GroupsOK d n filter (ordered || lex) (groupingOf d n filter base ordered lex req) ∧ (groupingOf d n filter base ordered lex req).base = base := by
  have hf := hashFirst_ok (d := d) (n := n) (filter := filter)
  have hl := hashFirst_length d n filter
  unfold groupingOf
  cases lex with
  | true =>
    rw [if_pos rfl, Bool.or_true]
    have hp := lexFirst_perm d n filter
    have hf2 := hf.perm hp
    have hl2 : (lexFirst d n filter).length ≤ n := by rw [← hp.length_eq]; exact hl
    refine ⟨⟨finalCodes_ok req hb1 hb (by omega) (keysFor_ok hd hf2), ⟨_, hf2, rows_takeAll hd hf2.lt, fun _ => ?_, (fun h => by cases h)⟩, rfl⟩, rfl⟩
    exact strict (lexFirst_sorted d n filter) hf2.inj
  | false =>
    rw [if_neg (by simp), Bool.or_false]
    cases ordered with
    | false =>
      refine ⟨⟨finalCodes_ok req hb1 hb (by omega) (keysFor_ok hd hf), ⟨_, hf, rows_takeAll hd hf.lt, (fun h => by cases h), fun _ => rfl⟩, rfl⟩, rfl⟩
    | true =>
      rw [if_pos rfl]
      dsimp only
      generalize hfirst : hashFirst d n filter = first at *
      have hu := rect_takeAll hd hf.lt
      have hp := isortrows_perm (takeAll d first) first.length
      have hs := isortrows_sorted (takeAll d first) first.length
      generalize isortrows (takeAll d first) first.length = ix at *
      have hlt : ∀ i ∈ ix, i < first.length := fun i hi => List.mem_range.1 (hp.mem_iff.1 hi)
      have hlen : ix.length = first.length := by rw [hp.length_eq, List.length_range]
      have hpf : first.Perm (pickAt first ix) := by
        have := hp.filterMap fun i => first[i]?
        rw [show (List.range first.length).filterMap (fun i => first[i]?) = first from pickAt_range first] at this
        exact this.symm
      have hf2 := hf.perm hpf
      have hrows : ix.map (rowAt (takeAll d first)) = (pickAt first ix).map (rowAt d) := by
        refine List.ext_getElem? fun k => ?_
        rw [List.getElem?_map, List.getElem?_map, pickAt_get hlt]
        cases hk : ix[k]? with
        | none => rfl
        | some i =>
          have hi := hlt i (List.mem_of_getElem? hk)
          simp only [Option.map_some, Option.bind_some, List.getElem?_eq_getElem hi, Option.some.injEq]
          exact rowAt_takeAll hd hf.lt (List.getElem?_eq_getElem hi)
      refine ⟨⟨finalCodes_ok req hb1 hb (by omega) (sortedKeys_ok hu base hb (keysFor_ok hd hf) hp), ⟨_, hf2, ?_, fun _ => ?_, (fun h => by cases h)⟩, rfl⟩, rfl⟩
      · show (List.range first.length).map (rowAt (takeAll (takeAll d first) ix)) = _
        rw [← hlen, rows_takeAll hu hlt, hrows]
      · refine strict ?_ hf2.inj
        rw [← hrows, List.pairwise_map]
        exact hs

/-! ## names of the key columns -/

/-- a name of the form `key_c<i>` -/
def dupName (i : Nat) : Name := "key_c".toList ++ Nat.toDigits 10 i

theorem put_new {d : Cols S} {k : Name} {v : List S} (h : k ∉ d.map (·.1)) : put d k v = d ++ [(k, v)] := by
  unfold put; rw [if_neg h]

theorem defName_ne (i j : Nat) : "key_".toList ++ Nat.toDigits 10 i ≠ dupName j := by
  intro h
  have h2 : Nat.toDigits 10 i = 'c' :: Nat.toDigits 10 j := by
    have : "key_".toList ++ Nat.toDigits 10 i = "key_".toList ++ ('c' :: Nat.toDigits 10 j) := h
    exact List.append_cancel_left this
  have := Nat.isDigit_of_mem_toDigits (b := 10) (n := i) (c := 'c') (by omega) (by omega) (by rw [h2]; simp)
  revert this
  decide

theorem dupName_inj {i j : Nat} (h : dupName i = dupName j) : i = j := Verif.PDs.toDigits_inj (List.append_cancel_left h)

theorem dataAsDict_cols : ∀ (arrs : List (Option Name × List S)) (idx : Nat) (d : Cols S), (∀ a ∈ arrs, ∀ i, a.1 ≠ some (dupName i)) →
    (∀ i, idx ≤ i → dupName i ∉ d.map (·.1)) → (dataAsDict idx d arrs).map (·.2) = d.map (·.2) ++ arrs.map (·.2) := by
  intro arrs
  induction arrs with
  | nil => intro idx d _ _; simp [dataAsDict]
  | cons a arrs ih =>
    intro idx d ha hd
    have hk : keyName d idx a.1 ∉ d.map (·.1) := by
      unfold keyName
      dsimp only
      split_ifs with h
      · exact hd idx (le_refl _)
      · exact h
    rw [dataAsDict, put_new hk, ih (idx + 1) _ (fun b hb => ha b (List.mem_cons_of_mem _ hb))]
    · simp
    · intro i hi
      rw [List.map_append, List.mem_append]
      rintro (h | h)
      · exact hd i (by omega) h
      · rw [List.map_singleton, List.mem_singleton] at h
        unfold keyName at h
        dsimp only at h
        split_ifs at h with h2
        · have := dupName_inj h
          omega
        · cases hn : a.1 with
          | none => rw [hn] at h; exact defName_ne idx i h.symm
          | some nm =>
            rw [hn] at h
            exact ha a (by simp) i (by rw [hn, ← Option.getD_some (a := nm) (b := "key_".toList ++ Nat.toDigits 10 idx), ← h])

/-! ## Categorical -/

/-- no array has a name of the form `key_c<i>` -/
def NoClash (arrs : List (Option Name × List S)) : Prop := arrs.length = 1 ∨ ∀ a ∈ arrs, ∀ i, a.1 ≠ some (dupName i)

theorem dataAsDict_all {arrs : List (Option Name × List S)} (h : NoClash arrs) : (dataAsDict 0 [] arrs).map (·.2) = arrs.map (·.2) := by
  rcases h with h | h
  · match arrs, h with
    | [a], _ => simp [dataAsDict, put]
  · have := dataAsDict_cols arrs 0 [] h (by simp)
    simpa using this

theorem rect_data {arrs : List (Option Name × List S)} (h : NoClash arrs) {n : Nat} (hn : ∀ a ∈ arrs, a.2.length = n) : Rect (dataAsDict 0 [] arrs) n := by
  intro kv hkv
  have : kv.2 ∈ (dataAsDict 0 [] arrs).map (·.2) := List.mem_map.2 ⟨kv, hkv, rfl⟩
  rw [dataAsDict_all h] at this
  obtain ⟨a, ha, he⟩ := List.mem_map.1 this
  rw [← he]; exact hn a ha

/-- the Categorical is sorted: asked for, or the default for one key -/
def sortedFor (arrs : List (Option Name × List S)) (o : Opts S) : Bool :=
  orderedOr o (arrs.length == 1) || o.lex.getD false

/-- `newOfArrays` makes the grouping of all key columns -/
theorem newOfArrays_eq {arrs : List (Option Name × List S)} {o : Opts S} {c : C S} (h : newOfArrays arrs o = .ok c) :
    ∃ n, arrs ≠ [] ∧ (∀ a ∈ arrs, a.2.length = n) ∧ filterFits o.filter n = true ∧ ¬ (o.base = some 0 ∧ o.filter ≠ none) ∧
      c = ofGrouping (groupingOf (dataAsDict 0 [] arrs) n o.filter (o.base.getD 1) (orderedOr o (arrs.length == 1)) (o.lex.getD false) o.dtype)
        (if arrs.length = 1 then o.invalid else none) false := by
  match arrs, h with
  | [a], h =>
    unfold newOfArrays at h
    dsimp only at h
    split_ifs at h with h1 h2
    cases h
    exact ⟨a.2.length, by simp, by simp, by simpa using h2, h1, rfl⟩
  | a :: b :: rest, h =>
    unfold newOfArrays at h
    dsimp only at h
    split_ifs at h with h1 h2 h3
    cases h
    refine ⟨a.2.length, by simp, ?_, by simpa using h3, h1, rfl⟩
    intro x hx
    rcases List.mem_cons.1 hx with rfl | hx
    · rfl
    · by_contra hne
      exact h2 (List.any_eq_true.2 ⟨x, hx, by simpa using hne⟩)

theorem codes_item {d : Cols S} {n : Nat} {filter : Option (List Bool)} {g : Grouping S} (h : CodesOK d n filter g) {i : Nat} (hi : i < n) :
    (g.codes[i]?).map (itemOf g) = some (if Passes filter i then .label (rowAt d i) else .filtered) := by
  by_cases hp : Passes filter i
  · obtain ⟨j, hj, hc, hr⟩ := h.inn i hi hp
    rw [hc, if_pos hp, Option.map_some]
    unfold itemOf
    dsimp only
    rw [if_neg (by omega)]
    have : ((j : Int) + (g.base : Int) - (g.base : Int)).toNat = j := by omega
    rw [this, hr]
  · obtain ⟨hb, hc⟩ := h.out i hi hp
    rw [hc, if_neg hp, Option.map_some]
    unfold itemOf
    dsimp only
    rw [if_pos (by left; rw [hb]; omega), if_pos ⟨hb, rfl⟩]

theorem base_ok {o : Opts S} (hb : o.base = none ∨ o.base = some 0 ∨ o.base = some 1) : o.base.getD 1 ≤ 1 := by
  rcases hb with h | h | h <;> simp [h]

/-- **C156, C157** A Categorical made of arrays shows in every row that passes the filter the values of the arrays in that row, and
the filtered row in all others. -/
theorem newOfArrays_rows_partial {arrs : List (Option Name × List S)} {o : Opts S} {c : C S} (h : newOfArrays arrs o = .ok c)
    (hb : o.base = none ∨ o.base = some 0 ∨ o.base = some 1) (hn : ∀ a ∈ arrs, a.2.length < 2 ^ 63) (hc : NoClash arrs) :
    ∃ n, (∀ a ∈ arrs, a.2.length = n) ∧ c.g.codes.length = n ∧
      ∀ i, i < n → getItem c i = some (if Passes o.filter i then .label (keysOf (arrs.map (·.2)) i) else .filtered) := by
  obtain ⟨n, hne, hlen, _, h0, rfl⟩ := newOfArrays_eq h
  obtain ⟨a, ha⟩ := List.exists_mem_of_ne_nil _ hne
  have hn' : n < 2 ^ 63 := by rw [← hlen a ha]; exact hn a ha
  have hz : o.base.getD 1 = 0 → o.filter = none := by
    intro hz
    by_contra hf
    refine h0 ⟨?_, hf⟩
    rcases hb with h | h | h <;> rw [h] at hz ⊢ <;> simp at hz
  obtain ⟨hg, _⟩ := groupingOf_ok (rect_data hc hlen) o.filter (base_ok hb) hz hn' (orderedOr o (arrs.length == 1)) (o.lex.getD false) o.dtype
  refine ⟨n, hlen, hg.codes.len, fun i hi => ?_⟩
  unfold getItem
  rw [Verif.Idx.pos_eq]
  have hm : Verif.Idx.meant (ofGrouping (groupingOf (dataAsDict 0 [] arrs) n o.filter (o.base.getD 1) (orderedOr o (arrs.length == 1)) (o.lex.getD false) o.dtype)
        (if arrs.length = 1 then o.invalid else none) false).g.codes.length i = some i := by
    have hcl := hg.codes.len
    unfold Verif.Idx.meant ofGrouping
    dsimp only
    rw [hcl, if_pos (by constructor <;> omega)]
    rfl
  rw [hm, Option.bind_some]
  have := codes_item hg.codes hi
  rw [rowAt_eq, dataAsDict_all hc] at this
  exact this

/-- **C156, C157** Its categories are the values of the rows that pass, each once: in ascending order if that is asked for (the default
for one array), otherwise in the order of their first rows. -/
theorem newOfArrays_categories_partial {arrs : List (Option Name × List S)} {o : Opts S} {c : C S} (h : newOfArrays arrs o = .ok c)
    (hb : o.base = none ∨ o.base = some 0 ∨ o.base = some 1) (hn : ∀ a ∈ arrs, a.2.length < 2 ^ 63) (hc : NoClash arrs) :
    ∃ n, (∀ a ∈ arrs, a.2.length = n) ∧ AreCategories (arrs.map (·.2)) n o.filter (catRows c) ∧
      (o.ordered = some true ∨ o.lex = some true ∨ (o.ordered = none ∧ arrs.length = 1) → (catRows c).Pairwise (· < ·)) ∧
      (¬ (o.ordered = some true ∨ o.lex = some true ∨ (o.ordered = none ∧ arrs.length = 1)) → ByAppearance (arrs.map (·.2)) o.filter (catRows c)) := by
  obtain ⟨n, hne, hlen, _, h0, rfl⟩ := newOfArrays_eq h
  obtain ⟨a, ha⟩ := List.exists_mem_of_ne_nil _ hne
  have hn' : n < 2 ^ 63 := by rw [← hlen a ha]; exact hn a ha
  have hz : o.base.getD 1 = 0 → o.filter = none := by
    intro hz
    by_contra hf
    refine h0 ⟨?_, hf⟩
    rcases hb with h | h | h <;> rw [h] at hz ⊢ <;> simp at hz
  obtain ⟨hg, _⟩ := groupingOf_ok (rect_data hc hlen) o.filter (base_ok hb) hz hn' (orderedOr o (arrs.length == 1)) (o.lex.getD false) o.dtype
  obtain ⟨first, hf, hrows, hs1, hs2⟩ := hg.groups
  have hkey : ∀ i, rowAt (dataAsDict 0 [] arrs) i = keysOf (arrs.map (·.2)) i := fun i => by rw [rowAt_eq, dataAsDict_all hc]
  have hcat : catRows (ofGrouping (groupingOf (dataAsDict 0 [] arrs) n o.filter (o.base.getD 1) (orderedOr o (arrs.length == 1)) (o.lex.getD false) o.dtype)
        (if arrs.length = 1 then o.invalid else none) false) = first.map (rowAt (dataAsDict 0 [] arrs)) := hrows
  have hsb : (orderedOr o (arrs.length == 1) || o.lex.getD false) = true ↔ (o.ordered = some true ∨ o.lex = some true ∨ (o.ordered = none ∧ arrs.length = 1)) := by
    unfold orderedOr
    rcases ho : o.ordered with _ | b
    · rcases hl : o.lex with _ | l
      · simp
      · cases l <;> simp
    · rcases hl : o.lex with _ | l
      · cases b <;> simp
      · cases b <;> cases l <;> simp
  rw [hcat]
  refine ⟨n, hlen, ⟨hf.inj, fun k => ?_⟩, fun hs => hs1 (hsb.2 hs), fun hs => ?_⟩
  · rw [List.mem_map]
    constructor
    · rintro ⟨i, hi, rfl⟩
      exact ⟨i, hf.lt i hi, hf.pass i hi, (hkey i).symm⟩
    · rintro ⟨i, hi, hp, rfl⟩
      have := hf.all i hi hp
      rw [← hkey i]
      exact List.mem_map.1 this
  · have hs' : (orderedOr o (arrs.length == 1) || o.lex.getD false) = false := by
      rw [← Bool.not_eq_true]; exact fun h => hs (hsb.1 h)
    have hfirst := hs2 hs'
    subst hfirst
    refine ⟨_, hashFirst_sorted, List.map_congr_left fun i _ => hkey i, fun i hi => ?_⟩
    obtain ⟨_, h2, h3⟩ := mem_hashFirst.1 hi
    exact ⟨h2, fun j hj hp => by rw [← hkey, ← hkey]; exact h3 j hj hp⟩

/-- **C156, C157** It is refused exactly if there is no array, the arrays or the filter have different lengths, or a filter is given
for base index 0. -/
theorem newOfArrays_ok_iff (arrs : List (Option Name × List S)) (o : Opts S) :
    (∃ c, newOfArrays arrs o = .ok c) ↔ ∃ n, arrs ≠ [] ∧ (∀ a ∈ arrs, a.2.length = n) ∧ (∀ f, o.filter = some f → f.length = n ∧ o.base ≠ some 0) := by
  constructor
  · rintro ⟨c, h⟩
    obtain ⟨n, h1, h2, h3, h4, _⟩ := newOfArrays_eq h
    refine ⟨n, h1, h2, fun f hf => ⟨?_, fun hb => h4 ⟨hb, by rw [hf]; simp⟩⟩⟩
    rw [hf] at h3
    simpa [filterFits] using h3
  · rintro ⟨n, h1, h2, h3⟩
    have hfit : filterFits o.filter n = true := by
      cases hf : o.filter with
      | none => rfl
      | some f => simpa [filterFits] using (h3 f hf).1
    have h0 : ¬ (o.base = some 0 ∧ o.filter ≠ none) := by
      rintro ⟨hb, hf⟩
      obtain ⟨f, hf'⟩ := Option.ne_none_iff_exists'.1 hf
      exact (h3 f hf').2 hb
    match arrs, h1, h2 with
    | [a], _, h2 =>
      have := h2 a (by simp)
      subst this
      unfold newOfArrays
      dsimp only
      rw [if_neg h0, if_neg (by rw [hfit]; simp)]
      exact ⟨_, rfl⟩
    | a :: b :: rest, _, h2 =>
      have ha := h2 a (by simp)
      subst ha
      unfold newOfArrays
      dsimp only
      rw [if_neg h0, if_neg, if_neg (by rw [hfit]; simp)]
      · exact ⟨_, rfl⟩
      · intro hany
        obtain ⟨x, hx, hne⟩ := List.any_eq_true.1 hany
        have := h2 x (List.mem_cons_of_mem _ hx)
        simp [this] at hne

/-- **C156** Every row of a Categorical of one array shows its value; rows that do not pass the filter are filtered. -/
theorem newOfValues_rows {name : Option Name} {vals : List S} {o : Opts S} {c : C S} (h : newOfArrays [(name, vals)] o = .ok c)
    (hb : o.base = none ∨ o.base = some 0 ∨ o.base = some 1) (hn : vals.length < 2 ^ 63) :
    c.g.codes.length = vals.length ∧ ∀ (i : Nat) (v : S), vals[i]? = some v → getItem c i = some (if Passes o.filter i then .label [v] else .filtered) := by
  obtain ⟨n, h1, h2, h3⟩ := newOfArrays_rows_partial h hb (by simpa using hn) (Or.inl rfl)
  have hl : vals.length = n := h1 (name, vals) (by simp)
  subst hl
  refine ⟨h2, fun i v hv => ?_⟩
  rw [h3 i (List.getElem?_eq_some_iff.1 hv).1]
  simp [keysOf, hv]

/-- **C156** Its categories are the values of the rows that pass, each once: ascending unless `ordered=False` is given without `lex`,
then as they appear. -/
theorem newOfValues_categories {name : Option Name} {vals : List S} {o : Opts S} {c : C S} (h : newOfArrays [(name, vals)] o = .ok c)
    (hb : o.base = none ∨ o.base = some 0 ∨ o.base = some 1) (hn : vals.length < 2 ^ 63) :
    AreCategories [vals] vals.length o.filter (catRows c) ∧
      (o.ordered ≠ some false ∨ o.lex = some true → (catRows c).Pairwise (· < ·)) ∧
      (o.ordered = some false ∧ o.lex ≠ some true → ByAppearance [vals] o.filter (catRows c)) := by
  obtain ⟨n, h1, h2, h3, h4⟩ := newOfArrays_categories_partial h hb (by simpa using hn) (Or.inl rfl)
  have hl : vals.length = n := h1 (name, vals) (by simp)
  subst hl
  refine ⟨h2, fun hs => h3 ?_, fun hs => h4 ?_⟩
  · cases ho : o.ordered with
    | none => right; right; exact ⟨rfl, rfl⟩
    | some b =>
      cases b with
      | true => left; rfl
      | false =>
        rcases hs with h | h
        · exact absurd ho h
        · right; left; exact h
  · rintro (h | h | h)
    · rw [hs.1] at h; cases h
    · exact hs.2 h
    · rw [hs.1] at h; cases h.1

end Verif.CatNew
