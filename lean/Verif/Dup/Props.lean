import Verif.Dup.Lemmas
/-!
# C71: repeated rows

`duplicated` marks the rows that repeat another row, `drop_duplicates` keeps one row of each.
-/
namespace Verif.Dup
open Verif.Grp
open Verif.Items (Dict)

section
variable {K : Type} {rows : List K} {keys : List Nat} {n : Nat}

theorem Numbered.rowNum (h : Numbered rows keys n) {i : Nat} (hi : i < rows.length) :
    ∃ g, keys[i]? = some g ∧ 1 ≤ g ∧ g ≤ n := by
  have hi' : i < keys.length := by rw [h.len]; exact hi
  refine ⟨keys[i], List.getElem?_eq_getElem hi', ?_⟩
  exact h.pos _ (List.getElem_mem hi')

theorem Numbered.lt (h : Numbered rows keys n) {i g : Nat} (hi : keys[i]? = some g) : i < rows.length := by
  rw [← h.len]
  by_contra hn
  rw [List.getElem?_eq_none (by omega)] at hi
  simp at hi

/-- the first rows of the groups are the rows with nothing the same before them -/
theorem Numbered.head_iff (h : Numbered rows keys n) {i : Nat} (hi : i < rows.length) :
    (∃ g, 1 ≤ g ∧ g ≤ n ∧ (rowsOf keys g).head? = some i) ↔ ¬ Earlier rows i := by
  constructor
  · rintro ⟨g, _, _, hg⟩ ⟨j, hj, he⟩
    rw [head_rowsOf] at hg
    have := (h.same j i (by omega) hi).2 he
    have := hg.2 j (by rw [this, hg.1])
    omega
  · intro he
    obtain ⟨g, hg, h1, h2⟩ := h.rowNum hi
    refine ⟨g, h1, h2, head_rowsOf.2 ⟨hg, fun j hj => ?_⟩⟩
    by_contra hn
    exact he ⟨j, by omega, (h.same j i (h.lt hj) hi).1 (by rw [hj, hg])⟩

theorem Numbered.last_iff (h : Numbered rows keys n) {i g : Nat} (hg : keys[i]? = some g) :
    (rowsOf keys g).getLast? = some i ↔ ¬ Later rows i := by
  have hi := h.lt hg
  constructor
  · rintro hl ⟨j, hj, hjl, he⟩
    rw [last_rowsOf] at hl
    have := (h.same j i hjl hi).2 he
    have := hl.2 j (by rw [this, hl.1])
    omega
  · intro he
    refine last_rowsOf.2 ⟨hg, fun j hj => ?_⟩
    by_contra hn
    exact he ⟨j, by omega, h.lt hj, (h.same j i (h.lt hj) hi).1 (by rw [hj, hg])⟩

theorem pack_iFirst_length (keys : List Nat) (n : Nat) : (pack keys n).iFirst.length = n + 1 := by
  unfold pack
  rw [starts_length]
  simp

theorem pack_nCount_length (keys : List Nat) (n : Nat) : (pack keys n).nCount.length = n + 1 := by
  unfold pack
  simp

/-- what `igroup[ifirstgroup[g]]` is for a used group -/
theorem pick_first (keys : List Nat) (n g s : Nat) (hg : g ≤ n) (hk : g ∈ keys) (hs : (pack keys n).iFirst[g]? = some s) :
    mbget (pack keys n).iGroup (s : Int) = (rowsOf keys g).head? := by
  rw [mbget_nat]
  have := pack_entry keys n g 0 hg (rowsOf_ne hk) s hs
  rw [Nat.add_zero] at this
  rw [this, List.head?_eq_getElem?]

/-- starts of consecutive groups -/
theorem pack_first_succ (keys : List Nat) (n g s : Nat) (hg : g + 1 ≤ n) (hs : (pack keys n).iFirst[g]? = some s) :
    (pack keys n).iFirst[g + 1]? = some (s + (rowsOf keys g).length) := by
  rw [pack_first keys n g (by omega)] at hs
  rw [pack_first keys n (g + 1) hg, ← Option.some.inj hs, List.take_add_one, List.sum_append]
  congr 2
  rw [List.getElem?_map, List.getElem?_range (by omega)]
  simp

theorem pick_last (keys : List Nat) (n g s : Nat) (hg : g ≤ n) (hk : g ∈ keys) (hs : (pack keys n).iFirst[g]? = some s) :
    mbget (pack keys n).iGroup ((s : Int) + ((rowsOf keys g).length : Int) - 1) = (rowsOf keys g).getLast? := by
  have hp := rowsOf_ne hk
  have e : (s : Int) + ((rowsOf keys g).length : Int) - 1 = ((s + ((rowsOf keys g).length - 1) : Nat) : Int) := by omega
  rw [e, mbget_nat, pack_entry keys n g _ hg (by omega) s hs, List.getLast?_eq_getElem?]

theorem rowsOf_eq_nil_of {keys : List Nat} {g : Nat} (h : g ∉ keys) : rowsOf keys g = [] := by
  rw [List.eq_nil_iff_forall_not_mem]
  intro i hi
  exact h (List.mem_iff_getElem?.2 ⟨i, mem_rowsOf.1 hi⟩)

theorem Numbered.le (h : Numbered rows keys n) : ∀ k ∈ keys, k ≤ n := fun k hk => (h.pos k hk).2

theorem Numbered.zero (h : Numbered rows keys n) : 0 ∉ keys := fun h0 => by have := (h.pos 0 h0).1; omega

theorem head_lt (h : Numbered rows keys n) {g : Nat} (i : Nat) (hh : i ∈ rowsOf keys g) :
    i < (List.replicate (pack keys n).iGroup.length true).length := by
  rw [List.length_replicate, pack_iGroup_length h.le, h.len]
  exact h.lt (mem_rowsOf.1 hh)

theorem ones_get (h : Numbered rows keys n) {i : Nat} (hi : i < rows.length) :
    (List.replicate (pack keys n).iGroup.length true)[i]? = some true := by
  rw [List.getElem?_replicate, if_pos (by rw [pack_iGroup_length h.le, h.len]; exact hi)]

/-- **C71** `duplicated(keep='first')` marks exactly the rows that repeat an earlier row. -/
theorem duplicated_first (h : Numbered rows keys n) :
    ∃ r, (duplicated (pack keys n) .first).1 = .ok r ∧ r.length = rows.length ∧
      ∀ (i : Nat), i < rows.length → (r[i]? = some true ∧ Earlier rows i ∨ r[i]? = some false ∧ ¬ Earlier rows i) := by
  have hidx : ∀ (k : Int), k ∈ ((pack keys n).iFirst.map fun (s : Nat) => (s : Int)).drop 1 ↔
      ∃ g s, 1 ≤ g ∧ g ≤ n ∧ (pack keys n).iFirst[g]? = some s ∧ k = (s : Int) := by
    intro k
    rw [← List.map_drop, List.mem_map]
    constructor
    · rintro ⟨s, hs, rfl⟩
      obtain ⟨g, hg⟩ := List.mem_iff_getElem?.1 hs
      rw [List.getElem?_drop] at hg
      refine ⟨1 + g, s, by omega, ?_, hg, rfl⟩
      by_contra hn
      rw [List.getElem?_eq_none (by rw [pack_iFirst_length]; omega)] at hg
      simp at hg
    · rintro ⟨g, s, h1, h2, hs, rfl⟩
      refine ⟨s, List.mem_iff_getElem?.2 ⟨g - 1, ?_⟩, rfl⟩
      rw [List.getElem?_drop, show 1 + (g - 1) = g by omega]
      exact hs
  obtain ⟨r, h1, h2, h3⟩ := setPicked_ok (List.replicate (pack keys n).iGroup.length true) (pack keys n).iGroup
    (((pack keys n).iFirst.map fun (s : Nat) => (s : Int)).drop 1) (by
      intro k hk
      obtain ⟨g, s, hg1, hg2, hs, rfl⟩ := (hidx k).1 hk
      have hu := h.used g hg1 hg2
      rw [pick_first keys n g s hg2 hu hs]
      have hp := rowsOf_ne hu
      refine ⟨(rowsOf keys g)[0], by rw [List.head?_eq_getElem?, List.getElem?_eq_getElem hp], ?_⟩
      exact head_lt h _ (List.getElem_mem hp))
  refine ⟨r, h1, by rw [h2, List.length_replicate, pack_iGroup_length h.le, h.len], fun i hi => ?_⟩
  have key : (∃ k ∈ ((pack keys n).iFirst.map fun (s : Nat) => (s : Int)).drop 1, mbget (pack keys n).iGroup k = some i) ↔
      ¬ Earlier rows i := by
    rw [← h.head_iff hi]
    constructor
    · rintro ⟨k, hk, hm⟩
      obtain ⟨g, s, hg1, hg2, hs, rfl⟩ := (hidx k).1 hk
      refine ⟨g, hg1, hg2, ?_⟩
      rw [← pick_first keys n g s hg2 (h.used g hg1 hg2) hs, hm]
    · rintro ⟨g, hg1, hg2, hh⟩
      obtain ⟨s, hs⟩ : ∃ s, (pack keys n).iFirst[g]? = some s := ⟨_, pack_first keys n g hg2⟩
      exact ⟨(s : Int), (hidx _).2 ⟨g, s, hg1, hg2, hs, rfl⟩, by rw [pick_first keys n g s hg2 (h.used g hg1 hg2) hs, hh]⟩
  rcases h3 i true (ones_get h hi) with ⟨a, b⟩ | ⟨a, b⟩
  · exact Or.inr ⟨a, key.1 b⟩
  · exact Or.inl ⟨a, by rw [key] at b; exact not_not.1 b⟩

/-- **C71** `duplicated(keep=False)` marks exactly the rows that occur more than once. -/
theorem duplicated_drop (h : Numbered rows keys n) :
    ∃ r, (duplicated (pack keys n) .drop).1 = .ok r ∧ r.length = rows.length ∧
      ∀ (i : Nat), i < rows.length →
        (r[i]? = some true ∧ (Earlier rows i ∨ Later rows i) ∨ r[i]? = some false ∧ ¬ (Earlier rows i ∨ Later rows i)) := by
  have hidx : ∀ (k : Int), k ∈ ((List.zip ((pack keys n).iFirst.map fun (s : Nat) => (s : Int)) (pack keys n).nCount).filterMap
        fun e => if e.2 = 1 then some e.1 else none) ↔
      ∃ g s, 1 ≤ g ∧ g ≤ n ∧ (pack keys n).iFirst[g]? = some s ∧ (rowsOf keys g).length = 1 ∧ k = (s : Int) := by
    intro k
    rw [List.mem_filterMap]
    constructor
    · rintro ⟨⟨a, c⟩, he, hk⟩
      obtain ⟨g, hg⟩ := List.mem_iff_getElem?.1 he
      rw [List.getElem?_zip_eq_some, List.getElem?_map] at hg
      obtain ⟨g1, g2⟩ := hg
      obtain ⟨s, hs, rfl⟩ := Option.map_eq_some_iff.1 g1
      have hgn : g ≤ n := by
        by_contra hn
        rw [List.getElem?_eq_none (by rw [pack_iFirst_length]; omega)] at hs
        simp at hs
      rw [pack_count keys n g hgn] at g2
      dsimp only at g2
      split at hk
      · rename_i hc
        dsimp only at hc
        cases hk
        have hlen : (rowsOf keys g).length = 1 := by rw [← hc]; exact Option.some.inj g2
        refine ⟨g, s, ?_, hgn, hs, hlen, rfl⟩
        by_contra hn
        have : g = 0 := by omega
        subst this
        rw [rowsOf_eq_nil_of h.zero] at hlen
        simp at hlen
      · simp at hk
    · rintro ⟨g, s, h1, h2, hs, hl, rfl⟩
      refine ⟨((s : Int), 1), List.mem_iff_getElem?.2 ⟨g, ?_⟩, by simp⟩
      rw [List.getElem?_zip_eq_some, List.getElem?_map, hs, pack_count keys n g h2, hl]
      exact ⟨rfl, rfl⟩
  obtain ⟨r, h1, h2, h3⟩ := setPicked_ok (List.replicate (pack keys n).iGroup.length true) (pack keys n).iGroup _ (by
      intro k hk
      obtain ⟨g, s, hg1, hg2, hs, _, rfl⟩ := (hidx k).1 hk
      have hu := h.used g hg1 hg2
      rw [pick_first keys n g s hg2 hu hs]
      have hp := rowsOf_ne hu
      refine ⟨(rowsOf keys g)[0], by rw [List.head?_eq_getElem?, List.getElem?_eq_getElem hp], ?_⟩
      exact head_lt h _ (List.getElem_mem hp))
  refine ⟨r, h1, by rw [h2, List.length_replicate, pack_iGroup_length h.le, h.len], fun i hi => ?_⟩
  have key : (∃ k ∈ ((List.zip ((pack keys n).iFirst.map fun (s : Nat) => (s : Int)) (pack keys n).nCount).filterMap
        fun e => if e.2 = 1 then some e.1 else none), mbget (pack keys n).iGroup k = some i) ↔
      ¬ (Earlier rows i ∨ Later rows i) := by
    constructor
    · rintro ⟨k, hk, hm⟩
      obtain ⟨g, s, hg1, hg2, hs, hl, rfl⟩ := (hidx k).1 hk
      rw [pick_first keys n g s hg2 (h.used g hg1 hg2) hs] at hm
      obtain ⟨a, ha⟩ := List.length_eq_one_iff.1 hl
      have hai : a = i := by rw [ha] at hm; simpa using hm
      subst hai
      have hka := (head_rowsOf.1 hm).1
      rintro (he | he)
      · exact (h.head_iff hi).1 ⟨g, hg1, hg2, hm⟩ he
      · exact (h.last_iff hka).1 (by rw [ha]; rfl) he
    · intro hne
      push Not at hne
      obtain ⟨g, hg1, hg2, hh⟩ := (h.head_iff hi).2 hne.1
      obtain ⟨s, hs⟩ : ∃ s, (pack keys n).iFirst[g]? = some s := ⟨_, pack_first keys n g hg2⟩
      have hka := (head_rowsOf.1 hh).1
      have hl := last_rowsOf.1 ((h.last_iff hka).2 hne.2)
      have hlen : (rowsOf keys g).length = 1 := by
        have hall : ∀ j ∈ rowsOf keys g, j = i := by
          intro j hj
          have a := (head_rowsOf.1 hh).2 j (mem_rowsOf.1 hj)
          have b := hl.2 j (mem_rowsOf.1 hj)
          omega
        have hrep := List.eq_replicate_of_mem hall
        have hnd := rowsOf_nodup keys g
        have hpos := rowsOf_ne (h.used g hg1 hg2)
        rw [hrep, List.nodup_replicate] at hnd
        omega
      exact ⟨(s : Int), (hidx _).2 ⟨g, s, hg1, hg2, hs, hlen, rfl⟩, by rw [pick_first keys n g s hg2 (h.used g hg1 hg2) hs, hh]⟩
  rcases h3 i true (ones_get h hi) with ⟨a, b⟩ | ⟨a, b⟩
  · exact Or.inr ⟨a, key.1 b⟩
  · exact Or.inl ⟨a, by rw [key] at b; exact not_not.1 b⟩

/-- groups before the last one hold the rows after which something new comes -/
theorem Numbered.newer_iff (h : Numbered rows keys n) {i g : Nat} (hg : keys[i]? = some g) : g < n ↔ NewerComes rows i := by
  have hi := h.lt hg
  have hgp := h.pos g (List.mem_iff_getElem?.2 ⟨i, hg⟩)
  constructor
  · intro hlt
    have hu := h.used (g + 1) (by omega) (by omega)
    have hp := rowsOf_ne hu
    have hh : (rowsOf keys (g + 1)).head? = some (rowsOf keys (g + 1))[0] := by
      rw [List.head?_eq_getElem?, List.getElem?_eq_getElem hp]
    generalize (rowsOf keys (g + 1))[0] = j at hh
    have hkj := (head_rowsOf.1 hh).1
    obtain ⟨k, hk, hkk⟩ := h.order j (g + 1) hkj g hgp.1 (by omega)
    refine ⟨k, j, hk, h.lt hkj, (h.same k i (h.lt hkk) hi).1 (by rw [hkk, hg]), ?_⟩
    exact (h.head_iff (h.lt hkj)).1 ⟨g + 1, by omega, by omega, hh⟩
  · rintro ⟨k, j, hkj, hj, he, hne⟩
    obtain ⟨b, hb, hb1, hb2⟩ := h.rowNum hj
    have hkg : keys[k]? = some g := by rw [(h.same k i (by omega) hi).2 he, hg]
    by_contra hn
    have hgn : g = n := by omega
    rcases Nat.lt_or_ge b g with hbg | hbg
    · obtain ⟨j', hj', hjb⟩ := h.order k g hkg b hb1 hbg
      exact hne ⟨j', by omega, (h.same j' j (by omega) hj).1 (by rw [hjb, hb])⟩
    · have : b = g := by omega
      exact hne ⟨k, hkj, (h.same k j (by omega) hj).1 (by rw [hkg, hb, this])⟩

/-- **C71** (exact) What `duplicated(keep='last')` computes: False for the last row of the table, and for a row that nothing later
repeats provided some other row content turns up for the first time after it. The last group is handled wrongly: the row number of
its last row is taken from the wrong array (`result[lastindex]` for `result[igroup[lastindex]]`). -/
theorem duplicated_last_exact (h : Numbered rows keys n) (hne : rows ≠ []) :
    ∃ r, (duplicated (pack keys n) .last).1 = .ok r ∧ r.length = rows.length ∧
      ∀ (i : Nat), i < rows.length →
        (r[i]? = some false ∧ (i + 1 = rows.length ∨ (¬ Later rows i ∧ NewerComes rows i)) ∨
         r[i]? = some true ∧ ¬ (i + 1 = rows.length ∨ (¬ Later rows i ∧ NewerComes rows i))) := by
  have hpos : 0 < rows.length := List.length_pos_iff.2 hne
  have hn1 : 1 ≤ n := by
    obtain ⟨g, _, h1, h2⟩ := h.rowNum hpos
    omega
  have hidx : ∀ (k : Int), k ∈ ((((pack keys n).iFirst.map fun (s : Nat) => (s : Int)).drop 2).map fun (s : Int) => s - 1) ↔
      ∃ g s, 1 ≤ g ∧ g + 1 ≤ n ∧ (pack keys n).iFirst[g]? = some s ∧ k = (s : Int) + ((rowsOf keys g).length : Int) - 1 := by
    intro k
    rw [← List.map_drop, List.mem_map]
    constructor
    · rintro ⟨x, hx, rfl⟩
      obtain ⟨s', hs', rfl⟩ := List.mem_map.1 hx
      obtain ⟨g, hg⟩ := List.mem_iff_getElem?.1 hs'
      rw [List.getElem?_drop] at hg
      have hgn : 2 + g ≤ n := by
        by_contra hn
        rw [List.getElem?_eq_none (by rw [pack_iFirst_length]; omega)] at hg
        simp at hg
      obtain ⟨s, hs⟩ : ∃ s, (pack keys n).iFirst[g + 1]? = some s := ⟨_, pack_first keys n (g + 1) (by omega)⟩
      have hnx := pack_first_succ keys n (g + 1) s (by omega) hs
      rw [show 2 + g = g + 1 + 1 by omega, hnx] at hg
      refine ⟨g + 1, s, by omega, by omega, hs, ?_⟩
      rw [← Option.some.inj hg]
      push_cast
      rfl
    · rintro ⟨g, s, h1, h2, hs, rfl⟩
      refine ⟨((s + (rowsOf keys g).length : Nat) : Int), List.mem_map.2 ⟨_, List.mem_iff_getElem?.2 ⟨g - 1, ?_⟩, rfl⟩, ?_⟩
      · rw [List.getElem?_drop, show 2 + (g - 1) = g + 1 by omega]
        exact pack_first_succ keys n g s h2 hs
      · push_cast; rfl
  have hlast : ∀ (g : Nat), g ∈ keys → ∃ i, (rowsOf keys g).getLast? = some i ∧ i ∈ rowsOf keys g := by
    intro g hg
    have hp := rowsOf_ne hg
    have hne' : rowsOf keys g ≠ [] := List.length_pos_iff.1 hp
    exact ⟨_, List.getLast?_eq_some_getLast hne', List.getLast_mem hne'⟩
  obtain ⟨r, h1, h2, h3⟩ := setPicked_ok (List.replicate (pack keys n).iGroup.length true) (pack keys n).iGroup _ (by
      intro k hk
      obtain ⟨g, s, hg1, hg2, hs, rfl⟩ := (hidx k).1 hk
      have hu := h.used g hg1 (by omega)
      rw [pick_last keys n g s (by omega) hu hs]
      obtain ⟨i, hi, hm⟩ := hlast g hu
      exact ⟨i, hi, head_lt h _ hm⟩)
  obtain ⟨s, hs⟩ : ∃ s, (pack keys n).iFirst[n]? = some s := ⟨_, pack_first keys n n (Nat.le_refl _)⟩
  have hend : s + (rowsOf keys n).length = rows.length := by
    rw [pack_first keys n n (Nat.le_refl _)] at hs
    rw [← Option.some.inj hs, ← h.len, ← pack_iGroup_length h.le]
    unfold pack
    dsimp only
    rw [List.length_flatMap]
    conv_rhs => rw [List.range_succ, List.map_append, List.sum_append]
    rw [← List.map_take, List.take_range]
    simp
  have hfl : ((pack keys n).iFirst.map fun (s : Nat) => (s : Int)).getLast? = some (s : Int) := by
    rw [List.getLast?_eq_getElem?, List.length_map, pack_iFirst_length, List.getElem?_map, Nat.add_sub_cancel, hs]
    rfl
  have hcl : (pack keys n).nCount.getLast? = some (rowsOf keys n).length := by
    rw [List.getLast?_eq_getElem?, pack_nCount_length, Nat.add_sub_cancel, pack_count keys n n (Nat.le_refl _)]
  have hrl : r.length = rows.length := by rw [h2, List.length_replicate, pack_iGroup_length h.le, h.len]
  have hfin := setFalse_ok r [rows.length - 1] (by intro i hi; rw [List.mem_singleton.1 hi, hrl]; omega)
  refine ⟨r.mapIdx fun (i : Nat) (b : Bool) => if i ∈ [rows.length - 1] then false else b, ?_, ?_, fun i hi => ?_⟩
  · rw [← hfin]
    unfold duplicated
    dsimp only
    rw [hfl, hcl]
    dsimp only
    rw [h1]
    have : (s : Int) + ((rowsOf keys n).length : Int) - 1 = ((rows.length - 1 : Nat) : Int) := by omega
    rw [this]
    rfl
  · rw [List.length_mapIdx, hrl]
  · have key : (∃ k ∈ ((((pack keys n).iFirst.map fun (s : Nat) => (s : Int)).drop 2).map fun (s : Int) => s - 1),
        mbget (pack keys n).iGroup k = some i) ↔ ¬ Later rows i ∧ NewerComes rows i := by
      constructor
      · rintro ⟨k, hk, hm⟩
        obtain ⟨g, s, hg1, hg2, hs, rfl⟩ := (hidx k).1 hk
        rw [pick_last keys n g s (by omega) (h.used g hg1 (by omega)) hs] at hm
        have hka := (last_rowsOf.1 hm).1
        exact ⟨(h.last_iff hka).1 hm, (h.newer_iff hka).1 (by omega)⟩
      · rintro ⟨a, b⟩
        obtain ⟨g, hg, hg1, hg2⟩ := h.rowNum hi
        have hlt := (h.newer_iff hg).2 b
        obtain ⟨s, hs⟩ : ∃ s, (pack keys n).iFirst[g]? = some s := ⟨_, pack_first keys n g hg2⟩
        refine ⟨_, (hidx _).2 ⟨g, s, hg1, by omega, hs, rfl⟩, ?_⟩
        rw [pick_last keys n g s hg2 (h.used g hg1 hg2) hs]
        exact (h.last_iff hg).2 a
    rw [List.getElem?_mapIdx]
    rcases h3 i true (ones_get h hi) with ⟨a, b⟩ | ⟨a, b⟩
    · refine Or.inl ⟨by rw [a]; simp, Or.inr (key.1 b)⟩
    · rw [a]
      by_cases hl : i + 1 = rows.length
      · refine Or.inl ⟨?_, Or.inl hl⟩
        simp [show i = rows.length - 1 by omega]
      · refine Or.inr ⟨?_, ?_⟩
        · simp [show ¬ i = rows.length - 1 by omega]
        · rintro (x | x)
          · exact hl x
          · exact b (key.2 x)

/-- **C71** (partial) `duplicated(keep='last')` is right for every row whose content is not the one that turned up last for the first
time, and for all rows when the last row of the table holds that content. Missing: the other rows, see
`duplicated_last_counterexample`. -/
theorem duplicated_last_partial (h : Numbered rows keys n) (hne : rows ≠ []) :
    ∃ r, (duplicated (pack keys n) .last).1 = .ok r ∧ r.length = rows.length ∧
      ∀ (i : Nat), i < rows.length → (NewerComes rows i ∨ ¬ NewerComes rows (rows.length - 1)) →
        (r[i]? = some true ∧ Later rows i ∨ r[i]? = some false ∧ ¬ Later rows i) := by
  obtain ⟨r, h1, h2, h3⟩ := duplicated_last_exact h hne
  refine ⟨r, h1, h2, fun i hi hc => ?_⟩
  have hlast : i + 1 = rows.length → ¬ Later rows i := by
    rintro he ⟨j, hj, hjl, _⟩
    omega
  rcases h3 i hi with ⟨a, b | b⟩ | ⟨a, b⟩
  · exact Or.inr ⟨a, hlast b⟩
  · exact Or.inr ⟨a, b.1⟩
  · refine Or.inl ⟨a, ?_⟩
    by_contra hnl
    apply b
    rcases hc with hc | hc
    · exact Or.inr ⟨hnl, hc⟩
    · by_cases hnew : NewerComes rows i
      · exact Or.inr ⟨hnl, hnew⟩
      · left
        -- both rows hold the content that came last, so they are the same
        have hpos : 0 < rows.length := List.length_pos_iff.2 hne
        obtain ⟨g, hg, _, hg2⟩ := h.rowNum hi
        obtain ⟨g', hg', _, hg2'⟩ := h.rowNum (i := rows.length - 1) (by omega)
        have e1 : ¬ g < n := fun x => hnew ((h.newer_iff hg).1 x)
        have e2 : ¬ g' < n := fun x => hc ((h.newer_iff hg').1 x)
        have hee := (h.same (rows.length - 1) i (by omega) hi).1 (by rw [hg, hg']; congr 1; omega)
        by_contra hn
        exact hnl ⟨rows.length - 1, by omega, by omega, hee⟩

end

/-- **C71** (violation) Rows a, b, a: row 1 is the only `b`, yet `duplicated(keep='last')` marks it as repeated. -/
theorem duplicated_last_counterexample :
    Numbered ["a", "b", "a"] [1, 2, 1] 2 ∧ (duplicated (pack [1, 2, 1] 2) .last).1 = .ok [true, true, false] ∧
    ¬ Later ["a", "b", "a"] 1 := by
  refine ⟨refGroup_numbered ["a", "b", "a"], by decide +kernel, ?_⟩
  rintro ⟨j, h1, h2, h3⟩
  have : j = 2 := by simp at h2; omega
  subst this
  simp at h3

/-- the theorems are not empty: three rows, the last repeats the first -/
example : Numbered [5, 7, 5] (refGroup [5, 7, 5]).1 (refGroup [5, 7, 5]).2 ∧
    (duplicated (pack (refGroup [5, 7, 5]).1 (refGroup [5, 7, 5]).2) .first).1 = .ok [false, false, true] ∧
    (duplicated (pack (refGroup [5, 7, 5]).1 (refGroup [5, 7, 5]).2) .drop).1 = .ok [true, false, true] :=
  ⟨refGroup_numbered _, by decide +kernel, by decide +kernel⟩

/-- **C71** (violation) With a Categorical whose last category is unused (numbers 1, 2, 1 of 3 categories) `duplicated` raises
IndexError for the default `keep`. -/
theorem duplicated_unused_counterexample : (duplicated (pack [1, 2, 1] 3) .first).1 = .error .indexError := by decide +kernel

/-- **C71** (violation) With a Categorical that is already packed as key, `duplicated(keep='last')` changes the stored packing of the
Categorical: before, its second category has row 1, afterwards row 2, a row of its first category. -/
theorem duplicated_corrupts_counterexample :
    let p := pack [1, 2, 1] 2
    asFilter p (p.iFirst.map fun (s : Nat) => (s : Int)) 2 = some [1] ∧
    asFilter p (duplicated p .last).2 2 = some [2] := by decide +kernel

/-- **C71** The other values of `keep` leave the stored packing as it is. -/
theorem duplicated_keeps_packing (p : Packing) (keep : Keep) (h : keep ≠ .last) :
    (duplicated p keep).2 = p.iFirst.map fun (s : Nat) => (s : Int) := by
  cases keep <;> first | rfl | exact absurd rfl h

end Verif.Dup
