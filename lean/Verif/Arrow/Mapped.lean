import Verif.Arrow.Text
import Verif.Cat.Mapping
/-! # Categoricals with a mapping of names and codes to Arrow and back (C193) -/
namespace Verif.Arrow
open Verif.NpOps Verif.Cat

/-- a Categorical with a mapping: names are different, not empty and do not end with NUL; codes are different; the type holds the codes -/
structure Mapped.WF (m : Mapped) : Prop where
  names : (m.mapping.map (·.1)).Nodup
  codes : (m.mapping.map (·.2)).Nodup
  text : ∀ e ∈ m.mapping, e.1 ≠ [] ∧ stripNul e.1 = e.1
  fits : ∀ k ∈ m.codes ++ m.mapping.map (·.2), least m.sg m.w ≤ k ∧ k ≤ greatest m.sg m.w

theorem mem_kept {m : Mapped} {e : List Char × Int} : e ∈ keptPairs m ↔ e ∈ m.mapping ∧ e.2 ≠ missing m.sg m.w := by
  unfold keptPairs
  rw [List.mem_filter, decide_eq_true_eq]

theorem mem_unnamed {m : Mapped} {k : Int} : k ∈ unnamed m ↔ k ∈ m.codes ∧ k ∉ (keptPairs m).map (·.2) := by
  unfold unnamed
  rw [(List.perm_insertionSort _ _).mem_iff, List.mem_dedup, List.mem_filter, decide_eq_true_eq]

theorem unnamed_nodup (m : Mapped) : (unnamed m).Nodup := by
  unfold unnamed
  rw [(List.perm_insertionSort _ _).nodup_iff]
  exact List.nodup_dedup _

theorem all_codes (m : Mapped) : (allPairs m).map (·.2) = (keptPairs m).map (·.2) ++ unnamed m := by
  unfold allPairs
  rw [List.map_append, List.map_map]
  congr 1
  exact List.map_id _

theorem kept_codes_nodup {m : Mapped} (hw : m.WF) : ((keptPairs m).map (·.2)).Nodup :=
  hw.codes.sublist (List.filter_sublist.map _)

theorem all_codes_nodup {m : Mapped} (hw : m.WF) : ((allPairs m).map (·.2)).Nodup := by
  rw [all_codes, List.nodup_append]
  refine ⟨kept_codes_nodup hw, unnamed_nodup m, fun a ha b hb e => ?_⟩
  subst e
  exact (mem_unnamed.1 hb).2 ha

theorem all_names (m : Mapped) : (allPairs m).map (·.1) = (keptPairs m).map (·.1) ++ List.replicate (unnamed m).length [] := by
  unfold allPairs
  rw [List.map_append, List.map_map]
  congr 1
  exact List.map_const'

/-- the code at the position of a code -/
theorem pairIndex_get {m : Mapped} {k : Int} (hk : k ∈ m.codes) : ((allPairs m).map (·.2))[pairIndex m k]? = some k := by
  rw [all_codes]
  unfold pairIndex
  by_cases h : k ∈ (keptPairs m).map (·.2)
  · rw [if_pos h, List.getElem?_append_left (List.idxOf_lt_length_iff.2 h), List.getElem?_idxOf h]
  · rw [if_neg h, List.getElem?_append_right (by simp), List.length_map, Nat.add_sub_cancel_left]
    exact List.getElem?_idxOf (mem_unnamed.2 ⟨hk, h⟩)

theorem sorted_of_nodup {A : Type} [DecidableEq A] {x : List A} (h : x.Nodup) (n : Nat) (a : A) (ha : a ∉ x) :
    sortedMembers (x ++ List.replicate n a) = true := by
  unfold sortedMembers
  rw [decide_eq_true_eq, List.map_append, List.pairwise_append]
  have h1 : ∀ b ∈ x, (x ++ List.replicate n a).idxOf b = x.idxOf b := fun b hb => List.idxOf_append_of_mem hb
  have h2 : ∀ b ∈ List.replicate n a, (x ++ List.replicate n a).idxOf b = x.length := by
    intro b hb
    obtain ⟨hn, rfl⟩ := List.mem_replicate.1 hb
    rw [List.idxOf_append_of_notMem ha]
    obtain ⟨k, rfl⟩ := Nat.exists_eq_succ_of_ne_zero hn
    rw [List.replicate_succ, List.idxOf_cons_self, Nat.add_zero]
  refine ⟨?_, ?_, ?_⟩
  · rw [List.map_congr_left h1, List.pairwise_map, List.pairwise_iff_getElem]
    intro i j hi hj hij
    rw [h.idxOf_getElem i hi, h.idxOf_getElem j hj]
    omega
  · rw [List.map_congr_left h2, List.map_const']
    exact List.pairwise_replicate_of_refl
  · intro p hp q hq
    obtain ⟨b, hb, rfl⟩ := List.mem_map.1 hp
    obtain ⟨c, hc, rfl⟩ := List.mem_map.1 hq
    rw [h1 b hb, h2 c hc]
    exact List.idxOf_le_length

theorem build_has {ps : List (List Char × Int)} (hc : (ps.map (·.2)).Nodup) : ∀ l c, (l, c) ∈ ps → labelOf (buildDicts ps) c = some l := by
  induction ps using List.reverseRecOn with
  | nil => intro l c h; cases h
  | append_singleton ps e ih =>
    intro l c h
    rw [List.map_append, List.nodup_append] at hc
    rw [build_snoc]
    unfold labelOf
    dsimp only
    rw [_root_.Verif.Items.Dict.get_set]
    rcases List.mem_append.1 h with h | h
    · rw [if_neg]
      · exact ih hc.1 l c h
      · exact hc.2.2 c (List.mem_map.2 ⟨_, h, rfl⟩) e.2 (by simp)
    · rw [List.mem_singleton] at h
      subst h
      rw [if_pos rfl]

theorem build_code {ps : List (List Char × Int)} : ∀ l c, (l, c) ∈ ps → (ps.filter fun e => decide (e.1 = l)).length ≤ 1 →
    codeOf (buildDicts ps) l = some c := by
  induction ps using List.reverseRecOn with
  | nil => intro l c h; cases h
  | append_singleton ps e ih =>
    intro l c h hone
    rw [build_snoc]
    unfold codeOf
    dsimp only
    rw [_root_.Verif.Items.Dict.get_set]
    rw [List.filter_append, List.length_append] at hone
    rcases List.mem_append.1 h with h | h
    · have hpos : 0 < (ps.filter fun e => decide (e.1 = l)).length := List.length_pos_of_mem (List.mem_filter.2 ⟨h, by simp⟩)
      rw [if_neg]
      · exact ih l c h (by omega)
      · intro e'
        rw [List.filter_singleton] at hone
        simp [e'.symm] at hone
        simp at hpos
        obtain ⟨x, hx⟩ := hpos
        have := hone l x
        exact this hx rfl
    · rw [List.mem_singleton] at h
      subst h
      rw [if_pos rfl]

theorem read_codes {m : Mapped} (hw : m.WF) : fromArrowInt false true m.sg m.w [(toMapped m).dict.map (·.2)] = .ok ⟨m.sg, m.w, (allPairs m).map (·.2)⟩ := by
  have hd : (toMapped m).dict.map (·.2) = (allPairs m).map fun e => if e.2 = missing m.sg m.w then none else some e.2 := by
    unfold toMapped; rw [List.map_map]; rfl
  unfold fromArrowInt
  rw [if_neg (by simp)]
  have hflat : [(toMapped m).dict.map (·.2)].flatten = (toMapped m).dict.map (·.2) := by simp
  rw [hflat, hd]
  refine (fromArrowOne_eq ?_ _).2 ⟨by simp, Or.inl ⟨?_, ?_⟩⟩
  · intro k hk
    obtain ⟨e, he, hek⟩ := List.mem_map.1 hk
    split_ifs at hek with h0
    cases hek
    have : e.2 ∈ (allPairs m).map (·.2) := List.mem_map.2 ⟨e, he, rfl⟩
    rw [all_codes] at this
    refine hw.fits _ ?_
    rcases List.mem_append.1 this with h | h
    · obtain ⟨e', he', hee⟩ := List.mem_map.1 h
      exact List.mem_append_right _ (List.mem_map.2 ⟨e', (mem_kept.1 he').1, hee⟩)
    · exact List.mem_append_left _ (mem_unnamed.1 h).1
  · intro hk
    obtain ⟨e, he, hek⟩ := List.mem_map.1 hk
    split_ifs at hek with h0
    exact h0 (Option.some.inj hek)
  · congr 1
    unfold fillNull
    rw [List.map_map]
    refine List.map_congr_left fun e _ => ?_
    by_cases h : e.2 = missing m.sg m.w <;> simp [h]

theorem read_names {m : Mapped} (hw : m.WF) : (fromTextOne ((toMapped m).dict.map (·.1))).vals = (allPairs m).map (·.1) := by
  have hd : (toMapped m).dict.map (·.1) = (allPairs m).map fun e => if e.1 = [] then none else some e.1 := by
    unfold toMapped; rw [List.map_map]; rfl
  rw [hd]
  unfold fromTextOne fillNull
  dsimp only
  rw [List.map_map, List.map_map]
  refine List.map_congr_left fun e he => ?_
  by_cases h : e.1 = []
  · simp [h, stripNul]
  · have : e ∈ m.mapping := by
      unfold allPairs at he
      rcases List.mem_append.1 he with he | he
      · exact (mem_kept.1 he).1
      · obtain ⟨k, _, rfl⟩ := List.mem_map.1 he
        exact absurd rfl h
    simp [h, (hw.text e this).2]

theorem eraseDups_id {A : Type} [BEq A] [LawfulBEq A] {l : List A} (h : l.Nodup) : l.eraseDups = l := by
  induction l with
  | nil => rfl
  | cons a l ih =>
    rw [List.nodup_cons] at h
    rw [List.eraseDups_cons, List.filter_eq_self.2, ih h.2]
    intro b hb
    simp
    rintro rfl
    exact h.1 hb

theorem zip_pairs (l : List (List Char × Int)) : (l.map (·.1)).zip (l.map (·.2)) = l := by
  rw [List.zip_map', List.map_id']

/-- what `from_arrow` gives, before rows are looked at -/
theorem fromMapped_eq {m : Mapped} (hw : m.WF) : fromMapped m.sg m.w (toMapped m) =
    if none ∈ (toMapped m).rows then .error .typeError
    else .ok ((toMapped m).rows.filterMap fun j => j.bind fun (k : Nat) => ((allPairs m).map (·.2))[k]?, buildDicts (allPairs m)) := by
  unfold fromMapped
  rw [read_codes hw]
  dsimp only
  rw [read_names hw]
  unfold diffPairs
  rw [zip_pairs, eraseDups_id (List.Nodup.of_map _ (all_codes_nodup hw))]
  have h1 : sortedMembers ((allPairs m).map (·.2)) = true := by
    have hk := sorted_of_nodup (all_codes_nodup hw) 0 (missing m.sg m.w)
    by_cases hm : missing m.sg m.w ∈ (allPairs m).map (·.2)
    · -- any code that does not occur
      obtain ⟨b, hb⟩ := Infinite.exists_notMem_finset ((allPairs m).map (·.2)).toFinset
      have := sorted_of_nodup (all_codes_nodup hw) 0 b (fun h => hb (List.mem_toFinset.2 h))
      simpa using this
    · simpa using hk hm
  have h2 : sortedMembers ((allPairs m).map (·.1)) = true := by
    rw [all_names]
    refine sorted_of_nodup (hw.names.sublist (List.filter_sublist.map _)) _ _ ?_
    intro h
    obtain ⟨e, he, h0⟩ := List.mem_map.1 h
    exact (hw.text e (mem_kept.1 he).1).1 h0
  rw [if_neg (by rw [h1]; simp), if_neg (by rw [h2]; simp)]

/-- **C193 (partial)** `to_arrow` and `from_arrow` of a Categorical with a mapping of names and codes, if the mapping does not name the
invalid code or no row has it: every row has the same code, every name (but that of the invalid code) stands for the same code and the code
for the name, and no other name is there but the empty one. Missing: rows with an invalid code that is named, the name of the invalid code,
and codes without a name, which then are named by the empty text; see the theorems below. -/
theorem mapped_round_trip_partial (m : Mapped) (hw : m.WF) (hn : missing m.sg m.w ∉ m.mapping.map (·.2) ∨ missing m.sg m.w ∉ m.codes) :
    ∃ codes mp, fromMapped m.sg m.w (toMapped m) = .ok (codes, mp) ∧ codes = m.codes ∧
      (∀ l c, (l, c) ∈ m.mapping → c ≠ missing m.sg m.w → labelOf mp c = some l ∧ codeOf mp l = some c) ∧
      ∀ c l, labelOf mp c = some l → l ≠ [] → (l, c) ∈ m.mapping := by
  have hrows : (toMapped m).rows = m.codes.map fun k => some (pairIndex m k) := by
    unfold toMapped
    dsimp only
    refine List.map_congr_left fun k hk => ?_
    rw [if_neg]
    unfold rowIsNull
    rw [Bool.and_eq_true, decide_eq_true_eq, decide_eq_true_eq]
    rintro ⟨h1, rfl⟩
    rcases hn with h | h
    · exact h h1
    · exact h hk
  rw [fromMapped_eq hw, if_neg (by rw [hrows]; simp)]
  refine ⟨_, _, rfl, ?_, fun l c h hc => ?_, fun c l h hl => ?_⟩
  · rw [hrows, List.filterMap_map]
    have : ∀ l : List Int, (∀ k ∈ l, k ∈ m.codes) → l.filterMap ((fun j : Option Nat => j.bind fun (k : Nat) => ((allPairs m).map (·.2))[k]?) ∘ fun k => some (pairIndex m k)) = l := by
      intro l hl
      induction l with
      | nil => rfl
      | cons a l ih =>
        rw [List.filterMap_cons]
        have := pairIndex_get (hl a List.mem_cons_self)
        rw [ih fun k hk => hl k (List.mem_cons_of_mem _ hk)]
        simp only [Function.comp_apply, Option.bind_some]
        rw [this]
    exact this _ fun _ h => h
  · have hmem : (l, c) ∈ allPairs m := List.mem_append_left _ (mem_kept.2 ⟨h, hc⟩)
    refine ⟨build_has (all_codes_nodup hw) l c hmem, build_code l c hmem ?_⟩
    unfold allPairs
    rw [List.filter_append, List.length_append]
    have h1 : ((keptPairs m).filter fun e => decide (e.1 = l)).length ≤ 1 := by
      have hnd : ((keptPairs m).map (·.1)).Nodup := hw.names.sublist (List.filter_sublist.map _)
      have := List.nodup_iff_count_le_one.1 hnd l
      rw [List.count_eq_countP, List.countP_map, List.countP_eq_length_filter] at this
      refine le_trans (le_of_eq ?_) this
      congr 1
      refine List.filter_congr fun e _ => ?_
      rw [Bool.eq_iff_iff]; simp
    have h2 : ((unnamed m).map fun k => (([] : List Char), k)).filter (fun e => decide (e.1 = l)) = [] := by
      rw [List.filter_eq_nil_iff]
      intro e he
      obtain ⟨k, _, rfl⟩ := List.mem_map.1 he
      rw [decide_eq_true_eq]
      exact fun h0 => (hw.text _ h).1 h0.symm
    rw [h2]
    simpa using h1
  · have := build_labels _ _ _ h
    unfold allPairs at this
    rcases List.mem_append.1 this with h | h
    · exact (mem_kept.1 h).1
    · obtain ⟨k, _, hk⟩ := List.mem_map.1 h
      exact absurd (Prod.mk.inj hk).1.symm hl

/-- **C193** If the mapping names the invalid code and a row has it, the array can be written but not read. -/
theorem mapped_null_exact (m : Mapped) (hw : m.WF) : (∃ r, fromMapped m.sg m.w (toMapped m) = .ok r) ↔
    missing m.sg m.w ∉ m.mapping.map (·.2) ∨ missing m.sg m.w ∉ m.codes := by
  constructor
  · rintro ⟨r, hr⟩
    by_contra h
    push Not at h
    rw [fromMapped_eq hw, if_pos] at hr
    · cases hr
    · unfold toMapped
      dsimp only
      refine List.mem_map.2 ⟨_, h.2, ?_⟩
      rw [if_pos]
      unfold rowIsNull
      rw [Bool.and_eq_true, decide_eq_true_eq, decide_eq_true_eq]
      exact ⟨h.1, rfl⟩
  · intro h
    obtain ⟨codes, mp, h1, _⟩ := mapped_round_trip_partial m hw h
    exact ⟨_, h1⟩

/-- **C193** violated: (1) rows with a named invalid code cannot be read, (2) the name of the invalid code is lost, (3) a code without name
comes back with the empty name. -/
theorem mapped_counterexample : (∃ m : Mapped, m.WF ∧ ∀ r, fromMapped m.sg m.w (toMapped m) ≠ .ok r) ∧
    (∃ m : Mapped, m.WF ∧ ∃ r, fromMapped m.sg m.w (toMapped m) = .ok r ∧ (['x'], -128) ∈ m.mapping ∧ codeOf r.2 ['x'] = none) ∧
    ∃ m : Mapped, m.WF ∧ ∃ r, fromMapped m.sg m.w (toMapped m) = .ok r ∧ (7 : Int) ∉ m.mapping.map (·.2) ∧ labelOf r.2 7 = some [] := by
  have w1 : (⟨true, 0, [1, -128], [(['a'], 1), (['x'], -128)]⟩ : Mapped).WF := ⟨by decide, by decide, by decide, by decide +kernel⟩
  have w2 : (⟨true, 0, [1], [(['a'], 1), (['x'], -128)]⟩ : Mapped).WF := ⟨by decide, by decide, by decide, by decide +kernel⟩
  have w3 : (⟨true, 0, [1, 7], [(['a'], 1)]⟩ : Mapped).WF := ⟨by decide, by decide, by decide, by decide +kernel⟩
  refine ⟨⟨_, w1, fun r hr => ?_⟩, ⟨_, w2, ?_⟩, ⟨_, w3, ?_⟩⟩
  · have := (mapped_null_exact _ w1).1 ⟨r, hr⟩
    revert this
    decide +kernel
  · obtain ⟨codes, mp, h, _⟩ := mapped_round_trip_partial _ w2 (by decide +kernel)
    refine ⟨_, h, by decide, ?_⟩
    rw [fromMapped_eq w2] at h
    split_ifs at h
    cases h
    decide +kernel
  · obtain ⟨codes, mp, h, _⟩ := mapped_round_trip_partial _ w3 (by decide +kernel)
    refine ⟨_, h, by decide, ?_⟩
    rw [fromMapped_eq w3] at h
    split_ifs at h
    cases h
    decide +kernel

example : (⟨true, 1, [3, 9, 3, -32768], [(['a'], 3), (['b'], 4)]⟩ : Mapped).WF ∧ (-32768 : Int) = missing true 1 :=
  ⟨⟨by decide, by decide, by decide, by decide +kernel⟩, by decide +kernel⟩

end Verif.Arrow
