import Verif.Cat.Stack
/-!
# C27: stacking Categoricals in mapping mode
-/
namespace Verif.Cat
open Verif.Items

/-- `unique(a, return_index=True, sorted=False)[1]`: positions of first occurrences, in order -/
def firstIdx (l : List Int) : List Nat := (List.range l.length).filter fun i => l[i]?.any fun x => decide (x ∉ l.take i)

/-- `dict(zip(ks, vs))` -/
def dictOf {κ V : Type} [DecidableEq κ] (ps : List (κ × V)) : Dict κ V := ps.foldl (fun d e => Dict.set d e.1 e.2) []

/-- `GroupingEnum(mapping, _trusted=True)` for a mapping from labels to codes (`rt_grouping.py:3838-3848`) -/
def trusted (s2i : Dict Label Int) : Mapping := ⟨dictOf (s2i.map fun e => (e.2, e.1)), s2i⟩

/-- `_hstack_categorical` in mapping mode (`rt_hstack.py:662-693`) with `merge_cats(from_mapping=True)`
(`rt_grouping.py:181-256`): the codes are stacked as they are; this is the new mapping.  The names are cut at the cutoffs of
the codes. -/
def hstackMaps (crcI : List Int → Nat) (crcS : List Label → Nat) (ms : List Mapping) : Mapping :=
  let codes := ms.flatMap fun m => Dict.keys m.i2s
  let names := ms.flatMap fun m => Dict.keys m.s2i
  let ucut := cumsum 0 (ms.map fun m => (Dict.keys m.i2s).length)
  let oc := slices codes 0 ucut
  let on := slices names 0 ucut
  if ms.length ≤ 1 ∨ (crcMatch crcI oc = true ∧ crcMatch crcS on = true) then
    trusted (dictOf ((on.headD []).zip (oc.headD [])))
  else
    let uidx := firstIdx codes
    trusted (dictOf ((uidx.filterMap fun i => names[i]?).zip (uidx.filterMap fun i => codes[i]?)))

/-! ## Specification -/

/-- the two dictionaries hold the same pairs in the same order, codes and labels being distinct (as after construction from a
one-to-one dictionary) -/
def Aligned (m : Mapping) (ps : List (Int × Label)) : Prop :=
  m.i2s = ps ∧ m.s2i = ps.map (fun e => (e.2, e.1)) ∧ (ps.map (·.1)).Nodup ∧ (ps.map (·.2)).Nodup

/-- no code has two labels and no label two codes in all the mappings together -/
def Compatible (all : List (Int × Label)) : Prop := ∀ e ∈ all, ∀ e' ∈ all, (e.1 = e'.1 ↔ e.2 = e'.2)

/-! ## Proofs -/

theorem dictOf_nodup {κ V : Type} [DecidableEq κ] (ps : List (κ × V)) (h : (ps.map (·.1)).Nodup) : dictOf ps = ps := by
  induction ps using List.reverseRecOn with
  | nil => rfl
  | append_singleton ps e ih =>
    rw [List.map_append, List.nodup_append] at h
    unfold dictOf at ih ⊢
    rw [List.foldl_append, ih h.1]
    simp only [List.foldl_cons, List.foldl_nil]
    unfold Dict.set
    rw [if_neg]
    rw [Dict.has_iff]
    intro hm
    exact h.2.2 _ hm e.1 (by simp) rfl

theorem get_nodup {κ V : Type} [DecidableEq κ] (ps : List (κ × V)) (h : (ps.map (·.1)).Nodup) (k : κ) (v : V) :
    Dict.get ps k = some v ↔ (k, v) ∈ ps := by
  induction ps with
  | nil => simp [Dict.get]
  | cons e ps ih =>
    rw [List.map_cons, List.nodup_cons] at h
    unfold Dict.get at ih ⊢
    rw [List.find?_cons]
    by_cases hk : e.1 = k
    · simp only [hk, decide_true, Option.map_some, Option.some.injEq, List.mem_cons]
      constructor
      · intro hv; left; rw [← hk, ← hv]
      · rintro (hv | hv)
        · rw [← hv]
        · refine absurd ?_ h.1
          rw [hk]
          exact List.mem_map_of_mem (f := (·.1)) hv
    · simp only [hk, decide_false, List.mem_cons]
      rw [ih h.2]
      constructor
      · exact .inr
      · rintro (hv | hv)
        · exact absurd (by rw [← hv]) hk
        · exact hv

/-- the new mapping made from distinct pairs -/
theorem trusted_labels (Q : List (Int × Label)) (h1 : (Q.map (·.1)).Nodup) (h2 : (Q.map (·.2)).Nodup) (c : Int) (l : Label) :
    (labelOf (trusted (dictOf (Q.map fun e => (e.2, e.1)))) c = some l ↔ (c, l) ∈ Q) ∧
    (codeOf (trusted (dictOf (Q.map fun e => (e.2, e.1)))) l = some c ↔ (c, l) ∈ Q) := by
  have hs : dictOf (Q.map fun e => (e.2, e.1)) = Q.map fun e => (e.2, e.1) :=
    dictOf_nodup _ (by rw [List.map_map]; exact h2)
  have hid : (Q.map fun e => (e.2, e.1)).map (fun e => (e.2, e.1)) = Q := by
    rw [List.map_map]; exact List.map_id _
  unfold trusted labelOf codeOf
  rw [hs]
  dsimp only
  rw [hid, dictOf_nodup _ h1]
  refine ⟨get_nodup _ h1 _ _, ?_⟩
  rw [get_nodup _ (by rw [List.map_map]; exact h2)]
  simp only [List.mem_map, Prod.mk.injEq]
  constructor
  · rintro ⟨e, he, h3, h4⟩
    rw [← h3, ← h4]; exact he
  · intro h
    exact ⟨_, h, rfl, rfl⟩

theorem firstIdx_nodup (l : List Int) : ((firstIdx l).filterMap fun i => l[i]?).Nodup := by
  unfold firstIdx
  generalize hL : ((List.range l.length).filter fun i => l[i]?.any fun x => decide (x ∉ l.take i)) = L
  have hpw : L.Pairwise (· < ·) := by
    rw [← hL]; exact (List.pairwise_lt_range (n := l.length)).filter _
  have hmem : ∀ i ∈ L, ∃ x, l[i]? = some x ∧ x ∉ l.take i := by
    intro i hi
    rw [← hL, List.mem_filter] at hi
    cases hx : l[i]? with
    | none => rw [hx] at hi; simp at hi
    | some x => rw [hx] at hi; exact ⟨x, rfl, by simpa using hi.2⟩
  clear hL
  unfold List.Nodup
  rw [List.pairwise_filterMap]
  refine hpw.imp_of_mem ?_
  intro i j hi hj hij x hx y hy hxy
  subst hxy
  obtain ⟨z, hz1, hz2⟩ := hmem j hj
  rw [hy] at hz1
  rw [← Option.some.inj hz1] at hz2
  apply hz2
  rw [List.mem_take_iff_getElem]
  obtain ⟨h1, h2⟩ := List.getElem?_eq_some_iff.1 hx
  exact ⟨i, by omega, h2⟩

theorem firstIdx_covers (l : List Int) (x : Int) (h : x ∈ l) : l.idxOf x ∈ firstIdx l := by
  unfold firstIdx
  rw [List.mem_filter]
  refine ⟨by rw [List.mem_range]; exact List.idxOf_lt_length_iff.mpr h, ?_⟩
  rw [get_idxOf h]
  simp only [Option.any_some, decide_eq_true_eq]
  intro hm
  rw [List.mem_take_iff_getElem] at hm
  obtain ⟨i, hi, hx⟩ := hm
  have hlt : i < l.idxOf x := by omega
  have := List.not_of_lt_findIdx (xs := l) (p := (· == x)) (i := i) (by simpa [List.idxOf] using hlt)
  simp [hx] at this

theorem filterMap_zip {α β : Type} (P : List (α × β)) (idx : List Nat) :
    (idx.filterMap fun i => (P.map (·.2))[i]?).zip (idx.filterMap fun i => (P.map (·.1))[i]?) =
      (idx.filterMap fun i => P[i]?).map fun e => (e.2, e.1) := by
  induction idx with
  | nil => rfl
  | cons i idx ih =>
    simp only [List.filterMap_cons, List.getElem?_map]
    cases hp : P[i]? with
    | none => simpa using ih
    | some e => simpa using ih

/-- **C27** Stacking Categoricals in mapping mode whose mappings are compatible: every code keeps its label, and the code of
every label is unchanged. -/
theorem hstack_mapping_partial (crcI : List Int → Nat) (crcS : List Label → Nat)
    (hI : ∀ a b, a.length = b.length → crcI a = crcI b → a = b) (hS : ∀ a b, a.length = b.length → crcS a = crcS b → a = b)
    (ms : List (Mapping × List (Int × Label))) (hne : ms ≠ []) (ha : ∀ m ∈ ms, Aligned m.1 m.2)
    (hc : Compatible (ms.flatMap (·.2))) (c : Int) (l : Label) :
    (labelOf (hstackMaps crcI crcS (ms.map (·.1))) c = some l ↔ (c, l) ∈ ms.flatMap (·.2)) ∧
    (codeOf (hstackMaps crcI crcS (ms.map (·.1))) l = some c ↔ (c, l) ∈ ms.flatMap (·.2)) := by
  have hcodes : (ms.map (·.1)).flatMap (fun m => Dict.keys m.i2s) = (ms.flatMap (·.2)).map (·.1) := by
    rw [List.flatMap_map, List.map_flatMap]
    unfold List.flatMap
    congr 1
    refine List.map_congr_left fun m hm => ?_
    rw [(ha m hm).1]; rfl
  have hnames : (ms.map (·.1)).flatMap (fun m => Dict.keys m.s2i) = (ms.flatMap (·.2)).map (·.2) := by
    rw [List.flatMap_map, List.map_flatMap]
    unfold List.flatMap
    congr 1
    refine List.map_congr_left fun m hm => ?_
    rw [(ha m hm).2.1]
    unfold Dict.keys
    rw [List.map_map]; rfl
  have hcut : (ms.map (·.1)).map (fun m => (Dict.keys m.i2s).length) = ms.map fun m => ((m.2.map (·.1)).length) := by
    rw [List.map_map]
    refine List.map_congr_left fun m hm => ?_
    simp only [Function.comp]
    rw [(ha m hm).1]; rfl
  unfold hstackMaps
  dsimp only
  rw [hcodes, hnames, hcut]
  have hs1 : slices ((ms.flatMap (·.2)).map (·.1)) 0 (cumsum 0 (ms.map fun m => (m.2.map (·.1)).length)) = ms.map fun m => m.2.map (·.1) := by
    rw [List.map_flatMap]
    have := slices_flatMap (fun m : Mapping × List (Int × Label) => m.2.map (·.1)) ms []
    simpa using this
  have hs2 : slices ((ms.flatMap (·.2)).map (·.2)) 0 (cumsum 0 (ms.map fun m => (m.2.map (·.1)).length)) = ms.map fun m => m.2.map (·.2) := by
    rw [List.map_flatMap]
    have := slices_flatMap (fun m : Mapping × List (Int × Label) => m.2.map (·.2)) ms []
    simpa using this
  rw [hs1, hs2]
  split
  · rename_i hcond
    cases ms with
    | nil => exact absurd rfl hne
    | cons m ms =>
      have hall : ∀ m' ∈ ms, m'.2 = m.2 := by
        intro m' hm'
        rcases hcond with h | ⟨h1, h2⟩
        · have : 0 < ms.length := List.length_pos_of_mem hm'
          simp at h
          rw [h] at this; simp at this
        · simp only [List.map_cons, crcMatch, List.all_eq_true, List.mem_map] at h1 h2
          have h1' := of_decide_eq_true (h1 _ ⟨m', hm', rfl⟩)
          have h2' := of_decide_eq_true (h2 _ ⟨m', hm', rfl⟩)
          have e1 := hI _ _ h1'.1 h1'.2
          have e2 := hS _ _ h2'.1 h2'.2
          rw [← List.zip_unzip m'.2, ← List.zip_unzip m.2, List.unzip_eq_map, List.unzip_eq_map]
          dsimp only
          rw [show m'.2.map Prod.fst = m.2.map Prod.fst from e1.symm, show m'.2.map Prod.snd = m.2.map Prod.snd from e2.symm]
      simp only [List.map_cons, List.headD_cons]
      have hz : (m.2.map (·.2)).zip (m.2.map (·.1)) = m.2.map fun e => (e.2, e.1) := by
        rw [List.zip_map', ]
      rw [hz]
      have hmem : (c, l) ∈ (m :: ms).flatMap (·.2) ↔ (c, l) ∈ m.2 := by
        rw [List.mem_flatMap]
        constructor
        · rintro ⟨m', hm', h⟩
          rcases List.mem_cons.1 hm' with rfl | hm'
          · exact h
          · rw [hall m' hm'] at h; exact h
        · intro h; exact ⟨m, by simp, h⟩
      rw [hmem]
      have := ha m (by simp)
      exact trusted_labels m.2 this.2.2.1 this.2.2.2 c l
  · generalize hP : ms.flatMap (·.2) = P at hc
    rw [filterMap_zip P]
    generalize hQ : ((firstIdx (P.map (·.1))).filterMap fun i => P[i]?) = Q
    have hQ1 : (Q.map (·.1)).Nodup := by
      have := firstIdx_nodup (P.map (·.1))
      rw [← hQ, List.map_filterMap]
      simp only [List.getElem?_map] at this
      exact this
    have hQP : ∀ e ∈ Q, e ∈ P := by
      intro e he
      rw [← hQ, List.mem_filterMap] at he
      obtain ⟨i, _, hi⟩ := he
      exact List.mem_of_getElem? hi
    have hPQ : ∀ e ∈ P, e ∈ Q := by
      intro e he
      have hm : e.1 ∈ P.map (·.1) := List.mem_map_of_mem (f := (·.1)) he
      have h1 := firstIdx_covers _ _ hm
      have h2 := get_idxOf hm
      rw [List.getElem?_map] at h2
      cases h3 : P[(P.map (·.1)).idxOf e.1]? with
      | none => rw [h3] at h2; simp at h2
      | some e' =>
        rw [h3] at h2
        have h4 : e'.1 = e.1 := by simpa using h2
        have he' : e' ∈ P := List.mem_of_getElem? h3
        have h5 := (hc e' he' e he).1 h4
        have : e' = e := Prod.ext h4 h5
        rw [← hQ, List.mem_filterMap]
        exact ⟨_, h1, by rw [h3, this]⟩
    have hQ2 : (Q.map (·.2)).Nodup := by
      rw [List.nodup_map_iff_inj_on (List.Nodup.of_map _ hQ1)]
      intro e he e' he' h
      exact Prod.ext ((hc e (hQP e he) e' (hQP e' he')).2 h) h
    have hiff : (c, l) ∈ P ↔ (c, l) ∈ Q := ⟨hPQ _, hQP _⟩
    rw [hiff]
    exact trusted_labels Q hQ1 hQ2 c l

/-! ## Examples and counterexamples -/

def exI (l : List Int) : Nat := l.foldl (fun a x => a * 256 + x.toNat + 1) 0
def exS (l : List Label) : Nat := l.foldl (fun a x => a * 256 + (x.headD ' ').toNat + 1) 0

def mA : List (Int × Label) := [(1, ['a']), (2, ['b'])]
def mB : List (Int × Label) := [(3, ['c']), (1, ['a'])]
def mapOf (ps : List (Int × Label)) : Mapping := ⟨ps, ps.map fun e => (e.2, e.1)⟩

example : Aligned (mapOf mA) mA ∧ Aligned (mapOf mB) mB ∧ Compatible (mA ++ mB) := by
  refine ⟨⟨rfl, rfl, by decide, by decide⟩, ⟨rfl, rfl, by decide, by decide⟩, ?_⟩
  unfold Compatible; decide

example : (hstackMaps exI exS [mapOf mA, mapOf mB]).i2s = [(1, ['a']), (2, ['b']), (3, ['c'])] := by decide

/-- Code 1 is "a" in one Categorical and "x" in the other: the rows "x" become "a", without any error. -/
theorem hstack_code_conflict_counterexample : ∃ m : Mapping, m = hstackMaps exI exS [mapOf [(1, ['a'])], mapOf [(1, ['x']), (2, ['y'])]] ∧
    labelOf m 1 = some ['a'] :=
  ⟨_, rfl, by decide⟩

/-- The label "a" has code 1 in one Categorical and code 5 in the other: the rows of the first have no label any more. -/
theorem hstack_label_conflict_counterexample : ∃ m : Mapping, m = hstackMaps exI exS [mapOf [(1, ['a'])], mapOf [(5, ['a']), (2, ['y'])]] ∧
    labelOf m 1 = none ∧ labelOf m 5 = some ['a'] :=
  ⟨_, rfl, by decide, by decide⟩

/-- After `mapping_replace` the two dictionaries are not aligned: stacking with a different mapping gives code 1 the label back
that was replaced. -/
theorem hstack_after_replace_counterexample : ∃ r m : Mapping, r = (mstep (mapOf mA) (.replace 1 ['z'])).1 ∧
    m = hstackMaps exI exS [mapOf [(7, ['q'])], r] ∧ labelOf r 1 = some ['z'] ∧ labelOf m 1 = some ['a'] :=
  ⟨_, _, rfl, rfl, by decide, by decide⟩

end Verif.Cat
