import Verif.Asof.Nearest
import Verif.Merge.Props

/-!
# C07: as-of merges with a `by` key
-/
namespace Verif.Asof
open Verif.Merge

section
variable {α : Type} [LinearOrder α] {K : Type} [DecidableEq K]
  {lkeys rkeys : List (Option K)} {L R : Grouping K}

/-- right rows with the `by` key of left row `i` -/
def sameKey (lkeys rkeys : List (Option K)) (right : List α) (i : Nat) (j : Nat) (y : α) : Prop :=
  ∃ k, lkeys[i]? = some (some k) ∧ rkeys[j]? = some (some k) ∧ right[j]? = some y

/-- the column is ascending inside every key -/
def SortedInGroups (keys : List (Option K)) (vals : List α) : Prop :=
  ∀ (i j : Nat) (k : K) (x y : α), i ≤ j → keys[i]? = some (some k) → keys[j]? = some (some k) →
    vals[i]? = some x → vals[j]? = some y → x ≤ y

/-- rows of a group, in row order -/
theorem rowsOf_sorted (ikey : List Nat) (c : Nat) : (rowsOf ikey c).Pairwise (· < ·) := by
  unfold rowsOf
  exact List.Pairwise.filter _ List.pairwise_lt_range

theorem ncount_getD (g : Grouping K) (c : Nat) (h : c ≤ g.gbkeys.length) :
    g.ncountgroup.getD c 0 = (rowsOf g.ikey c).length := by
  rw [List.getD_eq_getElem?_getD, ncountgroup_getElem? g c h]; rfl

theorem map_idx_rows (g : Grouping K) (c : Nat) (h : c ≤ g.gbkeys.length) :
    (List.range (g.ncountgroup.getD c 0)).map (fun i => g.igroup.getD (g.ifirstgroup.getD c 0 + i) 0) =
      rowsOf g.ikey c := by
  rw [ncount_getD g c h]
  apply List.ext_getElem
  · simp
  · intro i h1 h2
    rw [List.getElem_map, List.getElem_range]
    exact igroup_getD g c i h h2

/-- key of the rows of a group -/
theorem key_of_row (hR : R.WF rkeys) (c j : Nat) (k : K) (hk : R.gbkeys[c]? = some k) :
    rkeys[j]? = some (some k) ↔ j ∈ rowsOf R.ikey (c + 1) := by
  rw [mem_rowsOf, decode_getElem? hR, Option.map_eq_some_iff]
  constructor
  · rintro ⟨d, h1, h2⟩
    by_cases h0 : d = 0
    · simp [h0] at h2
    · rw [if_neg h0] at h2
      obtain ⟨a1, e1⟩ := List.getElem?_eq_some_iff.mp h2
      obtain ⟨a2, e2⟩ := List.getElem?_eq_some_iff.mp hk
      have := (List.Nodup.getElem_inj_iff hR.nodup).mp (e1.trans e2.symm)
      rw [h1, show d = c + 1 by omega]
  · intro h
    exact ⟨c + 1, h, by simpa using hk⟩

theorem mono_of_map {f : Nat → Nat} {n : Nat} {l : List Nat} (h : (List.range n).map f = l)
    (hs : l.Pairwise (· < ·)) : ∀ t t', t < t' → t' < n → f t < f t' := by
  subst h
  rw [List.pairwise_map, List.pairwise_iff_getElem] at hs
  intro t t' h1 h2
  have := hs t t' (by simp; omega) (by simpa using h2) h1
  simpa using this

/-- everything known about the run of one pair of groups -/
theorem groupRun_facts (hL : L.WF lkeys) (hR : R.WF rkeys) (exact : Bool) (tl : Option α → Option α → Bool)
    (left right : List α) (hll : left.length = lkeys.length) (hrl : right.length = rkeys.length)
    (g h : Nat) (k : K) (hg : L.gbkeys[g]? = some k) (hh : R.gbkeys[h]? = some k) :
    let r := groupRun exact tl L R (left.map some) (right.map some) g h
    (List.range r.nlen).map r.nIdx = rowsOf L.ikey (g + 1) ∧
    (List.range r.hlen).map r.hIdx = rowsOf R.ikey (h + 1) ∧
    (∀ t, t < r.nlen → ∃ x, r.N t = some x ∧ left[r.nIdx t]? = some x ∧ lkeys[r.nIdx t]? = some (some k)) ∧
    (∀ t, t < r.hlen → ∃ y, r.H t = some y ∧ right[r.hIdx t]? = some y ∧ rkeys[r.hIdx t]? = some (some k)) ∧
    (∀ t t', t < t' → t' < r.nlen → r.nIdx t < r.nIdx t') ∧
    (∀ t t', t < t' → t' < r.hlen → r.hIdx t < r.hIdx t') := by
  intro r
  have hg' := (List.getElem?_eq_some_iff.mp hg).1
  have hh' := (List.getElem?_eq_some_iff.mp hh).1
  have e1 : (List.range r.nlen).map r.nIdx = rowsOf L.ikey (g + 1) := map_idx_rows L (g + 1) (by omega)
  have e2 : (List.range r.hlen).map r.hIdx = rowsOf R.ikey (h + 1) := map_idx_rows R (h + 1) (by omega)
  have s1 := rowsOf_sorted L.ikey (g + 1)
  have s2 := rowsOf_sorted R.ikey (h + 1)
  refine ⟨e1, e2, ?_, ?_, mono_of_map e1 s1, mono_of_map e2 s2⟩
  · intro t ht
    have hm : r.nIdx t ∈ rowsOf L.ikey (g + 1) := by
      rw [← e1]; exact List.mem_map.mpr ⟨t, List.mem_range.mpr ht, rfl⟩
    have hk := (key_of_row hL g _ k hg).mpr hm
    have hlt : r.nIdx t < left.length := by rw [hll]; exact (List.getElem?_eq_some_iff.mp hk).1
    refine ⟨left[r.nIdx t], ?_, List.getElem?_eq_getElem hlt, hk⟩
    show (left.map some).getD (r.nIdx t) none = _
    simp [List.getD_eq_getElem?_getD, List.getElem?_eq_getElem hlt]
  · intro t ht
    have hm : r.hIdx t ∈ rowsOf R.ikey (h + 1) := by
      rw [← e2]; exact List.mem_map.mpr ⟨t, List.mem_range.mpr ht, rfl⟩
    have hk := (key_of_row hR h _ k hh).mpr hm
    have hlt : r.hIdx t < right.length := by rw [hrl]; exact (List.getElem?_eq_some_iff.mp hk).1
    refine ⟨right[r.hIdx t], ?_, List.getElem?_eq_getElem hlt, hk⟩
    show (right.map some).getD (r.hIdx t) none = _
    simp [List.getD_eq_getElem?_getD, List.getElem?_eq_getElem hlt]

theorem mono_le {f : Nat → Nat} {n : Nat} (h : ∀ t t', t < t' → t' < n → f t < f t') :
    ∀ t t', t ≤ t' → t' < n → f t ≤ f t' := by
  intro t t' a b
  rcases Nat.lt_or_eq_of_le a with a | rfl
  · exact (h t t' a b).le
  · exact le_rfl

/-- the candidates of a left row in group `g` are the rows of the matching right group -/
theorem groupRun_cand (hL : L.WF lkeys) (hR : R.WF rkeys) (exact : Bool) (tl : Option α → Option α → Bool)
    (left right : List α) (hll : left.length = lkeys.length) (hrl : right.length = rkeys.length)
    (g h : Nat) (k : K) (hg : L.gbkeys[g]? = some k) (hh : R.gbkeys[h]? = some k)
    (i : Nat) (hi : lkeys[i]? = some (some k)) :
    CandOf (groupRun exact tl L R (left.map some) (right.map some) g h) (sameKey lkeys rkeys right i) := by
  obtain ⟨e1, e2, f1, f2, m1, m2⟩ := groupRun_facts hL hR exact tl left right hll hrl g h k hg hh
  set r := groupRun exact tl L R (left.map some) (right.map some) g h
  refine ⟨fun j y => ?_, fun t ht => ?_, mono_le m2⟩
  · constructor
    · rintro ⟨k', a1, a2, a3⟩
      rw [hi] at a1
      obtain rfl := Option.some.inj (Option.some.inj a1)
      have hm := (key_of_row hR h j k hh).mp a2
      rw [← e2] at hm
      obtain ⟨t, ht, rfl⟩ := List.mem_map.mp hm
      refine ⟨t, List.mem_range.mp ht, rfl, ?_⟩
      obtain ⟨y', b1, b2, _⟩ := f2 t (List.mem_range.mp ht)
      rw [b2] at a3
      rw [b1, Option.some.inj a3]
    · rintro ⟨t, ht, rfl, hy⟩
      obtain ⟨y', b1, b2, b3⟩ := f2 t ht
      rw [b1] at hy
      exact ⟨k, hi, b3, by rw [b2]; exact hy⟩
  · obtain ⟨y, b1, _⟩ := f2 t ht
    exact ⟨y, b1⟩

theorem groupRun_ascF (hL : L.WF lkeys) (hR : R.WF rkeys) (exact : Bool) (tl : Option α → Option α → Bool)
    (left right : List α) (hll : left.length = lkeys.length) (hrl : right.length = rkeys.length)
    (g h : Nat) (k : K) (hg : L.gbkeys[g]? = some k) (hh : R.gbkeys[h]? = some k)
    (sl : SortedInGroups lkeys left) (sr : SortedInGroups rkeys right) :
    let r := groupRun exact tl L R (left.map some) (right.map some) g h
    (∀ t t', t ≤ t' → t' < r.nlen → kle (r.N t) (r.N t') = true) ∧
    (∀ t t', t ≤ t' → t' < r.hlen → kle (r.H t) (r.H t') = true) ∧
    (∀ t, t < r.nlen → ∃ x ∈ left, r.N t = some x) ∧ (∀ t, t < r.hlen → ∃ x ∈ right, r.H t = some x) := by
  intro r
  obtain ⟨e1, e2, f1, f2, m1, m2⟩ := groupRun_facts hL hR exact tl left right hll hrl g h k hg hh
  refine ⟨fun t t' a b => ?_, fun t t' a b => ?_, fun t ht => ?_, fun t ht => ?_⟩
  · obtain ⟨x, x1, x2, x3⟩ := f1 t (lt_of_le_of_lt a b)
    obtain ⟨y, y1, y2, y3⟩ := f1 t' b
    rw [show r.N t = _ from x1, show r.N t' = _ from y1]
    simpa [kle] using sl _ _ k x y (mono_le m1 t t' a b) x3 y3 x2 y2
  · obtain ⟨x, x1, x2, x3⟩ := f2 t (lt_of_le_of_lt a b)
    obtain ⟨y, y1, y2, y3⟩ := f2 t' b
    rw [show r.H t = _ from x1, show r.H t' = _ from y1]
    simpa [kle] using sr _ _ k x y (mono_le m2 t t' a b) x3 y3 x2 y2
  · obtain ⟨x, x1, x2, x3⟩ := f1 t ht
    exact ⟨x, List.mem_of_getElem? x2, x1⟩
  · obtain ⟨x, x1, x2, x3⟩ := f2 t ht
    exact ⟨x, List.mem_of_getElem? x2, x1⟩

/-- Writes of all groups, in any order of the groups: a row of group `g` holds what group
`g` wrote to it; a row of no group is untouched. -/
theorem apply_groups (order : List Nat) (w : Nat → List (Nat × Option Nat)) (ikey : List Nat)
    (n : Nat) (ho : order.Perm (List.range n)) (hw : ∀ g, g < n → ((w g).map Prod.fst).Perm (rowsOf ikey (g + 1)))
    (out : List (Option Nat)) (hout : out.length = ikey.length) :
    (∀ (g p : Nat) (v : Option Nat), g < n → (p, v) ∈ w g → (applyWrites out (order.flatMap w))[p]? = some v) ∧
    (∀ (p : Nat), ikey[p]? = some 0 → (applyWrites out (order.flatMap w))[p]? = out[p]?) := by
  have hmemw : ∀ g, g < n → ∀ p : Nat, p ∈ (w g).map Prod.fst ↔ ikey[p]? = some (g + 1) := by
    intro g hg p
    rw [(hw g hg).mem_iff, mem_rowsOf]
  have hon : ∀ g, g ∈ order → g < n := fun g hg => List.mem_range.mp (ho.mem_iff.mp hg)
  have hnd : ((order.flatMap w).map Prod.fst).Nodup := by
    rw [List.map_flatMap, List.nodup_flatMap]
    refine ⟨fun g hg => (hw g (hon g hg)).nodup_iff.mpr ((rowsOf_sorted ikey (g + 1)).imp fun h => ne_of_lt h), ?_⟩
    have : order.Nodup := ho.nodup_iff.mpr List.nodup_range
    refine List.Pairwise.imp_of_mem (fun {a b} ha hb hne => ?_) this
    intro p h1 h2
    have e1 := (hmemw a (hon a ha) p).mp h1
    have e2 := (hmemw b (hon b hb) p).mp h2
    rw [e1] at e2
    simp at e2
    exact hne e2
  constructor
  · intro g p v hg hm
    refine applyWrites_getElem?_mem _ p v hnd (List.mem_flatMap.mpr ⟨g, ho.mem_iff.mpr (List.mem_range.mpr hg), hm⟩) out ?_
    have := (hmemw g hg p).mp (List.mem_map.mpr ⟨_, hm, rfl⟩)
    rw [hout]
    exact (List.getElem?_eq_some_iff.mp this).1
  · intro p hp
    refine applyWrites_getElem?_notMem _ p (fun h => ?_) out
    rw [List.map_flatMap, List.mem_flatMap] at h
    obtain ⟨g, hg, h⟩ := h
    have := (hmemw g (hon g hg) p).mp h
    rw [hp] at this
    simp at this

/-- the group number of a left row -/
theorem row_cases (hL : L.WF lkeys) (i : Nat) (o : Option K) (h : lkeys[i]? = some o) :
    (o = none ∧ L.ikey[i]? = some 0) ∨
      ∃ g k, o = some k ∧ L.gbkeys[g]? = some k ∧ L.ikey[i]? = some (g + 1) := by
  rw [decode_getElem? hL, Option.map_eq_some_iff] at h
  obtain ⟨c, h1, h2⟩ := h
  by_cases h0 : c = 0
  · left; subst h0; simp at h2; exact ⟨h2.symm, h1⟩
  · right
    rw [if_neg h0] at h2
    have hc := hL.inRange c (List.mem_of_getElem? h1)
    obtain ⟨k, hk⟩ : ∃ k, L.gbkeys[c - 1]? = some k :=
      ⟨L.gbkeys[c - 1]'(by omega), List.getElem?_eq_getElem _⟩
    exact ⟨c - 1, k, by rw [← h2, hk], hk, by rw [h1, show c - 1 + 1 = c by omega]⟩

theorem absent_writes (hL : L.WF lkeys) (g : Nat) (hg : g < L.gbkeys.length) (s : St α) :
    (absentGroup L g s).w = (rowsOf L.ikey (g + 1)).map fun p => (p, none) := by
  unfold absentGroup
  simp only
  rw [ncount_getD L (g + 1) (by omega), igroup_slice L (g + 1) (by omega)]

theorem ismember_none (a b : List K) (g : Nat) (k : K) (hg : a[g]? = some k)
    (h : (ismember a b).getD g none = none) : k ∉ b := by
  unfold ismember at h
  rw [List.getD_eq_getElem?_getD, List.getElem?_map, hg] at h
  simp only [Option.map_some, Option.getD_some, List.findIdx?_eq_none_iff] at h
  intro hk
  have := h k hk
  simp at this

theorem ismember_some (a b : List K) (hb : b.Nodup) (g h : Nat) (k : K) (hg : a[g]? = some k)
    (he : (ismember a b).getD g none = some h) : b[h]? = some k := by
  unfold ismember at he
  rw [List.getD_eq_getElem?_getD, List.getElem?_map, hg] at he
  simp only [Option.map_some, Option.getD_some] at he
  exact (findIdx?_eq_some_nodup hb k h).mp he

/-- One iteration of the grouped backward kernel on input sorted inside the groups. -/
theorem bwdGroup_spec [Sub α] (hL : L.WF lkeys) (hR : R.WF rkeys) (b : Bounds α) (tol : Option α) (exact : Bool)
    (left right : List α) (hll : left.length = lkeys.length) (hrl : right.length = rkeys.length)
    (sl : SortedInGroups lkeys left) (sr : SortedInGroups rkeys right)
    (bl : ∀ x ∈ left, b.loN ≤ x) (br : ∀ y ∈ right, b.loH ≤ y) (g : Nat) (hg : g < L.gbkeys.length) :
    let s := bwdGroup b exact (tolBwd tol) L R (left.map some) (right.map some) (ismember L.gbkeys R.gbkeys) g
    s.clean ∧ (s.w.map Prod.fst).Perm (rowsOf L.ikey (g + 1)) ∧
      ∀ i x, L.ikey[i]? = some (g + 1) → left[i]? = some x →
        ∃ res, (i, res) ∈ s.w ∧ OutcomeB exact tol (sameKey lkeys rkeys right i) x res := by
  intro s
  obtain ⟨k, hk⟩ : ∃ k, L.gbkeys[g]? = some k := ⟨_, List.getElem?_eq_getElem hg⟩
  have hkey : ∀ i, L.ikey[i]? = some (g + 1) → lkeys[i]? = some (some k) := fun i hi =>
    (key_of_row hL g i k hk).mpr ((mem_rowsOf _ _ _).mpr hi)
  cases hm : (ismember L.gbkeys R.gbkeys).getD g none with
  | none =>
    have hs : s = absentGroup L g ⟨0, 0, none, none, [], none, none⟩ := by
      show bwdGroup _ _ _ _ _ _ _ _ _ = _
      unfold bwdGroup; rw [hm]
    rw [hs]
    refine ⟨⟨rfl, rfl⟩, ?_, fun i x hi hx => ⟨none, ?_, Or.inr ⟨?_, rfl⟩⟩⟩
    · rw [absent_writes hL g hg, List.map_map]
      simp [Function.comp_def]
    · rw [absent_writes hL g hg]
      exact List.mem_map.mpr ⟨i, (mem_rowsOf _ _ _).mpr hi, rfl⟩
    · rintro j y ⟨k', h1, h2, h3⟩ _
      rw [hkey i hi] at h1
      obtain rfl := Option.some.inj (Option.some.inj h1)
      rw [decode_getElem? hR, Option.map_eq_some_iff] at h2
      obtain ⟨c, _, h2⟩ := h2
      by_cases h0 : c = 0
      · simp [h0] at h2
      · rw [if_neg h0] at h2
        exact ismember_none _ _ g k hk hm (List.mem_of_getElem? h2)
  | some h =>
    have hs : s = bwdKernel (groupRun exact (tolBwd tol) L R (left.map some) (right.map some) g h) b.loN b.loH := by
      show bwdGroup _ _ _ _ _ _ _ _ _ = _
      unfold bwdGroup; rw [hm]
    have hh := ismember_some _ _ hR.nodup g h k hk hm
    obtain ⟨a1, a2, a3, a4⟩ := groupRun_ascF hL hR exact (tolBwd tol) left right hll hrl g h k hk hh sl sr
    obtain ⟨e1, e2, f1, f2, m1, m2⟩ := groupRun_facts hL hR exact (tolBwd tol) left right hll hrl g h k hk hh
    set r := groupRun exact (tolBwd tol) L R (left.map some) (right.map some) g h with hr
    obtain ⟨c1, c2⟩ := bwdKernel_sorted r b.loN b.loH
      ⟨fun t ht => by obtain ⟨x, hx, e⟩ := a3 t ht; rw [e]; simpa [kle] using bl x hx, a1⟩
      ⟨fun t ht => by obtain ⟨x, hx, e⟩ := a4 t ht; rw [e]; simpa [kle] using br x hx, a2⟩
    rw [hs]
    refine ⟨c1, e1 ▸ c2.1, fun i x hi hx => ?_⟩
    have hmem : i ∈ (List.range r.nlen).map r.nIdx := by rw [e1]; exact (mem_rowsOf _ _ _).mpr hi
    obtain ⟨t, ht, rfl⟩ := List.mem_map.mp hmem
    have ht := List.mem_range.mp ht
    obtain ⟨res, h1, h2⟩ := c2.2 t ht
    obtain ⟨x', x1, x2, x3⟩ := f1 t ht
    rw [x2] at hx
    obtain rfl := Option.some.inj hx
    exact ⟨res, h1, outcomeB_of_best (r := r) rfl
      (groupRun_cand hL hR exact (tolBwd tol) left right hll hrl g h k hk hh _ x3) x1 h2⟩

/-- One iteration of the grouped forward kernel on input sorted inside the groups. -/
theorem fwdGroup_spec [Sub α] (hL : L.WF lkeys) (hR : R.WF rkeys) (b : Bounds α) (tol : Option α) (exact : Bool)
    (left right : List α) (hll : left.length = lkeys.length) (hrl : right.length = rkeys.length)
    (sl : SortedInGroups lkeys left) (sr : SortedInGroups rkeys right)
    (bl : ∀ x ∈ left, x ≤ b.hiN) (br : ∀ y ∈ right, y ≤ b.hiH) (g : Nat) (hg : g < L.gbkeys.length) :
    let s := fwdGroup b exact (tolFwd tol) L R (left.map some) (right.map some) (ismember L.gbkeys R.gbkeys) g
    s.clean ∧ (s.w.map Prod.fst).Perm (rowsOf L.ikey (g + 1)) ∧
      ∀ i x, L.ikey[i]? = some (g + 1) → left[i]? = some x →
        ∃ res, (i, res) ∈ s.w ∧ OutcomeF exact tol (sameKey lkeys rkeys right i) x res := by
  intro s
  obtain ⟨k, hk⟩ : ∃ k, L.gbkeys[g]? = some k := ⟨_, List.getElem?_eq_getElem hg⟩
  have hkey : ∀ i, L.ikey[i]? = some (g + 1) → lkeys[i]? = some (some k) := fun i hi =>
    (key_of_row hL g i k hk).mpr ((mem_rowsOf _ _ _).mpr hi)
  cases hm : (ismember L.gbkeys R.gbkeys).getD g none with
  | none =>
    have hs : s = absentGroup L g ⟨0, 0, none, none, [], none, none⟩ := by
      show fwdGroup _ _ _ _ _ _ _ _ _ = _
      unfold fwdGroup; rw [hm]
    rw [hs]
    refine ⟨⟨rfl, rfl⟩, ?_, fun i x hi hx => ⟨none, ?_, Or.inr ⟨?_, rfl⟩⟩⟩
    · rw [absent_writes hL g hg, List.map_map]
      simp [Function.comp_def]
    · rw [absent_writes hL g hg]
      exact List.mem_map.mpr ⟨i, (mem_rowsOf _ _ _).mpr hi, rfl⟩
    · rintro j y ⟨k', h1, h2, h3⟩ _
      rw [hkey i hi] at h1
      obtain rfl := Option.some.inj (Option.some.inj h1)
      rw [decode_getElem? hR, Option.map_eq_some_iff] at h2
      obtain ⟨c, _, h2⟩ := h2
      by_cases h0 : c = 0
      · simp [h0] at h2
      · rw [if_neg h0] at h2
        exact ismember_none _ _ g k hk hm (List.mem_of_getElem? h2)
  | some h =>
    have hs : s = fwdKernel (groupRun exact (tolFwd tol) L R (left.map some) (right.map some) g h) b.hiN b.hiH := by
      show fwdGroup _ _ _ _ _ _ _ _ _ = _
      unfold fwdGroup; rw [hm]
    have hh := ismember_some _ _ hR.nodup g h k hk hm
    obtain ⟨a1, a2, a3, a4⟩ := groupRun_ascF hL hR exact (tolFwd tol) left right hll hrl g h k hk hh sl sr
    obtain ⟨e1, e2, f1, f2, m1, m2⟩ := groupRun_facts hL hR exact (tolFwd tol) left right hll hrl g h k hk hh
    set r := groupRun exact (tolFwd tol) L R (left.map some) (right.map some) g h with hr
    obtain ⟨c1, w, c2, c3⟩ := fwdKernel_sorted r b.hiN b.hiH
      ⟨fun t ht => by obtain ⟨x, hx, e⟩ := a3 t ht; rw [e]; simpa [kle] using bl x hx, a1⟩
      ⟨fun t ht => by obtain ⟨x, hx, e⟩ := a4 t ht; rw [e]; simpa [kle] using br x hx, a2⟩
    have hhpos : r.hlen ≠ 0 := by
      intro h0
      have := rowsOf_ne_nil hR h (List.getElem?_eq_some_iff.mp hh).1
      rw [← e2, h0] at this
      simp at this
    have c3 : (fwdKernel r b.hiN b.hiH).w = w := c3.resolve_right fun h => hhpos h.1
    rw [hs]
    refine ⟨c1, by rw [c3]; exact e1 ▸ c2.1, fun i x hi hx => ?_⟩
    rw [c3]
    have hmem : i ∈ (List.range r.nlen).map r.nIdx := by rw [e1]; exact (mem_rowsOf _ _ _).mpr hi
    obtain ⟨t, ht, rfl⟩ := List.mem_map.mp hmem
    have ht := List.mem_range.mp ht
    obtain ⟨res, h1, h2⟩ := c2.2 t ht
    obtain ⟨x', x1, x2, x3⟩ := f1 t ht
    rw [x2] at hx
    obtain rfl := Option.some.inj hx
    exact ⟨res, h1, outcomeF_of_best (r := r) rfl
      (groupRun_cand hL hR exact (tolFwd tol) left right hll hrl g h k hk hh _ x3) x1 h2⟩

/-- Assemble the groups: every left row ends up with an outcome for its own key. -/
theorem assemble (hL : L.WF lkeys) (order : List Nat) (ho : order.Perm (List.range L.gbkeys.length))
    (k : Nat → St α) (P : Nat → α → Option Nat → Prop) (left : List α) (hll : left.length = lkeys.length)
    (hk : ∀ g, g < L.gbkeys.length → (k g).clean ∧ ((k g).w.map Prod.fst).Perm (rowsOf L.ikey (g + 1)) ∧
      ∀ i x, L.ikey[i]? = some (g + 1) → left[i]? = some x → ∃ res, (i, res) ∈ (k g).w ∧ P i x res)
    (hnull : ∀ i x, lkeys[i]? = some none → P i x none) :
    (∀ s ∈ order.map k, s.clean) ∧
    ∀ (i : Nat) (x : α), left[i]? = some x →
      ∃ res, (applyWrites (List.replicate L.ikey.length none) ((order.map k).flatMap St.w))[i]? = some res ∧ P i x res := by
  constructor
  · intro s hs
    obtain ⟨g, hg, rfl⟩ := List.mem_map.mp hs
    exact (hk g (List.mem_range.mp (ho.mem_iff.mp hg))).1
  · intro i x hx
    have hil : i < lkeys.length := by rw [← hll]; exact (List.getElem?_eq_some_iff.mp hx).1
    obtain ⟨q1, q2⟩ := apply_groups order (fun g => (k g).w) L.ikey L.gbkeys.length ho
      (fun g hg => (hk g hg).2.1) (List.replicate L.ikey.length none) (by simp)
    have hflat : (order.map k).flatMap St.w = order.flatMap fun g => (k g).w := by
      simp [List.flatMap_map]
    rw [hflat]
    rcases row_cases hL i _ (List.getElem?_eq_getElem hil) with ⟨h1, h2⟩ | ⟨g, kk, h1, h2, h3⟩
    · refine ⟨none, ?_, hnull i x (by rw [List.getElem?_eq_getElem hil, h1])⟩
      rw [q2 i h2]
      have := (List.getElem?_eq_some_iff.mp h2).1
      simp [this]
    · have hg := (List.getElem?_eq_some_iff.mp h2).1
      obtain ⟨res, r1, r2⟩ := (hk g hg).2.2 i x h3 hx
      exact ⟨res, q1 g i res hg r1, r2⟩

theorem any_clean {l : List (St α)} (h : ∀ s ∈ l, s.clean) :
    (l.any fun s => s.hbad.isSome) = false ∧ (l.any fun s => s.nbad.isSome) = false := by
  constructor
  · rw [List.any_eq_false]; intro s hs; simp [(h s hs).2]
  · rw [List.any_eq_false]; intro s hs; simp [(h s hs).1]

theorem sameKey_fun (i : Nat) (right : List α) (j : Nat) (y y' : α)
    (h : sameKey lkeys rkeys right i j y) (h' : sameKey lkeys rkeys right i j y') : y = y' := by
  obtain ⟨_, _, _, a⟩ := h
  obtain ⟨_, _, _, b⟩ := h'
  rw [a] at b
  exact Option.some.inj b

/-- C07, backward.  Each left row gets the last right row with the same `by` key at or before
it (within tolerance); a left row whose key is null or absent on the right gets none.
Only sortedness inside each key is needed, and the order in which the groups are
processed does not matter. -/
theorem asof_grouped_backward_correct [Sub α] (hL : L.WF lkeys) (hR : R.WF rkeys) (b : Bounds α)
    (tol : Option α) (exact : Bool) (left right : List α)
    (hll : left.length = lkeys.length) (hrl : right.length = rkeys.length)
    (sl : SortedInGroups lkeys left) (sr : SortedInGroups rkeys right)
    (bl : ∀ x ∈ left, b.loN ≤ x) (br : ∀ y ∈ right, b.loH ≤ y)
    (order : List Nat) (ho : order.Perm (List.range L.gbkeys.length)) :
    ∃ out, asofGrouped order b tol exact .backward L R (left.map some) (right.map some) = .ok out ∧
      out.length = left.length ∧
      ∀ (i : Nat) (x : α), left[i]? = some x →
        ∃ r, out[i]? = some r ∧ IsBackward exact tol (sameKey lkeys rkeys right i) x r := by
  obtain ⟨a1, a2⟩ := assemble hL order ho _ (fun i x r => OutcomeB exact tol (sameKey lkeys rkeys right i) x r) left hll
    (bwdGroup_spec hL hR b tol exact left right hll hrl sl sr bl br)
    (fun i x h => Or.inr ⟨by rintro j y ⟨k, h1, _⟩ _; rw [h] at h1; simp at h1, rfl⟩)
  obtain ⟨b1, b2⟩ := any_clean a1
  refine ⟨applyWrites (List.replicate L.ikey.length none) ((order.map (bwdGroup b exact (tolBwd tol) L R (left.map some)
    (right.map some) (ismember L.gbkeys R.gbkeys))).flatMap St.w), ?_, by simp [WF.length hL, hll], ?_⟩
  · simp only [asofGrouped]
    rw [b1, b2]
    rfl
  · intro i x hx
    obtain ⟨r, e1, e2⟩ := a2 i x hx
    exact ⟨r, e1, e2.isBackward (sameKey_fun i right)⟩

/-- C07, forward. -/
theorem asof_grouped_forward_correct [Sub α] (hL : L.WF lkeys) (hR : R.WF rkeys) (b : Bounds α)
    (tol : Option α) (exact : Bool) (left right : List α)
    (hll : left.length = lkeys.length) (hrl : right.length = rkeys.length)
    (sl : SortedInGroups lkeys left) (sr : SortedInGroups rkeys right)
    (bl : ∀ x ∈ left, x ≤ b.hiN) (br : ∀ y ∈ right, y ≤ b.hiH)
    (order : List Nat) (ho : order.Perm (List.range L.gbkeys.length)) :
    ∃ out, asofGrouped order b tol exact .forward L R (left.map some) (right.map some) = .ok out ∧
      out.length = left.length ∧
      ∀ (i : Nat) (x : α), left[i]? = some x →
        ∃ r, out[i]? = some r ∧ IsForward exact tol (sameKey lkeys rkeys right i) x r := by
  obtain ⟨a1, a2⟩ := assemble hL order ho _ (fun i x r => OutcomeF exact tol (sameKey lkeys rkeys right i) x r) left hll
    (fwdGroup_spec hL hR b tol exact left right hll hrl sl sr bl br)
    (fun i x h => Or.inr ⟨by rintro j y ⟨k, h1, _⟩ _; rw [h] at h1; simp at h1, rfl⟩)
  obtain ⟨b1, b2⟩ := any_clean a1
  refine ⟨applyWrites (List.replicate L.ikey.length none) ((order.map (fwdGroup b exact (tolFwd tol) L R (left.map some)
    (right.map some) (ismember L.gbkeys R.gbkeys))).flatMap St.w), ?_, by simp [WF.length hL, hll], ?_⟩
  · simp only [asofGrouped]
    rw [b1, b2]
    rfl
  · intro i x hx
    obtain ⟨r, e1, e2⟩ := a2 i x hx
    exact ⟨r, e1, e2.isForward (sameKey_fun i right)⟩

end

section
variable {α : Type} [AddCommGroup α] [LinearOrder α] [IsOrderedAddMonoid α] {K : Type} [DecidableEq K]
  {lkeys rkeys : List (Option K)} {L R : Grouping K}

/-- C07/C08, nearest with a `by` key. -/
theorem asof_grouped_nearest_correct (hL : L.WF lkeys) (hR : R.WF rkeys) (b : Bounds α)
    (tol : Option α) (exact : Bool) (left right : List α)
    (hll : left.length = lkeys.length) (hrl : right.length = rkeys.length)
    (sl : SortedInGroups lkeys left) (sr : SortedInGroups rkeys right)
    (bl : ∀ x ∈ left, b.loN ≤ x ∧ x ≤ b.hiN) (br : ∀ y ∈ right, b.loH ≤ y ∧ y ≤ b.hiH)
    (order : List Nat) (ho : order.Perm (List.range L.gbkeys.length)) :
    ∃ out, asofGrouped order b tol exact .nearest L R (left.map some) (right.map some) = .ok out ∧
      out.length = left.length ∧
      ∀ (i : Nat) (x : α), left[i]? = some x →
        ∃ r, out[i]? = some r ∧ IsNearest exact tol (sameKey lkeys rkeys right i) x r := by
  obtain ⟨a1, a2⟩ := assemble hL order ho _ (fun i x r => OutcomeB exact tol (sameKey lkeys rkeys right i) x r) left hll
    (bwdGroup_spec hL hR b tol exact left right hll hrl sl sr (fun x h => (bl x h).1) (fun x h => (br x h).1))
    (fun i x h => Or.inr ⟨by rintro j y ⟨k, h1, _⟩ _; rw [h] at h1; simp at h1, rfl⟩)
  obtain ⟨c1, c2⟩ := assemble hL order ho _ (fun i x r => OutcomeF exact tol (sameKey lkeys rkeys right i) x r) left hll
    (fwdGroup_spec hL hR b tol exact left right hll hrl sl sr (fun x h => (bl x h).2) (fun x h => (br x h).2))
    (fun i x h => Or.inr ⟨by rintro j y ⟨k, h1, _⟩ _; rw [h] at h1; simp at h1, rfl⟩)
  obtain ⟨b1, b2⟩ := any_clean a1
  obtain ⟨d1, d2⟩ := any_clean c1
  simp only [asofGrouped]
  rw [b1, b2, d1, d2]
  refine ⟨_, rfl, by simp [combine], fun i x hx => ?_⟩
  obtain ⟨rb, e1, e2⟩ := a2 i x hx
  obtain ⟨rf, e3, e4⟩ := c2 i x hx
  refine ⟨_, combine_getElem? left right _ _ 0 i x hx rb rf e1 e3 ?_ ?_, ?_⟩
  · intro j hj
    obtain ⟨y, _, _, _, hy⟩ := e2.cand j hj
    exact (List.getElem?_eq_some_iff.mp hy).1
  · intro j hj
    obtain ⟨y, _, _, _, hy⟩ := e4.cand j hj
    exact (List.getElem?_eq_some_iff.mp hy).1
  · refine pick_nearest exact tol _ x _ ?_ ?_ rb rf e2 e4
    · rintro j y ⟨_, _, _, hy⟩
      simp [List.getD_eq_getElem?_getD, hy]
    · rintro j y j' y' ⟨k, h1, h2, h3⟩ ⟨k', h1', h2', h3'⟩ hle
      rw [h1] at h1'
      obtain rfl := Option.some.inj (Option.some.inj h1')
      exact sr j j' k y y' hle h2 h2' h3 h3'

end

example : asofGrouped [1, 0, 2] ⟨-100, -100, 100, 100⟩ (none : Option Int) true .backward
    (Grouping.ofKeys [some 'b', some 'a', some 'b', some 'c'])
    (Grouping.ofKeys [some 'a', some 'b', none, some 'b', some 'a'])
    ([5, 6, 7, 8].map some) ([1, 2, 3, 6, 7].map some) = .ok [some 1, some 0, some 3, none] := by decide

end Verif.Asof
