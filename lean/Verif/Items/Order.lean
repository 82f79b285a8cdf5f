import Verif.Items.Spec
import Verif.Items.Dict
import Mathlib.Data.List.Perm.Basic
import Mathlib.Data.List.Induction

/-! # Renaming and reordering: explicit form of the results -/
namespace Verif.Items
open Dict

section
variable {V : Type} {c : Container V}

theorem rebuild_aux (f : Name → Name) : ∀ (c acc : Container V), (acc.keys ++ c.map fun e => f e.1).Nodup →
    c.foldl (fun acc e => acc.set (f e.1) e.2) acc = acc ++ c.map fun e => (f e.1, e.2) := by
  intro c
  induction c with
  | nil => intro acc _; simp
  | cons e c ih =>
    intro acc h
    rw [List.map_cons, List.nodup_append] at h
    obtain ⟨h1, h2, h3⟩ := h
    have hk : f e.1 ∉ acc.keys := fun hm => h3 _ hm _ (by simp) rfl
    rw [List.foldl_cons, set_of_notMem hk, ih]
    · simp
    · rw [List.nodup_cons] at h2
      simp only [keys, List.map_append, List.map_cons, List.map_nil]
      rw [List.append_assoc, List.nodup_append]
      refine ⟨h1, ?_, fun a ha b hb => h3 a ha b (by simpa using hb)⟩
      simpa using h2

/-- rebuilding under distinct new names only changes the names -/
theorem rebuild_eq (f : Name → Name) (c : Container V) (h : (c.keys.map f).Nodup) :
    rebuild f c = c.map fun e => (f e.1, e.2) := by
  unfold rebuild
  rw [rebuild_aux f c [] (by simpa [keys, List.map_map, Function.comp_def] using h)]
  rfl

/-- a column of the container, if there is one -/
def entry (c : Container V) (k : Name) : Option (Name × Item V) := (c.get k).map (k, ·)

theorem entry_some {k : Name} {e : Name × Item V} (h : entry c k = some e) : e.1 = k ∧ c.get k = some e.2 := by
  unfold entry at h
  obtain ⟨it, h1, h2⟩ := Option.map_eq_some_iff.mp h
  subst h2
  exact ⟨rfl, h1⟩

theorem entry_none {k : Name} : entry c k = none ↔ k ∉ c.keys := by
  unfold entry
  rw [Option.map_eq_none_iff, get_eq_none_iff]

theorem keys_filterMap_entry (c : Container V) (l : List Name) :
    keys (l.filterMap (entry c)) = l.filter fun k => k ∈ c.keys := by
  induction l with
  | nil => rfl
  | cons k l ih =>
    rw [List.filterMap_cons, List.filter_cons]
    cases h : entry c k with
    | none => rw [entry_none] at h; simpa [h] using ih
    | some e =>
      have hk : k ∈ c.keys := by
        by_contra hc
        rw [← entry_none, h] at hc
        simp at hc
      rw [if_pos (by simpa using hk), ← ih]
      simp [keys, (entry_some h).1]

theorem set_same {d : Container V} {k : Name} {it : Item V} (hm : k ∈ d.keys)
    (h : ∀ e ∈ d, e.1 = k → e.2 = it) : d.set k it = d := by
  rw [set_of_mem hm]
  refine (List.map_congr_left (g := id) ?_).trans (List.map_id d)
  intro e he
  show _ = e
  split
  · rename_i hk
    rw [← hk, ← h e he hk]
  · rfl

theorem front_fold (c : Container V) (l : List Name) :
    l.foldl (frontBody c) [] =
      l.reverse.dedup.reverse.filterMap (entry c) := by
  induction l using List.reverseRecOn with
  | nil => rfl
  | append_singleton l k ih =>
    rw [List.foldl_append, List.foldl_cons, List.foldl_nil, ih, List.reverse_append, List.reverse_singleton,
      List.singleton_append]
    unfold frontBody
    by_cases hk : k ∈ l.reverse
    · rw [List.dedup_cons_of_mem hk]
      cases hg : c.get k with
      | none => rfl
      | some it =>
        refine set_same ?_ ?_
        · rw [keys_filterMap_entry]
          refine List.mem_filter.mpr ⟨by simpa using hk, ?_⟩
          simp only [decide_eq_true_eq]
          by_contra hc
          rw [← get_eq_none_iff, hg] at hc
          simp at hc
        · intro e he hek
          obtain ⟨k', _, h2⟩ := List.mem_filterMap.mp he
          obtain ⟨a, b⟩ := entry_some h2
          rw [← a, hek, hg] at b
          exact (Option.some.inj b).symm
    · rw [List.dedup_cons_of_notMem hk, List.reverse_cons, List.filterMap_append]
      cases hg : c.get k with
      | none => simp [entry, hg]
      | some it =>
        dsimp only
        rw [set_of_notMem]
        · simp [entry, hg]
        · rw [keys_filterMap_entry]
          simp only [List.mem_filter, List.mem_reverse, List.mem_dedup, not_and]
          intro h
          exact absurd (by simpa using h) hk

theorem rest_fold : ∀ (c acc : Container V), c.keys.Nodup →
    c.foldl (fun acc e => if acc.has e.1 then acc else acc.set e.1 e.2) acc =
      acc ++ c.filter fun e => e.1 ∉ acc.keys := by
  intro c
  induction c with
  | nil => intro acc _; simp
  | cons e c ih =>
    intro acc h
    simp only [keys, List.map_cons, List.nodup_cons] at h
    rw [List.foldl_cons, List.filter_cons]
    by_cases he : e.1 ∈ acc.keys
    · rw [if_pos ((has_iff _ _).mpr he), ih acc h.2]
      simp [he]
    · rw [if_neg (by rw [has_iff]; exact he), ih _ h.2, set_of_notMem he]
      simp only [he, not_false_eq_true, decide_true, if_true]
      rw [List.append_assoc, List.singleton_append]
      congr 2
      apply List.filter_congr
      intro x hx
      have : x.1 ≠ e.1 := fun hxe => h.1 (hxe ▸ List.mem_map.mpr ⟨x, hx, rfl⟩)
      refine decide_eq_decide.mpr (not_congr ?_)
      rw [show keys (acc ++ [(e.1, e.2)]) = acc.keys ++ [e.1] by simp [keys]]
      simp [this]

/-- result of `item_move_to_front` -/
theorem moveToFront_eq (hn : c.keys.Nodup) (l : List Name) (hl : l.length ≤ c.length) :
    itemMoveToFront c l = .ok (l.reverse.dedup.reverse.filterMap (entry c) ++ c.filter fun e => e.1 ∉ l) := by
  unfold itemMoveToFront getMoveCols
  rw [if_neg (by omega)]
  dsimp only
  rw [front_fold, rest_fold _ _ hn]
  congr 2
  apply List.filter_congr
  intro e he
  rw [keys_filterMap_entry]
  have : e.1 ∈ c.keys := List.mem_map.mpr ⟨e, he, rfl⟩
  simp [this]

theorem dedup_append_singleton (l : List Name) (k : Name) : (l ++ [k]).dedup = l.dedup.filter (· ≠ k) ++ [k] := by
  induction l with
  | nil => simp
  | cons x l ih =>
    rw [List.cons_append]
    by_cases hx : x ∈ l
    · rw [List.dedup_cons_of_mem (by simp [hx]), List.dedup_cons_of_mem hx, ih]
    · rw [List.dedup_cons_of_notMem hx, List.filter_cons]
      by_cases hk : x = k
      · subst hk
        rw [List.dedup_cons_of_mem (by simp), ih]
        simp
      · rw [List.dedup_cons_of_notMem (by simp [hx, hk]), ih]
        simp [hk]

theorem filter_eq_of_keys {p : Name → Bool} (c : Container V) (l : List Name) :
    (l.filterMap (entry c)).filter (fun e => p e.1) = (l.filter p).filterMap (entry c) := by
  induction l with
  | nil => rfl
  | cons k l ih =>
    rw [List.filterMap_cons, List.filter_cons]
    cases h : entry c k with
    | none =>
      dsimp only
      split
      · rw [List.filterMap_cons, h]; exact ih
      · exact ih
    | some e =>
      dsimp only
      rw [List.filter_cons, (entry_some h).1]
      split
      · rw [List.filterMap_cons, h, ih]
      · exact ih

theorem back_fold (hn : c.keys.Nodup) (l : List Name) :
    l.foldl backBody c =
      (c.filter fun e => e.1 ∉ l) ++ l.dedup.filterMap (entry c) := by
  induction l using List.reverseRecOn with
  | nil => simp
  | append_singleton l k ih =>
    rw [List.foldl_append, List.foldl_cons, List.foldl_nil, ih]
    unfold backBody
    have hkeys : ∀ k', k' ∈ keys ((c.filter fun e => e.1 ∉ l) ++ l.dedup.filterMap (entry c)) ↔ k' ∈ c.keys := by
      intro k'
      rw [show keys ((c.filter fun e => e.1 ∉ l) ++ l.dedup.filterMap (entry c)) =
        keys (c.filter fun e => e.1 ∉ l) ++ keys (l.dedup.filterMap (entry c)) by simp [keys]]
      rw [List.mem_append, keys_filterMap_entry]
      simp only [keys, List.mem_map, List.mem_filter, List.mem_dedup, decide_eq_true_eq]
      constructor
      · rintro (⟨e, ⟨a, _⟩, b⟩ | ⟨_, b⟩)
        · exact ⟨e, a, b⟩
        · exact b
      · rintro ⟨e, a, b⟩
        by_cases hl : k' ∈ l
        · exact Or.inr ⟨hl, e, a, b⟩
        · exact Or.inl ⟨e, ⟨a, by rw [b]; exact hl⟩, b⟩
    have hent : ∀ e ∈ (c.filter fun e => e.1 ∉ l) ++ l.dedup.filterMap (entry c), e ∈ c := by
      intro e he
      rcases List.mem_append.mp he with h | h
      · exact (List.mem_filter.mp h).1
      · obtain ⟨k', _, h2⟩ := List.mem_filterMap.mp h
        obtain ⟨a, b⟩ := entry_some h2
        have := mem_of_get b
        rw [← a] at this
        exact this
    by_cases hk : k ∈ c.keys
    · obtain ⟨it, hit⟩ : ∃ it, get ((c.filter fun e => e.1 ∉ l) ++ l.dedup.filterMap (entry c)) k = some it := by
        rw [← Option.ne_none_iff_exists']
        rw [Ne, get_eq_none_iff, hkeys]
        exact fun h => h hk
      have hc : c.get k = some it := get_of_mem hn (hent _ (mem_of_get hit))
      rw [hit]
      dsimp only
      rw [set_of_notMem (by rw [keys_del]; simp), dedup_append_singleton, List.filterMap_append]
      rw [show List.filterMap (entry c) [k] = [(k, it)] by simp [entry, hc], ← List.append_assoc]
      congr 1
      unfold del
      rw [List.filter_append, List.filter_filter]
      congr 1
      · apply List.filter_congr
        intro e _
        simp [and_comm, not_or]
      · exact filter_eq_of_keys (p := fun k' => decide (k' ≠ k)) c l.dedup
    · rw [(get_eq_none_iff _ k).mpr (by rw [hkeys]; exact hk)]
      dsimp only
      rw [dedup_append_singleton, List.filterMap_append]
      rw [show List.filterMap (entry c) [k] = [] by simp [entry_none.mpr hk], List.append_nil]
      congr 1
      · apply List.filter_congr
        intro e he
        have : e.1 ≠ k := fun h => hk (h ▸ List.mem_map.mpr ⟨e, he, rfl⟩)
        simp [this]
      · rw [← filter_eq_of_keys (p := fun k' => decide (k' ≠ k))]
        symm
        rw [List.filter_eq_self]
        intro e he
        have := hent e (List.mem_append.mpr (Or.inr he))
        simp only [decide_eq_true_eq]
        intro h
        exact hk (h ▸ List.mem_map.mpr ⟨e, this, rfl⟩)

/-- result of `item_move_to_back` -/
theorem moveToBack_eq (hn : c.keys.Nodup) (l : List Name) (hl : l.length ≤ c.length) :
    itemMoveToBack c l = .ok ((c.filter fun e => e.1 ∉ l) ++ l.dedup.filterMap (entry c)) := by
  unfold itemMoveToBack getMoveCols
  rw [if_neg (by omega)]
  dsimp only
  rw [back_fold hn]

theorem entries_perm (hn : c.keys.Nodup) (l : List Name) (hl : l.Nodup) :
    (l.filterMap (entry c)).Perm (c.filter fun e => e.1 ∈ l) := by
  have hcn : c.Nodup := List.Nodup.of_map _ hn
  refine (List.perm_ext_iff_of_nodup ?_ (hcn.filter _)).mpr ?_
  · apply List.Nodup.of_map Prod.fst
    have := keys_filterMap_entry c l
    unfold keys at this
    rw [this]
    exact hl.filter _
  · intro e
    rw [List.mem_filterMap, List.mem_filter]
    constructor
    · rintro ⟨k, h1, h2⟩
      obtain ⟨a, b⟩ := entry_some h2
      have := mem_of_get b
      rw [← a] at this
      exact ⟨this, by simpa [a] using h1⟩
    · rintro ⟨h1, h2⟩
      refine ⟨e.1, by simpa using h2, ?_⟩
      unfold entry
      rw [get_of_mem hn (k := e.1) (v := e.2) h1]
      rfl

theorem moveToFront_perm (hn : c.keys.Nodup) (l : List Name) :
    (l.reverse.dedup.reverse.filterMap (entry c) ++ c.filter fun e => e.1 ∉ l).Perm c := by
  have h := entries_perm hn l.reverse.dedup.reverse (List.nodup_reverse.mpr (List.nodup_dedup _))
  refine (h.append_right _).trans ?_
  have : (c.filter fun e => decide (e.1 ∈ l.reverse.dedup.reverse)) = c.filter fun e => decide (e.1 ∈ l) := by
    apply List.filter_congr; intro e _; simp
  rw [this]
  have := List.filter_append_perm (fun e : Name × Item V => decide (e.1 ∈ l)) c
  simpa using this

theorem moveToBack_perm (hn : c.keys.Nodup) (l : List Name) :
    ((c.filter fun e => e.1 ∉ l) ++ l.dedup.filterMap (entry c)).Perm c := by
  have h := entries_perm hn l.dedup (List.nodup_dedup _)
  refine (h.append_left _).trans ?_
  have : (c.filter fun e => decide (e.1 ∈ l.dedup)) = c.filter fun e => decide (e.1 ∈ l) := by
    apply List.filter_congr; intro e _; simp
  rw [this]
  refine List.perm_append_comm.trans ?_
  have := List.filter_append_perm (fun e : Name × Item V => decide (e.1 ∈ l)) c
  simpa using this

end
end Verif.Items
