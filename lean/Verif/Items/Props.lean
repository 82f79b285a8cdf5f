import Verif.Items.Refine

/-!
# C11, C12, C13, C16: columns and labels

`Ok h c` says that the container is one that histories of public operations produce
(`reachable_ok`).  `observe` (in `Spec`) is everything that can be read back.
-/
namespace Verif.Items
open Dict

section
variable {V : Type} {h : Heap} {c : Container V}

/-! ## Histories -/

/-- Any history of legal operations, raising or not, from any container that earlier
operations produced, gives exactly the columns, attributes and labels that the
abstract operations give (C11, C12, C13, C16). -/
theorem history_refines (ok : Ok h c) (ops : List (Op V)) (hl : (observe h c).LegalRun ops) :
    Ok (ops.foldl exec (h, c)).1 (ops.foldl exec (h, c)).2 ∧
      observe (ops.foldl exec (h, c)).1 (ops.foldl exec (h, c)).2 = (observe h c).run ops := by
  induction ops generalizing h c with
  | nil => exact ⟨ok, rfl⟩
  | cons op ops ih =>
    obtain ⟨hl1, hl2⟩ := hl
    obtain ⟨h1, h2⟩ := exec_refines ok op hl1
    rw [← h2] at hl2
    have := ih h1 hl2
    rw [h2] at this
    exact this

/-- the container after some history of legal operations on a new container -/
def Reachable (h : Heap) (c : Container V) : Prop :=
  ∃ (h0 : Heap) (ops : List (Op V)), (observe h0 ([] : Container V)).LegalRun ops ∧
    ops.foldl exec (h0, ([] : Container V)) = (h, c)

theorem reachable_ok (r : Reachable h c) : Ok h c := by
  obtain ⟨h0, ops, hl, e⟩ := r
  have := (history_refines (ok_empty h0) ops hl).1
  rw [e] at this
  exact this

/-- An operation raises exactly when the abstract one does: rename of a missing column
or onto an existing one, deleting or setting attributes of a missing column, moving
more names than there are columns, replacing into an existing name. -/
theorem raises_iff (r : Reachable h c) (op : Op V) (hl : (observe h c).Legal op) :
    (∃ e, step (h, c) op = .error e) ↔ (observe h c).step op = none := by
  have := step_refines (reachable_ok r) op hl
  cases h1 : step (h, c) op <;> cases h2 : (observe h c).step op <;>
    simp_all [Agrees]

/-! ## C11 -/

/-- C11: a successful rename keeps the order of columns, every value and every
attribute object; only that name changes, also in the label and summary lists. -/
theorem col_rename_correct (r : Reachable h c) {old new : Name} (ho : old ∈ c.keys) (hne : old ≠ new)
    (hnew : new ∉ c.keys) :
    ∃ c', itemRename c old new = .ok c' ∧
      c' = c.map (fun e => (if e.1 = old then new else e.1, e.2)) ∧
      (∀ k, c'.get k = if k = new then c.get old else if k = old then none else c.get k) ∧
      (∀ k a, k ≠ new → k ≠ old → itemGetAttribute h c' k a = itemGetAttribute h c k a) ∧
      (∀ a, itemGetAttribute h c' new a = itemGetAttribute h c old a) ∧
      ∀ t, isTag t = true → taggedGetNames h c' t =
        (taggedGetNames h c t).map fun k => if k = old then new else k := by
  have ok := reachable_ok r
  have hnd : (c.keys.map fun k => if k = old then new else k).Nodup := by
    refine List.Nodup.map_on ?_ ok.nodup
    intro x hx y hy hxy
    by_cases hxo : x = old <;> by_cases hyo : y = old
    · rw [hxo, hyo]
    · rw [if_pos hxo, if_neg hyo] at hxy; exact absurd (hxy ▸ hy) hnew
    · rw [if_neg hxo, if_pos hyo] at hxy; exact absurd (hxy ▸ hx) hnew
    · rwa [if_neg hxo, if_neg hyo] at hxy
  have he : itemRename c old new = .ok (c.map fun e => (if e.1 = old then new else e.1, e.2)) := by
    unfold itemRename
    rw [if_neg hne, (has_iff c old).mpr ho, (has_false_iff c new).mpr hnew]
    simp only [Bool.not_true, Bool.false_eq_true, if_false]
    rw [rebuild_eq _ c hnd]
  have hg : ∀ k, get (c.map fun e => (if e.1 = old then new else e.1, e.2)) k =
      if k = new then c.get old else if k = old then none else c.get k := by
    intro k
    by_cases h1 : k = new
    · rw [if_pos h1]
      have := get_map_names hnd ho
      simp only [if_true] at this
      rw [h1]; exact this
    · rw [if_neg h1]
      by_cases h2 : k = old
      · rw [if_pos h2]
        apply get_map_names_none (f := fun k => if k = old then new else k)
        rw [List.mem_map]
        rintro ⟨j, hj, hjk⟩
        by_cases h3 : j = old
        · rw [if_pos h3] at hjk; exact h1 hjk.symm
        · rw [if_neg h3] at hjk; exact h3 (hjk.trans h2)
      · rw [if_neg h2]
        by_cases h3 : k ∈ c.keys
        · have := get_map_names hnd h3
          simp only [if_neg h2] at this
          exact this
        · rw [(get_eq_none_iff c k).mpr h3]
          apply get_map_names_none (f := fun k => if k = old then new else k)
          rw [List.mem_map]
          rintro ⟨j, hj, hjk⟩
          by_cases h4 : j = old
          · rw [if_pos h4] at hjk; exact h1 hjk.symm
          · rw [if_neg h4] at hjk; exact h3 (hjk ▸ hj)
  refine ⟨_, he, rfl, hg, ?_, ?_, ?_⟩
  · intro k a h1 h2
    unfold itemGetAttribute
    rw [hg, if_neg h1, if_neg h2]
  · intro a
    unfold itemGetAttribute
    rw [hg, if_pos rfl]
  · intro t ht
    have := congrArg (fun o => o.tagged t) (mapNames_ok ok hnd).2
    simp only [observe_tagged, ht, if_true, Abs.mapNames] at this
    exact this

/-- C11: otherwise it raises (or, for equal names, does nothing). -/
theorem col_rename_rejects {old new : Name} (hne : old ≠ new) (hbad : old ∉ c.keys ∨ new ∈ c.keys) :
    ∃ e, itemRename c old new = .error e := by
  unfold itemRename
  rw [if_neg hne]
  by_cases h1 : old ∈ c.keys
  · rw [(has_iff c old).mpr h1]
    have h2 : new ∈ c.keys := by tauto
    rw [(has_iff c new).mpr h2]
    simp
  · rw [(has_false_iff c old).mpr h1]
    simp

/-- C11: renaming back restores the container exactly. -/
theorem col_rename_round_trip (r : Reachable h c) {old new : Name} (ho : old ∈ c.keys) (hne : old ≠ new)
    (hnew : new ∉ c.keys) :
    (itemRename c old new).bind (fun c' => itemRename c' new old) = .ok c := by
  obtain ⟨c', h1, h2, h3, _⟩ := col_rename_correct r ho hne hnew
  have ok := reachable_ok r
  have hb : ∀ k ∈ c.keys, (if (if k = old then new else k) = new then old else if k = old then new else k) = k := by
    intro k hk
    by_cases hko : k = old
    · simp [hko]
    · simp only [hko, if_false]
      rw [if_neg]
      rintro rfl
      exact hnew hk
  have hkeys : c'.keys = c.keys.map fun k => if k = old then new else k := by
    rw [h2]; simp [keys, Function.comp_def]
  have ho' : old ∉ c'.keys := by
    rw [← get_eq_none_iff, h3, if_neg hne, if_pos rfl]
  have hn' : new ∈ c'.keys := by
    rw [hkeys, List.mem_map]; exact ⟨old, ho, by simp⟩
  rw [h1]
  show itemRename c' new old = _
  unfold itemRename
  rw [if_neg hne.symm, (has_iff c' new).mpr hn', (has_false_iff c' old).mpr ho']
  simp only [Bool.not_true, Bool.false_eq_true, if_false]
  rw [rebuild_eq, h2]
  · rw [List.map_map]
    congr 1
    refine (List.map_congr_left (g := id) ?_).trans (List.map_id c)
    intro e he
    show _ = e
    simp only [Function.comp]
    rw [hb e.1 (List.mem_map.mpr ⟨e, he, rfl⟩)]
  · rw [hkeys, List.map_map]
    have : (c.keys.map ((fun k => if k = new then old else k) ∘ fun k => if k = old then new else k)) = c.keys := by
      refine (List.map_congr_left (g := id) ?_).trans (List.map_id _)
      intro k hk
      exact hb k hk
    rw [this]
    exact ok.nodup

/-! ## C12 -/

/-- C12: moving to the front permutes the columns: first the listed existing ones in
listed order (first mention counts), then the others in their old order. -/
theorem move_to_front_correct (r : Reachable h c) (l : List Name) (hl : l.length ≤ c.length) :
    ∃ c', itemMoveToFront c l = .ok c' ∧ c'.Perm c ∧
      c'.keys = (l.reverse.dedup.reverse.filter (· ∈ c.keys)) ++ c.keys.filter (· ∉ l) ∧
      ∀ t, taggedGetNames h c' t = taggedGetNames h c t ∨ isTag t = false := by
  have ok := reachable_ok r
  refine ⟨_, moveToFront_eq ok.nodup l hl, moveToFront_perm ok.nodup l, ?_, ?_⟩
  · have : ∀ a b : Container V, keys (a ++ b) = a.keys ++ b.keys := by intro a b; simp [keys]
    rw [this, keys_filterMap_entry]
    congr 1
    simp only [keys, List.filter_map, Function.comp_def]
  · intro t
    by_cases ht : isTag t = true
    · left
      have := (perm_ok (h := h) ok (moveToFront_perm ok.nodup l).symm).2.2 t
      simpa only [observe_tagged, ht, if_true] using this
    · right; simpa using ht

/-- C12: moving to the back likewise, the last mention counting. -/
theorem move_to_back_correct (r : Reachable h c) (l : List Name) (hl : l.length ≤ c.length) :
    ∃ c', itemMoveToBack c l = .ok c' ∧ c'.Perm c ∧
      c'.keys = c.keys.filter (· ∉ l) ++ (l.dedup.filter (· ∈ c.keys)) ∧
      ∀ t, taggedGetNames h c' t = taggedGetNames h c t ∨ isTag t = false := by
  have ok := reachable_ok r
  refine ⟨_, moveToBack_eq ok.nodup l hl, moveToBack_perm ok.nodup l, ?_, ?_⟩
  · have : ∀ a b : Container V, keys (a ++ b) = a.keys ++ b.keys := by intro a b; simp [keys]
    rw [this, keys_filterMap_entry]
    congr 1
    simp only [keys, List.filter_map, Function.comp_def]
  · intro t
    by_cases ht : isTag t = true
    · left
      have := (perm_ok (h := h) ok (moveToBack_perm ok.nodup l).symm).2.2 t
      simpa only [observe_tagged, ht, if_true] using this
    · right; simpa using ht

/-! ## C13 -/

/-- C13: a prefix is put before every name; order, values, attributes and label order
are kept. -/
theorem add_prefix_correct (r : Reachable h c) (p : Name) :
    itemAddPrefix c p = c.map (fun e => (p ++ e.1, e.2)) ∧
      observe h (itemAddPrefix c p) = (observe h c).mapNames (p ++ ·) := by
  have ok := reachable_ok r
  have hnd : (c.keys.map (p ++ ·)).Nodup := ok.nodup.map fun a b e => List.append_cancel_left e
  unfold itemAddPrefix
  rw [rebuild_eq _ c hnd]
  exact ⟨rfl, (mapNames_ok ok hnd).2⟩

/-- C13: a suffix likewise. -/
theorem add_suffix_correct (r : Reachable h c) (p : Name) :
    itemAddSuffix c p = c.map (fun e => (e.1 ++ p, e.2)) ∧
      observe h (itemAddSuffix c p) = (observe h c).mapNames (· ++ p) := by
  have ok := reachable_ok r
  have hnd : (c.keys.map (· ++ p)).Nodup := ok.nodup.map fun a b e => List.append_cancel_right e
  unfold itemAddSuffix
  rw [rebuild_eq _ c hnd]
  exact ⟨rfl, (mapNames_ok ok hnd).2⟩

/-- C13 for `col_str_replace`, full claim: it raises or keeps every column.  Missing
for two columns that become equal to each other but to no existing name, see
`str_replace_counterexample`. -/
theorem str_replace_partial (r : Reachable h c) (old new : Name)
    (hinj : (c.keys.map (pyReplace old new)).Nodup) :
    (∃ e, itemStrReplace c (pyReplace old new) = .error e) ∨
      itemStrReplace c (pyReplace old new) = .ok (c.map fun e => (pyReplace old new e.1, e.2)) := by
  have ok := reachable_ok r
  unfold itemStrReplace
  split
  · exact .inl ⟨_, rfl⟩
  · right
    split
    · rw [rebuild_eq _ c hinj]
    · rename_i h2
      congr 1
      symm
      refine (List.map_congr_left (g := id) ?_).trans (List.map_id c)
      intro e he
      show _ = e
      by_cases hc : pyReplace old new e.1 = e.1
      · rw [hc]
      · exact absurd (List.any_eq_true.mpr ⟨e.1, List.mem_map.mpr ⟨e, he, rfl⟩, by simpa using hc⟩) h2

/-- C13: no column is overwritten by a name that already existed. -/
theorem str_replace_existing_raises (old new : Name) {k : Name} (hk : k ∈ c.keys)
    (hne : pyReplace old new k ≠ k) (hex : pyReplace old new k ∈ c.keys) :
    ∃ e, itemStrReplace c (pyReplace old new) = .error e := by
  unfold itemStrReplace
  rw [if_pos (List.any_eq_true.mpr ⟨k, hk, by simp [hne, (has_iff c _).mpr hex]⟩)]
  exact ⟨_, rfl⟩

/-- C13 fails: replacing "x" by "" in columns "xa" and "ax" leaves one column. -/
theorem str_replace_counterexample :
    ∃ (c c' : Container Nat), Reachable [] c ∧ c.length = 2 ∧
      itemStrReplace c (pyReplace "x".toList []) = .ok c' ∧ c'.length = 1 ∧
      c'.map (fun e => e.2.val) = [2] := by
  refine ⟨[("xa".toList, ⟨1, none⟩), ("ax".toList, ⟨2, none⟩)], [("a".toList, ⟨2, none⟩)],
    ⟨[], [.setValue "xa".toList 1, .setValue "ax".toList 2], ⟨trivial, trivial, trivial⟩, by decide⟩, rfl, ?_, rfl, rfl⟩
  decide

/-! ## C16 -/

/-- C16: `label_set_names(names)` then `label_get_names()` gives the existing columns
among `names` in the given order (the last mention of a repeated name counts); nothing
else that can be read changes. -/
theorem label_set_get (r : Reachable h c) (tag : Name) (ht : isTag tag = true) (l : List Name) :
    taggedGetNames (taggedSetNames (h, c) l tag).1 (taggedSetNames (h, c) l tag).2 tag =
      (l.filter (· ∈ c.keys)).dedup ∧
    (∀ t, isTag t = true → t ≠ tag →
      taggedGetNames (taggedSetNames (h, c) l tag).1 (taggedSetNames (h, c) l tag).2 t = taggedGetNames h c t) ∧
    (taggedSetNames (h, c) l tag).2.map (fun e => (e.1, e.2.val)) = c.map (fun e => (e.1, e.2.val)) ∧
    ∀ k a, isTag a = false →
      itemGetAttribute (taggedSetNames (h, c) l tag).1 (taggedSetNames (h, c) l tag).2 k a =
        itemGetAttribute h c k a := by
  have ok := reachable_ok r
  have st := tagStep_set ok tag l
  rw [← taggedSetNames_eq (h, c)] at st
  obtain ⟨h1, h2⟩ := setTagged_ok ok tag ht l
  refine ⟨?_, ?_, st.vals, ?_⟩
  · have := congrArg (fun o => o.tagged tag) h2
    simp only [observe_tagged, ht, if_true, observe_names] at this
    exact this
  · intro t ht' hne
    have := congrArg (fun o => o.tagged t) h2
    simp only [observe_tagged, ht', if_true, if_neg hne] at this
    exact this
  · intro k a ha
    refine st.other k a ?_
    rintro rfl
    rw [ha] at ht
    simp at ht

/-- C16: without repeated names, the labels read back are the given existing names. -/
theorem label_set_get_distinct (r : Reachable h c) (tag : Name) (ht : isTag tag = true) (l : List Name)
    (hl : l.Nodup) (hex : ∀ k ∈ l, k ∈ c.keys) :
    taggedGetNames (taggedSetNames (h, c) l tag).1 (taggedSetNames (h, c) l tag).2 tag = l := by
  rw [(label_set_get r tag ht l).1, List.filter_eq_self.mpr (by simpa using hex), hl.dedup]

/-- C16: `label_remove` leaves no label and changes nothing else. -/
theorem label_remove (r : Reachable h c) (tag : Name) (ht : isTag tag = true) :
    taggedGetNames (taggedRemove h c tag) c tag = [] ∧
    (∀ t, isTag t = true → t ≠ tag → taggedGetNames (taggedRemove h c tag) c t = taggedGetNames h c t) ∧
    ∀ k a, a ≠ tag → itemGetAttribute (taggedRemove h c tag) c k a = itemGetAttribute h c k a := by
  have ok := reachable_ok r
  obtain ⟨h1, h2⟩ := removeTagged_ok ok tag ht
  refine ⟨?_, ?_, ?_⟩
  · have := congrArg (fun o => o.tagged tag) h2
    simp only [observe_tagged, ht, if_true] at this
    exact this
  · intro t ht' hne
    have := congrArg (fun o => o.tagged t) h2
    simp only [observe_tagged, ht', if_true, if_neg hne] at this
    exact this
  · intro k a ha
    have := att_taggedRemove ok.nodup (h := h) tag k a
    rw [if_neg ha] at this
    exact this

/-- C16: the labels always are existing columns, without repetition. -/
theorem labels_exist (r : Reachable h c) (tag : Name) (ht : isTag tag = true) :
    (taggedGetNames h c tag).Nodup ∧ ∀ k ∈ taggedGetNames h c tag, k ∈ c.keys := by
  have ok := reachable_ok r
  have rep := tagRep_get ok tag ht
  refine ⟨rep.nodup, fun k hk => ?_⟩
  obtain ⟨v, hv⟩ := (rep.mem k).mp hk
  exact att_some_mem hv

end

/-! ## Concrete cases -/

section Examples

/-- three columns, labels `c, a` -/
def exOps : List (Op Nat) :=
  [.setValue "a".toList 1, .setValue "b".toList 2, .setValue "c".toList 3,
   .setTagged tagLabel ["c".toList, "zz".toList, "a".toList]]

def exState : Heap × Container Nat := exOps.foldl exec ([], [])

example : Reachable exState.1 exState.2 := ⟨[], exOps, ⟨trivial, trivial, trivial, rfl, trivial⟩, rfl⟩
example : taggedGetNames exState.1 exState.2 tagLabel = ["c".toList, "a".toList] := by decide
example : "a".toList ∈ exState.2.keys ∧ "d".toList ∉ exState.2.keys ∧ "a".toList ≠ "d".toList := by decide
example : (itemRename exState.2 "a".toList "d".toList).map (fun c => (c.keys, taggedGetNames exState.1 c tagLabel)) =
    .ok (["d".toList, "b".toList, "c".toList], ["c".toList, "d".toList]) := by decide
example : (itemMoveToFront exState.2 ["c".toList, "q".toList, "c".toList]).map keys =
    .ok ["c".toList, "a".toList, "b".toList] := by decide
example : (itemMoveToBack exState.2 ["a".toList, "b".toList, "a".toList]).map keys =
    .ok ["c".toList, "b".toList, "a".toList] := by decide
example : (exState.2.keys.map (pyReplace "a".toList "xx".toList)).Nodup ∧
    (itemStrReplace exState.2 (pyReplace "a".toList "xx".toList)).map keys =
      .ok ["xx".toList, "b".toList, "c".toList] := by decide
example : ∃ e, itemStrReplace exState.2 (pyReplace "a".toList "b".toList) = .error e :=
  ⟨"ValueError: item existed", by decide⟩
example : (observe exState.1 exState.2).LegalRun
    [.rename "a".toList "q".toList, .delete "c".toList, .addPrefix "p".toList, .removeTagged tagLabel] :=
  ⟨trivial, trivial, trivial, rfl, trivial⟩

end Examples
end Verif.Items
