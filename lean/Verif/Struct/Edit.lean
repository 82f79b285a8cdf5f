import Verif.Struct.Props

/-! # C40: assignment, deletion, removal -/
namespace Verif.Struct
open Verif.Items Dict
variable {V : Type} {cls : Cls} {s s' : St V}

theorem value_none_iff (s : St V) (n : Name) : value s n = none ↔ n ∉ names s := by
  unfold value names
  rw [Option.map_eq_none_iff, get_eq_none_iff]

/-- **C40**, assignment: an admissible name then holds the value, no other column
changes, and a new column comes last. -/
theorem set_attr_correct (hl : s.locked = false) {n : Name} (hv : validName cls n = true) (v : V) :
    (setAttr cls s n v).2 = none ∧ value (setAttr cls s n v).1 n = some v ∧
    (∀ m, m ≠ n → value (setAttr cls s n v).1 m = value s m) ∧
    names (setAttr cls s n v).1 = if n ∈ names s then names s else names s ++ [n] := by
  have hval : ∀ t : St V, t.items = itemSetValue s.items n v →
      value t n = some v ∧ ∀ m, m ≠ n → value t m = value s m := by
    intro t ht
    unfold value
    rw [ht]
    exact ⟨by rw [value_itemSetValue, if_pos rfl], fun m hm => by rw [value_itemSetValue, if_neg hm]⟩
  by_cases hm : n ∈ names s
  · obtain ⟨a, b, c⟩ := same_setAttr hv hm hl v
    rw [if_pos hm]
    exact ⟨b, (hval _ c).1, (hval _ c).2, a.names⟩
  · rw [if_neg hm]
    have hv' := hv
    unfold validName Cls.attr at hv'
    simp only [Bool.and_eq_true, Bool.not_eq_true', Bool.or_eq_false_iff] at hv'
    obtain ⟨⟨h1, h2⟩, h3, h4, h5⟩ := hv'
    have : setAttr cls s n v = ({ updateSort { s with items := itemSetValue s.items n v } n with
        ncols := (updateSort { s with items := itemSetValue s.items n v } n).ncols + 1 }, none) := by
      unfold setAttr addNewItem colSetValue
      rw [(has_false_iff s.items n).mpr hm, h2, hl, h4, h5, h1, storedName_valid hv]
      rfl
    rw [this]
    have hit : (updateSort { s with items := itemSetValue s.items n v } n).items = itemSetValue s.items n v := updateSort_items _ _
    refine ⟨rfl, (hval _ hit).1, (hval _ hit).2, ?_⟩
    show keys (updateSort { s with items := itemSetValue s.items n v } n).items = _
    rw [hit]
    exact keys_itemSetValue_notMem hm v

/-- **C40**, deletion -/
theorem del_attr_correct (hl : s.locked = false) {n : Name} (hn : n ∈ names s) :
    (delAttr s n).2 = none ∧ names (delAttr s n).1 = (names s).filter (· ≠ n) ∧
    ∀ m, m ≠ n → value (delAttr s n).1 m = value s m := by
  unfold delAttr deleteItem
  rw [if_neg (by simp [hl]), if_pos ((has_iff _ _).mpr hn)]
  refine ⟨rfl, ?_, fun m hm => ?_⟩
  · exact (same_updateSort _ n).names.trans (keys_del s.items n)
  · unfold value
    rw [updateSort_items]
    show ((s.items.del n).get m).map Item.val = _
    rw [get_del, if_neg hm]

theorem removeItems_ok (l : List Name) : ∀ s : St V, (∀ n ∈ l, n ∈ names s) → l.Nodup → s.locked = false →
    (removeItems s l).2 = none ∧ names (removeItems s l).1 = (names s).filter (· ∉ l) ∧
    (∀ m, m ∉ l → value (removeItems s l).1 m = value s m) ∧ (removeItems s l).1.locked = false := by
  induction l with
  | nil =>
    intro s _ _ hl
    refine ⟨rfl, ?_, fun _ _ => rfl, hl⟩
    simp [removeItems]
  | cons n l ih =>
    intro s hs hn hl
    obtain ⟨a, b, c⟩ := del_attr_correct hl (hs n (by simp))
    have hd : delAttr s n = deleteItem s n := by unfold delAttr; rw [if_neg (by simp [hl])]
    rw [hd] at a b c
    have hlk : (deleteItem s n).1.locked = false := by
      unfold deleteItem
      split
      · exact (same_updateSort _ n).lock.trans hl
      · exact hl
    have hn' := List.nodup_cons.mp hn
    unfold removeItems
    cases hx : deleteItem s n with
    | mk s1 m =>
      rw [hx] at a b c hlk
      dsimp only at a b c hlk
      subst a
      obtain ⟨h1, h2, h3, h4⟩ := ih s1 (by
        intro k hk
        rw [b, List.mem_filter]
        exact ⟨hs k (by simp [hk]), by simpa using fun e : k = n => hn'.1 (e ▸ hk)⟩) hn'.2 hlk
      refine ⟨h1, ?_, ?_, h4⟩
      · show names (removeItems s1 l).1 = _
        rw [h2, b, List.filter_filter]
        congr 1
        funext k
        simp [Bool.and_comm]
      · intro m hm
        simp only [List.mem_cons, not_or] at hm
        show value (removeItems s1 l).1 m = _
        rw [h3 m hm.2, c m hm.1]

/-- **C40**, removal of a list of names, which may contain repetitions and (unless
asked to raise) unknown names: exactly those columns go, the rest keep order and value. -/
theorem col_remove_correct (hl : s.locked = false) (l : List Name) (raise : Bool) (h : raise = true → ∀ n ∈ l, n ∈ names s) :
    (colRemove s l raise).2 = none ∧ names (colRemove s l raise).1 = (names s).filter (· ∉ l) ∧
    ∀ m, m ∉ l → value (colRemove s l raise).1 m = value s m := by
  have hc : (raise && l.any fun n => !s.items.has n) = false := by
    cases raise with
    | false => rfl
    | true =>
      rw [Bool.true_and]
      apply Bool.eq_false_iff.mpr
      intro hh
      obtain ⟨n, hn, hb⟩ := List.any_eq_true.mp hh
      rw [(has_iff _ _).mpr (h rfl n hn)] at hb
      simp at hb
  have hmem : ∀ n, n ∈ (l.filter fun n => s.items.has n).reverse.dedup.reverse ↔ n ∈ l ∧ n ∈ names s := by
    intro n
    rw [List.mem_reverse, List.mem_dedup, List.mem_reverse, List.mem_filter, has_iff]
    rfl
  obtain ⟨h1, h2, h3, _⟩ := removeItems_ok ((l.filter fun n => s.items.has n).reverse.dedup.reverse) s
    (fun n hn => ((hmem n).mp hn).2) (List.nodup_reverse.mpr (List.nodup_dedup _)) hl
  unfold colRemove
  rw [if_neg (by simp [hl]), if_neg (by simp [hc])]
  refine ⟨h1, ?_, fun m hm => h3 m fun hx => hm ((hmem m).mp hx).1⟩
  rw [h2]
  refine List.filter_congr fun n hn => ?_
  rw [decide_eq_decide]
  exact not_congr ⟨fun hx => ((hmem n).mp hx).1, fun hx => (hmem n).mpr ⟨hx, hn⟩⟩

/-- and raises without changing anything when asked to and a name is unknown -/
theorem col_remove_raises (l : List Name) {n : Name} (hn : n ∈ l) (hx : n ∉ names s) :
    (colRemove s l true).2 ≠ none ∧ (colRemove s l true).1 = s := by
  unfold colRemove
  split
  · exact ⟨by simp, rfl⟩
  · rw [if_pos]
    · exact ⟨by simp, rfl⟩
    · rw [Bool.true_and]
      exact List.any_eq_true.mpr ⟨n, hn, by rw [(has_false_iff _ _).mpr hx]; rfl⟩

example : names (colRemove exSt ["b".toList, "q".toList, "b".toList] false).1 = ["a".toList, "c".toList] := by
  rw [(col_remove_correct (by decide) _ _ (by simp)).2.1]; decide
example : validName exCls "z".toList = true ∧ validName exCls "shape".toList = false := by decide

end Verif.Struct
