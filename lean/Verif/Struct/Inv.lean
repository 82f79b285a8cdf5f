import Verif.Struct.Spec
import Verif.Items.Copy

/-! # The column count, the names and the sort list stay consistent -/
namespace Verif.Struct
open Verif.Items Dict
variable {V : Type} {cls : Cls} {s s' : St V}

/-- what every legal history keeps -/
structure Inv (cls : Cls) (s : St V) : Prop where
  nodup : (names s).Nodup
  count : s.ncols = (names s).length
  valid : ∀ n ∈ names s, validName cls n = true
  sorted : ∀ l, s.sortlist = some l → ∀ n ∈ l, n ∈ names s

theorem inv_init (cls : Cls) : Inv cls (init : St V) :=
  ⟨List.nodup_nil, rfl, by simp [names, init, keys], by simp [init]⟩

/-- names, count and lock unchanged, sort list unchanged or dropped -/
structure Same (s s' : St V) : Prop where
  names : names s' = names s
  count : s'.ncols = s.ncols
  lock : s'.locked = s.locked
  sort : s'.sortlist = none ∨ s'.sortlist = s.sortlist

theorem Same.refl (s : St V) : Same s s := ⟨rfl, rfl, rfl, .inr rfl⟩

theorem Same.trans {s'' : St V} (a : Same s s') (b : Same s' s'') : Same s s'' :=
  ⟨b.names.trans a.names, b.count.trans a.count, b.lock.trans a.lock, by
    rcases b.sort with h | h
    · exact .inl h
    · rw [h]; exact a.sort⟩

theorem Same.inv (a : Same s s') (i : Inv cls s) : Inv cls s' := by
  refine ⟨a.names ▸ i.nodup, by rw [a.count, a.names, i.count], fun n hn => i.valid n (a.names ▸ hn), fun l hl => ?_⟩
  rcases a.sort with h | h
  · rw [h] at hl; simp at hl
  · rw [h] at hl; rw [a.names]; exact i.sorted l hl

theorem same_updateSort (s : St V) (n : Name) : Same s (updateSort s n) := by
  unfold updateSort
  split
  · exact Same.refl s
  · split
    · exact ⟨rfl, rfl, rfl, .inl rfl⟩
    · exact Same.refl s

theorem updateSort_items (s : St V) (n : Name) : (updateSort s n).items = s.items := by
  unfold updateSort; split
  · rfl
  · split <;> rfl

theorem updateSort_heap (s : St V) (n : Name) : (updateSort s n).heap = s.heap := by
  unfold updateSort; split
  · rfl
  · split <;> rfl

theorem updateSort_not_mem (s : St V) (n : Name) : ∀ l, (updateSort s n).sortlist = some l → n ∉ l := by
  intro l hl
  unfold updateSort at hl
  cases hs : s.sortlist with
  | none => rw [hs] at hl; simp only at hl; rw [hs] at hl; simp at hl
  | some l0 =>
    rw [hs] at hl
    simp only at hl
    split at hl
    · simp at hl
    · rename_i h
      rw [hs] at hl
      rw [← Option.some.inj hl]
      exact h

theorem storedName_valid {n : Name} (hv : validName cls n = true) : storedName cls n = n := by
  unfold storedName; rw [hv]; rfl

theorem valid_ne_nil {n : Name} (hv : validName cls n = true) : n.isEmpty = false := by
  unfold validName at hv
  simp only [Bool.and_eq_true, Bool.not_eq_true'] at hv
  exact hv.1.1

theorem keys_itemSetValue_mem {c : Container V} {k : Name} (hk : k ∈ c.keys) (v : V) :
    (itemSetValue c k v).keys = c.keys := by
  unfold itemSetValue
  split <;> exact keys_set_of_mem hk _

theorem keys_itemSetValue_notMem {c : Container V} {k : Name} (hk : k ∉ c.keys) (v : V) :
    (itemSetValue c k v).keys = c.keys ++ [k] := by
  unfold itemSetValue
  split <;> exact keys_set_of_notMem hk _

theorem same_colSetValue {n : Name} (hv : validName cls n = true) (hn : n ∈ names s) (v : V) :
    Same s (colSetValue cls s n v).1 ∧ (colSetValue cls s n v).2 = none ∧
      (colSetValue cls s n v).1.items = itemSetValue s.items n v := by
  unfold colSetValue
  rw [valid_ne_nil hv, storedName_valid hv]
  simp only [Bool.false_eq_true, if_false]
  have h0 : Same s { s with items := itemSetValue s.items n v } :=
    ⟨keys_itemSetValue_mem hn v, rfl, rfl, .inr rfl⟩
  refine ⟨h0.trans (same_updateSort _ n), trivial, ?_⟩
  rw [updateSort_items]

theorem same_replaceItem {n : Name} (hv : validName cls n = true) (hn : n ∈ names s) (v : V) :
    Same s (replaceItem cls s n v).1 ∧ (replaceItem cls s n v).2 = none ∧
      (replaceItem cls s n v).1.items = itemSetValue s.items n v := by
  have h1 := same_updateSort s n
  obtain ⟨a, b, c⟩ := same_colSetValue (s := updateSort s n) hv (h1.names.symm ▸ hn) v
  exact ⟨h1.trans a, b, by rw [replaceItem, c, updateSort_items]⟩

/-- assigning to an existing column with a valid name -/
theorem same_setAttr {n : Name} (hv : validName cls n = true) (hn : n ∈ names s) (hl : s.locked = false) (v : V) :
    Same s (setAttr cls s n v).1 ∧ (setAttr cls s n v).2 = none ∧
      (setAttr cls s n v).1.items = itemSetValue s.items n v := by
  have hu : underscore n = false := by
    unfold validName at hv
    simp only [Bool.and_eq_true, Bool.not_eq_true'] at hv
    exact hv.1.2
  unfold setAttr
  rw [hu, hl, (has_iff s.items n).mpr hn]
  simp only [Bool.false_eq_true, if_false, if_true]
  exact same_replaceItem hv hn v

theorem inv_setAttr (i : Inv cls s) (n : Name) (v : V) (hl : Legal cls s (.setAttr n v)) :
    Inv cls (setAttr cls s n v).1 := by
  obtain ⟨h1, h2⟩ := hl
  unfold setAttr
  by_cases hu : underscore n = true
  · rw [if_pos hu]; exact i
  rw [if_neg hu]
  by_cases hlk : s.locked = true
  · rw [if_pos hlk]; exact i
  rw [if_neg hlk]
  by_cases hm : n ∈ names s
  · rw [if_pos ((has_iff _ _).mpr hm)]
    exact (same_replaceItem (i.valid n hm) hm v).1.inv i
  rw [if_neg (fun e => hm ((has_iff _ _).mp e))]
  by_cases hme : cls.method n = true
  · rw [if_pos hme]; exact i
  rw [if_neg hme, h1]
  simp only [Bool.not_false, if_true]
  unfold addNewItem
  by_cases he : n.isEmpty = true
  · have : colSetValue cls s n v = (s, some "IndexError") := by unfold colSetValue; rw [if_pos he]
    rw [this]; exact i
  have hv : validName cls n = true := by
    unfold validName Cls.attr
    simp [he, hu, h1, h2, hme]
  have : colSetValue cls s n v = (updateSort { s with items := itemSetValue s.items n v } n, none) := by
    unfold colSetValue
    rw [if_neg he, storedName_valid hv]
  rw [this]
  dsimp only
  have hsame := same_updateSort { s with items := itemSetValue s.items n v } n
  have hn : names { s with items := itemSetValue s.items n v } = names s ++ [n] := keys_itemSetValue_notMem hm v
  have hn' : names (updateSort { s with items := itemSetValue s.items n v } n) = names s ++ [n] := hsame.names.trans hn
  refine ⟨?_, ?_, ?_, ?_⟩
  · show (names (updateSort { s with items := itemSetValue s.items n v } n)).Nodup
    rw [hn', List.nodup_append]
    exact ⟨i.nodup, by simp, fun a ha b hb e => hm (List.mem_singleton.mp hb ▸ e ▸ ha)⟩
  · show (updateSort { s with items := itemSetValue s.items n v } n).ncols + 1 =
      ((names (updateSort { s with items := itemSetValue s.items n v } n)).length : Int)
    rw [hn', hsame.count, i.count]
    simp
  · intro k hk
    have hk' : k ∈ names s ++ [n] := hn' ▸ hk
    rcases List.mem_append.mp hk' with h | h
    · exact i.valid k h
    · rw [List.mem_singleton.mp h]; exact hv
  · intro l hl k hk
    show k ∈ names (updateSort { s with items := itemSetValue s.items n v } n)
    rw [hn', List.mem_append]
    left
    rcases hsame.sort with h | h
    · have : (updateSort { s with items := itemSetValue s.items n v } n).sortlist = some l := hl
      rw [h] at this; simp at this
    · have : (updateSort { s with items := itemSetValue s.items n v } n).sortlist = some l := hl
      rw [h] at this
      exact i.sorted l this k hk

theorem inv_deleteItem (i : Inv cls s) (n : Name) :
    Inv cls (deleteItem s n).1 ∧ ((deleteItem s n).2 = none → (deleteItem s n).1.locked = s.locked) := by
  unfold deleteItem
  by_cases hm : n ∈ names s
  · rw [if_pos ((has_iff _ _).mpr hm)]
    have hsame := same_updateSort { s with items := s.items.del n, ncols := s.ncols - 1 } n
    refine ⟨?_, fun _ => hsame.lock⟩
    have hn : names (updateSort { s with items := s.items.del n, ncols := s.ncols - 1 } n) = (names s).filter (· ≠ n) :=
      hsame.names.trans (keys_del s.items n)
    refine ⟨?_, ?_, ?_, ?_⟩
    · rw [hn]; exact i.nodup.filter _
    · rw [hn, hsame.count]
      show s.ncols - 1 = _
      rw [i.count]
      have : ((names s).filter (· ≠ n)) = (names s).erase n := by
        rw [i.nodup.erase_eq_filter]
        congr 1
        funext x
        by_cases hx : x = n <;> simp [hx]
      rw [this, List.length_erase_of_mem hm]
      have := List.length_pos_of_mem hm
      omega
    · intro k hk; rw [hn] at hk; exact i.valid k (List.mem_filter.mp hk).1
    · intro l hl k hk
      rw [hn, List.mem_filter]
      refine ⟨?_, ?_⟩
      · rcases hsame.sort with h | h
        · rw [h] at hl; simp at hl
        · rw [h] at hl; exact i.sorted l hl k hk
      · have := updateSort_not_mem _ _ l hl
        simp only [decide_eq_true_eq, Ne]
        rintro rfl
        exact this hk
  · rw [if_neg (fun e => hm ((has_iff _ _).mp e))]
    exact ⟨i, fun _ => rfl⟩

theorem inv_removeItems (l : List Name) : ∀ s : St V, Inv cls s → Inv cls (removeItems s l).1 := by
  induction l with
  | nil => intro s i; exact i
  | cons n l ih =>
    intro s i
    unfold removeItems
    have := (inv_deleteItem i n).1
    cases hd : deleteItem s n with
    | mk s' e =>
      rw [hd] at this
      cases e with
      | none => exact ih s' this
      | some m => exact this

theorem inv_items {c : Container V} (i : Inv cls s) (hp : c.keys.Perm (names s)) : Inv cls { s with items := c } :=
  ⟨hp.nodup_iff.mpr i.nodup, by rw [i.count]; exact congrArg _ hp.length_eq.symm,
    fun n hn => i.valid n (hp.mem_iff.mp hn), fun l hl n hn => hp.mem_iff.mpr (i.sorted l hl n hn)⟩

theorem inv_map (i : Inv cls s) {f : Name → Name} (hf : ((names s).map f).Nodup)
    (hv : ∀ n ∈ names s, validName cls (f n) = true) :
    Inv cls { s with items := s.items.map (fun e => (f e.1, e.2)), sortlist := s.sortlist.map fun l => l.map f } := by
  have hk : (keys (s.items.map (fun e => (f e.1, e.2)))) = (names s).map f := by
    simp [keys, names, Function.comp_def]
  refine ⟨?_, ?_, ?_, ?_⟩
  · show (keys _).Nodup
    rw [hk]; exact hf
  · show s.ncols = ((keys _).length : Int)
    rw [hk, i.count]; simp
  · intro n hn
    have : n ∈ (names s).map f := hk ▸ hn
    obtain ⟨m, hm, rfl⟩ := List.mem_map.mp this
    exact hv m hm
  · intro l hl n hn
    show n ∈ keys _
    rw [hk]
    cases hs : s.sortlist with
    | none => simp [hs] at hl
    | some l0 =>
      simp only [hs, Option.map_some, Option.some.injEq] at hl
      subst hl
      obtain ⟨m, hm, rfl⟩ := List.mem_map.mp hn
      exact List.mem_map.mpr ⟨m, i.sorted l0 hs m hm, rfl⟩

theorem rename_nodup {l : List Name} (hl : l.Nodup) {o n : Name} (hn : n ∉ l) :
    (l.map fun k => if k = o then n else k).Nodup := by
  refine List.Nodup.map_on ?_ hl
  intro x hx y hy hxy
  by_cases hxo : x = o <;> by_cases hyo : y = o
  · rw [hxo, hyo]
  · rw [if_pos hxo, if_neg hyo] at hxy; exact absurd (hxy ▸ hy) hn
  · rw [if_neg hxo, if_pos hyo] at hxy; exact absurd (hxy ▸ hx) hn
  · rwa [if_neg hxo, if_neg hyo] at hxy

/-- a rename that changes something -/
theorem colRename_eq (hk : (names s).Nodup) {o n : Name} (hne : o ≠ n) (hl : s.locked = false) (hv : validName cls n = true)
    (ho : o ∈ names s) (hn : n ∉ names s) :
    colRename cls s o n = ({ s with
      items := s.items.map (fun e => ((if e.1 = o then n else e.1), e.2)),
      sortlist := s.sortlist.map fun l => l.map fun k => if k = o then n else k }, none) := by
  unfold colRename
  rw [if_neg hne, hl, hv]
  simp only [Bool.false_eq_true, if_false, Bool.not_true]
  unfold itemRename
  rw [if_neg hne, (has_iff s.items o).mpr ho, (has_false_iff s.items n).mpr hn]
  simp only [Bool.not_true, Bool.false_eq_true, if_false]
  rw [rebuild_eq (fun k => if k = o then n else k) s.items (rename_nodup hk hn)]

/-- otherwise nothing changes -/
theorem colRename_cases (hk : (names s).Nodup) (o n : Name) :
    (o ≠ n ∧ s.locked = false ∧ validName cls n = true ∧ o ∈ names s ∧ n ∉ names s) ∨
    (colRename cls s o n).1 = s ∧ ((colRename cls s o n).2 = none ↔ o = n) := by
  by_cases hne : o = n
  · right; unfold colRename; simp [hne]
  by_cases hl : s.locked = true
  · right; unfold colRename; simp [hne, hl]
  by_cases hv : validName cls n = true
  · by_cases ho : o ∈ names s
    · by_cases hn : n ∈ names s
      · right
        unfold colRename itemRename
        rw [(has_iff s.items o).mpr ho, (has_iff s.items n).mpr hn]
        simp [hne, hl, hv]
      · left; exact ⟨hne, by simpa using hl, hv, ho, hn⟩
    · right
      unfold colRename itemRename
      rw [(has_false_iff s.items o).mpr ho]
      simp [hne, hl, hv]
  · right; unfold colRename; simp [hne, hl, hv]

theorem inv_colRename (i : Inv cls s) (o n : Name) : Inv cls (colRename cls s o n).1 := by
  rcases colRename_cases (cls := cls) i.nodup o n with ⟨h1, h2, h3, h4, h5⟩ | h
  · rw [colRename_eq i.nodup h1 h2 h3 h4 h5]
    refine inv_map (f := fun k => if k = o then n else k) i (rename_nodup i.nodup h5) ?_
    intro k hk
    split
    · exact h3
    · exact i.valid k hk
  · rw [h.1]; exact i

theorem inv_renameAll (l : Dict Name Name) : ∀ s : St V, Inv cls s → Inv cls (renameAll cls s l).1 := by
  induction l with
  | nil => intro s i; exact i
  | cons e l ih =>
    intro s i
    unfold renameAll
    have := inv_colRename i e.1 e.2
    cases hd : colRename cls s e.1 e.2 with
    | mk s' m =>
      rw [hd] at this
      cases m with
      | none => exact ih s' this
      | some m => exact this

theorem same_swapAssign (temp : Dict Name V) (l : List (Name × Name)) : ∀ s : St V, s.locked = false →
    (∀ n ∈ names s, validName cls n = true) → (∀ e ∈ l, e.1 ∈ names s) → Same s (swapAssign cls temp s l).1 := by
  induction l with
  | nil => intro s _ _ _; exact Same.refl s
  | cons e l ih =>
    intro s hl hv he
    obtain ⟨k1, k2⟩ := e
    unfold swapAssign
    cases temp.get k2 with
    | none => exact Same.refl s
    | some v =>
      dsimp only
      have hk1 := he (k1, k2) (by simp)
      obtain ⟨a, b, _⟩ := same_setAttr (hv k1 hk1) hk1 hl v
      cases hd : setAttr cls s k1 v with
      | mk s' m =>
        rw [hd] at a b
        dsimp only at b
        subst b
        refine a.trans (ih s' (a.lock.trans hl) (fun n hn => hv n (a.names ▸ hn)) fun e he' => ?_)
        rw [a.names]
        exact he e (by simp [he'])

theorem mapM_getAttr {frm : List Name} {temp : Dict Name V}
    (h : frm.mapM (fun k => (getAttr cls s k).map fun v => (k, v)) = Except.ok temp) :
    temp.keys = frm ∧ ∀ e ∈ temp, ∃ it, s.items.get e.1 = some it ∧ it.val = e.2 := by
  induction frm generalizing temp with
  | nil =>
    rw [List.mapM_nil] at h
    have : temp = [] := (Except.ok.inj h).symm
    subst this
    exact ⟨rfl, by simp⟩
  | cons k frm ih =>
    rw [List.mapM_cons] at h
    cases hg : getAttr cls s k with
    | error e => rw [hg] at h; cases h
    | ok v =>
      rw [hg] at h
      cases hr : frm.mapM (fun k => (getAttr cls s k).map fun v => (k, v)) with
      | error e => rw [hr] at h; cases h
      | ok rest =>
        rw [hr] at h
        have ht : temp = (k, v) :: rest := (Except.ok.inj h).symm
        subst ht
        obtain ⟨h1, h2⟩ := ih hr
        refine ⟨by rw [← h1]; rfl, ?_⟩
        intro e he
        rcases List.mem_cons.mp he with rfl | he
        · unfold getAttr at hg
          split at hg
          · cases hg
          · split at hg
            · rename_i it hit
              exact ⟨it, hit, Except.ok.inj hg⟩
            · cases hg
        · exact h2 e he

theorem same_colSwap (hv : ∀ n ∈ names s, validName cls n = true) (frm tgt : List Name) :
    Same s (colSwap cls s frm tgt).1 := by
  unfold colSwap
  split
  · exact Same.refl s
  split
  · exact Same.refl s
  split
  · exact Same.refl s
  rename_i hl _ hp
  rw [not_not] at hp
  split
  · exact Same.refl s
  · rename_i temp ht
    obtain ⟨h1, h2⟩ := mapM_getAttr ht
    refine same_swapAssign temp _ s (by simpa using hl) hv fun e he => ?_
    have : e.1 ∈ frm := hp.2.2.2 _ (List.of_mem_zip he).1
    rw [← h1] at this
    obtain ⟨e', he', hee⟩ := List.mem_map.mp this
    obtain ⟨it, hit, _⟩ := h2 e' he'
    rw [← hee]
    exact List.mem_map.mpr ⟨_, mem_of_get hit, rfl⟩

theorem inv_swapAll (l : List (List Name × List Name)) : ∀ s : St V, Inv cls s → Inv cls (swapAll cls s l).1 := by
  induction l with
  | nil => intro s i; exact i
  | cons e l ih =>
    intro s i
    obtain ⟨a, b⟩ := e
    unfold swapAll
    have := (same_colSwap i.valid a b).inv i
    cases hd : colSwap cls s a b with
    | mk s' m =>
      rw [hd] at this
      cases m with
      | none => exact ih s' this
      | some m => exact this

theorem inv_colMap (i : Inv cls s) (d : Dict Name Name) : Inv cls (colMap cls s d).1 := by
  unfold colMap
  split
  · exact i
  split
  · exact i
  split
  · exact i
  · rename_i renames swaps _
    have := inv_renameAll renames s i
    cases hd : renameAll cls s renames with
    | mk s' m =>
      rw [hd] at this
      cases m with
      | none => exact inv_swapAll swaps s' this
      | some m => exact this

theorem keys_taggedSetNames (h : Heap) (c : Container V) (l : List Name) (t : Name) :
    (taggedSetNames (h, c) l t).2.keys = c.keys := by
  unfold taggedSetNames
  have key : ∀ (l : List (Name × Nat)) (s : Heap × Container V), (l.foldl (tagBody t) s).2.keys = s.2.keys := by
    intro l
    induction l with
    | nil => intro s; rfl
    | cons x l ih =>
      intro s
      rw [List.foldl_cons, ih]
      unfold tagBody
      cases hg : s.2.get x.1 with
      | none => rfl
      | some it =>
        have hm : x.1 ∈ s.2.keys := List.mem_map.mpr ⟨_, mem_of_get hg, rfl⟩
        dsimp only
        unfold setAttribute
        split <;> exact keys_set_of_mem hm _
  exact key _ _

theorem inv_step (i : Inv cls s) (op : Op V) (hl : Legal cls s op) : Inv cls (step cls s op).1 := by
  cases op with
  | setAttr n v => exact inv_setAttr i n v hl
  | delAttr n =>
    show Inv cls (delAttr s n).1
    unfold delAttr
    split
    · exact i
    · exact (inv_deleteItem i n).1
  | colSetValue n v => exact (same_colSetValue (i.valid n hl) hl v).1.inv i
  | colRemove l m =>
    show Inv cls (colRemove s l m).1
    unfold colRemove
    split
    · exact i
    split
    · exact i
    · exact inv_removeItems _ s i
  | colRename o n => exact inv_colRename i o n
  | moveFront l =>
    show Inv cls (colMoveToFront s l).1
    unfold colMoveToFront
    split
    · exact i
    split
    · exact i
    · rename_i c hc
      refine inv_items i ?_
      by_cases hll : l.length ≤ s.items.length
      · rw [moveToFront_eq i.nodup l hll] at hc
        rw [← Except.ok.inj hc]
        exact (moveToFront_perm i.nodup l).map _
      · unfold itemMoveToFront getMoveCols at hc
        rw [if_pos (by omega)] at hc
        simp at hc
  | moveBack l =>
    show Inv cls (colMoveToBack s l).1
    unfold colMoveToBack
    split
    · exact i
    split
    · exact i
    · rename_i c hc
      refine inv_items i ?_
      by_cases hll : l.length ≤ s.items.length
      · rw [moveToBack_eq i.nodup l hll] at hc
        rw [← Except.ok.inj hc]
        exact (moveToBack_perm i.nodup l).map _
      · unfold itemMoveToBack getMoveCols at hc
        rw [if_pos (by omega)] at hc
        simp at hc
  | addPrefix p =>
    have hnd : ((names s).map (p ++ ·)).Nodup := i.nodup.map fun a b e => List.append_cancel_left e
    show Inv cls (colAddPrefix s p).1
    unfold colAddPrefix itemAddPrefix
    rw [rebuild_eq _ s.items hnd]
    exact inv_map i hnd hl
  | addSuffix p =>
    have hnd : ((names s).map (· ++ p)).Nodup := i.nodup.map fun a b e => List.append_cancel_right e
    show Inv cls (colAddSuffix s p).1
    unfold colAddSuffix itemAddSuffix
    rw [rebuild_eq _ s.items hnd]
    exact inv_map i hnd hl
  | strReplace r =>
    obtain ⟨h1, h2, h3⟩ := hl
    show Inv cls (colStrReplace s r).1
    unfold colStrReplace
    split
    · exact i
    · rename_i c hc
      rw [h3]
      dsimp only
      unfold itemStrReplace at hc
      split at hc
      · simp at hc
      split at hc
      · rw [← Except.ok.inj hc, rebuild_eq r s.items h1]
        have := inv_map i h1 h2
        rw [h3] at this
        exact this
      · rw [← Except.ok.inj hc]
        exact Same.inv (s := s) ⟨rfl, rfl, rfl, .inl rfl⟩ i
  | colSwap a b => exact (same_colSwap i.valid a b).inv i
  | colMap d => exact inv_colMap i d
  | setTagged t l =>
    exact Same.inv (s := s) ⟨keys_taggedSetNames _ _ l t, rfl, rfl, .inr rfl⟩ i
  | removeTagged t => exact Same.inv (s := s) ⟨rfl, rfl, rfl, .inr rfl⟩ i
  | setColAttr k a v =>
    show Inv cls (match itemSetAttribute (s.heap, s.items) k a v with
      | .ok r => (({ s with heap := r.1, items := r.2 } : St V), (none : Option String))
      | .error e => (s, some e)).1
    unfold itemSetAttribute
    cases hg : s.items.get k with
    | none => simp only [hg]; exact i
    | some it =>
      simp only [hg]
      refine Same.inv (s := s) ⟨?_, rfl, rfl, .inr rfl⟩ i
      have hm : k ∈ s.items.keys := List.mem_map.mpr ⟨_, mem_of_get hg, rfl⟩
      show (setAttribute (s.heap, s.items) k it a v).2.keys = s.items.keys
      unfold setAttribute
      split <;> exact keys_set_of_mem hm _
  | sortView l =>
    show Inv cls (if l.all (fun n => s.items.has n) then (({ s with sortlist := some l } : St V), (none : Option String))
      else (s, some "ValueError: sort key")).1
    by_cases h : l.all (fun n => s.items.has n) = true
    · rw [if_pos h]
      refine ⟨i.nodup, i.count, i.valid, fun l' hl' n hn => ?_⟩
      simp only [Option.some.injEq] at hl'
      subst hl'
      exact (has_iff _ _).mp (List.all_eq_true.mp h n hn)
    · rw [if_neg h]; exact i
  | lock => exact Same.inv (s := { s with locked := true }) ⟨rfl, rfl, rfl, .inr rfl⟩ ⟨i.nodup, i.count, i.valid, i.sorted⟩
  | unlock => exact Same.inv (s := { s with locked := false }) ⟨rfl, rfl, rfl, .inr rfl⟩ ⟨i.nodup, i.count, i.valid, i.sorted⟩

theorem inv_run (i : Inv cls s) (ops : List (Op V)) (hl : LegalRun cls s ops) : Inv cls (run cls s ops) := by
  induction ops generalizing s with
  | nil => exact i
  | cons op ops ih => exact ih (inv_step i op hl.1) hl.2

end Verif.Struct
