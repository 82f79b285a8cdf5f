import Verif.Items.Tags

/-! # Every operation does to the container what it does to the abstract list of columns -/
namespace Verif.Items
open Dict

section
variable {V : Type} {h : Heap} {c : Container V}

theorem observe_names (h : Heap) (c : Container V) : (observe h c).names = c.keys := by
  simp [observe, Abs.names, keys, Function.comp_def]

/-- the abstract column of an entry -/
def acol (h : Heap) (c : Container V) (e : Name × Item V) : ACol V :=
  ⟨e.1, e.2.val, fun x => if isTag x then none else att h c e.1 x⟩

theorem observe_cols (h : Heap) (c : Container V) : (observe h c).cols = c.map (acol h c) := rfl

theorem observe_ext {h h' : Heap} {c c' : Container V}
    (hv : c'.map (fun e => (e.1, e.2.val)) = c.map fun e => (e.1, e.2.val))
    (ha : ∀ k a, k ∈ c.keys → isTag a = false → att h' c' k a = att h c k a) :
    (observe h' c').cols = (observe h c).cols := by
  have key : ∀ (h : Heap) (c : Container V), (observe h c).cols =
      (c.map fun e => (e.1, e.2.val)).map fun p =>
        ⟨p.1, p.2, fun x => if isTag x then none else att h c p.1 x⟩ := by
    intro h c; simp [observe, Function.comp_def]
  rw [key, key, hv, List.map_map, List.map_map]
  apply List.map_congr_left
  intro e he
  simp only [Function.comp, ACol.mk.injEq, true_and]
  funext x
  by_cases hx : isTag x
  · simp [hx]
  · simp only [hx, Bool.false_eq_true, if_false]
    exact ha _ _ (List.mem_map.mpr ⟨e, he, rfl⟩) (by simpa using hx)

theorem abs_ext {a b : Abs V} (h1 : a.cols = b.cols) (h2 : ∀ t, a.tagged t = b.tagged t) : a = b := by
  cases a; cases b
  simp only [Abs.mk.injEq]
  exact ⟨h1, funext h2⟩

theorem observe_tagged (h : Heap) (c : Container V) (t : Name) :
    (observe h c).tagged t = if isTag t then taggedGetNames h c t else [] := rfl

/-! ## Renaming all columns -/

theorem get_map_names {f : Name → Name} (hf : (c.keys.map f).Nodup) {k : Name} (hk : k ∈ c.keys) :
    get (c.map fun e => (f e.1, e.2)) (f k) = c.get k := by
  have hn : c.keys.Nodup := List.Nodup.of_map f hf
  have hn' : (keys (c.map fun e => (f e.1, e.2))).Nodup := by
    simpa [keys, List.map_map, Function.comp_def] using hf
  apply Option.ext
  intro it
  rw [get_iff hn', get_iff hn, List.mem_map]
  constructor
  · rintro ⟨e, he, h1⟩
    rw [Prod.mk.injEq] at h1
    have : e.1 = k := List.inj_on_of_nodup_map hf (List.mem_map.mpr ⟨e, he, rfl⟩) hk h1.1
    rw [← this, ← h1.2]
    exact he
  · intro h1; exact ⟨(k, it), h1, rfl⟩

theorem get_map_names_none {f : Name → Name} {k : Name} (hk : k ∉ c.keys.map f) :
    get (c.map fun e => (f e.1, e.2)) k = none := by
  rw [get_eq_none_iff]
  simpa [keys, List.map_map, Function.comp_def] using hk

theorem mapNames_ok {f : Name → Name} (ok : Ok h c) (hf : (c.keys.map f).Nodup) :
    Ok h (c.map fun e => (f e.1, e.2)) ∧
      observe h (c.map fun e => (f e.1, e.2)) = (observe h c).mapNames f := by
  have hg := fun k (hk : k ∈ c.keys) => get_map_names hf hk
  have ha : ∀ k, k ∈ c.keys → ∀ a, att h (c.map fun e => (f e.1, e.2)) (f k) a = att h c k a := by
    intro k hk a
    unfold att itemGetAttribute
    rw [hg k hk]
  have hpre : ∀ k it, get (c.map fun e => (f e.1, e.2)) k = some it → ∃ j, j ∈ c.keys ∧ f j = k ∧ c.get j = some it := by
    intro k it hk
    have : k ∈ c.keys.map f := by
      by_contra hc
      rw [get_map_names_none hc] at hk
      simp at hk
    obtain ⟨j, hj, rfl⟩ := List.mem_map.mp this
    exact ⟨j, hj, rfl, by rw [← hg j hj]; exact hk⟩
  have hapre : ∀ k a v, att h (c.map fun e => (f e.1, e.2)) k a = some v → ∃ j, j ∈ c.keys ∧ f j = k ∧ att h c j a = some v := by
    intro k a v hk
    cases hget : get (c.map fun e => (f e.1, e.2)) k with
    | none => simp [att, itemGetAttribute, hget] at hk
    | some it =>
      obtain ⟨j, hj, rfl, _⟩ := hpre k it hget
      exact ⟨j, hj, rfl, by rw [← ha j hj]; exact hk⟩
  have hok : Ok h (c.map fun e => (f e.1, e.2)) := by
    refine ⟨by simpa [keys, List.map_map, Function.comp_def] using hf, ?_, ?_, ?_⟩
    · intro k it p hk
      obtain ⟨j, _, _, hj⟩ := hpre k it hk
      exact ok.valid j it p hj
    · intro k it k' it' p hk hk' h1 h2
      obtain ⟨j, _, rfl, hj⟩ := hpre k it hk
      obtain ⟨j', _, rfl, hj'⟩ := hpre k' it' hk'
      rw [ok.noshare j it j' it' p hj hj' h1 h2]
    · intro t ht k k' v hk hk'
      obtain ⟨j, _, rfl, hj⟩ := hapre k t v hk
      obtain ⟨j', _, rfl, hj'⟩ := hapre k' t v hk'
      rw [ok.inj t ht j j' v hj hj']
  refine ⟨hok, abs_ext ?_ ?_⟩
  · simp only [Abs.mapNames, observe_cols, List.map_map]
    apply List.map_congr_left
    intro e he
    simp only [Function.comp, acol, ACol.mk.injEq, true_and]
    funext x
    rw [ha e.1 (List.mem_map.mpr ⟨e, he, rfl⟩)]
  · intro t
    simp only [Abs.mapNames, observe_tagged]
    by_cases ht : isTag t = true
    · rw [if_pos ht, if_pos ht]
      have r := tagRep_get ok t ht
      apply tagged_eq hok ht
      refine ⟨fun k => ?_, ?_⟩
      · rw [List.mem_map]
        constructor
        · rintro ⟨j, hj, rfl⟩
          obtain ⟨v, hv⟩ := (r.mem j).mp hj
          exact ⟨v, by rw [ha j (att_some_mem hv)]; exact hv⟩
        · rintro ⟨v, hv⟩
          obtain ⟨j, _, e, hj⟩ := hapre k t v hv
          exact ⟨j, (r.mem j).mpr ⟨v, hj⟩, e⟩
      · rw [List.pairwise_map]
        refine List.Pairwise.imp_of_mem (fun {a b} hma hmb hab u v hu hv => ?_) r.sorted
        obtain ⟨_, h1⟩ := (r.mem a).mp hma
        obtain ⟨_, h2⟩ := (r.mem b).mp hmb
        rw [ha a (att_some_mem h1)] at hu
        rw [ha b (att_some_mem h2)] at hv
        exact hab u v hu hv
    · simp [ht]

/-! ## Reordering -/

theorem perm_ok {c' : Container V} (ok : Ok h c) (hp : c.Perm c') :
    Ok h c' ∧ (∀ k a, att h c' k a = att h c k a) ∧ ∀ t, (observe h c').tagged t = (observe h c).tagged t := by
  have hg := get_perm ok.nodup hp
  have ha : ∀ k a, att h c' k a = att h c k a := by
    intro k a; unfold att itemGetAttribute; rw [hg]
  have hok : Ok h c' := by
    refine ⟨(hp.map Prod.fst).nodup_iff.mp ok.nodup, ?_, ?_, ?_⟩
    · intro k it p; rw [hg]; exact ok.valid k it p
    · intro k it k' it' p; rw [hg, hg]; exact ok.noshare k it k' it' p
    · intro t ht j k v; rw [ha, ha]; exact ok.inj t ht j k v
  refine ⟨hok, ha, fun t => ?_⟩
  rw [observe_tagged, observe_tagged]
  by_cases ht : isTag t = true
  · rw [if_pos ht, if_pos ht]
    exact tagged_eq hok ht ((tagRep_get ok t ht).congr fun k => ha k t)
  · simp [ht]

theorem col_entry (hn : c.keys.Nodup) (k : Name) : (observe h c).col k = (entry c k).map (acol h c) := by
  unfold Abs.col
  rw [observe_cols, List.find?_map]
  unfold entry Dict.get
  rw [Option.map_map, Option.map_map]
  have : ((fun x : ACol V => decide (x.name = k)) ∘ acol h c) = fun e => decide (e.1 = k) := rfl
  rw [this]
  cases hf : List.find? (fun e => decide (e.1 = k)) c with
  | none => rfl
  | some e =>
    have := List.find?_some hf
    simp only [decide_eq_true_eq] at this
    subst this
    rfl

theorem acol_congr {c' : Container V} (ha : ∀ k a, att h c' k a = att h c k a) : acol h c' = acol h c := by
  funext e
  simp only [acol, ACol.mk.injEq, true_and]
  funext x
  rw [ha]

theorem filterMap_col (hn : c.keys.Nodup) (l : List Name) :
    l.filterMap (observe h c).col = (l.filterMap (entry c)).map (acol h c) := by
  rw [List.map_filterMap]
  congr 1
  funext k
  exact col_entry hn k

theorem filter_cols (p : Name → Bool) : (observe h c).cols.filter (fun a => p a.name) =
    (c.filter fun e => p e.1).map (acol h c) := by
  rw [observe_cols, List.filter_map]
  rfl

/-! ## Deleting, setting values -/

theorem delete_ok (ok : Ok h c) (k : Name) :
    Ok h (c.del k) ∧ observe h (c.del k) =
      ⟨(observe h c).cols.filter fun a => a.name ≠ k, fun t => ((observe h c).tagged t).filter (· ≠ k)⟩ := by
  have hg := get_del c k
  have ha : ∀ j a, att h (c.del k) j a = if j = k then none else att h c j a := by
    intro j a; unfold att itemGetAttribute; rw [hg]; split <;> rfl
  have hok : Ok h (c.del k) := by
    refine ⟨nodup_del ok.nodup k, ?_, ?_, ?_⟩
    · intro j it p; rw [hg]; split
      · intro h; simp at h
      · exact ok.valid j it p
    · intro j it j' it' p; rw [hg, hg]; split
      · intro h; simp at h
      · split
        · intro _ h; simp at h
        · exact ok.noshare j it j' it' p
    · intro t ht j j' v; rw [ha, ha]; split
      · intro h; simp at h
      · split
        · intro _ h; simp at h
        · exact ok.inj t ht j j' v
  refine ⟨hok, abs_ext ?_ ?_⟩
  · dsimp only
    rw [filter_cols (fun n => decide (n ≠ k)), observe_cols]
    apply List.map_congr_left
    intro e he
    simp only [acol, ACol.mk.injEq, true_and]
    funext x
    have : e.1 ≠ k := by simpa using (List.mem_filter.mp he).2
    rw [ha, if_neg this]
  · intro t
    dsimp only
    rw [observe_tagged, observe_tagged]
    by_cases ht : isTag t = true
    · rw [if_pos ht, if_pos ht]
      have r := tagRep_get ok t ht
      apply tagged_eq hok ht
      refine ⟨fun j => ?_, ?_⟩
      · rw [List.mem_filter, r.mem]
        rw [ha]
        by_cases hj : j = k <;> simp [hj]
      · refine (r.sorted.filter _).imp_of_mem fun {a b} hma hmb hab u v hu hv => ?_
        rw [ha] at hu hv
        split at hu
        · simp at hu
        · split at hv
          · simp at hv
          · exact hab u v hu hv
    · simp [ht]

theorem setValue_ok (ok : Ok h c) (k : Name) (v : V) :
    Ok h (itemSetValue c k v) ∧ observe h (itemSetValue c k v) =
      { observe h c with cols := if (observe h c).hasCol k then
          (observe h c).cols.map fun a => if a.name = k then { a with val := v } else a
        else (observe h c).cols ++ [⟨k, v, fun _ => none⟩] } := by
  have hhas : (observe h c).hasCol k ↔ k ∈ c.keys := by unfold Abs.hasCol; rw [observe_names]
  -- lookups
  have hg : ∀ j, (itemSetValue c k v).get j = if j = k then some ⟨v, (c.get k).bind (·.attr)⟩ else c.get j := by
    intro j
    unfold itemSetValue
    split
    · rename_i it hit; rw [get_set, hit]; rfl
    · rename_i hit; rw [get_set, hit]; rfl
  have hattr : ∀ j it, (itemSetValue c k v).get j = some it → it.attr = none ∨ ∃ it', c.get j = some it' ∧ it'.attr = it.attr := by
    intro j it hj
    rw [hg] at hj
    split at hj
    · rename_i e
      rw [← Option.some.inj hj]
      subst e
      cases hc : c.get j with
      | none => left; rfl
      | some it' => right; exact ⟨it', rfl, rfl⟩
    · right; exact ⟨it, hj, rfl⟩
  have ha : ∀ j a, att h (itemSetValue c k v) j a = att h c j a := by
    intro j a
    unfold att itemGetAttribute
    rw [hg]
    split
    · rename_i e
      subst e
      cases hc : c.get j with
      | none => rfl
      | some it => rfl
    · rfl
  have hok : Ok h (itemSetValue c k v) := by
    refine ⟨?_, ?_, ?_, ?_⟩
    · unfold itemSetValue; split <;> exact nodup_set ok.nodup _ _
    · intro j it p hj hp
      rcases hattr j it hj with h1 | ⟨it', h1, h2⟩
      · rw [h1] at hp; simp at hp
      · exact ok.valid j it' p h1 (h2.trans hp)
    · intro j it j' jt' p hj hj' hp hp'
      rcases hattr j it hj with h1 | ⟨it', h1, h2⟩
      · rw [h1] at hp; simp at hp
      rcases hattr j' jt' hj' with h3 | ⟨it'', h3, h4⟩
      · rw [h3] at hp'; simp at hp'
      · exact ok.noshare j it' j' it'' p h1 h3 (h2.trans hp) (h4.trans hp')
    · intro t ht j j' w; rw [ha, ha]; exact ok.inj t ht j j' w
  refine ⟨hok, abs_ext ?_ ?_⟩
  · dsimp only
    rw [observe_cols, acol_congr ha]
    by_cases hk : k ∈ c.keys
    · rw [if_pos (hhas.mpr hk)]
      obtain ⟨it, hit⟩ : ∃ it, c.get k = some it := by
        rw [← Option.ne_none_iff_exists', Ne, get_eq_none_iff]; exact fun hc => hc hk
      unfold itemSetValue
      rw [hit]
      dsimp only
      rw [set_of_mem hk, observe_cols, List.map_map, List.map_map]
      apply List.map_congr_left
      intro e he
      simp only [Function.comp]
      by_cases hek : e.1 = k
      · simp [acol, hek]
      · simp [acol, hek]
    · rw [if_neg (fun hc => hk (hhas.mp hc))]
      have hnone := (get_eq_none_iff c k).mpr hk
      unfold itemSetValue
      rw [hnone]
      dsimp only
      rw [set_of_notMem hk, List.map_append, observe_cols]
      congr 1
      simp only [List.map_cons, List.map_nil, acol, List.cons.injEq, ACol.mk.injEq, true_and, and_true]
      funext x
      simp [att, itemGetAttribute, hnone]
  · intro t
    dsimp only
    rw [observe_tagged, observe_tagged]
    by_cases ht : isTag t = true
    · rw [if_pos ht, if_pos ht]
      exact tagged_eq hok ht ((tagRep_get ok t ht).congr fun j => ha j t)
    · simp [ht]

theorem setAttr_ok (ok : Ok h c) {k : Name} {it : Item V} (hk : c.get k = some it) (x : Name) (hx : isTag x = false) (v : Nat) :
    Ok (setAttribute (h, c) k it x v).1 (setAttribute (h, c) k it x v).2 ∧
    observe (setAttribute (h, c) k it x v).1 (setAttribute (h, c) k it x v).2 =
      { observe h c with cols := (observe h c).cols.map fun a =>
        if a.name = k then { a with attrs := fun y => if y = x then some v else a.attrs y } else a } := by
  have hatt := fun k' a' => att_setAttribute ok hk x v k' a'
  have hvals := setAttribute_vals (h := h) ok.nodup hk x v
  have hrep : ∀ t, isTag t = true → TagRep (setAttribute (h, c) k it x v).1 (setAttribute (h, c) k it x v).2 t
      (taggedGetNames h c t) := by
    intro t ht
    refine (tagRep_get ok t ht).congr fun k' => ?_
    rw [hatt, if_neg]
    rintro ⟨_, rfl⟩
    rw [hx] at ht
    simp at ht
  have hok := (setAttribute_ok0 ok hk x v).ok fun t ht => ⟨_, hrep t ht⟩
  refine ⟨hok, abs_ext ?_ ?_⟩
  · dsimp only
    have key : ∀ (h : Heap) (c : Container V), (observe h c).cols =
        (c.map fun e => (e.1, e.2.val)).map fun p =>
          ⟨p.1, p.2, fun x => if isTag x then none else att h c p.1 x⟩ := by
      intro h c; simp [observe, Function.comp_def]
    rw [key, key, hvals, List.map_map, List.map_map, List.map_map]
    apply List.map_congr_left
    intro e he
    simp only [Function.comp]
    by_cases hek : e.1 = k
    · simp only [hek, if_true, ACol.mk.injEq, true_and]
      funext y
      rw [hatt]
      by_cases hy : y = x
      · subst hy; simp [hx]
      · simp [hy]
    · simp only [hek, if_false, ACol.mk.injEq, true_and]
      funext y
      rw [hatt]
      simp [hek]
  · intro t
    dsimp only
    rw [observe_tagged, observe_tagged]
    by_cases ht : isTag t = true
    · rw [if_pos ht, if_pos ht]; exact tagged_eq hok ht (hrep t ht)
    · simp [ht]

theorem setTagged_ok (ok : Ok h c) (tag : Name) (htag : isTag tag = true) (l : List Name) :
    Ok (taggedSetNames (h, c) l tag).1 (taggedSetNames (h, c) l tag).2 ∧
    observe (taggedSetNames (h, c) l tag).1 (taggedSetNames (h, c) l tag).2 =
      { observe h c with tagged := fun t =>
          if t = tag then (l.filter fun k => k ∈ (observe h c).names).dedup else (observe h c).tagged t } := by
  have st := tagStep_set ok tag l
  rw [← taggedSetNames_eq (h, c)] at st
  refine ⟨st.ok, abs_ext ?_ ?_⟩
  · refine observe_ext st.vals fun k a _ ha => st.other k a ?_
    rintro rfl
    rw [ha] at htag
    simp at htag
  · intro t
    dsimp only
    rw [observe_tagged]
    by_cases ht : isTag t = true
    · rw [if_pos ht]
      apply tagged_eq st.ok ht
      by_cases h1 : t = tag
      · subst h1; rw [if_pos rfl, observe_names]; exact st.rep
      · rw [if_neg h1, observe_tagged, if_pos ht]
        exact (tagRep_get ok t ht).congr fun k => st.other k t h1
    · rw [if_neg ht, if_neg (by rintro rfl; exact ht htag), observe_tagged, if_neg ht]

theorem removeTagged_ok (ok : Ok h c) (tag : Name) (htag : isTag tag = true) :
    Ok (taggedRemove h c tag) c ∧
    observe (taggedRemove h c tag) c =
      { observe h c with tagged := fun t => if t = tag then [] else (observe h c).tagged t } := by
  have hatt := fun k a => att_taggedRemove ok.nodup (h := h) tag k a
  have hok := taggedRemove_ok ok tag
  refine ⟨hok, abs_ext ?_ ?_⟩
  · refine observe_ext rfl fun k a _ ha => ?_
    rw [hatt, if_neg]
    rintro rfl
    rw [ha] at htag
    simp at htag
  · intro t
    dsimp only
    rw [observe_tagged]
    by_cases ht : isTag t = true
    · rw [if_pos ht]
      apply tagged_eq hok ht
      by_cases h1 : t = tag
      · rw [if_pos h1]
        refine ⟨fun k => ?_, List.Pairwise.nil⟩
        rw [hatt, if_pos h1]
        simp
      · rw [if_neg h1, observe_tagged, if_pos ht]
        refine (tagRep_get ok t ht).congr fun k => ?_
        rw [hatt, if_neg h1]
    · rw [if_neg ht, if_neg (by rintro rfl; exact ht htag), observe_tagged, if_neg ht]

/-! ## All operations -/

/-- outcome of a step agrees with the abstract step -/
def Agrees (r : Except String (Heap × Container V)) (a : Option (Abs V)) : Prop :=
  match r, a with
  | .ok s, some a => Ok s.1 s.2 ∧ observe s.1 s.2 = a
  | .error _, none => True
  | _, _ => False

theorem step_refines (ok : Ok h c) (op : Op V) (hl : (observe h c).Legal op) :
    Agrees (step (h, c) op) ((observe h c).step op) := by
  have hhas : ∀ k, (observe h c).hasCol k ↔ k ∈ c.keys := by
    intro k; unfold Abs.hasCol; rw [observe_names]
  have hlen : (observe h c).cols.length = c.length := by simp [observe]
  cases op with
  | setValue k v => exact setValue_ok ok k v
  | delete k =>
    simp only [step, Abs.step, itemDelete]
    by_cases hk : k ∈ c.keys
    · rw [if_pos ((has_iff c k).mpr hk), if_pos ((hhas k).mpr hk)]
      exact delete_ok ok k
    · rw [if_neg (fun e => hk ((has_iff c k).mp e)), if_neg (fun e => hk ((hhas k).mp e))]
      trivial
  | rename o n =>
    simp only [step, Abs.step, itemRename]
    by_cases h0 : o = n
    · rw [if_pos h0, if_pos h0]; exact ⟨ok, rfl⟩
    rw [if_neg h0, if_neg h0]
    by_cases h1 : o ∈ c.keys
    · rw [(has_iff c o).mpr h1]
      simp only [Bool.not_true, Bool.false_eq_true, if_false]
      by_cases h2 : n ∈ c.keys
      · rw [if_pos ((has_iff c n).mpr h2), if_neg (fun e => e.2 ((hhas n).mpr h2))]
        trivial
      · rw [if_neg (fun e => h2 ((has_iff c n).mp e)), if_pos ⟨(hhas o).mpr h1, fun e => h2 ((hhas n).mp e)⟩]
        have hnd : (c.keys.map fun k => if k = o then n else k).Nodup := by
          refine List.Nodup.map_on ?_ ok.nodup
          intro x hx y hy hxy
          by_cases hxo : x = o <;> by_cases hyo : y = o
          · rw [hxo, hyo]
          · rw [if_pos hxo, if_neg hyo] at hxy; exact absurd (hxy ▸ hy) h2
          · rw [if_neg hxo, if_pos hyo] at hxy; exact absurd (hxy ▸ hx) h2
          · rwa [if_neg hxo, if_neg hyo] at hxy
        rw [rebuild_eq _ c hnd]
        exact mapNames_ok ok hnd
    · rw [(has_false_iff c o).mpr h1]
      simp only [Bool.not_false, if_true, hhas, h1, false_and, if_false]
      trivial
  | moveFront l =>
    simp only [step, Abs.step, hlen]
    by_cases hl' : l.length ≤ c.length
    · rw [if_pos hl', moveToFront_eq ok.nodup l hl']
      obtain ⟨h1, h2, h3⟩ := perm_ok (h := h) ok (moveToFront_perm ok.nodup l).symm
      refine ⟨h1, abs_ext ?_ h3⟩
      dsimp only
      rw [observe_cols, acol_congr h2, List.map_append, filterMap_col ok.nodup,
        filter_cols (fun n => decide (n ∉ l))]
    · rw [if_neg hl']
      unfold itemMoveToFront getMoveCols
      rw [if_pos (by omega)]
      trivial
  | moveBack l =>
    simp only [step, Abs.step, hlen]
    by_cases hl' : l.length ≤ c.length
    · rw [if_pos hl', moveToBack_eq ok.nodup l hl']
      obtain ⟨h1, h2, h3⟩ := perm_ok (h := h) ok (moveToBack_perm ok.nodup l).symm
      refine ⟨h1, abs_ext ?_ h3⟩
      dsimp only
      rw [observe_cols, acol_congr h2, List.map_append, filterMap_col ok.nodup,
        filter_cols (fun n => decide (n ∉ l))]
    · rw [if_neg hl']
      unfold itemMoveToBack getMoveCols
      rw [if_pos (by omega)]
      trivial
  | addPrefix p =>
    have hnd : (c.keys.map (p ++ ·)).Nodup := ok.nodup.map fun a b e => List.append_cancel_left e
    simp only [step, Abs.step, itemAddPrefix]
    rw [rebuild_eq _ c hnd]
    exact mapNames_ok ok hnd
  | addSuffix p =>
    have hnd : (c.keys.map (· ++ p)).Nodup := ok.nodup.map fun a b e => List.append_cancel_right e
    simp only [step, Abs.step, itemAddSuffix]
    rw [rebuild_eq _ c hnd]
    exact mapNames_ok ok hnd
  | strReplace r =>
    simp only [Abs.Legal, observe_names] at hl
    simp only [step, Abs.step, itemStrReplace, observe_names]
    have e1 : (c.keys.any fun k => decide (r k ≠ k) && c.has (r k)) = true ↔
        ∃ k ∈ c.keys, r k ≠ k ∧ r k ∈ c.keys := by
      simp only [List.any_eq_true, Bool.and_eq_true, decide_eq_true_eq, has_iff]
    by_cases h1 : ∃ k ∈ c.keys, r k ≠ k ∧ r k ∈ c.keys
    · rw [if_pos (e1.mpr h1), if_pos h1]; trivial
    · rw [if_neg (fun e => h1 (e1.mp e)), if_neg h1]
      by_cases h2 : (c.keys.any fun k => decide (r k ≠ k)) = true
      · rw [if_pos h2, rebuild_eq _ c hl]
        exact mapNames_ok ok hl
      · rw [if_neg h2]
        have hid : ∀ k ∈ c.keys, r k = k := by
          intro k hk
          by_contra hne
          exact h2 (List.any_eq_true.mpr ⟨k, hk, by simpa using hne⟩)
        have hself : (c.map fun e => (r e.1, e.2)) = c := by
          refine (List.map_congr_left (g := id) ?_).trans (List.map_id c)
          intro e he
          show _ = e
          rw [hid e.1 (List.mem_map.mpr ⟨e, he, rfl⟩)]
        have := mapNames_ok (h := h) ok hl
        rw [hself] at this
        exact ⟨ok, this.2⟩
  | setAttr k x v =>
    simp only [Abs.Legal] at hl
    simp only [step, Abs.step, itemSetAttribute]
    cases hg : c.get k with
    | none =>
      rw [if_neg (fun e => (get_eq_none_iff c k).mp hg ((hhas k).mp e))]
      trivial
    | some it =>
      rw [if_pos ((hhas k).mpr (by by_contra hc; rw [← get_eq_none_iff, hg] at hc; simp at hc))]
      exact setAttr_ok ok hg x hl v
  | setTagged tag l => exact setTagged_ok ok tag hl l
  | removeTagged tag => exact removeTagged_ok ok tag hl

theorem exec_refines (ok : Ok h c) (op : Op V) (hl : (observe h c).Legal op) :
    Ok (exec (h, c) op).1 (exec (h, c) op).2 ∧
      observe (exec (h, c) op).1 (exec (h, c) op).2 = (observe h c).exec op := by
  have := step_refines ok op hl
  unfold exec Abs.exec
  cases h1 : step (h, c) op with
  | error e =>
    cases h2 : (observe h c).step op with
    | none => exact ⟨ok, rfl⟩
    | some a => rw [h1, h2] at this; exact this.elim
  | ok s =>
    cases h2 : (observe h c).step op with
    | none => rw [h1, h2] at this; exact this.elim
    | some a => rw [h1, h2] at this; exact this

end
end Verif.Items
