import Verif.Items.Order
import Mathlib.Order.Basic
import Mathlib.Data.Nat.Basic

/-! # Attributes and tags -/
namespace Verif.Items
open Dict

section
variable {V : Type} {h : Heap} {c : Container V}

theorem modify_eq {α : Type} (l : List α) (p : Nat) (f : α → α) : (l.modify p f)[p]? = l[p]?.map f := by
  simp [List.getElem?_modify]

theorem modify_ne {α : Type} (l : List α) {p q : Nat} (f : α → α) (h : p ≠ q) : (l.modify p f)[q]? = l[q]? := by
  simp [List.getElem?_modify, h]

/-- attribute lookup through the container -/
abbrev att (h : Heap) (c : Container V) (k a : Name) : Option Nat := itemGetAttribute h c k a

/-- Invariant of a container: distinct names, attribute objects exist and are not
shared between columns, and the tags of a kind are distinct. -/
structure Ok (h : Heap) (c : Container V) : Prop where
  nodup : c.keys.Nodup
  valid : ∀ k it p, c.get k = some it → it.attr = some p → p < h.length
  noshare : ∀ j it k it' p, c.get j = some it → c.get k = some it' → it.attr = some p → it'.attr = some p → j = k
  inj : ∀ t, isTag t = true → ∀ j k v, att h c j t = some v → att h c k t = some v → j = k

theorem ok_empty (h : Heap) : Ok h ([] : Container V) :=
  ⟨List.nodup_nil, by intro k it p h; simp at h, by intro j it k it' p h; simp at h,
   by intro t _ j k v h; simp [att, itemGetAttribute] at h⟩

theorem att_some_mem {k a : Name} {v : Nat} (h1 : att h c k a = some v) : k ∈ c.keys := by
  by_contra hk
  rw [← get_eq_none_iff] at hk
  simp [att, itemGetAttribute, hk] at h1

theorem att_mem (hn : c.keys.Nodup) {e : Name × Item V} (he : e ∈ c) (a : Name) :
    att h c e.1 a = (attrOf h e.2).bind fun o => o.get a := by
  unfold att itemGetAttribute
  rw [get_of_mem hn (k := e.1) (v := e.2) he]
  rfl

/-! ## The list of tagged columns -/

/-- `l` lists the columns with tag `t` by increasing tag value -/
structure TagRep (h : Heap) (c : Container V) (t : Name) (l : List Name) : Prop where
  mem : ∀ k, k ∈ l ↔ ∃ v, att h c k t = some v
  sorted : l.Pairwise fun j k => ∀ u v, att h c j t = some u → att h c k t = some v → u < v

theorem TagRep.nodup {t : Name} {l : List Name} (r : TagRep h c t l) : l.Nodup := by
  refine List.Pairwise.imp_of_mem (fun {a b} ha hb hab e => ?_) r.sorted
  subst e
  obtain ⟨v, hv⟩ := (r.mem a).mp ha
  exact absurd (hab v v hv hv) (lt_irrefl v)

theorem TagRep.inj {t : Name} {l : List Name} (r : TagRep h c t l) (j k : Name) (v : Nat)
    (hj : att h c j t = some v) (hk : att h c k t = some v) : j = k := by
  by_contra hne
  have h1 := (r.mem j).mpr ⟨v, hj⟩
  have h2 := (r.mem k).mpr ⟨v, hk⟩
  have := List.Pairwise.forall_of_forall_of_flip (l := l)
    (R := fun a b => a ≠ b → ∀ u w, att h c a t = some u → att h c b t = some w → u ≠ w)
    (fun x _ hx => absurd rfl hx)
    (r.sorted.imp fun {a b} hab _ u w hu hw => ne_of_lt (hab u w hu hw))
    (r.sorted.imp fun {a b} hab _ u w hu hw => ne_of_gt (hab w u hw hu))
  exact this h1 h2 hne v v hj hk rfl

theorem TagRep.unique {t : Name} {l l' : List Name} (r : TagRep h c t l) (r' : TagRep h c t l') : l = l' := by
  have hp : l.Perm l' := (List.perm_ext_iff_of_nodup r.nodup r'.nodup).mpr fun k => by rw [r.mem, r'.mem]
  refine hp.eq_of_pairwise ?_ r.sorted r'.sorted
  intro a b ha hb h1 h2
  obtain ⟨u, hu⟩ := (r.mem a).mp ha
  obtain ⟨v, hv⟩ := (r'.mem b).mp hb
  exact absurd (h1 u v hu hv) (not_lt.mpr (le_of_lt (h2 v u hv hu)))

/-- `(tag value, name)` pairs in container order -/
def tagPairs (h : Heap) (c : Container V) (t : Name) : Dict Nat Name :=
  c.filterMap fun e => ((attrOf h e.2).bind fun o => o.get t).map (·, e.1)

theorem dictMax_fold (h : Heap) (t : Name) : ∀ (c : Container V) (m : Int) (d : Dict Nat Name),
    (d ++ tagPairs h c t).keys.Nodup → (∀ e ∈ d, (e.1 : Int) ≤ m) →
    ∃ m' : Int, c.foldl (maxBody h t) (m, d) = (m', d ++ tagPairs h c t) ∧ m ≤ m' ∧ ∀ e ∈ d ++ tagPairs h c t, (e.1 : Int) ≤ m' := by
  intro c
  induction c with
  | nil => intro m d _ hm; exact ⟨m, by simp [tagPairs], Int.le_refl m, by simpa [tagPairs] using hm⟩
  | cons e c ih =>
    intro m d hn hm
    rw [List.foldl_cons, maxBody]
    cases hv : (attrOf h e.2).bind fun o => o.get t with
    | none =>
      have : tagPairs h (e :: c) t = tagPairs h c t := by unfold tagPairs; rw [List.filterMap_cons, hv]; rfl
      rw [this] at hn ⊢
      exact ih m d hn hm
    | some v =>
      have this : tagPairs h (e :: c) t = (v, e.1) :: tagPairs h c t := by
        unfold tagPairs; rw [List.filterMap_cons, hv]; rfl
      rw [this] at hn ⊢
      have hnot : v ∉ d.keys := by
        intro hmem
        rw [show keys (d ++ (v, e.1) :: tagPairs h c t) = d.keys ++ v :: keys (tagPairs h c t) by simp [keys]] at hn
        rw [List.nodup_append] at hn
        exact hn.2.2 v hmem v (by simp) rfl
      dsimp only
      rw [set_of_notMem hnot]
      have e1 : d ++ (v, e.1) :: tagPairs h c t = (d ++ [(v, e.1)]) ++ tagPairs h c t := by simp
      rw [e1] at hn ⊢
      obtain ⟨m', a1, a2, a3⟩ := ih (if (v : Int) > m then v else m) (d ++ [(v, e.1)]) hn (by
        intro x hx
        rcases List.mem_append.mp hx with hx | hx
        · have := hm x hx; split <;> omega
        · rw [List.mem_singleton] at hx; subst hx; dsimp only; split <;> omega)
      refine ⟨m', a1, ?_, a3⟩
      split at a2 <;> omega

theorem mem_tagPairs (hn : c.keys.Nodup) (t : Name) (v : Nat) (k : Name) :
    (v, k) ∈ tagPairs h c t ↔ att h c k t = some v := by
  unfold tagPairs
  rw [List.mem_filterMap]
  constructor
  · rintro ⟨e, he, h1⟩
    obtain ⟨w, h2, h3⟩ := Option.map_eq_some_iff.mp h1
    rw [Prod.mk.injEq] at h3
    obtain ⟨rfl, rfl⟩ := h3
    rw [att_mem hn he]
    exact h2
  · intro hk
    obtain ⟨it, hit⟩ : ∃ it, c.get k = some it := by
      rw [← Option.ne_none_iff_exists', Ne, get_eq_none_iff]
      exact fun hc => hc (att_some_mem hk)
    have hm := mem_of_get hit
    refine ⟨(k, it), hm, ?_⟩
    rw [att_mem hn hm] at hk
    rw [hk]
    rfl

theorem tagPairs_nodup (hn : c.keys.Nodup) (t : Name)
    (hi : ∀ j k v, att h c j t = some v → att h c k t = some v → j = k) : (tagPairs h c t).keys.Nodup := by
  have hc : c.Pairwise fun a b => a.1 ≠ b.1 := List.pairwise_map.mp hn
  unfold keys tagPairs
  rw [List.Nodup, List.pairwise_map, List.pairwise_filterMap]
  refine List.Pairwise.imp_of_mem (fun {a b} ha hb hab => ?_) hc
  intro x hx y hy e
  obtain ⟨u, hu, rfl⟩ := Option.map_eq_some_iff.mp hx
  obtain ⟨w, hw, rfl⟩ := Option.map_eq_some_iff.mp hy
  dsimp only at e
  subst e
  rw [← att_mem hn ha] at hu
  rw [← att_mem hn hb] at hw
  exact hab (hi _ _ u hu hw)

/-- `_tagged_get_names` lists the tagged columns by increasing tag -/
theorem tagRep_get (ok : Ok h c) (t : Name) (ht : isTag t = true) : TagRep h c t (taggedGetNames h c t) := by
  have hi := ok.inj t ht
  have hn := ok.nodup
  have hp := tagPairs_nodup hn t hi
  obtain ⟨m, e1, e2, e3⟩ := dictMax_fold h t c (-1) [] (by simpa using hp) (by simp)
  have hget : ∀ v k, (tagPairs h c t).get v = some k ↔ att h c k t = some v := by
    intro v k; rw [get_iff hp, mem_tagPairs hn]
  have hval : taggedGetNames h c t =
      if m ≥ 0 then (List.range (m + 1).toNat).filterMap (tagPairs h c t).get else [] := by
    unfold taggedGetNames taggedGetDictMax
    rw [e1]
    rfl
  have hb : ∀ k v, att h c k t = some v → (v : Int) ≤ m := by
    intro k v hk
    exact e3 (v, k) (by simpa using (mem_tagPairs hn t v k).mpr hk)
  rw [hval]
  split
  · constructor
    · intro k
      rw [List.mem_filterMap]
      constructor
      · rintro ⟨i, _, h2⟩; exact ⟨i, (hget i k).mp h2⟩
      · rintro ⟨v, hv⟩
        refine ⟨v, ?_, (hget v k).mpr hv⟩
        have := hb k v hv
        rw [List.mem_range]
        omega
    · rw [List.pairwise_filterMap]
      refine List.pairwise_lt_range.imp fun {i j} hij x hx y hy u v hu hv => ?_
      rw [hget] at hx hy
      rw [hx] at hu
      rw [hy] at hv
      rw [← Option.some.inj hu, ← Option.some.inj hv]
      exact hij
  · rename_i hm
    constructor
    · intro k
      constructor
      · simp
      · rintro ⟨v, hv⟩
        have := hb k v hv
        omega
    · exact List.Pairwise.nil

theorem tagged_eq (ok : Ok h c) {t : Name} (ht : isTag t = true) {l : List Name} (r : TagRep h c t l) :
    taggedGetNames h c t = l := (tagRep_get ok t ht).unique r

/-! ## Setting attributes -/

/-- `_set_attribute` changes one attribute of one column -/
theorem att_setAttribute (ok : Ok h c) {k : Name} {it : Item V} (hk : c.get k = some it) (a : Name) (v : Nat)
    (k' a' : Name) :
    att (setAttribute (h, c) k it a v).1 (setAttribute (h, c) k it a v).2 k' a' =
      if k' = k ∧ a' = a then some v else att h c k' a' := by
  unfold setAttribute
  cases hit : it.attr with
  | none =>
    dsimp only
    unfold att itemGetAttribute attrOf
    rw [get_set]
    by_cases h1 : k' = k
    · subst h1
      rw [if_pos rfl, hk]
      simp only [Option.bind_some, hit, List.getElem?_concat_length, Option.bind_none, true_and]
      rw [get_cons]
      by_cases h2 : a' = a
      · subst h2; simp
      · rw [if_neg (Ne.symm h2), if_neg h2]; rfl
    · rw [if_neg h1, if_neg (fun hc => h1 hc.1)]
      cases hg : c.get k' with
      | none => rfl
      | some it' =>
        simp only [Option.bind_some]
        cases ha : it'.attr with
        | none => rfl
        | some p =>
          simp only [Option.bind_some]
          rw [List.getElem?_append_left (ok.valid k' it' p hg ha)]
  | some p =>
    dsimp only
    unfold att itemGetAttribute attrOf
    rw [get_set]
    have hp := ok.valid k it p hk hit
    by_cases h1 : k' = k
    · subst h1
      rw [if_pos rfl, hk]
      simp only [Option.bind_some, hit, true_and, modify_eq, List.getElem?_eq_getElem hp,
        Option.map_some, get_set]
    · rw [if_neg h1, if_neg (fun hc => h1 hc.1)]
      cases hg : c.get k' with
      | none => rfl
      | some it' =>
        simp only [Option.bind_some]
        cases ha : it'.attr with
        | none => rfl
        | some q =>
          simp only [Option.bind_some]
          have : p ≠ q := fun e => h1 (ok.noshare k' it' k it q hg hk ha (e ▸ hit))
          rw [modify_ne _ _ this]

theorem set_map_attr {k : Name} {it it' : Item V} (hk : c.get k = some it) (hn : c.keys.Nodup)
    (hv : it'.val = it.val) :
    (c.set k it').map (fun e => (e.1, e.2.val)) = c.map fun e => (e.1, e.2.val) := by
  have hm : k ∈ c.keys := by
    by_contra hc; rw [← get_eq_none_iff, hk] at hc; simp at hc
  rw [set_of_mem hm, List.map_map]
  apply List.map_congr_left
  intro e he
  simp only [Function.comp]
  split
  · rename_i hek
    have := get_of_mem hn (k := e.1) (v := e.2) he
    rw [hek, hk] at this
    rw [hv, Option.some.inj this, hek]
  · rfl

theorem setAttribute_vals (hn : c.keys.Nodup) {k : Name} {it : Item V} (hk : c.get k = some it) (a : Name) (v : Nat) :
    (setAttribute (h, c) k it a v).2.map (fun e => (e.1, e.2.val)) = c.map fun e => (e.1, e.2.val) := by
  unfold setAttribute
  split <;> exact set_map_attr hk hn rfl

theorem keys_of_vals {c c' : Container V} (hv : c'.map (fun e => (e.1, e.2.val)) = c.map fun e => (e.1, e.2.val)) :
    c'.keys = c.keys := by
  have := congrArg (List.map Prod.fst) hv
  simpa [keys, List.map_map, Function.comp_def] using this

/-- the part of the invariant that does not mention tags -/
structure Ok0 (h : Heap) (c : Container V) : Prop where
  nodup : c.keys.Nodup
  valid : ∀ k it p, c.get k = some it → it.attr = some p → p < h.length
  noshare : ∀ j it k it' p, c.get j = some it → c.get k = some it' → it.attr = some p → it'.attr = some p → j = k

theorem setAttribute_ok0 (ok : Ok h c) {k : Name} {it : Item V} (hk : c.get k = some it) (a : Name) (v : Nat) :
    Ok0 (setAttribute (h, c) k it a v).1 (setAttribute (h, c) k it a v).2 := by
  unfold setAttribute
  cases hit : it.attr with
  | none =>
    refine ⟨nodup_set ok.nodup _ _, ?_, ?_⟩
    · intro j jt p hj hp
      dsimp only at hj ⊢
      rw [List.length_append, List.length_singleton]
      rw [get_set] at hj
      split at hj
      · rw [← Option.some.inj hj] at hp
        dsimp only at hp
        have := Option.some.inj hp; omega
      · have := ok.valid j jt p hj hp; omega
    · intro j jt j' jt' p hj hj' hp hp'
      dsimp only at hj hj'
      rw [get_set] at hj hj'
      split at hj <;> split at hj'
      · rename_i e1 e2; rw [e1, e2]
      · rw [← Option.some.inj hj] at hp
        dsimp only at hp
        have := ok.valid j' jt' p hj' hp'
        have := Option.some.inj hp; omega
      · rw [← Option.some.inj hj'] at hp'
        dsimp only at hp'
        have := ok.valid j jt p hj hp
        have := Option.some.inj hp'; omega
      · exact ok.noshare j jt j' jt' p hj hj' hp hp'
  | some q =>
    have hg : ∀ j, (c.set k it).get j = c.get j := by
      intro j; rw [get_set]; split
      · rename_i e; rw [e, hk]
      · rfl
    refine ⟨nodup_set ok.nodup _ _, ?_, ?_⟩
    · intro j jt p hj hp
      dsimp only at hj ⊢
      rw [hg] at hj
      rw [List.length_modify]
      exact ok.valid j jt p hj hp
    · intro j jt j' jt' p hj hj'
      dsimp only at hj hj'
      rw [hg] at hj hj'
      exact ok.noshare j jt j' jt' p hj hj'

theorem Ok0.ok (h0 : Ok0 h c) (hi : ∀ t, isTag t = true → ∃ l, TagRep h c t l) : Ok h c :=
  ⟨h0.nodup, h0.valid, h0.noshare, fun t ht => by obtain ⟨l, r⟩ := hi t ht; exact r.inj⟩

theorem TagRep.congr {h' : Heap} {c' : Container V} {t : Name} {l : List Name} (r : TagRep h c t l)
    (e : ∀ k, att h' c' k t = att h c k t) : TagRep h' c' t l :=
  ⟨fun k => by rw [e]; exact r.mem k, r.sorted.imp fun {a b} hab u v => by rw [e, e]; exact hab u v⟩

/-! ## Removing a tag -/

theorem taggedRemove_length (t : Name) : ∀ (c : Container V) (h : Heap), (taggedRemove h c t).length = h.length := by
  intro c
  induction c with
  | nil => intro h; rfl
  | cons e c ih =>
    intro h
    show (taggedRemove (removeBody t h e) c t).length = _
    rw [ih, removeBody]
    split <;> simp

theorem taggedRemove_getElem? (t : Name) (p : Nat) : ∀ (c : Container V) (h : Heap) (a : Name),
    ((taggedRemove h c t)[p]?).bind (fun o => o.get a) =
      if (∃ e ∈ c, e.2.attr = some p) ∧ a = t then none else (h[p]?).bind fun o => o.get a := by
  intro c
  induction c with
  | nil => intro h a; simp [taggedRemove]
  | cons e c ih =>
    intro h a
    show ((taggedRemove (removeBody t h e) c t)[p]?).bind _ = _
    rw [ih, removeBody]
    cases he : e.2.attr with
    | none =>
      have : (∃ e' ∈ e :: c, e'.2.attr = some p) ↔ ∃ e' ∈ c, e'.2.attr = some p := by
        simp [he]
      simp only [this]
    | some q =>
      dsimp only
      by_cases hpq : q = p
      · subst hpq
        rw [modify_eq]
        cases hq : h[q]? with
        | none => simp
        | some o =>
          simp only [Option.map_some, Option.bind_some, get_del, List.mem_cons, exists_eq_or_imp, he, true_or, true_and]
          by_cases ha : a = t <;> simp [ha]
      · rw [modify_ne _ _ hpq]
        have : (∃ e' ∈ e :: c, e'.2.attr = some p) ↔ ∃ e' ∈ c, e'.2.attr = some p := by
          simp [he, hpq]
        simp only [this]

theorem att_taggedRemove (hn : c.keys.Nodup) (t k a : Name) :
    att (taggedRemove h c t) c k a = if a = t then none else att h c k a := by
  unfold att itemGetAttribute attrOf
  cases hg : c.get k with
  | none => simp
  | some it =>
    simp only [Option.bind_some]
    cases hp : it.attr with
    | none => simp
    | some p =>
      simp only [Option.bind_some]
      rw [taggedRemove_getElem?]
      have : ∃ e ∈ c, e.2.attr = some p := ⟨(k, it), mem_of_get hg, hp⟩
      simp [this]

theorem taggedRemove_ok (ok : Ok h c) (t : Name) : Ok (taggedRemove h c t) c := by
  refine ⟨ok.nodup, fun k it p a b => ?_, ok.noshare, fun t' ht' j k v hj hk => ?_⟩
  · rw [taggedRemove_length]; exact ok.valid k it p a b
  · rw [att_taggedRemove ok.nodup] at hj hk
    split at hj
    · simp at hj
    · rename_i hne
      rw [if_neg hne] at hk
      exact ok.inj t' ht' j k v hj hk

/-! ## Setting tagged names -/

theorem taggedSetNames_eq (s : Heap × Container V) (names : List Name) (tag : Name) :
    taggedSetNames s names tag = names.zipIdx.foldl (tagBody tag) (taggedRemove s.1 s.2 tag, s.2) := rfl

/-- state after setting a prefix of the names -/
structure TagStep (h : Heap) (c : Container V) (tag : Name) (l : List Name) (s : Heap × Container V) : Prop where
  ok : Ok s.1 s.2
  vals : s.2.map (fun e => (e.1, e.2.val)) = c.map fun e => (e.1, e.2.val)
  other : ∀ k a, a ≠ tag → att s.1 s.2 k a = att h c k a
  rep : TagRep s.1 s.2 tag (l.filter fun k => k ∈ c.keys).dedup
  bound : ∀ k v, att s.1 s.2 k tag = some v → v < l.length

theorem tagStep_set (ok : Ok h c) (tag : Name) (l : List Name) :
    TagStep h c tag l (l.zipIdx.foldl (tagBody tag) (taggedRemove h c tag, c)) := by
  induction l using List.reverseRecOn with
  | nil =>
    refine ⟨taggedRemove_ok ok tag, rfl, ?_, ⟨?_, List.Pairwise.nil⟩, ?_⟩
    · intro k a ha; exact (att_taggedRemove ok.nodup tag k a).trans (if_neg ha)
    · intro k
      constructor
      · simp
      · rintro ⟨v, hv⟩
        have := att_taggedRemove ok.nodup (h := h) tag k tag
        rw [if_pos rfl] at this
        have hv : att (taggedRemove h c tag) c k tag = some v := hv
        rw [this] at hv
        simp at hv
    · intro k v hv
      have := att_taggedRemove ok.nodup (h := h) tag k tag
      rw [if_pos rfl] at this
      have hv : att (taggedRemove h c tag) c k tag = some v := hv
      rw [this] at hv
      simp at hv
  | append_singleton l k ih =>
    rw [List.zipIdx_append, List.foldl_append]
    simp only [List.zipIdx_singleton, List.foldl_cons, List.foldl_nil, Nat.zero_add]
    generalize l.zipIdx.foldl (tagBody tag) (taggedRemove h c tag, c) = s at ih ⊢
    obtain ⟨sh, sc⟩ := s
    have hkeys := keys_of_vals ih.vals
    unfold tagBody
    dsimp only at ih hkeys ⊢
    cases hg : sc.get k with
    | none =>
      have hk : k ∉ c.keys := by rw [← hkeys]; exact (get_eq_none_iff _ _).mp hg
      refine ⟨ih.ok, ih.vals, ih.other, ?_, fun k' v hv => ?_⟩
      · rw [List.filter_append]
        simpa [hk] using ih.rep
      · have := ih.bound k' v hv
        simp only [List.length_append, List.length_singleton]; omega
    | some it =>
      have hk : k ∈ c.keys := by
        rw [← hkeys]; by_contra hc; rw [← get_eq_none_iff, hg] at hc; simp at hc
      have hatt := fun k' a' => att_setAttribute ih.ok hg tag l.length k' a'
      have hrep : TagRep (setAttribute (sh, sc) k it tag l.length).1 (setAttribute (sh, sc) k it tag l.length).2 tag
          ((l ++ [k]).filter fun k => k ∈ c.keys).dedup := by
        rw [List.filter_append, show List.filter (fun k => decide (k ∈ c.keys)) [k] = [k] by simp [hk],
          dedup_append_singleton]
        constructor
        · intro k'
          rw [hatt, List.mem_append, List.mem_filter, ih.rep.mem, List.mem_singleton]
          by_cases h1 : k' = k
          · simp [h1]
          · simp [h1]
        · rw [List.pairwise_append]
          refine ⟨?_, by simp, ?_⟩
          · refine List.Pairwise.imp_of_mem (fun {a b} ha hb hab u v hu hv => ?_) (ih.rep.sorted.filter _)
            have h1 := of_decide_eq_true (List.mem_filter.mp ha).2
            have h2 := of_decide_eq_true (List.mem_filter.mp hb).2
            rw [hatt, if_neg (fun e => h1 e.1)] at hu
            rw [hatt, if_neg (fun e => h2 e.1)] at hv
            exact hab u v hu hv
          · intro a ha b hb u v hu hv
            have h1 := of_decide_eq_true (List.mem_filter.mp ha).2
            rw [List.mem_singleton] at hb
            subst hb
            rw [hatt, if_neg (fun e => h1 e.1)] at hu
            rw [hatt, if_pos ⟨rfl, rfl⟩] at hv
            rw [← Option.some.inj hv]
            exact ih.bound a u hu
      refine ⟨(setAttribute_ok0 ih.ok hg tag _).ok ?_, (setAttribute_vals ih.ok.nodup hg _ _).trans ih.vals, ?_, hrep, ?_⟩
      · intro t ht
        by_cases h1 : t = tag
        · subst h1; exact ⟨_, hrep⟩
        · refine ⟨_, (tagRep_get ih.ok t ht).congr fun k' => ?_⟩
          rw [hatt, if_neg (fun e => h1 e.2)]
      · intro k' a ha
        rw [hatt, if_neg (fun e => ha e.2)]
        exact ih.other k' a ha
      · intro k' v hv
        rw [hatt] at hv
        simp only [List.length_append, List.length_singleton]
        split at hv
        · have := Option.some.inj hv; omega
        · have := ih.bound k' v hv; omega

end
end Verif.Items
