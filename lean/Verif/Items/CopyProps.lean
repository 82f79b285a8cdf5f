import Verif.Items.Copy

/-! # C15: what copies share and what they do not -/
namespace Verif.Items
open Dict

section
variable {V : Type} {h h' : Heap} {c c' : Container V}

/-- The copied part of a dataset: the chosen columns in the chosen order, and the
labels and summaries among them. -/
def Abs.select (a : Abs V) (l : List Name) : Abs V :=
  ⟨l.reverse.dedup.reverse.filterMap a.col, fun t => (a.tagged t).filter (· ∈ l)⟩

/-- without the attributes that `ItemAttribute.copy` skips -/
def Abs.dropExcluded (a : Abs V) : Abs V :=
  { a with cols := a.cols.map fun x => { x with attrs := fun y => if excluded y then none else x.attrs y } }

/-- the names a copy asks for: all, or the given list -/
def wanted (a : Abs V) (cols : Option (List Name)) : List Name := cols.getD a.names

theorem excluded_tag {t : Name} (ht : isTag t = true) : excluded t = false := by
  unfold isTag at ht
  rw [Bool.or_eq_true, beq_iff_eq, beq_iff_eq] at ht
  rcases ht with rfl | rfl <;> decide

theorem copy_fold (c : Container V) (l : List Name) : ∀ acc, (∀ k ∈ l, k ∈ c.keys) →
    l.foldlM (copyBody c) acc = .ok (l.foldl (frontBody c) acc) := by
  induction l with
  | nil => intro acc _; rfl
  | cons k l ih =>
    intro acc hl
    rw [List.foldlM_cons, List.foldl_cons]
    obtain ⟨it, hit⟩ : ∃ it, c.get k = some it := by
      rw [← Option.ne_none_iff_exists', Ne, get_eq_none_iff]; exact fun hc => hc (hl k (by simp))
    have h1 : copyBody c acc k = .ok (acc.set k it) := by unfold copyBody; rw [hit]
    rw [h1]
    have : frontBody c acc k = acc.set k it := by unfold frontBody; rw [hit]
    rw [this]
    exact ih _ fun k' hk' => hl k' (by simp [hk'])

theorem filterMap_entry_self (hn : c.keys.Nodup) : c.keys.filterMap (entry c) = c := by
  unfold keys
  rw [List.filterMap_map]
  have : ∀ e ∈ c, (entry c ∘ Prod.fst) e = some e := by
    intro e he
    simp only [Function.comp, entry, get_of_mem hn he, Option.map_some]
  rw [List.filterMap_congr this, List.filterMap_some]

/-- the sub-container a copy has -/
theorem copy_eq (hn : c.keys.Nodup) (cols : Option (List Name)) (hc : ∀ k ∈ wanted (observe h c) cols, k ∈ c.keys) :
    copy c cols = .ok ((wanted (observe h c) cols).reverse.dedup.reverse.filterMap (entry c)) := by
  cases cols with
  | none =>
    simp only [wanted, Option.getD_none, observe_names]
    rw [(List.nodup_reverse.mpr hn).dedup, List.reverse_reverse, filterMap_entry_self hn]
    rfl
  | some l =>
    simp only [wanted, Option.getD_some] at hc ⊢
    show l.foldlM (copyBody c) [] = _
    rw [copy_fold c l [] hc, front_fold]

theorem sub_ok (ok : Ok h c) {l : List Name} (hl : l.Nodup) (hs : ∀ k ∈ l, k ∈ c.keys) :
    Ok h (l.filterMap (entry c)) ∧ keys (l.filterMap (entry c)) = l ∧
    (∀ k a, att h (l.filterMap (entry c)) k a = if k ∈ l then att h c k a else none) ∧
    observe h (l.filterMap (entry c)) =
      ⟨l.filterMap (observe h c).col, fun t => ((observe h c).tagged t).filter (· ∈ l)⟩ := by
  have hk : keys (l.filterMap (entry c)) = l := by
    rw [keys_filterMap_entry, List.filter_eq_self.mpr (by simpa using hs)]
  have hn : (keys (l.filterMap (entry c))).Nodup := by rw [hk]; exact hl
  have hg : ∀ k, get (l.filterMap (entry c)) k = if k ∈ l then c.get k else none := by
    intro k
    by_cases hm : k ∈ l
    · rw [if_pos hm]
      apply Option.ext
      intro it
      rw [get_iff hn, List.mem_filterMap]
      constructor
      · rintro ⟨k', _, he⟩
        obtain ⟨a, b⟩ := entry_some he
        rw [← a] at b
        exact b
      · intro he
        exact ⟨k, hm, by rw [entry, he]; rfl⟩
    · rw [if_neg hm, get_eq_none_iff, hk]; exact hm
  have ha : ∀ k a, att h (l.filterMap (entry c)) k a = if k ∈ l then att h c k a else none := by
    intro k a
    unfold att itemGetAttribute
    rw [hg]
    split <;> rfl
  have hok : Ok h (l.filterMap (entry c)) := by
    refine ⟨hn, ?_, ?_, ?_⟩
    · intro k it p; rw [hg]; split
      · exact ok.valid k it p
      · intro h; simp at h
    · intro j it k it' p; rw [hg, hg]; split
      · split
        · exact ok.noshare j it k it' p
        · intro _ h; simp at h
      · intro h; simp at h
    · intro t ht j k v; rw [ha, ha]; split
      · split
        · exact ok.inj t ht j k v
        · intro _ h; simp at h
      · intro h; simp at h
  refine ⟨hok, hk, ha, abs_ext ?_ ?_⟩
  · dsimp only
    rw [filterMap_col ok.nodup, observe_cols]
    apply List.map_congr_left
    intro e he
    have hm : e.1 ∈ l := by rw [← hk]; exact List.mem_map.mpr ⟨e, he, rfl⟩
    simp only [acol, ACol.mk.injEq, true_and]
    funext x
    rw [ha, if_pos hm]
  · intro t
    dsimp only
    rw [observe_tagged, observe_tagged]
    by_cases ht : isTag t = true
    · rw [if_pos ht, if_pos ht]
      have r := tagRep_get ok t ht
      apply tagged_eq hok ht
      refine ⟨fun j => ?_, ?_⟩
      · rw [List.mem_filter, r.mem, ha]
        by_cases hj : j ∈ l <;> simp [hj]
      · refine (r.sorted.filter _).imp_of_mem fun {a b} hma hmb hab u v hu hv => ?_
        rw [ha] at hu hv
        split at hu
        · split at hv
          · exact hab u v hu hv
          · simp at hv
        · simp at hu
    · simp [ht]

/-! ## Deep copies -/

/-- `e'` is the copy of `e`, with a new attribute object -/
structure Copied (n : Nat) (h g : Heap) (e e' : Name × Item V) : Prop where
  name : e'.1 = e.1
  val : e'.2.val = e.2.val
  fresh : ∀ p, e'.2.attr = some p → n ≤ p ∧ p < g.length
  attr : attrOf g e'.2 = (attrOf h e.2).map copyAttr

theorem forall2_mem {α β : Type} {R : α → β → Prop} {l : List α} {m : List β} (hr : List.Forall₂ R l m) {b : β}
    (hb : b ∈ m) : ∃ a ∈ l, R a b := by
  induction hr with
  | nil => simp at hb
  | cons h1 _ ih =>
    rcases List.mem_cons.mp hb with rfl | h2
    · exact ⟨_, by simp, h1⟩
    · obtain ⟨a, ha, hab⟩ := ih h2
      exact ⟨a, by simp [ha], hab⟩

theorem forall2_map {α β γ : Type} {R : α → β → Prop} {l : List α} {m : List β} (hr : List.Forall₂ R l m)
    (f : α → γ) (g : β → γ) (hfg : ∀ a b, R a b → g b = f a) : m.map g = l.map f := by
  induction hr with
  | nil => rfl
  | cons h1 _ ih => rw [List.map_cons, List.map_cons, hfg _ _ h1, ih]

theorem deepen_fold (h : Heap) : ∀ (c : Container V) (g : Heap) (acc : Container V),
    (∀ e ∈ c, ∀ p, e.2.attr = some p → p < h.length) →
    ∃ (ext : Heap) (d : Container V),
      c.foldl (deepBody h) (g, acc) = (g ++ ext, acc ++ d) ∧
      List.Forall₂ (Copied g.length h (g ++ ext)) c d ∧
      d.Pairwise (fun e e' => ∀ p, e.2.attr = some p → e'.2.attr ≠ some p) := by
  intro c
  induction c with
  | nil => intro g acc _; exact ⟨[], [], by simp, .nil, .nil⟩
  | cons e c ih =>
    intro g acc hv
    have hv' : ∀ e ∈ c, ∀ p, e.2.attr = some p → p < h.length := fun e' he' => hv e' (by simp [he'])
    rw [List.foldl_cons]
    cases ho : attrOf h e.2 with
    | none =>
      have hnone : e.2.attr = none := by
        cases hat : e.2.attr with
        | none => rfl
        | some p =>
          have := hv e (by simp) p hat
          unfold attrOf at ho
          rw [hat] at ho
          simp at ho
          omega
      have hb : deepBody h (g, acc) e = (g, acc ++ [e]) := by unfold deepBody; rw [ho]
      obtain ⟨ext, d, h1, h2, h3⟩ := ih g (acc ++ [e]) hv'
      refine ⟨ext, e :: d, ?_, ?_, ?_⟩
      · rw [hb, h1]; simp
      · refine .cons ⟨rfl, rfl, ?_, ?_⟩ h2
        · intro p hp; rw [hnone] at hp; simp at hp
        · rw [ho]; unfold attrOf; rw [hnone]; rfl
      · refine List.Pairwise.cons ?_ h3
        intro e' _ p hp; rw [hnone] at hp; simp at hp
    | some o =>
      have hb : deepBody h (g, acc) e =
          (g ++ [copyAttr o], acc ++ [(e.1, { e.2 with attr := some g.length })]) := by unfold deepBody; rw [ho]
      obtain ⟨ext, d, h1, h2, h3⟩ := ih (g ++ [copyAttr o]) (acc ++ [(e.1, { e.2 with attr := some g.length })]) hv'
      refine ⟨copyAttr o :: ext, (e.1, { e.2 with attr := some g.length }) :: d, ?_, ?_, ?_⟩
      · rw [hb, h1]; simp
      · refine .cons ⟨rfl, rfl, ?_, ?_⟩ ?_
        · intro p hp
          simp only [Option.some.injEq] at hp
          subst hp
          simp
        · rw [ho]
          simp [attrOf]
        · refine h2.imp fun a b hab => ⟨hab.name, hab.val, fun p hp => ?_, ?_⟩
          · have := hab.fresh p hp
            simp at this ⊢
            omega
          · have := hab.attr
            rw [List.append_assoc, List.singleton_append] at this
            exact this
      · refine List.Pairwise.cons ?_ h3
        intro e' he' p hp hp'
        simp only [Option.some.injEq] at hp
        subst hp
        obtain ⟨e0, _, hee⟩ := forall2_mem h2 he'
        have := hee.fresh _ hp'
        simp at this
        omega

theorem get_copyAttr (o : Attr) (a : Name) : (copyAttr o).get a = if excluded a then none else o.get a := by
  unfold copyAttr Dict.get
  induction o with
  | nil => simp
  | cons e o ih =>
    rw [List.filter_cons]
    by_cases hx : excluded e.1 = true
    · simp only [hx, Bool.not_true, Bool.false_eq_true, if_false]
      rw [ih, List.find?_cons]
      by_cases he : e.1 = a
      · rw [← he, hx]; rfl
      · simp [he]
    · simp only [hx]
      by_cases he : e.1 = a
      · simp [← he, hx]
      · simp only [Bool.not_false, if_true, List.find?_cons, he, decide_false]
        exact ih

theorem pairwise_mem_eq {α : Type} {R : α → α → Prop} {l : List α} (hl : l.Pairwise R) {a b : α} (ha : a ∈ l) (hb : b ∈ l)
    (h1 : ¬ R a b) (h2 : ¬ R b a) : a = b := by
  induction hl with
  | nil => simp at ha
  | cons hx _ ih =>
    rcases List.mem_cons.mp ha with ha | ha
    · rcases List.mem_cons.mp hb with hb | hb
      · rw [ha, hb]
      · exact absurd (hx _ hb) (ha ▸ h1)
    · rcases List.mem_cons.mp hb with hb | hb
      · exact absurd (hx _ ha) (hb ▸ h2)
      · exact ih ha hb

theorem deepen_ok (ok : Ok h c) :
    ∃ h' c', deepen h c = (h', c') ∧ Frame h ([] : Container V) h' c' ∧ Ok h' c' ∧
      c'.map (fun e => (e.1, e.2.val)) = c.map (fun e => (e.1, e.2.val)) ∧
      ∀ k a, att h' c' k a = if excluded a then none else att h c k a := by
  have hv : ∀ e ∈ c, ∀ p, e.2.attr = some p → p < h.length := fun e he p hp =>
    ok.valid e.1 e.2 p (get_of_mem ok.nodup he) hp
  obtain ⟨ext, d, h1, h2, h3⟩ := deepen_fold h c h [] hv
  rw [List.nil_append] at h1
  have hvals : d.map (fun e => (e.1, e.2.val)) = c.map (fun e => (e.1, e.2.val)) :=
    forall2_map h2 _ _ fun a b hab => by rw [hab.name, hab.val]
  have hkeys : d.keys = c.keys := forall2_map h2 _ _ fun a b hab => hab.name
  have hn : d.keys.Nodup := hkeys ▸ ok.nodup
  have ha : ∀ k a, att (h ++ ext) d k a = if excluded a then none else att h c k a := by
    intro k a
    cases hg : get d k with
    | none =>
      have : c.get k = none := by rw [get_eq_none_iff, ← hkeys, ← get_eq_none_iff]; exact hg
      simp [att, itemGetAttribute, hg, this]
    | some it =>
      obtain ⟨e0, he0, hee⟩ := forall2_mem h2 (mem_of_get hg)
      have hg0 : c.get k = some e0.2 := by
        have := get_of_mem ok.nodup he0
        rw [← hee.name] at this
        exact this
      unfold att itemGetAttribute
      rw [hg, hg0, Option.bind_some, Option.bind_some, hee.attr]
      cases attrOf h e0.2 with
      | none => simp
      | some o => simp [get_copyAttr]
  refine ⟨h ++ ext, d, h1, ⟨by simp, fun p hp _ => List.getElem?_append_left hp, fun p ⟨e, he, hp⟩ => ?_⟩, ?_, hvals, ha⟩
  · obtain ⟨e0, _, hee⟩ := forall2_mem h2 he
    exact .inr (hee.fresh p hp).1
  · refine ⟨hn, ?_, ?_, ?_⟩
    · intro k it p hk hp
      obtain ⟨e0, _, hee⟩ := forall2_mem h2 (mem_of_get hk)
      exact (hee.fresh p hp).2
    · intro j it k it' p hj hk hp hp'
      have := pairwise_mem_eq h3 (mem_of_get hj) (mem_of_get hk) (fun hc => hc p hp hp') (fun hc => hc p hp' hp)
      exact congrArg Prod.fst this
    · intro t ht j k v
      rw [ha, ha, excluded_tag ht]
      exact ok.inj t ht j k v

theorem deepen_observe (ok : Ok h c) :
    ∃ h' c', deepen h c = (h', c') ∧ Frame h ([] : Container V) h' c' ∧ Ok h' c' ∧
      observe h' c' = (observe h c).dropExcluded := by
  obtain ⟨h', c', h1, h2, h3, h4, h5⟩ := deepen_ok ok
  refine ⟨h', c', h1, h2, h3, abs_ext ?_ ?_⟩
  · have key : ∀ (h : Heap) (c : Container V), (observe h c).cols =
        (c.map fun e => (e.1, e.2.val)).map fun p =>
          ⟨p.1, p.2, fun x => if isTag x then none else att h c p.1 x⟩ := by
      intro h c; simp [observe, Function.comp_def]
    simp only [Abs.dropExcluded]
    rw [key, key, h4, List.map_map, List.map_map, List.map_map]
    apply List.map_congr_left
    intro e _
    simp only [Function.comp, ACol.mk.injEq, true_and]
    funext x
    rw [h5]
    by_cases hx : excluded x = true <;> simp [hx]
  · intro t
    simp only [Abs.dropExcluded, observe_tagged]
    by_cases ht : isTag t = true
    · rw [if_pos ht, if_pos ht]
      refine tagged_eq h3 ht ((tagRep_get ok t ht).congr fun k => ?_)
      rw [h5, excluded_tag ht]
      rfl
    · simp [ht]

theorem keys_of_observe {h h' : Heap} {c c' : Container V} {a : Abs V} (hc : observe h' c' = a) :
    c'.keys = a.names := by rw [← observe_names h', hc]

/-- C15, deep copies: `ds.copy()` gives the chosen columns with their values,
attributes and labels, leaves the original unchanged and shares no attribute object
with it.  The copy lacks the attributes whose name is `_`-prefixed or a substring of
"copy" (see `copy_drops_attribute_counterexample`). -/
theorem deep_copy_correct (r : Reachable h c) (cols : Option (List Name))
    (hc : ∀ k ∈ wanted (observe h c) cols, k ∈ c.keys) :
    ∃ h' c', datasetCopy h c true cols = .ok (h', c') ∧
      observe h' c = observe h c ∧
      observe h' c' = ((observe h c).select (wanted (observe h c) cols)).dropExcluded ∧
      Ok h' c ∧ Ok h' c' ∧ Apart c c' := by
  have ok := reachable_ok r
  have hcopy := copy_eq (h := h) ok.nodup cols hc
  generalize hw : wanted (observe h c) cols = w at hcopy hc
  have hwn : w.reverse.dedup.reverse.Nodup := List.nodup_reverse.mpr (List.nodup_dedup _)
  obtain ⟨s1, s2, s3, s4⟩ := sub_ok ok hwn (fun k hk => hc k (by simpa using hk))
  obtain ⟨h', c', d1, d2, d3, d4⟩ := deepen_observe s1
  have hap : Apart ([] : Container V) c := fun p ⟨e, he, _⟩ => by simp at he
  obtain ⟨o1, o2, o3⟩ := other_side d2 ok hap
  have hlab : taggedGetNames h' c tagLabel = taggedGetNames h c tagLabel := by
    have := congrArg (fun o => o.tagged tagLabel) o3
    simp only [observe_tagged] at this
    rwa [if_pos (by decide), if_pos (by decide)] at this
  have hsel : observe h' c' = ((observe h c).select w).dropExcluded := by
    rw [d4, s4]
    unfold Abs.select
    congr 2
    funext t
    congr 1
    funext k
    simp
  obtain ⟨t1, t2⟩ := setTagged_ok d3 tagLabel (by decide) (taggedGetNames h' c tagLabel)
  obtain ⟨u1, u2, u3⟩ := other_side (frame_taggedSetNames (taggedGetNames h' c tagLabel) tagLabel) o1 o2
  refine ⟨(taggedSetNames (h', c') (taggedGetNames h' c tagLabel) tagLabel).1,
    (taggedSetNames (h', c') (taggedGetNames h' c tagLabel) tagLabel).2, ?_, u3.trans o3, ?_, u1, t1, u2.symm⟩
  · unfold datasetCopy
    rw [hcopy]
    simp only [if_true]
    rw [d1]
  · rw [t2, hsel]
    refine abs_ext rfl fun t => ?_
    dsimp only
    by_cases ht : t = tagLabel
    · subst ht
      rw [if_pos rfl, hlab]
      show _ = ((observe h c).tagged tagLabel).filter (· ∈ w)
      rw [observe_tagged, if_pos (by decide)]
      have hnames : ((Abs.select (observe h c) w).dropExcluded).names = w.reverse.dedup.reverse := by
        rw [← hsel, d4]
        unfold Abs.names Abs.dropExcluded
        simp only [List.map_map, Function.comp_def]
        have := observe_names h (w.reverse.dedup.reverse.filterMap (entry c))
        unfold Abs.names at this
        rw [this, s2]
      rw [hnames]
      have hnd : ((taggedGetNames h c tagLabel).filter fun k => decide (k ∈ w.reverse.dedup.reverse)).Nodup :=
        ((tagRep_get ok tagLabel (by decide)).nodup).filter _
      rw [hnd.dedup]
      congr 1
      funext k
      simp
    · rw [if_neg ht]

/-- C15, deep copies: afterwards any interleaving of operations on the original and
on the copy leaves each of them as if the other did not exist. -/
theorem deep_copy_independent (r : Reachable h c) (cols : Option (List Name))
    (hc : ∀ k ∈ wanted (observe h c) cols, k ∈ c.keys) :
    ∃ h' c', datasetCopy h c true cols = .ok (h', c') ∧
      ∀ ops : List (Bool × Op V),
        (observe h c).LegalRun (side true ops) →
        ((observe h c).select (wanted (observe h c) cols)).dropExcluded.LegalRun (side false ops) →
        let s := ops.foldl exec2 (h', c, c')
        observe s.1 s.2.1 = (observe h c).run (side true ops) ∧
        observe s.1 s.2.2 = ((observe h c).select (wanted (observe h c) cols)).dropExcluded.run (side false ops) := by
  obtain ⟨h', c', h1, h2, h3, h4, h5, h6⟩ := deep_copy_correct r cols hc
  refine ⟨h', c', h1, fun ops l1 l2 => ?_⟩
  rw [← h2] at l1
  rw [← h3] at l2
  have := interleave h4 h5 h6 ops l1 l2
  rw [h2, h3] at this
  exact this

/-! ## Shallow copies -/

theorem tagBody_same {tag : Name} (l : List (Name × Nat)) : ∀ (g : Heap), (∀ x ∈ l, ∃ it p, c.get x.1 = some it ∧ it.attr = some p) →
    c.keys.Nodup → (l.foldl (tagBody tag) (g, c)).2 = c := by
  induction l with
  | nil => intro g _ _; rfl
  | cons x l ih =>
    intro g hx hn
    obtain ⟨it, p, h1, h2⟩ := hx x (by simp)
    have hset : c.set x.1 it = c := by
      refine set_same (List.mem_map.mpr ⟨_, mem_of_get h1, rfl⟩) fun e he hek => ?_
      have := get_of_mem hn he
      rw [hek, h1] at this
      exact (Option.some.inj this).symm
    have : tagBody tag (g, c) x = (g.modify p (fun o => o.set tag x.2), c) := by
      unfold tagBody
      simp only [h1]
      unfold setAttribute
      simp only [h2, hset]
    rw [List.foldl_cons, this]
    exact ih _ (fun y hy => hx y (by simp [hy])) hn

/-- C15: a shallow copy of all columns reports what the original reports, and taking
it changes nothing in the original. -/
theorem shallow_copy_correct (r : Reachable h c) :
    ∃ h' c', datasetCopy h c false none = .ok (h', c') ∧ observe h' c = observe h c ∧ observe h' c' = observe h c := by
  have ok := reachable_ok r
  have rep := tagRep_get ok tagLabel (by decide)
  have hsame : (taggedSetNames (h, c) (taggedGetNames h c tagLabel) tagLabel).2 = c := by
    refine tagBody_same _ _ (fun x hx => ?_) ok.nodup
    have hm : x.1 ∈ taggedGetNames h c tagLabel := List.fst_mem_of_mem_zipIdx hx
    obtain ⟨v, hv⟩ := (rep.mem x.1).mp hm
    unfold att itemGetAttribute attrOf at hv
    cases hg : c.get x.1 with
    | none => rw [hg] at hv; simp at hv
    | some it =>
      cases hat : it.attr with
      | none => rw [hg] at hv; simp [hat] at hv
      | some p => exact ⟨it, p, rfl, hat⟩
  obtain ⟨t1, t2⟩ := setTagged_ok ok tagLabel (by decide) (taggedGetNames h c tagLabel)
  rw [hsame] at t2
  have : observe (taggedSetNames (h, c) (taggedGetNames h c tagLabel) tagLabel).1 c = observe h c := by
    rw [t2]
    refine abs_ext rfl fun t => ?_
    dsimp only
    by_cases ht : t = tagLabel
    · subst ht
      rw [if_pos rfl, observe_tagged, if_pos (by decide), observe_names, List.filter_eq_self.mpr, rep.nodup.dedup]
      intro k hk
      obtain ⟨v, hv⟩ := (rep.mem k).mp hk
      simpa using att_some_mem hv
    · rw [if_neg ht]
  have hd : datasetCopy h c false none = .ok (taggedSetNames (h, c) (taggedGetNames h c tagLabel) tagLabel) := rfl
  refine ⟨(taggedSetNames (h, c) (taggedGetNames h c tagLabel) tagLabel).1,
    (taggedSetNames (h, c) (taggedGetNames h c tagLabel) tagLabel).2, hd, this, ?_⟩
  rw [hsame]
  exact this

/-- the operations that do not touch attributes -/
def structural : Op V → Bool
  | .setAttr .. | .setTagged .. | .removeTagged .. => false
  | _ => true

theorem structural_heap {op : Op V} (hs : structural op = true) (s : Heap × Container V) : (exec s op).1 = s.1 := by
  have key : ∀ r : Except String (Container V), step s op = r.map (s.1, ·) → (exec s op).1 = s.1 := by
    intro r hr
    unfold exec
    rw [hr]
    cases r <;> rfl
  cases op with
  | setValue k v => rfl
  | delete k => exact key (itemDelete s.2 k) rfl
  | rename o n => exact key (itemRename s.2 o n) rfl
  | moveFront l => exact key (itemMoveToFront s.2 l) rfl
  | moveBack l => exact key (itemMoveToBack s.2 l) rfl
  | addPrefix p => rfl
  | addSuffix p => rfl
  | strReplace r => exact key (itemStrReplace s.2 r) rfl
  | setAttr k x v => simp [structural] at hs
  | setTagged t l => simp [structural] at hs
  | removeTagged t => simp [structural] at hs

/-- C15 for shallow copies (and any two containers at all): adding, replacing,
deleting, renaming and reordering columns on either side is not seen on the other.
Missing: label and attribute operations, see `shallow_copy_label_counterexample`. -/
theorem shallow_copy_independent_partial {c1 c2 : Container V} (ok1 : Ok h c1) (ok2 : Ok h c2)
    (ops : List (Bool × Op V)) (hs : ∀ o ∈ ops, structural o.2 = true)
    (hl1 : (observe h c1).LegalRun (side true ops)) (hl2 : (observe h c2).LegalRun (side false ops)) :
    let s := ops.foldl exec2 (h, c1, c2)
    observe s.1 s.2.1 = (observe h c1).run (side true ops) ∧
    observe s.1 s.2.2 = (observe h c2).run (side false ops) := by
  induction ops generalizing c1 c2 with
  | nil => exact ⟨rfl, rfl⟩
  | cons o ops ih =>
    obtain ⟨b, op⟩ := o
    have hs1 := hs (b, op) (by simp)
    have hs2 : ∀ o ∈ ops, structural o.2 = true := fun o ho => hs o (by simp [ho])
    cases b with
    | true =>
      have s1 : side true ((true, op) :: ops) = op :: side true ops := rfl
      have s2 : side false ((true, op) :: ops) = side false ops := rfl
      rw [s1] at hl1 ⊢
      rw [s2] at hl2 ⊢
      obtain ⟨hl, hl1⟩ := hl1
      obtain ⟨e1, e2⟩ := exec_refines ok1 op hl
      have hh := structural_heap hs1 (h, c1)
      rw [hh] at e1 e2
      rw [← e2] at hl1
      have := ih e1 ok2 hs2 hl1 hl2
      rw [e2] at this
      rw [List.foldl_cons]
      have he : exec2 (h, c1, c2) (true, op) = (h, (exec (h, c1) op).2, c2) := by
        simp only [exec2, if_true, hh]
      rw [he]
      exact this
    | false =>
      have s1 : side true ((false, op) :: ops) = side true ops := rfl
      have s2 : side false ((false, op) :: ops) = op :: side false ops := rfl
      rw [s1] at hl1 ⊢
      rw [s2] at hl2 ⊢
      obtain ⟨hl, hl2⟩ := hl2
      obtain ⟨e1, e2⟩ := exec_refines ok2 op hl
      have hh := structural_heap hs1 (h, c2)
      rw [hh] at e1 e2
      rw [← e2] at hl2
      have := ih ok1 e1 hs2 hl1 hl2
      rw [e2] at this
      rw [List.foldl_cons]
      have he : exec2 (h, c1, c2) (false, op) = (h, c1, (exec (h, c2) op).2) := by
        simp [exec2, hh]
      rw [he]
      exact this

/-- C15 for shallow copies of a container none of whose columns has attributes or
labels: fully independent. -/
theorem shallow_copy_no_attributes_independent (r : Reachable h c) (hno : ∀ e ∈ c, e.2.attr = none) :
    ∃ c', copy c none = .ok c' ∧ ∀ ops : List (Bool × Op V),
      (observe h c).LegalRun (side true ops) → (observe h c).LegalRun (side false ops) →
      let s := ops.foldl exec2 (h, c, c')
      observe s.1 s.2.1 = (observe h c).run (side true ops) ∧
      observe s.1 s.2.2 = (observe h c).run (side false ops) := by
  have ok := reachable_ok r
  refine ⟨c, rfl, fun ops l1 l2 => interleave ok ok ?_ ops l1 l2⟩
  intro p ⟨e, he, hp⟩
  rw [hno e he] at hp
  simp at hp

end

/-! ## Where the claim fails -/

/-- C15 fails: removing the labels of a shallow copy removes those of the original. -/
theorem shallow_copy_label_counterexample :
    ∃ (h : Heap) (c c' : Container Nat), Reachable h c ∧ datasetCopy h c false none = .ok (h, c') ∧
      taggedGetNames h c tagLabel = ["a".toList] ∧
      taggedGetNames (exec (h, c') (.removeTagged tagLabel)).1 c tagLabel = [] :=
  ⟨[[(tagLabel, 0)]], [("a".toList, ⟨1, some 0⟩)], [("a".toList, ⟨1, some 0⟩)],
    ⟨[], [.setValue "a".toList 1, .setTagged tagLabel ["a".toList]], ⟨trivial, rfl, trivial⟩, by decide⟩,
    by decide, by decide, by decide⟩

/-- C15 fails: merely selecting columns changes the labels of the original.  Columns
q, x, y are labelled in that order and q is deleted; `ds[['y']]` renumbers y in the
shared attribute object to the position that x has, and the original loses label x. -/
theorem column_subset_label_counterexample :
    ∃ (h h' : Heap) (c c' : Container Nat), Reachable h c ∧
      datasetCopy h c false (some ["y".toList]) = .ok (h', c') ∧
      taggedGetNames h c tagLabel = ["x".toList, "y".toList] ∧
      taggedGetNames h' c tagLabel = ["y".toList] :=
  ⟨[[(tagLabel, 0)], [(tagLabel, 1)], [(tagLabel, 2)]], [[(tagLabel, 0)], [(tagLabel, 1)], [(tagLabel, 1)]],
    [("x".toList, ⟨2, some 1⟩), ("y".toList, ⟨3, some 2⟩)], [("y".toList, ⟨3, some 2⟩)],
    ⟨[], [.setValue "q".toList 1, .setValue "x".toList 2, .setValue "y".toList 3,
      .setTagged tagLabel ["q".toList, "x".toList, "y".toList], .delete "q".toList],
      ⟨trivial, trivial, trivial, rfl, trivial, trivial⟩, by decide⟩,
    by decide, by decide, by decide⟩

/-- C15: a deep copy loses the attribute named "c" (a substring of "copy"). -/
theorem copy_drops_attribute_counterexample :
    ∃ (h h' : Heap) (c c' : Container Nat), Reachable h c ∧ datasetCopy h c true none = .ok (h', c') ∧
      itemGetAttribute h c "a".toList "c".toList = some 7 ∧
      itemGetAttribute h' c' "a".toList "c".toList = none :=
  ⟨[[("c".toList, 7)]], [[("c".toList, 7)], []], [("a".toList, ⟨1, some 0⟩)], [("a".toList, ⟨1, some 1⟩)],
    ⟨[], [.setValue "a".toList 1, .setAttr "a".toList "c".toList 7], ⟨trivial, rfl, trivial⟩, by decide⟩,
    by decide, by decide, by decide⟩

/-! ## Concrete cases -/

section Examples
example : ∀ k ∈ wanted (observe exState.1 exState.2) (some ["c".toList, "b".toList]), k ∈ exState.2.keys := by decide
example : (datasetCopy exState.1 exState.2 true (some ["c".toList, "b".toList])).map
    (fun s => (s.2.keys, taggedGetNames s.1 s.2 tagLabel)) = .ok (["c".toList, "b".toList], ["c".toList]) := by decide
example : (observe exState.1 exState.2).LegalRun
    (side true [(true, .rename "a".toList "q".toList), (false, .removeTagged tagLabel)]) := ⟨trivial, trivial⟩
end Examples
end Verif.Items
