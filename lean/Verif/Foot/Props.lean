import Verif.Foot.Lemmas
import Verif.Make.Props

/-!
# Footers of a Dataset (C80)
-/
namespace Verif.Foot
open Verif.Items (Dict)
open Spec (Op Foot)
variable {V : Type}

/-- the Dataset `d` has the footers `f` -/
structure Shows (s : Heap V × Ds) (f : Foot V) : Prop where
  wf : WF s.1 s.2
  cols : s.2.cols.keys = f.cols
  labels : s.2.footers.getD [] = f.labels
  some_ne : s.2.footers ≠ some []
  nodup : f.labels.Nodup
  val : ∀ c l, foot s.1 s.2 c l = f.val c l

/-- arguments of a call: a Python dictionary has each key once; a label is named once in a
removal from all columns (the code raises `KeyError` for one named twice, see
`remove_twice_counterexample`) -/
def Sane : Op V → Prop
  | .set _ es => (es.map Prod.fst).Nodup
  | .remove (some ls) none => ls.Nodup
  | _ => True

theorem exist_none {fs : List String} (f : Foot V) (hf : fs = f.labels) {labels : Option (List String)}
    (h : exist fs labels = none) : Spec.named f labels = [] := by
  subst hf
  cases labels with
  | none => simp [exist] at h
  | some ls =>
    unfold exist at h
    simp only [Spec.named]
    cases hl : ls.filter (fun l => decide (l ∈ f.labels)) with
    | nil => rfl
    | cons a b => simp [hl] at h

theorem exist_some {fs : List String} (f : Foot V) (hf : fs = f.labels) {labels : Option (List String)}
    {ls : List String} (h : exist fs labels = some ls) : ls = Spec.named f labels := by
  subst hf
  cases labels with
  | none => exact (Option.some.inj h).symm
  | some l =>
    unfold exist at h
    simp only [Spec.named]
    cases hl : l.filter (fun l => decide (l ∈ f.labels)) with
    | nil => simp [hl] at h
    | cons a b => simp only [hl] at h; exact (Option.some.inj h).symm

theorem exist_ne_nil {fs : List String} (hfs : fs ≠ []) {labels : Option (List String)}
    {ls : List String} (h : exist fs labels = some ls) : ls ≠ [] := by
  cases labels with
  | none => rw [← Option.some.inj h]; exact hfs
  | some l =>
    unfold exist at h
    cases hl : l.filter (fun l => decide (l ∈ fs)) with
    | nil => simp [hl] at h
    | cons a b => simp only [hl] at h; rw [← Option.some.inj h]; simp

theorem named_mem (f : Foot V) (labels : Option (List String)) :
    ∀ l ∈ Spec.named f labels, l ∈ f.labels := by
  intro l hl
  cases labels with
  | none => exact hl
  | some ls => simpa using (List.mem_filter.mp hl).2

theorem step_of_refused {f : Foot V} {o : Op V} (h : Spec.Refused f o) : Spec.step f o = f := by
  unfold Spec.step; rw [if_pos h]

theorem step_of_not {f : Foot V} {o : Op V} (h : ¬ Spec.Refused f o) :
    Spec.step f o = Spec.after f o := by
  unfold Spec.step; rw [if_neg h]

/-- **`footer_set_values`**: refused exactly when a column does not exist, and then nothing
changes; otherwise the label exists, the columns given have the value given, and every other
value is as before. -/
theorem setValues_exact {s : Heap V × Ds} {f : Foot V} (hs : Shows s f) (label : String)
    (es : List (String × V)) (hn : (es.map Prod.fst).Nodup) :
    Shows (setValues s.1 s.2 label es).1 (Spec.step f (.set label es))
    ∧ Frame s (setValues s.1 s.2 label es).1
    ∧ (setValues s.1 s.2 label es).2
        = (if known s.2 (es.map Prod.fst) then none else some .index)
    ∧ (known s.2 (es.map Prod.fst) = false ↔ Spec.Refused f (.set label es)) := by
  have hk := known_iff s.2 (es.map Prod.fst)
  have href : known s.2 (es.map Prod.fst) = false ↔ Spec.Refused f (.set label es) := by
    rw [← Bool.not_eq_true, hk]
    unfold Spec.Refused
    push Not
    constructor
    · rintro ⟨c, hc, hm⟩
      obtain ⟨e, he, rfl⟩ := List.mem_map.mp hc
      exact ⟨e, he, hs.cols ▸ hm⟩
    · rintro ⟨e, he, hm⟩
      exact ⟨e.1, List.mem_map.mpr ⟨e, he, rfl⟩, hs.cols ▸ hm⟩
  refine ⟨?_, ?_, ?_, href⟩ <;> unfold setValues <;> cases hb : known s.2 (es.map Prod.fst)
  · simp only [Bool.false_eq_true, if_false]
    rw [step_of_refused (href.mp hb)]
    exact hs
  · simp only [if_true]
    rw [step_of_not (fun h => by rw [href.mpr h] at hb; cases hb)]
    have w : WF s.1 (addLabel s.2 label) := ⟨hs.wf.nodup, hs.wf.bound, hs.wf.inj⟩
    obtain ⟨a, -, k, g, v⟩ := setAll_spec label es hn w (fun e he => by
      exact (hk.mp hb) e.1 (List.mem_map.mpr ⟨e, he, rfl⟩))
    refine ⟨a, k.trans hs.cols, ?_, ?_, ?_, ?_⟩
    · rw [g]
      simp only [addLabel, Option.getD_some, hs.labels, Spec.after, Spec.addOnce]
    · rw [g]
      simp only [addLabel, ne_eq, Option.some.injEq]
      intro e
      split at e
      · next h => rw [e] at h; simp at h
      · simp at e
    · simp only [Spec.after, Spec.addOnce]
      split
      · exact hs.nodup
      · next h => exact List.Nodup.append hs.nodup (by simp) (by simpa using h)
    · intro c l
      rw [v]
      have : foot s.1 (addLabel s.2 label) c l = f.val c l := hs.val c l
      rw [this]
      rfl
  · simp only [Bool.false_eq_true, if_false]; exact Frame.refl _
  · simp only [if_true]
    have w : WF s.1 (addLabel s.2 label) := ⟨hs.wf.nodup, hs.wf.bound, hs.wf.inj⟩
    obtain ⟨-, b, -, -, -⟩ := setAll_spec label es hn w (fun e he => by
      exact (hk.mp hb) e.1 (List.mem_map.mpr ⟨e, he, rfl⟩))
    exact ⟨b.len, b.keep, b.addr⟩
  · rfl
  · rfl

theorem shows_same {s : Heap V × Ds} {f g : Foot V} (hs : Shows s f) (hc : g.cols = f.cols)
    (hl : g.labels = f.labels) (hv : ∀ c l, g.val c l = f.val c l) : Shows s g :=
  ⟨hs.wf, hs.cols.trans hc.symm, hs.labels.trans hl.symm, hs.some_ne, hl ▸ hs.nodup,
    fun c l => (hs.val c l).trans (hv c l).symm⟩

theorem after_remove_nothing {f : Foot V} {s : Heap V × Ds} (hs : Shows s f)
    {labels columns : Option (List String)} (h : Spec.named f labels = []) :
    Shows s (Spec.step f (.remove labels columns)) := by
  rw [step_of_not]
  · cases columns with
    | none => exact shows_same hs rfl (by simp [Spec.after, h]) (by simp [Spec.after, h])
    | some cs => exact shows_same hs rfl rfl (by simp [Spec.after, h])
  · cases columns with
    | none => exact id
    | some cs => exact fun r => r.1 h

theorem not_refused_nothing {f : Foot V} {labels columns : Option (List String)}
    (h : Spec.named f labels = []) : ¬ Spec.Refused f (.remove labels columns) := by
  cases columns with
  | none => exact id
  | some cs => exact fun r => r.1 h

/-- **`footer_remove`**: from all columns, the labels named are gone with their values; from
some columns, only those values are gone; unknown labels are passed over, an unknown column is
refused and then nothing changes; every other value is as before. -/
theorem remove_exact {s : Heap V × Ds} {f : Foot V} (hs : Shows s f)
    (labels columns : Option (List String)) (hn : Sane (.remove labels columns : Op V)) :
    Shows (remove s.1 s.2 labels columns).1 (Spec.step f (.remove labels columns))
    ∧ Frame s (remove s.1 s.2 labels columns).1
    ∧ ((remove s.1 s.2 labels columns).2 = some .index ∧ Spec.Refused f (.remove labels columns)
      ∨ (remove s.1 s.2 labels columns).2 = none ∧ ¬ Spec.Refused f (.remove labels columns)) := by
  unfold remove
  cases hf : s.2.footers with
  | none =>
    have hl : f.labels = [] := by rw [← hs.labels, hf]; rfl
    have h0 : Spec.named f labels = [] := by cases labels <;> simp [Spec.named, hl]
    exact ⟨after_remove_nothing hs h0, Frame.refl _, .inr ⟨rfl, not_refused_nothing h0⟩⟩
  | some fs =>
    have hfs : fs = f.labels := by rw [← hs.labels, hf]; rfl
    simp only
    cases he : exist fs labels with
    | none =>
      have h0 := exist_none f hfs he
      exact ⟨after_remove_nothing hs h0, Frame.refl _, .inr ⟨rfl, not_refused_nothing h0⟩⟩
    | some ls =>
      have hls := exist_some f hfs he
      have hne := exist_ne_nil (fun h => hs.some_ne (by rw [hf, h])) he
      cases columns with
      | some cs =>
        have hk := known_iff s.2 cs
        simp only
        cases hb : known s.2 cs
        · have hr : Spec.Refused f (.remove labels (some cs)) := by
            rw [← Bool.not_eq_true, hk] at hb
            push Not at hb
            obtain ⟨c, hc, hm⟩ := hb
            exact ⟨hls ▸ hne, c, hc, hs.cols ▸ hm⟩
          rw [step_of_refused hr]
          exact ⟨hs, Frame.refl _, .inl ⟨rfl, hr⟩⟩
        · have hr : ¬ Spec.Refused f (.remove labels (some cs)) := by
            rintro ⟨-, c, hc, hm⟩
            exact hm (hs.cols ▸ hk.mp hb c hc)
          rw [step_of_not hr]
          obtain ⟨a, b, v⟩ := popCols_spec ls s.2 cs hs.wf
          refine ⟨⟨a, hs.cols, hs.labels, hs.some_ne, hs.nodup, fun c l => ?_⟩, b, .inr ⟨rfl, hr⟩⟩
          simp only [if_true]
          rw [v, hs.val, hls]
          rfl
      | none =>
        have hnd : ls.Nodup := by
          rw [hls]
          cases labels with
          | none => exact hs.nodup
          | some l => exact List.Nodup.filter _ hn
        have hd := delLabels_spec ls hnd (hfs ▸ hs.nodup) (by
          rw [hls, hfs]; exact named_mem f labels)
        simp only [dropLabels, hd]
        obtain ⟨a, b, v⟩ := popCols_spec ls s.2 s.2.cols.keys hs.wf
        rw [step_of_not (o := .remove labels none) id]
        refine ⟨⟨⟨a.nodup, a.bound, a.inj⟩, hs.cols, ?_, ?_, ?_, fun c l => ?_⟩,
          ⟨b.len, b.keep, b.addr⟩, .inr ⟨trivial, id⟩⟩
        · simp only [keepFooters, Spec.after, ← hls, ← hfs]
          split
          · next h => rw [h]; rfl
          · rfl
        · simp only [keepFooters]
          split
          · simp
          · next h => simpa using h
        · simp only [Spec.after]
          exact hs.nodup.filter _
        · have : foot (s.2.cols.keys.foldl (fun h c => popAll ls h s.2 c) s.1)
              { s.2 with footers := keepFooters (fs.filter fun l => l ∉ ls) } c l
              = foot (s.2.cols.keys.foldl (fun h c => popAll ls h s.2 c) s.1) s.2 c l := rfl
          rw [this, v, hs.val]
          simp only [Spec.after, ← hls]
          by_cases h1 : l ∈ ls
          · by_cases h2 : c ∈ s.2.cols.keys
            · simp [h1, h2]
            · have := foot_none (h := s.1) h2 l
              rw [hs.val] at this
              simp [h1, h2, this]
          · simp [h1]

theorem foot_congr {h : Heap V} {d d' : Ds} {c l : String} (hc : attrOf d' c = attrOf d c) :
    foot h d' c l = foot h d c l := by
  unfold foot colFooter; rw [hc]

/-- A new column has no footers and changes none; a column replaced keeps its footers. -/
theorem addCol_exact {s : Heap V × Ds} {f : Foot V} (hs : Shows s f) (c : String) :
    Shows (s.1, addCol s.2 c) (Spec.step f (.addCol c)) ∧ Frame s (s.1, addCol s.2 c) := by
  rw [step_of_not (o := .addCol c) id]
  unfold addCol
  by_cases hb : c ∈ s.2.cols.keys
  · rw [(Dict.has_iff _ _).mpr hb, if_pos rfl]
    refine ⟨shows_same hs ?_ rfl fun _ _ => rfl, Frame.refl _⟩
    simp only [Spec.after, Spec.addOnce]
    rw [if_pos (hs.cols ▸ hb)]
  · rw [(Dict.has_false_iff _ _).mpr hb, if_neg (by simp)]
    have hat : ∀ c', attrOf { s.2 with cols := s.2.cols.set c none } c' = attrOf s.2 c' := by
      intro c'
      rw [attrOf_set]
      split
      · next h =>
        subst h
        unfold attrOf
        rw [(Dict.get_eq_none_iff _ _).mpr hb]
        rfl
      · rfl
    refine ⟨⟨⟨Dict.nodup_set hs.wf.nodup _ _, fun c' p h => ?_, fun c1 c2 p h1 h2 => ?_⟩, ?_,
      hs.labels, hs.some_ne, hs.nodup, fun c' l => ?_⟩, ⟨Nat.le_refl _, fun _ _ _ => rfl,
      fun c' p h => .inl ⟨c', ?_⟩⟩⟩
    · rw [hat] at h; exact hs.wf.bound c' p h
    · rw [hat] at h1 h2; exact hs.wf.inj c1 c2 p h1 h2
    · simp only [Spec.after, Spec.addOnce]
      rw [if_neg (hs.cols ▸ hb), Dict.keys_set_of_notMem hb, hs.cols]
    · rw [foot_congr (hat c')]; exact hs.val c' l
    · rw [hat] at h; exact h

theorem attrOf_del (d : Ds) (c c' : String) :
    attrOf { d with cols := d.cols.del c } c' = if c' = c then none else attrOf d c' := by
  unfold attrOf
  simp only [Dict.get_del]
  split <;> simp

/-- A column deleted takes its footers with it and changes no other. -/
theorem delCol_exact {s : Heap V × Ds} {f : Foot V} (hs : Shows s f) (c : String) :
    Shows (delCol s.1 s.2 c).1 (Spec.step f (.delCol c)) ∧ Frame s (delCol s.1 s.2 c).1
    ∧ ((delCol s.1 s.2 c).2 ≠ none ↔ Spec.Refused f (.delCol c)) := by
  unfold delCol
  by_cases hb : c ∈ s.2.cols.keys
  · have hr : ¬ Spec.Refused f (.delCol c) := fun r => r (hs.cols ▸ hb)
    rw [(Dict.has_iff _ _).mpr hb, if_pos rfl, step_of_not hr]
    refine ⟨⟨⟨Dict.nodup_del hs.wf.nodup _, fun c' p h => ?_, fun c1 c2 p h1 h2 => ?_⟩, ?_,
      hs.labels, hs.some_ne, hs.nodup, fun c' l => ?_⟩, ⟨Nat.le_refl _, fun _ _ _ => rfl,
      fun c' p h => .inl ⟨c', ?_⟩⟩, by simpa using hr⟩
    · rw [attrOf_del] at h
      split at h
      · cases h
      · exact hs.wf.bound c' p h
    · rw [attrOf_del] at h1 h2
      split at h1
      · cases h1
      · split at h2
        · cases h2
        · exact hs.wf.inj c1 c2 p h1 h2
    · simp only [Spec.after]
      rw [Dict.keys_del, hs.cols]
    · simp only [Spec.after]
      by_cases hcc : c' = c
      · unfold foot colFooter; rw [attrOf_del]; simp [hcc]
      · rw [foot_congr (d := s.2) (by rw [attrOf_del, if_neg hcc]), if_neg hcc]; exact hs.val c' l
    · rw [attrOf_del] at h
      split at h
      · cases h
      · exact h
  · have hr : Spec.Refused f (.delCol c) := by
      show c ∉ f.cols
      rw [← hs.cols]; exact hb
    rw [(Dict.has_false_iff _ _).mpr hb, if_neg (by simp), step_of_refused hr]
    exact ⟨hs, Frame.refl _, by simpa using hr⟩

/-- one call does what the documentation says -/
theorem step_exact {s : Heap V × Ds} {f : Foot V} (hs : Shows s f) (o : Op V) (ho : Sane o) :
    Shows (step s o).1 (Spec.step f o) ∧ Frame s (step s o).1
    ∧ ((step s o).2 ≠ none ↔ Spec.Refused f o) := by
  cases o with
  | set l es =>
    obtain ⟨a, b, e, r⟩ := setValues_exact hs l es ho
    refine ⟨a, b, ?_⟩
    show (setValues s.1 s.2 l es).2 ≠ none ↔ _
    rw [e, ← r]
    cases known s.2 (es.map Prod.fst) <;> simp
  | remove ls cs =>
    obtain ⟨a, b, r⟩ := remove_exact hs ls cs ho
    refine ⟨a, b, ?_⟩
    show (remove s.1 s.2 ls cs).2 ≠ none ↔ _
    rcases r with ⟨r1, r2⟩ | ⟨r1, r2⟩
    · simp [r1, r2]
    · simp [r1, r2]
  | addCol c =>
    obtain ⟨a, b⟩ := addCol_exact hs c
    exact ⟨a, b, by simp [step, Spec.Refused]⟩
  | delCol c => exact delCol_exact hs c

theorem run_exact {s : Heap V × Ds} {f : Foot V} (hs : Shows s f) (os : List (Op V))
    (ho : ∀ o ∈ os, Sane o) : Shows (run s os) (Spec.run f os) ∧ Frame s (run s os) := by
  induction os generalizing s f with
  | nil => exact ⟨hs, Frame.refl _⟩
  | cons o os ih =>
    obtain ⟨a, b, -⟩ := step_exact hs o (ho o (by simp))
    obtain ⟨a', b'⟩ := ih a fun x hx => ho x (List.mem_cons_of_mem _ hx)
    exact ⟨a', b.trans b'⟩

/-! ## Reading -/

/-- **`footer_get_values`** reads the footers. -/
theorem getValues_exact {s : Heap V × Ds} {f : Foot V} (hs : Shows s f)
    (labels columns : Option (List String)) (fill : V) :
    getValues s.1 s.2 labels columns fill = Spec.values f labels columns fill := by
  unfold getValues Spec.values
  cases hf : s.2.footers with
  | none =>
    have hl : f.labels = [] := by rw [← hs.labels, hf]; rfl
    have h0 : Spec.named f labels = [] := by cases labels <;> simp [Spec.named, hl]
    simp [h0]
  | some fs =>
    have hfs : fs = f.labels := by rw [← hs.labels, hf]; rfl
    simp only
    cases he : exist fs labels with
    | none => simp [exist_none f hfs he]
    | some ls =>
      rw [← exist_some f hfs he, ← hs.cols]
      simp only
      apply List.map_congr_left
      intro l _
      unfold footRow
      congr 1
      apply List.map_congr_left
      intro c _
      rw [← hs.val c l]
      rfl

theorem fold_dict (g : String → Option V) (cs : List String) :
    cs.foldl (fun acc c => putIf acc c (g c)) ([] : Dict String V)
    = cs.eraseDups.filterMap fun c => (g c).map fun v => (c, v) := by
  induction cs using List.reverseRecOn with
  | nil => rfl
  | append_singleton cs c ih =>
    rw [List.foldl_append, ih, List.foldl_cons, List.foldl_nil]
    have hkeys : ∀ (l : List String),
        Dict.keys (l.filterMap fun c => (g c).map fun v => (c, v)) = l.filter fun c => (g c).isSome := by
      intro l
      induction l with
      | nil => rfl
      | cons x l ih =>
        rw [List.filterMap_cons, List.filter_cons]
        cases hx : g x with
        | none => simpa using ih
        | some v => simp only [Option.map_some, Option.isSome_some, if_true, Dict.keys, List.map_cons]; rw [← ih]; rfl
    by_cases hc : c ∈ cs
    · rw [Verif.Make.eraseDups_snoc_mem hc]
      cases hg : g c with
      | none => rfl
      | some v =>
        simp only [putIf]
        rw [Dict.set_of_mem (by rw [hkeys, List.mem_filter]; simp [hc, hg])]
        conv_rhs => rw [← List.map_id (List.filterMap _ _)]
        apply List.map_congr_left
        intro e he
        obtain ⟨x, -, hx⟩ := List.mem_filterMap.mp he
        split
        · next h =>
          cases hgx : g x with
          | none => simp [hgx] at hx
          | some w =>
            simp only [hgx, Option.map_some, Option.some.injEq] at hx
            subst hx
            simp only at h
            subst h
            rw [hg] at hgx
            simp [Option.some.inj hgx]
        · rfl
    · rw [Verif.Make.eraseDups_snoc_new hc, List.filterMap_append]
      cases hg : g c with
      | none => simp [hg, putIf]
      | some v =>
        simp only [putIf]
        rw [Dict.set_of_notMem (by rw [hkeys, List.mem_filter]; simp [hc])]
        simp [hg]

/-- **`footer_get_dict`** reads the footers, without the columns that have no value. -/
theorem getDict_exact {s : Heap V × Ds} {f : Foot V} (hs : Shows s f)
    (labels columns : Option (List String)) :
    getDict s.1 s.2 labels columns = Spec.dicts f labels columns := by
  unfold getDict Spec.dicts
  cases hf : s.2.footers with
  | none =>
    have hl : f.labels = [] := by rw [← hs.labels, hf]; rfl
    have h0 : Spec.named f labels = [] := by cases labels <;> simp [Spec.named, hl]
    simp [h0]
  | some fs =>
    have hfs : fs = f.labels := by rw [← hs.labels, hf]; rfl
    simp only
    cases he : exist fs labels with
    | none => simp [exist_none f hfs he]
    | some ls =>
      rw [← exist_some f hfs he, ← hs.cols]
      simp only
      apply List.map_congr_left
      intro l _
      unfold footDict
      rw [fold_dict fun c => (colFooter s.1 s.2 c).bind fun cd => cd.get l]
      congr 1
      apply List.filterMap_congr
      intro c _
      rw [← hs.val c l]
      rfl

/-- a Dataset just made -/
def fresh (cols : List String) : Ds := { cols := cols.map fun c => (c, none), footers := none }

/-- the footers of a Dataset just made -/
def noFooters (cols : List String) : Foot V := ⟨cols, [], fun _ _ => none⟩

theorem attrOf_fresh (cols : List String) (c : String) : attrOf (fresh cols) c = none := by
  unfold attrOf fresh
  simp only
  induction cols with
  | nil => rfl
  | cons x l ih =>
    rw [List.map_cons, Dict.get_cons]
    split
    · rfl
    · exact ih

theorem fresh_shows (h : Heap V) {cols : List String} (hn : cols.Nodup) :
    Shows (h, fresh cols) (noFooters cols) := by
  refine ⟨⟨?_, fun c p e => ?_, fun c _ p e => ?_⟩, ?_, rfl, by simp [fresh], List.nodup_nil,
    fun c l => ?_⟩
  · simpa [fresh, Dict.keys, Function.comp_def] using hn
  · rw [attrOf_fresh] at e; cases e
  · rw [attrOf_fresh] at e; cases e
  · simp [fresh, Dict.keys, Function.comp_def, noFooters]
  · simp only [foot, colFooter, attrOf_fresh]; rfl

/-- **C80.** After any history of calls on a new Dataset, `footer_get_values` and
`footer_get_dict` answer what the calls say, for all labels, columns and fill values. -/
theorem history_exact (h : Heap V) {cols : List String} (hn : cols.Nodup) (os : List (Op V))
    (ho : ∀ o ∈ os, Sane o) (labels columns : Option (List String)) (fill : V) :
    getValues (run (h, fresh cols) os).1 (run (h, fresh cols) os).2 labels columns fill
        = Spec.values (Spec.run (noFooters cols) os) labels columns fill
    ∧ getDict (run (h, fresh cols) os).1 (run (h, fresh cols) os).2 labels columns
        = Spec.dicts (Spec.run (noFooters cols) os) labels columns :=
  ⟨getValues_exact (run_exact (fresh_shows h hn) os ho).1 labels columns fill,
    getDict_exact (run_exact (fresh_shows h hn) os ho).1 labels columns⟩

/-- no value is hidden: after a history on a new Dataset every value is of an existing column
under an existing label, so it is among the answers -/
theorem history_no_hidden (cols : List String) (os : List (Op V)) (c l : String)
    (hv : (Spec.run (noFooters cols) os).val c l ≠ none) :
    c ∈ (Spec.run (noFooters cols) os).cols ∧ l ∈ (Spec.run (noFooters cols) os).labels := by
  induction os using List.reverseRecOn generalizing c l with
  | nil => simp [Spec.run, noFooters] at hv
  | append_singleton os o ih =>
    have e : Spec.run (noFooters cols) (os ++ [o]) = Spec.step (Spec.run (noFooters cols : Foot V) os) o := by
      unfold Spec.run; rw [List.foldl_append]; rfl
    rw [e] at hv ⊢
    generalize Spec.run (noFooters cols : Foot V) os = f at ih hv ⊢
    by_cases hr : Spec.Refused f o
    · rw [step_of_refused hr] at hv ⊢; exact ih c l hv
    · rw [step_of_not hr] at hv ⊢
      cases o with
      | set label es =>
        simp only [Spec.after, Spec.addOnce] at hv ⊢
        by_cases hl : l = label
        · subst hl
          constructor
          · by_cases hg : c ∈ es.map Prod.fst
            · obtain ⟨x, hx, rfl⟩ := List.mem_map.mp hg
              by_contra hm
              exact hr ⟨x, hx, hm⟩
            · simp only [if_true, given_none hg, Option.none_or] at hv
              exact (ih c l hv).1
          · split
            · assumption
            · simp
        · rw [if_neg hl] at hv
          obtain ⟨h1, h2⟩ := ih c l hv
          refine ⟨h1, ?_⟩
          split
          · exact h2
          · simp [h2]
      | remove ls cs =>
        cases cs with
        | none =>
          simp only [Spec.after] at hv ⊢
          split at hv
          · exact absurd rfl hv
          · next h =>
            obtain ⟨h1, h2⟩ := ih c l hv
            exact ⟨h1, List.mem_filter.mpr ⟨h2, by simpa using h⟩⟩
        | some cs =>
          simp only [Spec.after] at hv ⊢
          split at hv
          · exact absurd rfl hv
          · exact ih c l hv
      | addCol x =>
        obtain ⟨h1, h2⟩ := ih c l hv
        refine ⟨?_, h2⟩
        simp only [Spec.after, Spec.addOnce]
        split
        · exact h1
        · simp [h1]
      | delCol x =>
        simp only [Spec.after] at hv ⊢
        split at hv
        · exact absurd rfl hv
        · next h =>
          obtain ⟨h1, h2⟩ := ih c l hv
          exact ⟨List.mem_filter.mpr ⟨h1, by simpa using h⟩, h2⟩

/-- a history that meets the hypotheses, with a replaced value, a removal from one column, a
refused call and a removal from all -/
example :
    let os : List (Op Nat) := [.set "sum" [("a", 3), ("b", 6)], .set "mean" [("a", 1)],
      .set "sum" [("b", 7)], .remove (some ["sum"]) (some ["a"]), .set "x" [("z", 1)],
      .addCol "c", .set "max" [("c", 9)], .remove (some ["mean", "no"]) none]
    ["a", "b"].Nodup ∧ (∀ o ∈ os, Sane o)
    ∧ getValues (run ([], fresh ["a", "b"]) os).1 (run ([], fresh ["a", "b"]) os).2 none none 0
      = [("sum", [0, 7, 0]), ("max", [0, 0, 9])]
    ∧ getDict (run ([], fresh ["a", "b"]) os).1 (run ([], fresh ["a", "b"]) os).2 none none
      = [("sum", [("b", 7)]), ("max", [("c", 9)])] := by
  refine ⟨by decide, ?_, by decide +kernel, by decide +kernel⟩
  intro o ho
  simp only [List.mem_cons, List.not_mem_nil, or_false] at ho
  rcases ho with rfl | rfl | rfl | rfl | rfl | rfl | rfl | rfl <;> simp [Sane]

/-! ## Copies -/

/-- no attribute object is common to the two Datasets, and those of the second exist -/
def Apart (h : Heap V) (a b : Ds) : Prop :=
  (∀ c c' p, attrOf a c = some p → attrOf b c' ≠ some p)
  ∧ (∀ c p, attrOf a c = some p → p < h.length) ∧ ∀ c p, attrOf b c = some p → p < h.length

/-- a call on one Dataset leaves the footers of another that is apart as they are -/
theorem frame_shows {h h' : Heap V} {a a' b : Ds} {f : Foot V} (hfr : Frame (h, a) (h', a'))
    (hap : Apart h a b) (hb : Shows (h, b) f) : Shows (h', b) f := by
  have hfo : ∀ c p, attrOf b c = some p → footerOf h' p = footerOf h p := by
    intro c p hc
    unfold footerOf
    rw [hfr.keep p (hap.2.2 c p hc) fun c' hc' => hap.1 c' c p hc' hc]
  refine ⟨⟨hb.wf.nodup, fun c p hc => Nat.lt_of_lt_of_le (hap.2.2 c p hc) hfr.len, hb.wf.inj⟩,
    hb.cols, hb.labels, hb.some_ne, hb.nodup, fun c l => ?_⟩
  rw [← hb.val c l]
  simp only [foot, colFooter]
  cases hc : attrOf b c with
  | none => rfl
  | some p => simp only [Option.bind_some]; rw [hfo c p hc]

theorem frame_apart {h h' : Heap V} {a a' b : Ds} (hfr : Frame (h, a) (h', a'))
    (hap : Apart h a b) (hw : WF h' a') : Apart h' a' b := by
  refine ⟨fun c c' p hc hc' => ?_, hw.bound, fun c p hc => Nat.lt_of_lt_of_le (hap.2.2 c p hc) hfr.len⟩
  rcases hfr.addr c p hc with ⟨c1, h1⟩ | h1
  · exact hap.1 c1 c' p h1 hc'
  · have := hap.2.2 c' p hc'
    simp only at h1
    omega

theorem Apart.symm {h : Heap V} {a b : Ds} (hap : Apart h a b) : Apart h b a :=
  ⟨fun c c' p h1 h2 => hap.1 c' c p h2 h1, hap.2.2, hap.2.1⟩

/-- calls on two Datasets, in any order: `true` for the first -/
def run2 (h : Heap V) (a b : Ds) : List (Bool × Op V) → Heap V × Ds × Ds
  | [] => (h, a, b)
  | (true, o) :: r => run2 (step (h, a) o).1.1 (step (h, a) o).1.2 b r
  | (false, o) :: r => run2 (step (h, b) o).1.1 a (step (h, b) o).1.2 r

/-- the calls on one of them -/
def only (x : Bool) (os : List (Bool × Op V)) : List (Op V) :=
  os.filterMap fun e => if e.1 = x then some e.2 else none

/-- **Datasets that are apart stay independent**: after any interleaving of calls each shows
what its own calls say. -/
theorem run2_independent {h : Heap V} {a b : Ds} {f g : Foot V} (ha : Shows (h, a) f)
    (hb : Shows (h, b) g) (hap : Apart h a b) (os : List (Bool × Op V))
    (ho : ∀ o ∈ os, Sane o.2) :
    Shows ((run2 h a b os).1, (run2 h a b os).2.1) (Spec.run f (only true os))
    ∧ Shows ((run2 h a b os).1, (run2 h a b os).2.2) (Spec.run g (only false os)) := by
  induction os generalizing h a b f g with
  | nil => exact ⟨ha, hb⟩
  | cons e os ih =>
    obtain ⟨x, o⟩ := e
    have ho' : ∀ o ∈ os, Sane o.2 := fun y hy => ho y (List.mem_cons_of_mem _ hy)
    cases x with
    | true =>
      obtain ⟨s1, fr, -⟩ := step_exact ha o (ho _ List.mem_cons_self)
      have := ih (h := (step (h, a) o).1.1) (a := (step (h, a) o).1.2) (b := b) s1
        (frame_shows fr hap hb) (frame_apart fr hap s1.wf) ho'
      simpa only [run2, only, List.filterMap_cons, Spec.run, List.foldl_cons, if_true,
        Bool.true_eq_false, if_false] using this
    | false =>
      obtain ⟨s1, fr, -⟩ := step_exact hb o (ho _ List.mem_cons_self)
      have := ih (h := (step (h, b) o).1.1) (a := a) (b := (step (h, b) o).1.2)
        (frame_shows fr hap.symm ha) s1 (frame_apart fr hap.symm s1.wf).symm ho'
      simpa only [run2, only, List.filterMap_cons, Spec.run, List.foldl_cons, if_true,
        Bool.false_eq_true, if_false] using this

/-- what a deep copy has made after some columns -/
structure Copied (h : Heap V) (d : Dict String (Option Nat)) (h' : Heap V)
    (d' : Dict String (Option Nat)) : Prop where
  pre : ∃ t, h' = h ++ t
  keys : d'.keys = d.keys
  fresh : ∀ e ∈ d', ∀ p, e.2 = some p → h.length ≤ p ∧ p < h'.length
  same : List.Forall₂ (fun e e' => e.1 = e'.1 ∧ (e.2 = none ∧ e'.2 = none
    ∨ ∃ p p', e.2 = some p ∧ e'.2 = some p' ∧ footerOf h' p' = footerOf h p)) d d'
  inj : (d'.filterMap Prod.snd).Nodup

theorem copied_step {h h' : Heap V} {d d' : Dict String (Option Nat)} (hc : Copied h d h' d')
    (e : String × Option Nat) (hb : ∀ p, e.2 = some p → p < h.length) :
    Copied h (d ++ [e]) (copyAttr (h', d') e).1 (copyAttr (h', d') e).2 := by
  obtain ⟨t, rfl⟩ := hc.pre
  obtain ⟨c, a⟩ := e
  cases a with
  | none =>
    refine ⟨⟨t, rfl⟩, ?_, ?_, ?_, ?_⟩
    · simpa [copyAttr, Dict.keys] using hc.keys
    · intro e he p hp
      rcases List.mem_append.mp he with he | he
      · exact hc.fresh e he p hp
      · simp only [List.mem_singleton] at he
        subst he; cases hp
    · exact List.rel_append hc.same (.cons ⟨rfl, .inl ⟨rfl, rfl⟩⟩ .nil)
    · simpa [copyAttr] using hc.inj
  | some p =>
    have hp := hb p rfl
    refine ⟨⟨t ++ [footerOf (h ++ t) p], by simp [copyAttr]⟩, ?_, ?_, ?_, ?_⟩
    · simpa [copyAttr, Dict.keys] using hc.keys
    · intro e he q hq
      rcases List.mem_append.mp he with he | he
      · have := hc.fresh e he q hq
        simp only [copyAttr, List.length_append, List.length_singleton] at this ⊢
        omega
      · simp only [List.mem_singleton] at he
        subst he
        simp only [Option.some.injEq] at hq
        simp only [copyAttr, List.length_append, List.length_singleton] at hq ⊢
        omega
    · refine List.rel_append ?_ (.cons ⟨rfl, .inr ⟨p, _, rfl, rfl, ?_⟩⟩ .nil)
      · have hfr := hc.fresh
        have hs := hc.same
        clear hc
        induction hs with
        | nil => exact .nil
        | cons hr _ ih =>
          refine .cons ⟨hr.1, ?_⟩ (ih fun e he => hfr e (List.mem_cons_of_mem _ he))
          rcases hr.2 with h0 | ⟨q, q', h1, h2, h3⟩
          · exact .inl h0
          · refine .inr ⟨q, q', h1, h2, ?_⟩
            rw [← h3]
            simp only [copyAttr]
            rw [footerOf_append, if_neg]
            have := (hfr _ List.mem_cons_self q' h2).2
            omega
      · simp only [copyAttr]
        rw [footerOf_append, if_pos rfl]
        unfold footerOf
        rw [List.getElem?_append_left hp]
    · simp only [copyAttr, List.filterMap_append, List.filterMap_cons, List.filterMap_nil]
      refine List.Nodup.append hc.inj (by simp) ?_
      rw [List.disjoint_singleton]
      intro hm
      obtain ⟨e, he, hq⟩ := List.mem_filterMap.mp hm
      have := (hc.fresh e he _ hq).2
      omega

theorem copied_fold (h : Heap V) (d : Dict String (Option Nat))
    (hb : ∀ e ∈ d, ∀ p, e.2 = some p → p < h.length) :
    Copied h d (d.foldl copyAttr (h, [])).1 (d.foldl copyAttr (h, [])).2 := by
  induction d using List.reverseRecOn with
  | nil => exact ⟨⟨[], by simp⟩, rfl, by simp, .nil, by simp⟩
  | append_singleton d e ih =>
    rw [List.foldl_append]
    exact copied_step (ih fun x hx => hb x (List.mem_append_left _ hx)) e
      (hb e (by simp))

theorem get_of_forall₂ {R : Option Nat → Option Nat → Prop} {d d' : Dict String (Option Nat)}
    (hs : List.Forall₂ (fun e e' => e.1 = e'.1 ∧ R e.2 e'.2) d d') (c : String) :
    (d.get c = none ∧ d'.get c = none) ∨ ∃ a a', d.get c = some a ∧ d'.get c = some a' ∧ R a a' := by
  induction hs with
  | nil => exact .inl ⟨rfl, rfl⟩
  | cons hr _ ih =>
    rw [Dict.get_cons, Dict.get_cons, ← hr.1]
    split
    · exact .inr ⟨_, _, rfl, rfl, hr.2⟩
    · exact ih

theorem attrOf_entry {d : Ds} {c : String} {p : Nat} (h : attrOf d c = some p) :
    (c, some p) ∈ d.cols := by
  unfold attrOf at h
  cases hg : d.cols.get c with
  | none => simp [hg] at h
  | some a =>
    simp only [hg, Option.join_some] at h
    exact h ▸ Dict.mem_of_get hg

theorem inj_of_filterMap {d : Dict String (Option Nat)} (hn : (d.filterMap Prod.snd).Nodup)
    {c c' : String} {p : Nat} (h1 : (c, some p) ∈ d) (h2 : (c', some p) ∈ d) : c = c' := by
  induction d with
  | nil => simp at h1
  | cons e d ih =>
    rw [List.filterMap_cons] at hn
    cases he : e.2 with
    | none =>
      simp only [he] at hn
      rcases List.mem_cons.mp h1 with rfl | h1
      · cases he
      · rcases List.mem_cons.mp h2 with rfl | h2
        · cases he
        · exact ih hn h1 h2
    | some q =>
      simp only [he, List.nodup_cons, List.mem_filterMap, not_exists, not_and] at hn
      rcases List.mem_cons.mp h1 with e1 | m1 <;> rcases List.mem_cons.mp h2 with e2 | m2
      · exact congrArg Prod.fst (e1.trans e2.symm)
      · subst e1; exact absurd (Option.some.inj he) (fun e => hn.1 _ m2 (by rw [e]))
      · subst e2; exact absurd (Option.some.inj he) (fun e => hn.1 _ m1 (by rw [e]))
      · exact ih hn.2 m1 m2

/-- **A deep copy has the same footers and is independent of the original.** -/
theorem deepCopy_exact {h : Heap V} {d : Ds} {f : Foot V} (hs : Shows (h, d) f) :
    Shows (deepCopy h d) f ∧ Shows ((deepCopy h d).1, d) f
    ∧ Apart (deepCopy h d).1 d (deepCopy h d).2 := by
  have hb : ∀ e ∈ d.cols, ∀ p, e.2 = some p → p < h.length := by
    intro e he p hp
    apply hs.wf.bound e.1 p
    unfold attrOf
    rw [Dict.get_of_mem hs.wf.nodup (show (e.1, e.2) ∈ d.cols from he), hp]
    rfl
  have hc := copied_fold h d.cols hb
  unfold deepCopy
  simp only
  generalize d.cols.foldl copyAttr (h, []) = s at hc ⊢
  obtain ⟨h', d'⟩ := s
  simp only at hc ⊢
  obtain ⟨t, ht⟩ := hc.pre
  have hold : ∀ p, p < h.length → footerOf h' p = footerOf h p := by
    intro p hp
    unfold footerOf
    rw [ht, List.getElem?_append_left hp]
  have hlen : h.length ≤ h'.length := by rw [ht]; simp
  have hfresh : ∀ c p, attrOf ⟨d', d.footers⟩ c = some p → h.length ≤ p ∧ p < h'.length :=
    fun c p hp => hc.fresh _ (attrOf_entry hp) p rfl
  refine ⟨⟨⟨?_, fun c p hp => (hfresh c p hp).2, fun c c' p h1 h2 => ?_⟩, ?_, hs.labels, hs.some_ne,
    hs.nodup, fun c l => ?_⟩, ⟨⟨hs.wf.nodup, fun c p hp => Nat.lt_of_lt_of_le (hs.wf.bound c p hp) hlen,
      hs.wf.inj⟩, hs.cols, hs.labels, hs.some_ne, hs.nodup, fun c l => ?_⟩,
    fun c c' p h1 h2 => ?_, fun c p hp => Nat.lt_of_lt_of_le (hs.wf.bound c p hp) hlen,
    fun c p hp => (hfresh c p hp).2⟩
  · rw [hc.keys]; exact hs.wf.nodup
  · exact inj_of_filterMap hc.inj (attrOf_entry h1) (attrOf_entry h2)
  · rw [hc.keys]; exact hs.cols
  · rw [← hs.val c l]
    simp only [foot, colFooter, attrOf]
    rcases get_of_forall₂ (R := fun a a' => a = none ∧ a' = none
      ∨ ∃ p p', a = some p ∧ a' = some p' ∧ footerOf h' p' = footerOf h p) hc.same c with
      ⟨h1, h2⟩ | ⟨a, a', h1, h2, hr⟩
    · rw [h1, h2]; rfl
    · rw [h1, h2]
      rcases hr with ⟨rfl, rfl⟩ | ⟨p, p', rfl, rfl, h3⟩
      · rfl
      · simp only [Option.join_some, Option.bind_some]; rw [h3]
  · rw [← hs.val c l]
    simp only [foot, colFooter]
    cases hp : attrOf d c with
    | none => rfl
    | some p => simp only [Option.bind_some]; rw [hold p (hs.wf.bound c p hp)]
  · have := (hfresh c' p h2).1
    have := hs.wf.bound c p h1
    simp only at this
    omega

theorem attrOf_slice (d : Ds) (cols : List String) (c : String) :
    attrOf (slice d cols) c = if c ∈ cols then attrOf d c else none := by
  unfold slice
  rw [attrOf]
  simp only
  induction cols with
  | nil => rfl
  | cons x l ih =>
    rw [List.map_cons, Dict.get_cons]
    by_cases hx : x = c
    · subst hx; simp
    · simp only [hx, if_false, ih, List.mem_cons, Ne.symm hx, false_or]

/-- **A slice reads the same footers** for its columns ("footers will appear in dataset slices
as they do in the original dataset"). -/
theorem slice_reads {h : Heap V} {d : Ds} {f : Foot V} (hs : Shows (h, d) f) {cols : List String}
    (hn : cols.Nodup) :
    Shows (h, slice d cols) { f with cols := cols, val := fun c l => if c ∈ cols then f.val c l else none } := by
  refine ⟨⟨?_, fun c p hp => ?_, fun c c' p h1 h2 => ?_⟩, ?_, hs.labels, hs.some_ne, hs.nodup,
    fun c l => ?_⟩
  · simpa [slice, Dict.keys, Function.comp_def] using hn
  · rw [attrOf_slice] at hp
    split at hp
    · exact hs.wf.bound c p hp
    · cases hp
  · rw [attrOf_slice] at h1 h2
    split at h1
    · split at h2
      · exact hs.wf.inj c c' p h1 h2
      · cases h2
    · cases h1
  · simp [slice, Dict.keys, Function.comp_def]
  · simp only
    rw [← hs.val c l]
    simp only [foot, colFooter, attrOf_slice]
    split <;> rfl

/-- **A slice is not independent of the original** (`_counterexample` in general form): for
every Dataset and every column that has had a footer, setting that column's footer through a
slice sets it in the original. -/
theorem slice_writes_through {h : Heap V} {d : Ds} {f : Foot V} (hs : Shows (h, d) f)
    {cols : List String} (hn : cols.Nodup) {c l : String} (hc : c ∈ cols) {p : Nat}
    (hp : attrOf d c = some p) (hl : l ∈ f.labels) (v : V) :
    foot (setValues h (slice d cols) l [(c, v)]).1.1 d c l = some v := by
  have hsl := slice_reads hs hn
  have hk : known (slice d cols) [c] = true := by
    rw [known_iff]
    intro x hx
    simp only [List.mem_singleton] at hx
    subst hx
    have := hsl.cols
    simp only at this
    rw [this]; exact hc
  have ha : attrOf (addLabel (slice d cols) l) c = some p := by
    have := attrOf_slice d cols c
    rw [if_pos hc, hp] at this
    exact this
  have hb := hs.wf.bound c p hp
  unfold setValues
  simp only [List.map_cons, List.map_nil, hk, if_true, List.foldl_cons, List.foldl_nil, setOne]
  have hread : ∀ cd : Dict String V, cd.get l = some v →
      foot (putFooter h (addLabel (slice d cols) l) c cd).1 d c l = some v := by
    intro cd hcd
    unfold putFooter
    simp only [ha, foot, colFooter, hp, Option.bind_some]
    rw [footerOf_set h hb, if_pos rfl]
    exact hcd
  cases colFooter h (addLabel (slice d cols) l) c with
  | none => exact hread _ (by simp [Dict.get_cons])
  | some cd => exact hread _ (by simp [Dict.get_set])

/-- The original's footer changes when a slice's footer is set. -/
theorem slice_shares_counterexample :
    let s := (setValues ([] : Heap Nat) (fresh ["a", "b"]) "sum" [("a", 3)]).1
    let t := (setValues s.1 (slice s.2 ["a"]) "sum" [("a", 99)]).1
    getValues s.1 s.2 none none 0 = [("sum", [3, 0])]
    ∧ getValues t.1 s.2 none none 0 = [("sum", [99, 0])] := by decide +kernel

/-- Removing the footers of a slice empties those of the original, whose label stays. -/
theorem slice_remove_counterexample :
    let s := (setValues ([] : Heap Nat) (fresh ["a", "b"]) "sum" [("a", 3)]).1
    let t := (remove s.1 (slice s.2 ["a"]) none none).1
    getValues t.1 s.2 none none 0 = [("sum", [0, 0])] := by decide +kernel

/-- A label named twice: `KeyError`, after the values are gone. -/
theorem remove_twice_counterexample :
    let s := (setValues ([] : Heap Nat) (fresh ["a"]) "sum" [("a", 3)]).1
    (remove s.1 s.2 (some ["sum", "sum"]) none).2 = some .key := by decide +kernel

/-- A label removed from every column by name is still listed. -/
theorem remove_columns_keeps_label_counterexample :
    let s := (setValues ([] : Heap Nat) (fresh ["a"]) "sum" [("a", 3)]).1
    let t := (remove s.1 s.2 (some ["sum"]) (some ["a"])).1
    getDict t.1 t.2 none none = [("sum", [])] := by decide +kernel

/-- **`sort_copy` raises exactly for a Dataset that has footers.** -/
theorem sortCopy_raises_iff {s : Heap V × Ds} {f : Foot V} (hs : Shows s f) :
    sortCopy s.2 = .error .attribute ↔ f.labels ≠ [] := by
  unfold sortCopy
  rw [← hs.labels]
  cases hf : s.2.footers with
  | none => simp
  | some fs => cases fs <;> simp

/-- `sort_copy` of a Dataset with footers raises. -/
theorem sortCopy_footers_counterexample :
    let s := (setValues ([] : Heap Nat) (fresh ["a"]) "sum" [("a", 3)]).1
    sortCopy s.2 = .error .attribute := by decide +kernel

/-- the hypotheses of `deepCopy_exact`, `run2_independent` and `slice_writes_through` are met
after any history -/
example : ∃ f : Foot Nat, Shows (run ([], fresh ["a", "b"]) [.set "sum" [("a", 3)]]) f
    ∧ attrOf (run (([], fresh ["a", "b"]) : Heap Nat × Ds) [.set "sum" [("a", 3)]]).2 "a" = some 0 :=
  ⟨_, (run_exact (fresh_shows [] (by decide)) _ (by simp [Sane])).1, by decide +kernel⟩

end Verif.Foot
