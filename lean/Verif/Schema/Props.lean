import Verif.Schema.Model
/-! # Applying a schema: properties (C337 - C339) -/
namespace Verif.Schema
open Spec

theorem get_none (f : Fields) (k : String) : f.get k = none ↔ ∀ s, ¬ InFields k s f := by
  match f with
  | .nil =>
    simp only [Fields.get, true_iff]
    intro s h
    cases h
  | .cons n s r =>
    simp only [Fields.get]
    by_cases h : k = n
    · rw [if_pos h]
      subst h
      constructor
      · intro h; cases h
      · intro h; exact absurd (.here k s r) (h s)
    · rw [if_neg h, get_none r k]
      constructor
      · intro h' s' hs
        cases hs with
        | here => exact h rfl
        | there _ _ _ _ hs => exact h' s' hs
      · intro h' s' hs
        exact h' s' (.there _ _ _ _ _ hs)

theorem get_some (f : Fields) (k : String) (s : Sch) (h : f.get k = some s) : InFields k s f := by
  match f with
  | .nil => cases h
  | .cons n s' r =>
    simp only [Fields.get] at h
    by_cases hk : k = n
    · rw [if_pos hk] at h
      cases h
      subst hk
      exact .here _ _ _
    · rw [if_neg hk] at h
      exact .there _ _ _ _ _ (get_some r k s h)

theorem get_of_in (f : Fields) (hp : ProperFields f) (k : String) (s : Sch) (h : InFields k s f) : f.get k = some s := by
  match f, h with
  | .cons n s' r, h =>
    simp only [ProperFields] at hp
    simp only [Fields.get]
    by_cases hk : k = n
    · rw [if_pos hk]
      subst hk
      cases h with
      | here => rfl
      | there _ _ _ _ h => exact absurd h (hp.2.1 s)
    · rw [if_neg hk]
      cases h with
      | here => exact absurd rfl hk
      | there _ _ _ _ h => exact get_of_in r hp.2.2.2 k s h

theorem proper_in (f : Fields) (hp : ProperFields f) (k : String) (s : Sch) (h : InFields k s f) : Proper s ∧ s.given = true := by
  match f, h with
  | .cons n s' r, h =>
    simp only [ProperFields] at hp
    cases h with
    | here =>
      refine ⟨hp.1, ?_⟩
      match s, hp.2.2.1 with
      | .mk none none .nil, hne => exact absurd rfl hne
      | .mk none none (.cons _ _ _), _ => rfl
      | .mk none (some _) _, _ => rfl
      | .mk (some _) _ _, _ => rfl
    | there _ _ _ _ h => exact proper_in r hp.2.2.2 k s h

theorem names_fields (f : Fields) (k : String) : k ∈ f.names ↔ ∃ s, InFields k s f := by
  match f with
  | .nil =>
    simp only [Fields.names, List.not_mem_nil, false_iff]
    rintro ⟨s, h⟩
    cases h
  | .cons n s r =>
    simp only [Fields.names, List.mem_cons, names_fields r k]
    constructor
    · rintro (rfl | ⟨s', h⟩)
      · exact ⟨s, .here _ _ _⟩
      · exact ⟨s', .there _ _ _ _ _ h⟩
    · rintro ⟨s', h⟩
      cases h with
      | here => exact Or.inl rfl
      | there _ _ _ _ h => exact Or.inr ⟨s', h⟩

theorem names_items (f : Items) (k : String) : k ∈ f.names ↔ ∃ o, InItems k o f := by
  match f with
  | .nil =>
    simp only [Items.names, List.not_mem_nil, false_iff]
    rintro ⟨s, h⟩
    cases h
  | .cons n s r =>
    simp only [Items.names, List.mem_cons, names_items r k]
    constructor
    · rintro (rfl | ⟨s', h⟩)
      · exact ⟨s, .here _ _ _⟩
      · exact ⟨s', .there _ _ _ _ _ h⟩
    · rintro ⟨s', h⟩
      cases h with
      | here => exact Or.inl rfl
      | there _ _ _ _ h => exact Or.inr ⟨s', h⟩

theorem lastMissing_some (names l : List String) (k : String) (h : lastMissing names l = some k) : k ∈ l ∧ k ∉ names := by
  induction l with
  | nil => cases h
  | cons a l ih =>
    simp only [lastMissing] at h
    cases hl : lastMissing names l with
    | some m =>
      rw [hl] at h
      cases h
      have := ih hl
      exact ⟨List.mem_cons_of_mem _ this.1, this.2⟩
    | none =>
      rw [hl] at h
      dsimp only at h
      by_cases hc : names.contains a = true
      · rw [if_pos hc] at h
        cases h
      · rw [if_neg hc] at h
        cases h
        exact ⟨by simp, by simpa using hc⟩

theorem lastMissing_none (names l : List String) (h : lastMissing names l = none) : ∀ k ∈ l, k ∈ names := by
  induction l with
  | nil => simp
  | cons a l ih =>
    simp only [lastMissing] at h
    cases hl : lastMissing names l with
    | some m => rw [hl] at h; cases h
    | none =>
      rw [hl] at h
      dsimp only at h
      by_cases hc : names.contains a = true
      · intro k hk
        rcases List.mem_cons.mp hk with rfl | hk
        · simpa using hc
        · exact ih hl k hk
      · rw [if_neg hc] at h
        cases h

theorem isEmpty_iff (f : Fields) : f.isEmpty = true ↔ f = .nil := by
  cases f <;> simp [Fields.isEmpty]

theorem typeDev_sound (o : Obj) (s : Sch) (ho : ∃ t, TypeName o t) (p : List String) (d : Dev) (h : (p, d) ∈ typeDev o s) :
    Deviates o s p d := by
  unfold typeDev at h
  split at h
  · simp at h
  · rename_i t ht
    split at h
    · rename_i hc
      rw [List.mem_singleton] at h
      cases h
      refine .type o s _ _ ?_ ht hc.1 hc.2
      obtain ⟨t', ht'⟩ := ho
      cases o with
      | struct => rfl
      | array => rfl
      | other => cases ht'
    · simp at h

mutual
theorem apply_sound : ∀ (o : Obj) (s : Sch) (r : List (List String × Dev)), Proper s → apply o s = some r →
    ∀ p d, (p, d) ∈ r → Deviates o s p d
  | .other _, s, r, _, h, p, d, hm => by
    simp only [apply] at h
    cases h
    simp at hm
  | .array i c dt, s, r, _, h, p, d, hm => by
    simp only [apply] at h
    split at h
    · cases h
      exact typeDev_sound (.array i c dt) s ⟨dt, rfl⟩ p d hm
    · cases h
  | .struct i c items, s, r, hp, h, p, d, hm => by
    simp only [apply] at h
    by_cases he : s.contents.isEmpty = true
    · rw [if_pos he] at h
      cases h
      exact typeDev_sound (.struct i c items) s ⟨c, rfl⟩ p d hm
    · rw [if_neg he] at h
      have hc : s.contents ≠ .nil := fun h' => he ((isEmpty_iff _).mpr h')
      have hpf : ProperFields s.contents := by
        cases s
        simpa only [Proper, Sch.contents] using hp
      cases hi : applyItems items s.contents with
      | none => rw [hi] at h; cases h
      | some re =>
        obtain ⟨r', extra⟩ := re
        rw [hi] at h
        dsimp only at h
        cases h
        obtain ⟨h1, h2⟩ := items_sound items s.contents r' extra hpf hi
        rw [List.mem_append, List.mem_append, List.mem_append] at hm
        rcases hm with ((hm | hm) | hm) | hm
        · exact typeDev_sound (.struct i c items) s ⟨c, rfl⟩ p d hm
        · obtain ⟨k, o, s', q, rfl, h3, h4, h5⟩ := h1 p d hm
          exact .deeper i c items s s' k o q d h3 h4 h5
        · obtain ⟨k, hk, he⟩ := List.mem_map.mp hm
          cases he
          obtain ⟨⟨o, ho⟩, hno⟩ := h2 k (by simpa using hk)
          exact .extra i c items s k o hc ho hno
        · obtain ⟨k, hk, he⟩ := List.mem_map.mp hm
          cases he
          obtain ⟨h3, h4⟩ := lastMissing_some _ _ k (by simpa using hk)
          obtain ⟨s', hs'⟩ := (names_fields _ _).mp h3
          exact .missing i c items s s' k hs' fun o ho => h4 ((names_items _ _).mpr ⟨o, ho⟩)
theorem items_sound : ∀ (items : Items) (f : Fields) (r : List (List String × Dev)) (extra : Option String), ProperFields f →
    applyItems items f = some (r, extra) →
    (∀ p d, (p, d) ∈ r → ∃ k o s' q, p = k :: q ∧ InItems k o items ∧ InFields k s' f ∧ Deviates o s' q d) ∧
    (∀ k, extra = some k → (∃ o, InItems k o items) ∧ ∀ s', ¬ InFields k s' f)
  | .nil, f, r, extra, _, h => by
    simp only [applyItems] at h
    cases h
    simp
  | .cons k o rest, f, r, extra, hp, h => by
    simp only [applyItems] at h
    cases hg : f.get k with
    | none =>
      rw [hg] at h
      dsimp only at h
      rw [Option.map_eq_some_iff] at h
      obtain ⟨⟨r1, e1⟩, hr, he⟩ := h
      cases he
      obtain ⟨h1, h2⟩ := items_sound rest f r1 e1 hp hr
      refine ⟨fun p d hm => ?_, fun k' hk' => ?_⟩
      · obtain ⟨k', o', s', q, hq, h3, h4, h5⟩ := h1 p d hm
        exact ⟨k', o', s', q, hq, .there _ _ _ _ _ h3, h4, h5⟩
      · cases e1 with
        | none =>
          simp at hk'
          subst hk'
          exact ⟨⟨o, .here _ _ _⟩, (get_none f k).mp hg⟩
        | some e =>
          simp at hk'
          subst hk'
          obtain ⟨⟨o', h3⟩, h4⟩ := h2 e rfl
          exact ⟨⟨o', .there _ _ _ _ _ h3⟩, h4⟩
    | some s' =>
      rw [hg] at h
      dsimp only at h
      have hin := get_some f k s' hg
      obtain ⟨hps, hgiv⟩ := proper_in f hp k s' hin
      rw [if_pos hgiv] at h
      cases ha : apply o s' with
      | none => rw [ha] at h; cases h
      | some l =>
        rw [ha] at h
        dsimp only at h
        rw [Option.map_eq_some_iff] at h
        obtain ⟨⟨r1, e1⟩, hr, he⟩ := h
        cases he
        obtain ⟨h1, h2⟩ := items_sound rest f r1 e1 hp hr
        have hs := apply_sound o s' l hps ha
        refine ⟨fun p d hm => ?_, fun k' hk' => ?_⟩
        · rcases List.mem_append.mp hm with hm | hm
          · obtain ⟨⟨q, d'⟩, hq, he⟩ := List.mem_map.mp hm
            cases he
            exact ⟨k, o, s', q, rfl, .here _ _ _, hin, hs q _ hq⟩
          · obtain ⟨k', o', s'', q, hq, h3, h4, h5⟩ := h1 p d hm
            exact ⟨k', o', s'', q, hq, .there _ _ _ _ _ h3, h4, h5⟩
        · obtain ⟨⟨o', h3⟩, h4⟩ := h2 k' hk'
          exact ⟨⟨o', .there _ _ _ _ _ h3⟩, h4⟩
end

/-- the same kind of deviation -/
def Dev.Same : Dev → Dev → Prop
  | .type f w, d => d = .type f w
  | .extra _, d => ∃ n, d = .extra n
  | .missing _, d => ∃ n, d = .missing n

theorem items_below (items : Items) (f : Fields) (hp : ProperFields f) (k : String) (o : Obj) (s' : Sch) (hi : InItems k o items)
    (hs : InFields k s' f) (r : List (List String × Dev)) (extra : Option String) (h : applyItems items f = some (r, extra)) :
    ∃ l, apply o s' = some l ∧ ∀ p d, (p, d) ∈ l → (k :: p, d) ∈ r := by
  match items, hi with
  | .cons k' o' rest, hi =>
    simp only [applyItems] at h
    cases hi with
    | here =>
      rw [get_of_in f hp k s' hs] at h
      dsimp only at h
      rw [if_pos (proper_in f hp k s' hs).2] at h
      cases ha : apply o s' with
      | none => rw [ha] at h; cases h
      | some l =>
        rw [ha] at h
        dsimp only at h
        rw [Option.map_eq_some_iff] at h
        obtain ⟨⟨r1, e1⟩, _, he⟩ := h
        cases he
        exact ⟨l, rfl, fun p d hm => List.mem_append_left _ (List.mem_map.mpr ⟨(p, d), hm, rfl⟩)⟩
    | there _ _ _ _ hi =>
      have key : ∃ r1 e1, applyItems rest f = some (r1, e1) ∧ ∀ x, x ∈ r1 → x ∈ r := by
        cases hg : f.get k' with
        | none =>
          rw [hg] at h
          dsimp only at h
          rw [Option.map_eq_some_iff] at h
          obtain ⟨⟨r1, e1⟩, hr, he⟩ := h
          cases he
          exact ⟨_, _, hr, fun _ h => h⟩
        | some s'' =>
          rw [hg] at h
          dsimp only at h
          rw [if_pos (proper_in f hp k' s'' (get_some f k' s'' hg)).2] at h
          cases ha : apply o' s'' with
          | none => rw [ha] at h; cases h
          | some l =>
            rw [ha] at h
            dsimp only at h
            rw [Option.map_eq_some_iff] at h
            obtain ⟨⟨r1, e1⟩, hr, he⟩ := h
            cases he
            exact ⟨_, _, hr, fun _ h => List.mem_append_right _ h⟩
      obtain ⟨r1, e1, hr, hsub⟩ := key
      obtain ⟨l, hl1, hl2⟩ := items_below rest f hp k o s' hi hs r1 e1 hr
      exact ⟨l, hl1, fun p d hm => hsub _ (hl2 p d hm)⟩

theorem items_extra (items : Items) (f : Fields) (hp : ProperFields f) (k : String) (o : Obj) (hi : InItems k o items)
    (hs : ∀ s', ¬ InFields k s' f) (r : List (List String × Dev)) (extra : Option String) (h : applyItems items f = some (r, extra)) :
    ∃ n, extra = some n := by
  match items, hi with
  | .cons k' o' rest, hi =>
    simp only [applyItems] at h
    cases hg : f.get k' with
    | none =>
      rw [hg] at h
      dsimp only at h
      rw [Option.map_eq_some_iff] at h
      obtain ⟨⟨r1, e1⟩, hr, he⟩ := h
      cases he
      cases e1 with
      | none => exact ⟨k', rfl⟩
      | some e => exact ⟨e, rfl⟩
    | some s'' =>
      rw [hg] at h
      dsimp only at h
      rw [if_pos (proper_in f hp k' s'' (get_some f k' s'' hg)).2] at h
      cases ha : apply o' s'' with
      | none => rw [ha] at h; cases h
      | some l =>
        rw [ha] at h
        dsimp only at h
        rw [Option.map_eq_some_iff] at h
        obtain ⟨⟨r1, e1⟩, hr, he⟩ := h
        cases he
        cases hi with
        | here => exact absurd (get_some f k s'' hg) (hs s'')
        | there _ _ _ _ hi => exact items_extra rest f hp k o hi hs r1 e1 hr

theorem typeStr_eq {o : Obj} {t : String} (h : TypeName o t) : typeStr o = t := by
  cases o with
  | struct => exact h.symm
  | array => exact h.symm
  | other => cases h

theorem typeDev_complete (o : Obj) (s : Sch) (f w : String) (hf : TypeName o f) (hw : s.type = some w) (he : w ≠ "") (hne : f ≠ w) :
    (([], Dev.type f w) : List String × Dev) ∈ typeDev o s := by
  unfold typeDev
  rw [hw, typeStr_eq hf]
  dsimp only
  rw [if_pos ⟨he, hne⟩]
  simp

theorem proper_contents {s : Sch} (hp : Proper s) : ProperFields s.contents := by
  cases s
  simpa only [Proper, Sch.contents] using hp

/-- **C338** (partial: of several extra names of one object, and of several missing ones, one is reported) Every deviation is reported: wrong
types with their path and both names; where names are extra or missing, one of them. -/
theorem reported_partial (o : Obj) (s : Sch) (hp : Proper s) (r : List (List String × Dev)) (h : apply o s = some r) (p : List String)
    (d : Dev) (hd : Deviates o s p d) : ∃ d', d.Same d' ∧ (p, d') ∈ r ∧ Deviates o s p d' := by
  have key : ∃ d', d.Same d' ∧ (p, d') ∈ r := by
    induction hd generalizing r with
    | type o s f w hf hw he hne =>
      refine ⟨_, rfl, ?_⟩
      have hm := typeDev_complete o s f w hf hw he hne
      cases o with
      | other => cases hf
      | array i c dt =>
        simp only [apply] at h
        split at h
        · cases h
          exact hm
        · cases h
      | struct i c items =>
        simp only [apply] at h
        by_cases he : s.contents.isEmpty = true
        · rw [if_pos he] at h
          cases h
          exact hm
        · rw [if_neg he] at h
          cases hi : applyItems items s.contents with
          | none => rw [hi] at h; cases h
          | some re =>
            rw [hi] at h
            dsimp only at h
            cases h
            exact List.mem_append_left _ (List.mem_append_left _ (List.mem_append_left _ hm))
    | extra i c items s n o hc hi hno =>
      simp only [apply] at h
      rw [if_neg (fun he => hc ((isEmpty_iff _).mp he))] at h
      cases ha : applyItems items s.contents with
      | none => rw [ha] at h; cases h
      | some re =>
        obtain ⟨r1, e1⟩ := re
        rw [ha] at h
        dsimp only at h
        cases h
        obtain ⟨m, hm⟩ := items_extra items s.contents (proper_contents hp) n o hi hno r1 e1 ha
        refine ⟨.extra m, ⟨m, rfl⟩, List.mem_append_left _ (List.mem_append_right _ ?_)⟩
        rw [hm]
        simp
    | missing i c items s s' n hs hno =>
      simp only [apply] at h
      have hc : s.contents ≠ .nil := by
        intro h'
        rw [h'] at hs
        cases hs
      rw [if_neg (fun he => hc ((isEmpty_iff _).mp he))] at h
      cases ha : applyItems items s.contents with
      | none => rw [ha] at h; cases h
      | some re =>
        rw [ha] at h
        dsimp only at h
        cases h
        cases hl : lastMissing items.names s.contents.names with
        | none =>
          obtain ⟨o, ho⟩ := (names_items _ _).mp (lastMissing_none _ _ hl n ((names_fields _ _).mpr ⟨s', hs⟩))
          exact absurd ho (hno o)
        | some m =>
          refine ⟨.missing m, ⟨m, rfl⟩, List.mem_append_right _ ?_⟩
          simp
    | deeper i c items s s' n o p d hi hs _ ih =>
      simp only [apply] at h
      have hc : s.contents ≠ .nil := by
        intro h'
        rw [h'] at hs
        cases hs
      rw [if_neg (fun he => hc ((isEmpty_iff _).mp he))] at h
      cases ha : applyItems items s.contents with
      | none => rw [ha] at h; cases h
      | some re =>
        obtain ⟨r1, e1⟩ := re
        rw [ha] at h
        dsimp only at h
        cases h
        obtain ⟨l, hl1, hl2⟩ := items_below items s.contents (proper_contents hp) n o s' hi hs r1 e1 ha
        obtain ⟨d', h1, h2⟩ := ih (proper_in s.contents (proper_contents hp) n s' hs).1 l hl1
        exact ⟨d', h1, List.mem_append_left _ (List.mem_append_left _ (List.mem_append_right _ (hl2 p d' h2)))⟩
  obtain ⟨d', h1, h2⟩ := key
  exact ⟨d', h1, h2, apply_sound o s r hp h p d' h2⟩

mutual
theorem apply_total : ∀ (o : Obj) (s : Sch), Proper s → Fits o s → ∃ r, apply o s = some r
  | .other _, s, _, _ => ⟨[], by simp only [apply]⟩
  | .array i c dt, s, _, hf => by
    simp only [apply]
    rw [if_pos ((isEmpty_iff _).mpr (hf [] i c dt s (.here _ _)))]
    exact ⟨_, rfl⟩
  | .struct i c items, s, hp, hf => by
    simp only [apply]
    by_cases he : s.contents.isEmpty = true
    · rw [if_pos he]
      exact ⟨_, rfl⟩
    · rw [if_neg he]
      obtain ⟨re, hre⟩ := items_total items s.contents (proper_contents hp) fun k o s' hi hs p i' c' dt s'' hat =>
        hf (k :: p) i' c' dt s'' (.deeper i c items s s' k o p _ _ hi hs hat)
      rw [hre]
      exact ⟨_, rfl⟩
theorem items_total : ∀ (items : Items) (f : Fields), ProperFields f → (∀ k o s', InItems k o items → InFields k s' f → Fits o s') →
    ∃ re, applyItems items f = some re
  | .nil, f, _, _ => ⟨_, by simp only [applyItems]; rfl⟩
  | .cons k o rest, f, hp, hf => by
    simp only [applyItems]
    obtain ⟨re, hre⟩ := items_total rest f hp fun k' o' s' hi hs => hf k' o' s' (.there _ _ _ _ _ hi) hs
    cases hg : f.get k with
    | none =>
      dsimp only
      rw [hre]
      exact ⟨_, rfl⟩
    | some s' =>
      dsimp only
      have hin := get_some f k s' hg
      obtain ⟨hps, hgiv⟩ := proper_in f hp k s' hin
      rw [if_pos hgiv]
      obtain ⟨l, hl⟩ := apply_total o s' hps (hf k o s' (.here _ _ _) hin)
      rw [hl, hre]
      exact ⟨_, rfl⟩
end

/-- **C337** (partial: every element of the schema has something said of it, and no array is said to have contents) The report is empty
exactly when nothing deviates; and whatever is reported is a deviation. -/
theorem report_partial (o : Obj) (s : Sch) (hp : Proper s) (hf : Fits o s) :
    ∃ r, apply o s = some r ∧ (r = [] ↔ ∀ p d, ¬ Deviates o s p d) ∧ ∀ p d, (p, d) ∈ r → Deviates o s p d := by
  obtain ⟨r, hr⟩ := apply_total o s hp hf
  refine ⟨r, hr, ⟨?_, ?_⟩, apply_sound o s r hp hr⟩
  · intro he p d hd
    obtain ⟨d', _, h2, _⟩ := reported_partial o s hp r hr p d hd
    rw [he] at h2
    simp at h2
  · intro hno
    rw [List.eq_nil_iff_forall_not_mem]
    rintro ⟨p, d⟩ hm
    exact hno p d (apply_sound o s r hp hr p d hm)

/-- a Dataset of two columns, the second of another dtype, and its schema -/
def ds : Obj := .struct 0 "Dataset" (.cons "a" (.array 1 "FastArray" "int32") (.cons "b" (.array 2 "FastArray" "float64") .nil))
def sch : Sch := .mk (some "Dataset") (some "prices") (.cons "a" (.mk (some "int32") (some "size") .nil)
  (.cons "b" (.mk (some "float32") none .nil) .nil))

/-- the hypotheses can be met: the type of "b" deviates -/
example : Proper sch ∧ apply ds sch = some [(["b"], .type "float64" "float32")] := by
  refine ⟨?_, by decide +kernel⟩
  simp only [sch, Proper, ProperFields]
  refine ⟨trivial, ?_, by simp, trivial, ?_, by simp, trivial⟩
  · intro s' h
    have := (names_fields _ _).mpr ⟨s', h⟩
    revert this
    decide
  · intro s' h
    cases h
example : Fits ds sch := by
  intro p i c dt s' h
  cases h with
  | deeper _ _ _ _ s1 n o p _ _ hi hs h =>
    cases h with
    | here =>
      cases hs with
      | here => rfl
      | there _ _ _ _ hs =>
        cases hs with
        | here => rfl
        | there _ _ _ _ hs => cases hs
    | deeper => cases hi with
      | there _ _ _ _ hi => cases hi with
        | there _ _ _ _ hi => cases hi

/-- **C337** (counterexample) An element with an empty description is reported as extra though it is in the schema; an array that is said to
have contents raises; and an array of class FastArray deviates from the type "FastArray". -/
theorem report_counterexample :
    apply ds (.mk none none (.cons "a" (.mk none none .nil) (.cons "b" (.mk (some "float64") none .nil) .nil))) = some [([], .extra "a")] ∧
    apply (.array 1 "FastArray" "int32") (.mk none none (.cons "x" (.mk none (some "t") .nil) .nil)) = none ∧
    apply (.array 1 "FastArray" "int32") (.mk (some "FastArray") none .nil) = some [([], .type "int32" "FastArray")] := by
  decide +kernel

/-- **C338** (counterexample) Of two extra columns the first is not reported, and of two missing ones neither is the first. -/
theorem reported_counterexample :
    apply ds (.mk none none (.cons "c" (.mk (some "x") none .nil) (.cons "d" (.mk (some "x") none .nil) .nil))) =
      some [([], .extra "b"), ([], .missing "d")] := by decide +kernel

theorem getLast_cons_filter {α : Type} (a : α) (l : List α) : (a :: l).getLast? = some (l.getLast?.getD a) := by
  cases l with
  | nil => rfl
  | cons b l => simp [List.getLast?_cons]

theorem lastMissing_exact (names l : List String) : lastMissing names l = (l.filter (fun k => decide (k ∉ names))).getLast? := by
  induction l with
  | nil => rfl
  | cons a l ih =>
    simp only [lastMissing, ih, List.filter_cons]
    by_cases hc : a ∈ names
    · rw [if_pos (by simpa using hc), if_neg (by simpa using hc)]
      cases (l.filter (fun k => decide (k ∉ names))).getLast? <;> rfl
    · rw [if_neg (by simpa using hc), if_pos (by simpa using hc), getLast_cons_filter]
      cases (l.filter (fun k => decide (k ∉ names))).getLast? <;> rfl

theorem extra_exact (items : Items) (f : Fields) (hp : ProperFields f) (r : List (List String × Dev)) (extra : Option String)
    (h : applyItems items f = some (r, extra)) : extra = (items.names.filter (fun k => decide (k ∉ f.names))).getLast? := by
  match items with
  | .nil =>
    simp only [applyItems] at h
    cases h
    rfl
  | .cons k o rest =>
    simp only [applyItems] at h
    simp only [Items.names, List.filter_cons]
    cases hg : f.get k with
    | none =>
      rw [hg] at h
      dsimp only at h
      rw [Option.map_eq_some_iff] at h
      obtain ⟨⟨r1, e1⟩, hr, he⟩ := h
      cases he
      have hk : k ∉ f.names := fun hk => by
        obtain ⟨s, hs⟩ := (names_fields _ _).mp hk
        exact (get_none f k).mp hg s hs
      rw [if_pos (by simpa using hk), getLast_cons_filter, ← extra_exact rest f hp _ e1 hr]
      cases e1 <;> rfl
    | some s' =>
      rw [hg] at h
      dsimp only at h
      have hin := get_some f k s' hg
      rw [if_pos (proper_in f hp k s' hin).2] at h
      cases ha : apply o s' with
      | none => rw [ha] at h; cases h
      | some l =>
        rw [ha] at h
        dsimp only at h
        rw [Option.map_eq_some_iff] at h
        obtain ⟨⟨r1, e1⟩, hr, he⟩ := h
        cases he
        have hk : k ∈ f.names := (names_fields _ _).mpr ⟨s', hin⟩
        rw [if_neg (by simpa using hk)]
        exact extra_exact rest f hp r1 _ hr

theorem items_paths (items : Items) (f : Fields) (hp : ProperFields f) (r : List (List String × Dev)) (extra : Option String)
    (h : applyItems items f = some (r, extra)) (d : Dev) : ([], d) ∉ r := by
  intro hm
  obtain ⟨k, o, s', q, hq, _⟩ := (items_sound items f r extra hp h).1 [] d hm
  cases hq

/-- **C338** (exact) Of the names of an object that the schema does not have, the last is reported; of the names of the schema that the
object does not have, the last. -/
theorem reported_exact (i : Nat) (c : String) (items : Items) (s : Sch) (hp : Proper s) (hc : s.contents ≠ .nil)
    (r : List (List String × Dev)) (h : apply (.struct i c items) s = some r) (n : String) :
    (([], Dev.extra n) ∈ r ↔ (items.names.filter (fun k => decide (k ∉ s.contents.names))).getLast? = some n) ∧
    (([], Dev.missing n) ∈ r ↔ (s.contents.names.filter (fun k => decide (k ∉ items.names))).getLast? = some n) := by
  simp only [apply] at h
  rw [if_neg (fun he => hc ((isEmpty_iff _).mp he))] at h
  cases ha : applyItems items s.contents with
  | none => rw [ha] at h; cases h
  | some re =>
    obtain ⟨r1, e1⟩ := re
    rw [ha] at h
    dsimp only at h
    cases h
    have hx := extra_exact items s.contents (proper_contents hp) r1 e1 ha
    have ht : ∀ p d, (p, d) ∈ typeDev (.struct i c items) s → ∃ f w, d = .type f w := by
      intro p d hm
      unfold typeDev at hm
      split at hm
      · simp at hm
      · split at hm
        · rw [List.mem_singleton] at hm
          cases hm
          exact ⟨_, _, rfl⟩
        · simp at hm
    have h1 := items_paths items s.contents (proper_contents hp) r1 e1 ha
    rw [← hx, ← lastMissing_exact]
    constructor
    · simp only [List.mem_append, List.mem_map, h1, or_false]
      constructor
      · rintro ((hm | ⟨k, hk, he⟩) | ⟨k, _, he⟩)
        · obtain ⟨_, _, h⟩ := ht _ _ hm
          cases h
        · cases he
          simpa using hk
        · cases he
      · intro he
        exact Or.inl (Or.inr ⟨n, by simpa using he, rfl⟩)
    · simp only [List.mem_append, List.mem_map, h1, or_false]
      constructor
      · rintro ((hm | ⟨k, _, he⟩) | ⟨k, hk, he⟩)
        · obtain ⟨_, _, h⟩ := ht _ _ hm
          cases h
        · cases he
        · cases he
          simpa using hk
      · intro he
        exact Or.inr ⟨n, by simpa using he, rfl⟩

/-! ## Descriptions -/

mutual
theorem writes_iff : ∀ (o : Obj) (s : Sch), Proper s → ∀ i t, (i, t) ∈ writes o s ↔
    ∃ p o' s', At o s p o' s' ∧ Identity o' i ∧ t = s'.descr.getD "<no description>"
  | .other c, s, _, i, t => by
    simp only [writes, List.not_mem_nil, false_iff]
    rintro ⟨p, o', s', hat, hid, _⟩
    cases hat
    cases hid
  | .array j c dt, s, _, i, t => by
    simp only [writes, List.mem_singleton]
    constructor
    · intro h
      cases h
      exact ⟨[], _, s, .here _ _, rfl, rfl⟩
    · rintro ⟨p, o', s', hat, hid, ht⟩
      cases hat
      rw [hid, ht]
      rfl
  | .struct j c items, s, hp, i, t => by
    simp only [writes, List.mem_cons]
    rw [writesItems_iff items s.contents (proper_contents hp) i t]
    constructor
    · rintro (h | ⟨k, o, s', p, o', s'', hi, hs, hat, hid, ht⟩)
      · cases h
        exact ⟨[], _, s, .here _ _, rfl, rfl⟩
      · exact ⟨k :: p, o', s'', .deeper j c items s s' k o p o' s'' hi hs hat, hid, ht⟩
    · rintro ⟨p, o', s', hat, hid, ht⟩
      cases hat with
      | here =>
        left
        rw [hid, ht]
        rfl
      | deeper _ _ _ _ s1 n o q _ _ hi hs hat => exact Or.inr ⟨n, o, s1, q, o', s', hi, hs, hat, hid, ht⟩
theorem writesItems_iff : ∀ (items : Items) (f : Fields), ProperFields f → ∀ i t, (i, t) ∈ writesItems items f ↔
    ∃ k o s' p o' s'', InItems k o items ∧ InFields k s' f ∧ At o s' p o' s'' ∧ Identity o' i ∧ t = s''.descr.getD "<no description>"
  | .nil, f, _, i, t => by
    simp only [writesItems, List.not_mem_nil, false_iff]
    rintro ⟨k, o, s', p, o', s'', hi, _⟩
    cases hi
  | .cons k o rest, f, hp, i, t => by
    simp only [writesItems]
    have ih := writesItems_iff rest f hp i t
    cases hg : f.get k with
    | none =>
      dsimp only
      rw [ih]
      constructor
      · rintro ⟨k', o', s', p, o'', s'', hi, h⟩
        exact ⟨k', o', s', p, o'', s'', .there _ _ _ _ _ hi, h⟩
      · rintro ⟨k', o', s', p, o'', s'', hi, hs, h⟩
        cases hi with
        | here => exact absurd hs ((get_none f k).mp hg s')
        | there _ _ _ _ hi => exact ⟨k', o', s', p, o'', s'', hi, hs, h⟩
    | some s1 =>
      dsimp only
      have hin := get_some f k s1 hg
      obtain ⟨hps, hgiv⟩ := proper_in f hp k s1 hin
      rw [if_pos hgiv, List.mem_append, ih, writes_iff o s1 hps i t]
      constructor
      · rintro (⟨p, o'', s'', h⟩ | ⟨k', o', s', p, o'', s'', hi, h⟩)
        · exact ⟨k, o, s1, p, o'', s'', .here _ _ _, hin, h⟩
        · exact ⟨k', o', s', p, o'', s'', .there _ _ _ _ _ hi, h⟩
      · rintro ⟨k', o', s', p, o'', s'', hi, hs, h⟩
        cases hi with
        | here =>
          have := get_of_in f hp k s' hs
          rw [hg] at this
          cases this
          exact Or.inl ⟨p, o'', s'', h⟩
        | there _ _ _ _ hi => exact Or.inr ⟨k', o', s', p, o'', s'', hi, hs, h⟩
end

/-- **C339** (partial: an object is described in one place only) Afterwards every object of the tree that the schema speaks of has the
description the schema gives for it, or the text for no description; others have none from it. -/
theorem described_partial (o : Obj) (s : Sch) (hp : Proper s) (i : Nat)
    (h1 : ∀ p o' s' p' o'' s'', At o s p o' s' → Identity o' i → At o s p' o'' s'' → Identity o'' i → s'.descr = s''.descr) :
    (∀ p o' s', At o s p o' s' → Identity o' i → described (writes o s) i = some (s'.descr.getD "<no description>")) ∧
    ((∀ p o' s', At o s p o' s' → ¬ Identity o' i) → described (writes o s) i = none) := by
  constructor
  · intro p o' s' hat hid
    have hm := (writes_iff o s hp i (s'.descr.getD "<no description>")).mpr ⟨p, o', s', hat, hid, rfl⟩
    unfold described
    cases hfi : (writes o s).reverse.find? fun w => w.1 = i with
    | none =>
      rw [List.find?_eq_none] at hfi
      have := hfi _ (List.mem_reverse.mpr hm)
      simp at this
    | some w =>
      have h2 := List.find?_some hfi
      have h3 := List.mem_of_find?_eq_some hfi
      obtain ⟨j, t⟩ := w
      have hj : j = i := by simpa using h2
      subst hj
      obtain ⟨p', o'', s'', hat', hid', ht⟩ := (writes_iff o s hp j t).mp (List.mem_reverse.mp h3)
      rw [h1 p o' s' p' o'' s'' hat hid hat' hid', Option.map_some, ht]
  · intro hno
    unfold described
    rw [Option.map_eq_none_iff, List.find?_eq_none]
    rintro ⟨j, t⟩ hm hj
    have hj' : j = i := by simpa using hj
    subst hj'
    obtain ⟨p', o'', s'', hat', hid', _⟩ := (writes_iff o s hp j t).mp (List.mem_reverse.mp hm)
    exact hno p' o'' s'' hat' hid'

/-- **C339** (counterexample) The same array under two names: both have the description of the second. -/
theorem described_counterexample :
    described (writes (.struct 0 "Dataset" (.cons "a" (.array 1 "FastArray" "int32") (.cons "b" (.array 1 "FastArray" "int32") .nil)))
      (.mk none none (.cons "a" (.mk none (some "size") .nil) (.cons "b" (.mk none (some "price") .nil) .nil)))) 1 = some "price" := by
  decide +kernel

/-- the hypotheses can be met -/
example : described (writes ds sch) 1 = some "size" ∧ described (writes ds sch) 2 = some "<no description>" := by decide +kernel
end Verif.Schema
