import Verif.StructTree.Model
import Mathlib.Data.List.Nodup
import Mathlib.Tactic.Common
/-! # `key_search` (C311) -/
namespace Verif.StructTree

theorem mem_keys {f : Fields} {k : String} : k ∈ f.keys ↔ ∃ v, Has f k v := by
  match f with
  | .nil => simp only [Fields.keys, List.not_mem_nil, false_iff]; rintro ⟨v, h⟩; cases h
  | .cons k' v' r =>
    simp only [Fields.keys, List.mem_cons, mem_keys (f := r)]
    constructor
    · rintro (rfl | ⟨v, h⟩)
      · exact ⟨v', .here ..⟩
      · exact ⟨v, .later _ _ _ _ _ h⟩
    · rintro ⟨v, h⟩
      cases h with
      | here => exact .inl rfl
      | later _ _ _ _ _ h => exact .inr ⟨v, h⟩

theorem path_ne {f : Fields} {p : List String} (h : HasPath f p) : p ≠ [] := by cases h <;> simp

theorem written_cons {pre k : String} {p : List String} (h : p ≠ []) : written pre (k :: p) = written (pre ++ k ++ ".") p := by
  cases p with
  | nil => exact absurd rfl h
  | cons => rfl

/-- the paths below the first level -/
inductive Deep : Fields → List String → Prop
  | struct (f g : Fields) (k : String) (p : List String) : Has f k (.struct g) → HasPath g p → Deep f (k :: p)
  | dataset (f g : Fields) (k k' : String) (v : Val) : Has f k (.dataset g) → Has g k' v → Deep f [k, k']

theorem hasPath_iff {f : Fields} {p : List String} : HasPath f p ↔ (∃ k v, p = [k] ∧ Has f k v) ∨ Deep f p := by
  constructor
  · intro h
    cases h with
    | last _ k v h => exact .inl ⟨k, v, rfl, h⟩
    | struct _ g k p h1 h2 => exact .inr (.struct _ _ _ _ h1 h2)
    | dataset _ g k k' v h1 h2 => exact .inr (.dataset _ _ _ _ _ h1 h2)
  · rintro (⟨k, v, rfl, h⟩ | h)
    · exact .last _ _ _ h
    · cases h with
      | struct g k p h1 h2 => exact .struct _ _ _ _ h1 h2
      | dataset g k k' v h1 h2 => exact .dataset _ _ _ _ _ h1 h2

/-- what is found of one level -/
theorem level {m : String → Bool} {path s : String} {f : Fields} :
    s ∈ (f.keys.filter m).map (path ++ ·) ↔ ∃ k v, Has f k v ∧ m k = true ∧ s = written path [k] := by
  simp only [List.mem_map, List.mem_filter, mem_keys, written]
  constructor
  · rintro ⟨k, ⟨⟨v, h⟩, hm⟩, rfl⟩; exact ⟨k, v, h, hm, rfl⟩
  · rintro ⟨k, v, h, hm, rfl⟩; exact ⟨k, ⟨⟨v, h⟩, hm⟩, rfl⟩

/-- the paths in an item -/
inductive Under : Val → List String → Prop
  | struct (g : Fields) (p : List String) : HasPath g p → Under (.struct g) p
  | dataset (g : Fields) (k : String) (v : Val) : Has g k v → Under (.dataset g) [k]

theorem under_ne {v : Val} {p : List String} (h : Under v p) : p ≠ [] := by
  cases h with
  | struct g p h => exact path_ne h
  | dataset => simp

theorem deep_iff {f : Fields} {p : List String} : Deep f p ↔ ∃ k v q, p = k :: q ∧ Has f k v ∧ Under v q := by
  constructor
  · intro h
    cases h with
    | struct g k p h1 h2 => exact ⟨k, _, p, rfl, h1, .struct _ _ h2⟩
    | dataset g k k' v h1 h2 => exact ⟨k, _, [k'], rfl, h1, .dataset _ _ _ h2⟩
  · rintro ⟨k, v, q, rfl, h1, h2⟩
    cases h2 with
    | struct g p h => exact .struct _ _ _ _ h1 h
    | dataset g k' v h => exact .dataset _ _ _ _ _ h1 h

mutual
theorem nested_iff (m : String → Bool) (path s : String) : (f : Fields) →
    (s ∈ nested m path f ↔ ∃ p, Deep f p ∧ (∃ k ∈ p.getLast?, m k = true) ∧ s = written path p)
  | .nil => by
    simp only [nested, List.not_mem_nil, false_iff]
    rintro ⟨p, h, -⟩
    rw [deep_iff] at h
    obtain ⟨k, v, q, -, h, -⟩ := h
    cases h
  | .cons k v r => by
    simp only [nested, List.mem_append, nested_iff m path s r, inVal_iff m (path ++ k ++ ".") s v]
    constructor
    · rintro (⟨p, h, hm, rfl⟩ | ⟨p, h, hm, rfl⟩)
      · refine ⟨k :: p, deep_iff.2 ⟨k, v, p, rfl, .here .., h⟩, ?_, (written_cons (under_ne h)).symm⟩
        obtain ⟨x, q, rfl⟩ := List.exists_cons_of_ne_nil (under_ne h)
        rwa [List.getLast?_cons_cons]
      · obtain ⟨k', v', q, rfl, h1, h2⟩ := deep_iff.1 h
        exact ⟨k' :: q, deep_iff.2 ⟨k', v', q, rfl, .later _ _ _ _ _ h1, h2⟩, hm, rfl⟩
    · rintro ⟨p, h, hm, rfl⟩
      obtain ⟨k', v', q, rfl, h1, h2⟩ := deep_iff.1 h
      cases h1 with
      | here =>
        refine .inl ⟨q, h2, ?_, written_cons (under_ne h2)⟩
        obtain ⟨x, q, rfl⟩ := List.exists_cons_of_ne_nil (under_ne h2)
        rwa [List.getLast?_cons_cons] at hm
      | later _ _ _ _ _ h1 => exact .inr ⟨_, deep_iff.2 ⟨k', v', q, rfl, h1, h2⟩, hm, rfl⟩
theorem inVal_iff (m : String → Bool) (path s : String) : (v : Val) →
    (s ∈ inVal m path v ↔ ∃ p, Under v p ∧ (∃ k ∈ p.getLast?, m k = true) ∧ s = written path p)
  | .struct g => by
    simp only [inVal, List.mem_append, level, nested_iff m path s g]
    constructor
    · rintro (⟨k, v, h, hm, rfl⟩ | ⟨p, h, hm, rfl⟩)
      · exact ⟨[k], .struct _ _ (.last _ _ _ h), ⟨k, rfl, hm⟩, rfl⟩
      · exact ⟨p, .struct _ _ (hasPath_iff.2 (.inr h)), hm, rfl⟩
    · rintro ⟨p, h, hm, rfl⟩
      cases h with
      | struct _ _ h =>
        rcases hasPath_iff.1 h with ⟨k, v, rfl, h'⟩ | h
        · obtain ⟨k', hk', hm⟩ := hm
          cases hk'
          exact .inl ⟨k, v, h', hm, rfl⟩
        · exact .inr ⟨p, h, hm, rfl⟩
  | .dataset g => by
    simp only [inVal, level]
    constructor
    · rintro ⟨k, v, h, hm, rfl⟩
      exact ⟨[k], .dataset _ _ _ h, ⟨k, rfl, hm⟩, rfl⟩
    · rintro ⟨p, h, hm, rfl⟩
      cases h with
      | dataset _ k v h =>
        obtain ⟨k', hk', hm⟩ := hm
        cases hk'
        exact ⟨k, v, h, hm, rfl⟩
  | .text _ => by simp only [inVal, List.not_mem_nil, false_iff]; rintro ⟨p, h, -⟩; cases h
  | .cat _ _ => by simp only [inVal, List.not_mem_nil, false_iff]; rintro ⟨p, h, -⟩; cases h
  | .other _ => by simp only [inVal, List.not_mem_nil, false_iff]; rintro ⟨p, h, -⟩; cases h
end

/-- C311: `key_search` of a Struct gives exactly the paths, with the prefix, of the nested items whose own key matches -/
theorem search_exact (m : String → Bool) (path s : String) (f : Fields) :
    s ∈ keySearch m true path f ↔ ∃ p, HasPath f p ∧ (∃ k ∈ p.getLast?, m k = true) ∧ s = written path p := by
  have := inVal_iff m path s (.struct f)
  simp only [inVal] at this
  simp only [keySearch, if_true, this]
  constructor
  · rintro ⟨p, h, hm⟩; cases h with | struct _ _ h => exact ⟨p, h, hm⟩
  · rintro ⟨p, h, hm⟩; exact ⟨p, .struct _ _ h, hm⟩

/-- C311: without `recursive` those of the Struct itself, in their order -/
theorem flat_exact (m : String → Bool) (path : String) (f : Fields) :
    keySearch m false path f = (f.keys.filter m).map (path ++ ·) := by
  simp [keySearch]

mutual
/-- keys of a container are different, and without a dot -/
def NoDots : Fields → Prop
  | .nil => True
  | .cons k v r => k ∉ r.keys ∧ '.' ∉ k.toList ∧ NoDotsVal v ∧ NoDots r
def NoDotsVal : Val → Prop
  | .struct g => NoDots g
  | .dataset g => NoDots g
  | _ => True
end

theorem noDots_has {f : Fields} (h : NoDots f) {k : String} {v : Val} (hk : Has f k v) : '.' ∉ k.toList ∧ NoDotsVal v := by
  induction hk with
  | here k v r => exact ⟨h.2.1, h.2.2.1⟩
  | later k k' v v' r _ ih => exact ih h.2.2.2

/-- the first key of a path decides how it is written -/
theorem written_chars (pre : String) (p : List String) : ∃ t, (written pre p).toList = pre.toList ++ t ∧
    ∀ k q, p = k :: q → (q = [] ∧ t = k.toList) ∨ (q ≠ [] ∧ ∃ t', t = k.toList ++ '.' :: t') := by
  induction p generalizing pre with
  | nil => exact ⟨[], by simp [written], by simp⟩
  | cons k q ih =>
    cases q with
    | nil => refine ⟨k.toList, by simp [written], ?_⟩; rintro k' q' h; cases h; exact .inl ⟨rfl, rfl⟩
    | cons x q =>
      obtain ⟨t, ht, -⟩ := ih (pre ++ k ++ ".")
      refine ⟨k.toList ++ '.' :: t, ?_, ?_⟩
      · rw [written_cons (by simp), ht]
        simp
      · rintro k' q' h; cases h; exact .inr ⟨by simp, t, rfl⟩

theorem dot_inj {a b s t : List Char} (ha : '.' ∉ a) (hb : '.' ∉ b) (h : a ++ '.' :: s = b ++ '.' :: t) : a = b := by
  induction a generalizing b with
  | nil =>
    cases b with
    | nil => rfl
    | cons c b => simp only [List.nil_append, List.cons_append, List.cons.injEq] at h; rw [← h.1] at hb; simp at hb
  | cons c a ih =>
    cases b with
    | nil => simp only [List.nil_append, List.cons_append, List.cons.injEq] at h; rw [h.1] at ha; simp at ha
    | cons d b =>
      simp only [List.cons_append, List.cons.injEq] at h
      rw [h.1, ih (fun hh => ha (by simp [hh])) (fun hh => hb (by simp [hh])) h.2]

/-- two ways to write the same, with first keys without a dot: the first keys are the same, and both go on or both end -/
theorem written_first {pre : String} {k k' : String} {q q' : List String} (hk : '.' ∉ k.toList) (hk' : '.' ∉ k'.toList)
    (h : written pre (k :: q) = written pre (k' :: q')) : k = k' ∧ (q = [] ↔ q' = []) := by
  obtain ⟨t, ht, h1⟩ := written_chars pre (k :: q)
  obtain ⟨t', ht', h1'⟩ := written_chars pre (k' :: q')
  have he : t = t' := by
    rw [h] at ht
    exact List.append_cancel_left (ht.symm.trans ht')
  subst he
  rcases h1 k q rfl with ⟨rfl, hq⟩ | ⟨hq0, u, hq⟩ <;> rcases h1' k' q' rfl with ⟨rfl, hq'⟩ | ⟨hq0', u', hq'⟩
  · exact ⟨String.toList_inj.1 (hq.symm.trans hq'), by simp⟩
  · exfalso; rw [hq] at hq'; exact hk (by rw [hq']; simp)
  · exfalso; rw [hq'] at hq; exact hk' (by rw [hq]; simp)
  · refine ⟨String.toList_inj.1 (dot_inj hk hk' (hq.symm.trans hq')), by simp [hq0, hq0']⟩

theorem keys_nodup {f : Fields} (h : NoDots f) : f.keys.Nodup := by
  match f with
  | .nil => exact List.nodup_nil
  | .cons k v r => exact List.nodup_cons.2 ⟨h.1, keys_nodup h.2.2.2⟩

theorem level_nodup (m : String → Bool) (path : String) {f : Fields} (h : NoDots f) :
    ((f.keys.filter m).map (path ++ ·)).Nodup := by
  refine List.Nodup.map ?_ ((keys_nodup h).filter _)
  intro a b hab
  have := congrArg String.toList hab
  simp only [String.toList_append] at this
  exact String.toList_inj.1 (List.append_cancel_left this)

theorem has_key {f : Fields} {k : String} {v : Val} (h : Has f k v) : k ∈ f.keys := mem_keys.2 ⟨v, h⟩

mutual
theorem nested_nodup (m : String → Bool) (path : String) : (f : Fields) → NoDots f → (nested m path f).Nodup
  | .nil, _ => List.nodup_nil
  | .cons k v r, h => by
    refine List.nodup_append.2 ⟨inVal_nodup m _ v h.2.2.1, nested_nodup m path r h.2.2.2, ?_⟩
    rintro s hs s' hs' rfl
    rw [inVal_iff] at hs
    rw [nested_iff] at hs'
    obtain ⟨p, hp, -, rfl⟩ := hs
    obtain ⟨p', hp', -, he⟩ := hs'
    obtain ⟨k', v', q, rfl, h1, h2⟩ := deep_iff.1 hp'
    rw [← written_cons (under_ne hp)] at he
    have := (written_first h.2.1 (noDots_has h.2.2.2 h1).1 he).1
    subst this
    exact h.1 (has_key h1)
theorem inVal_nodup (m : String → Bool) (path : String) : (v : Val) → NoDotsVal v → (inVal m path v).Nodup
  | .struct g, h => by
    refine List.nodup_append.2 ⟨level_nodup m path h, nested_nodup m path g h, ?_⟩
    rintro s hs s' hs' rfl
    obtain ⟨k, v, h1, -, rfl⟩ := level.1 hs
    obtain ⟨p, hp, -, he⟩ := (nested_iff _ _ _ _).1 hs'
    obtain ⟨k', v', q, rfl, h2, h3⟩ := deep_iff.1 hp
    exact under_ne h3 ((written_first (noDots_has h h1).1 (noDots_has h h2).1 he).2.1 rfl)
  | .dataset g, h => level_nodup m path h
  | .text _, _ => List.nodup_nil
  | .cat _ _, _ => List.nodup_nil
  | .other _, _ => List.nodup_nil
end

/-- C311: no path is given twice, if keys are different and without a dot -/
theorem once_partial (m : String → Bool) (path : String) (f : Fields) (h : NoDots f) : (keySearch m true path f).Nodup := by
  have := inVal_nodup m path (.struct f) h
  simpa [inVal, keySearch] using this

def exTree : Fields := .cons "a" (.other 1) (.cons "s" (.struct (.cons "ab" (.text ["x"]) (.cons "d" (.dataset (.cons "a" (.other 2) .nil)) .nil))) .nil)

example : NoDots exTree := by simp [exTree, NoDots, NoDotsVal, Fields.keys]

example : keySearch (fun k => k.toList.contains 'a') true "" exTree = ["a", "s.ab", "s.d.a"] := by decide +kernel

/-- C311: keys with a dot: one text for two items -/
theorem dot_counterexample :
    keySearch (fun _ => true) true "" (.cons "s.a" (.other 1) (.cons "s" (.struct (.cons "a" (.other 2) .nil)) .nil)) =
      ["s.a", "s", "s.a"] := by decide +kernel

/-- C311: letter case is ignored exactly without `case_sensitive` (the documentation of the parameter says the opposite) -/
theorem case_exact (re : Bool → String → Bool) (path s : String) (f : Fields) (caseSensitive : Bool) :
    s ∈ keySearchCase re caseSensitive true path f ↔
      ∃ p, HasPath f p ∧ (∃ k ∈ p.getLast?, re (!caseSensitive) k = true) ∧ s = written path p := by
  unfold keySearchCase
  rw [search_exact]
  cases caseSensitive <;> rfl

end Verif.StructTree
