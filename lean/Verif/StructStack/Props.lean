import Verif.StructStack.Model
import Verif.Items.Dict
import Mathlib.Data.List.Nodup
import Mathlib.Data.List.Perm.Subperm
/-!
# Stacking Structs (C284, C285)
-/
namespace Verif.StructStack
open Verif.Items (Dict)

variable {V T : Type}

/-! ## Order of keys -/

theorem mem_addKeys : ∀ (l ks : List String) (k : String), k ∈ l.foldl addKey ks ↔ k ∈ ks ∨ k ∈ l := by
  intro l
  induction l with
  | nil => simp
  | cons x l ih =>
    intro ks k
    rw [List.foldl_cons, ih, addKey]
    split
    · rename_i h
      constructor
      · rintro (h' | h') <;> simp [h']
      · rintro (h' | h')
        · exact .inl h'
        · rcases List.mem_cons.1 h' with rfl | h'
          · exact .inl h
          · exact .inr h'
    · simp only [List.mem_append, List.mem_cons, List.not_mem_nil, or_false]
      tauto

theorem addKeys_sorted : ∀ (l ks pre : List String), ks.Nodup → (∀ k, k ∈ ks ↔ k ∈ pre) →
    ks.Pairwise (fun a b => (pre ++ l).idxOf a < (pre ++ l).idxOf b) →
    (l.foldl addKey ks).Nodup ∧ (l.foldl addKey ks).Pairwise (fun a b => (pre ++ l).idxOf a < (pre ++ l).idxOf b) := by
  intro l
  induction l with
  | nil => intro ks pre h1 _ h3; exact ⟨h1, h3⟩
  | cons x l ih =>
    intro ks pre h1 h2 h3
    have e : pre ++ x :: l = (pre ++ [x]) ++ l := by simp
    rw [List.foldl_cons]
    rw [e] at h3 ⊢
    apply ih
    · rw [addKey]
      split
      · exact h1
      · rename_i hx
        exact List.nodup_append.2 ⟨h1, by simp, by
          intro a ha b hb hab
          rw [List.mem_singleton] at hb
          subst hab hb
          exact hx ha⟩
    · intro k
      rw [addKey]
      split
      · rename_i hx
        rw [h2]
        simp only [List.mem_append, List.mem_singleton]
        constructor
        · exact .inl
        · rintro (h | rfl)
          · exact h
          · exact (h2 _).1 hx
      · simp [h2]
    · rw [addKey]
      split
      · exact h3
      · rename_i hx
        rw [List.pairwise_append]
        refine ⟨h3, by simp, ?_⟩
        intro a ha b hb
        rw [List.mem_singleton] at hb
        subst hb
        have hxp : b ∉ pre := fun h => hx ((h2 b).2 h)
        have hap : a ∈ pre := (h2 a).1 ha
        rw [List.append_assoc, List.idxOf_append_of_mem hap, List.idxOf_append_of_notMem hxp]
        have := List.idxOf_lt_length_of_mem hap
        simp
        omega

theorem addKey_of_mem : ∀ (l ks : List String), (∀ k ∈ l, k ∈ ks) → l.foldl addKey ks = ks := by
  intro l
  induction l with
  | nil => intro ks _; rfl
  | cons x l ih =>
    intro ks h
    rw [List.foldl_cons, addKey, if_pos (h x List.mem_cons_self)]
    exact ih ks fun k hk => h k (List.mem_cons_of_mem _ hk)

theorem addKey_nodup : ∀ (l ks : List String), (ks ++ l).Nodup → l.foldl addKey ks = ks ++ l := by
  intro l
  induction l with
  | nil => intro ks _; simp
  | cons x l ih =>
    intro ks h
    have hx : x ∉ ks := fun hx => (List.nodup_append.1 h).2.2 x hx x List.mem_cons_self rfl
    rw [List.foldl_cons, addKey, if_neg hx, ih]
    · simp
    · simpa using h

/-! ## Collecting -/

/-- The items of one class under one key. -/
def cell2 (g : Groups V T) (cls k : String) : List (Item V T) := (Dict.get ((Dict.get g cls).getD []) k).getD []

structure Good (g : Groups V T) : Prop where
  keys : (Dict.keys g).Nodup
  inner : ∀ e ∈ g, (Dict.keys e.2).Nodup ∧ ∀ f ∈ e.2, f.2 ≠ []

theorem good_get {g : Groups V T} (h : Good g) (cls : String) :
    (Dict.keys ((Dict.get g cls).getD [])).Nodup ∧ ∀ f ∈ (Dict.get g cls).getD [], f.2 ≠ [] := by
  cases hg : Dict.get g cls with
  | none => simp [Dict.keys]
  | some d => exact h.inner _ (Dict.mem_of_get hg)

theorem good_add {g : Groups V T} (h : Good g) (cls k : String) (i : Item V T) : Good (addItem g cls k i) := by
  refine ⟨Dict.nodup_set h.keys _ _, ?_⟩
  intro e he
  have := Dict.get_of_mem (Dict.nodup_set h.keys cls _) he
  rw [Dict.get_set] at this
  split at this
  · rw [← Option.some.inj this]
    refine ⟨Dict.nodup_set (good_get h cls).1 _ _, ?_⟩
    intro f hf
    have hf' := Dict.get_of_mem (Dict.nodup_set (good_get h cls).1 k _) hf
    rw [Dict.get_set] at hf'
    split at hf'
    · rw [← Option.some.inj hf']; simp
    · exact (good_get h cls).2 _ (Dict.mem_of_get hf')
  · exact h.inner _ (Dict.mem_of_get this)

theorem cell2_add (g : Groups V T) (cls k : String) (i : Item V T) (cls' k' : String) :
    cell2 (addItem g cls k i) cls' k' = cell2 g cls' k' ++ if cls' = cls ∧ k' = k then [i] else [] := by
  simp only [cell2, addItem]
  rw [Dict.get_set]
  by_cases h1 : cls' = cls
  · subst h1
    simp only [if_true, Option.getD_some, Dict.get_set, true_and]
    by_cases h2 : k' = k
    · subst h2; simp
    · simp [h2]
  · simp [h1]

/-- The items of a class under a key. -/
def sel (cls k : String) (l : List (String × Item V T)) : List (Item V T) :=
  (l.filter fun e => e.1 = k ∧ kindOf (asItem e.2) = some cls).map fun e => asItem e.2

theorem collect_ok : ∀ (l : List (String × Item V T)) (g : Groups V T), Good g → (∀ e ∈ l, e.2 ≠ .other) →
    ∃ g', collect g l = .ok g' ∧ Good g' ∧ ∀ cls k, cell2 g' cls k = cell2 g cls k ++ sel cls k l := by
  intro l
  induction l with
  | nil => intro g hg _; exact ⟨g, rfl, hg, by simp [sel]⟩
  | cons e l ih =>
    intro g hg ho
    obtain ⟨k, i⟩ := e
    have hi : i ≠ .other := ho (k, i) List.mem_cons_self
    obtain ⟨cls, hc⟩ : ∃ cls, kindOf (asItem i) = some cls := by
      cases i <;> simp [asItem, kindOf] at hi ⊢
    obtain ⟨g', h1, h2, h3⟩ := ih (addItem g cls k (asItem i)) (good_add hg cls k _) fun e he => ho e (List.mem_cons_of_mem _ he)
    refine ⟨g', by simp only [collect, hc, h1], h2, ?_⟩
    intro cls' k'
    rw [h3, cell2_add, List.append_assoc]
    congr 1
    simp only [sel, List.filter_cons, hc, Option.some.injEq]
    by_cases h : cls' = cls ∧ k' = k
    · obtain ⟨rfl, rfl⟩ := h
      simp
    · rw [if_neg h, if_neg]
      · simp
      · simp only [decide_eq_true_eq]
        exact fun hh => h ⟨hh.2.symm, hh.1.symm⟩

theorem collect_other : ∀ (l : List (String × Item V T)) (g : Groups V T), (∃ e ∈ l, e.2 = .other) → collect g l = .error .type := by
  intro l
  induction l with
  | nil => rintro g ⟨e, he, _⟩; simp at he
  | cons e l ih =>
    rintro g ⟨e', he', ho⟩
    obtain ⟨k, i⟩ := e
    simp only [collect]
    cases hc : kindOf (asItem i) with
    | none => rfl
    | some cls =>
      rcases List.mem_cons.1 he' with rfl | he'
      · simp only at ho; subst ho; simp [asItem, kindOf] at hc
      · exact ih _ ⟨e', he', ho⟩

/-! ## Passes -/

theorem pass_ok (f : List (Item V T) → Except Err (Item V T)) : ∀ (d : Dict String (List (Item V T))) (fin : Dict String (Item V T)),
    (Dict.keys d).Nodup → (Dict.keys fin).Nodup → (∀ e ∈ d, ∃ i, f e.2 = .ok i) →
    ∃ fin', pass f fin d = .ok fin' ∧ (Dict.keys fin').Nodup ∧ (∀ k, k ∈ Dict.keys fin' ↔ k ∈ Dict.keys fin ∨ k ∈ Dict.keys d) ∧
      (∀ e ∈ d, ∀ i, f e.2 = .ok i → Dict.get fin' e.1 = some i) ∧ ∀ k, k ∉ Dict.keys d → Dict.get fin' k = Dict.get fin k := by
  intro d
  induction d with
  | nil => intro fin _ h2 _; exact ⟨fin, rfl, h2, by simp [Dict.keys], by simp, by simp⟩
  | cons e d ih =>
    intro fin h1 h2 h3
    obtain ⟨k, l⟩ := e
    obtain ⟨i, hi⟩ := h3 (k, l) List.mem_cons_self
    simp only [Dict.keys, List.map_cons, List.nodup_cons] at h1
    obtain ⟨fin', g1, g2, g3, g4, g5⟩ := ih (Dict.set fin k i) h1.2 (Dict.nodup_set h2 k i) fun e he => h3 e (List.mem_cons_of_mem _ he)
    refine ⟨fin', by simp only [pass]; simp only at hi; rw [hi]; exact g1, g2, ?_, ?_, ?_⟩
    · intro k'
      rw [g3, Dict.mem_keys_set]
      simp only [Dict.keys, List.map_cons, List.mem_cons]
      tauto
    · intro e he j hj
      rcases List.mem_cons.1 he with rfl | he
      · rw [g5 k h1.1, Dict.get_set, if_pos rfl]
        rw [← hi.symm.trans hj |> Except.ok.inj]
      · exact g4 e he j hj
    · intro k' hk'
      simp only [Dict.keys, List.map_cons, List.mem_cons, not_or] at hk'
      rw [g5 k' hk'.2, Dict.get_set, if_neg hk'.1]

theorem passes_ok (stackT : String → List T → Option T) : ∀ (g : Groups V T) (fin : Dict String (Item V T)),
    (∀ e ∈ g, (Dict.keys e.2).Nodup) → (Dict.keys fin).Nodup → (∀ e ∈ g, ∀ f ∈ e.2, ∃ i, hstack stackT e.1 f.2 = .ok i) →
    (g.map Prod.snd).Pairwise (fun a b => ∀ k ∈ Dict.keys a, k ∉ Dict.keys b) →
    ∃ fin', passes stackT fin g = .ok fin' ∧ (Dict.keys fin').Nodup ∧ (∀ k, k ∈ Dict.keys fin' ↔ k ∈ Dict.keys fin ∨ ∃ e ∈ g, k ∈ Dict.keys e.2) ∧
      (∀ e ∈ g, ∀ f ∈ e.2, ∀ i, hstack stackT e.1 f.2 = .ok i → Dict.get fin' f.1 = some i) ∧
      ∀ k, (∀ e ∈ g, k ∉ Dict.keys e.2) → Dict.get fin' k = Dict.get fin k := by
  intro g
  induction g with
  | nil => intro fin _ h2 _ _; exact ⟨fin, rfl, h2, by simp, by simp, by simp⟩
  | cons e g ih =>
    intro fin h1 h2 h3 h4
    obtain ⟨cls, d⟩ := e
    rw [List.map_cons, List.pairwise_cons] at h4
    obtain ⟨f1, a1, a2, a3, a4, a5⟩ := pass_ok (hstack stackT cls) d fin (h1 (cls, d) List.mem_cons_self) h2
      fun f hf => h3 (cls, d) List.mem_cons_self f hf
    obtain ⟨f2, b1, b2, b3, b4, b5⟩ := ih f1 (fun e he => h1 e (List.mem_cons_of_mem _ he)) a2 (fun e he => h3 e (List.mem_cons_of_mem _ he)) h4.2
    refine ⟨f2, by simp only [passes, a1, b1], b2, ?_, ?_, ?_⟩
    · intro k
      rw [b3, a3]
      simp only [List.mem_cons, exists_eq_or_imp]
      tauto
    · intro e he f hf i hi
      rcases List.mem_cons.1 he with rfl | he
      · rw [b5 f.1, a4 f hf i hi]
        intro e' he'
        exact h4.1 e'.2 (List.mem_map_of_mem he') f.1 (List.mem_map_of_mem hf)
      · exact b4 e he f hf i hi
    · intro k hk
      rw [b5 k fun e he => hk e (List.mem_cons_of_mem _ he), a5 k (hk (cls, d) List.mem_cons_self)]

/-! ## Order of columns -/

theorem front_ok (t : Dict String (Item V T)) : ∀ (names : List String) (acc : Dict String (Item V T)), (Dict.keys acc ++ names).Nodup →
    (∀ c ∈ names, (Dict.get t c).isSome) →
    Dict.keys (names.foldl (frontBody t) acc) = Dict.keys acc ++ names ∧
      (∀ c ∈ names, Dict.get (names.foldl (frontBody t) acc) c = Dict.get t c) ∧
      ∀ c, c ∉ names → Dict.get (names.foldl (frontBody t) acc) c = Dict.get acc c := by
  intro names
  induction names with
  | nil => intro acc _ _; simp
  | cons c cs ih =>
    intro acc hn hg
    obtain ⟨v, hv⟩ := Option.isSome_iff_exists.1 (hg c List.mem_cons_self)
    have hnm : c ∉ Dict.keys acc := by
      intro hm
      rw [List.nodup_append] at hn
      exact hn.2.2 c hm c List.mem_cons_self rfl
    have hb : frontBody t acc c = Dict.set acc c v := by simp [frontBody, hv]
    have hks : Dict.keys (Dict.set acc c v) = Dict.keys acc ++ [c] := Dict.keys_set_of_notMem hnm v
    have hcs : c ∉ cs := (List.nodup_cons.1 (List.nodup_append.1 hn).2.1).1
    obtain ⟨h1, h2, h3⟩ := ih (Dict.set acc c v) (by rw [hks]; simpa using hn) (fun c' h' => hg c' (List.mem_cons_of_mem _ h'))
    rw [List.foldl_cons, hb]
    refine ⟨by rw [h1, hks]; simp, ?_, ?_⟩
    · intro c' hc'
      rcases List.mem_cons.1 hc' with rfl | hc'
      · rw [h3 c' hcs, Dict.get_set, if_pos rfl, hv]
      · exact h2 c' hc'
    · intro c' hc'
      rw [List.mem_cons, not_or] at hc'
      rw [h3 c' hc'.2, Dict.get_set, if_neg hc'.1]

theorem rest_ok : ∀ (t acc : Dict String (Item V T)), (∀ e ∈ t, e.1 ∈ Dict.keys acc) →
    t.foldl (fun (acc : Dict String (Item V T)) (e : String × Item V T) => if Dict.has acc e.1 then acc else Dict.set acc e.1 e.2) acc = acc := by
  intro t
  induction t with
  | nil => intro acc _; rfl
  | cons e t ih =>
    intro acc h
    rw [List.foldl_cons, if_pos ((Dict.has_iff _ _).2 (h e List.mem_cons_self))]
    exact ih acc fun e' he' => h e' (List.mem_cons_of_mem _ he')

theorem moveFront_ok (t : Dict String (Item V T)) (names : List String) (hn : names.Nodup) (ht : (Dict.keys t).Nodup)
    (hk : ∀ k, k ∈ Dict.keys t ↔ k ∈ names) :
    ∃ t', moveFront t names = .ok t' ∧ Dict.keys t' = names ∧ ∀ k ∈ names, Dict.get t' k = Dict.get t k := by
  obtain ⟨h1, h2, -⟩ := front_ok t names [] (by simpa [Dict.keys] using hn) (by
    intro c hc
    cases hg : Dict.get t c with
    | some _ => rfl
    | none => exact absurd ((hk c).2 hc) ((Dict.get_eq_none_iff _ _).1 hg))
  have hlen : t.length = names.length := by
    have := ((List.perm_ext_iff_of_nodup ht hn).2 hk).length_eq
    simpa [Dict.keys] using this
  refine ⟨names.foldl (frontBody t) [], ?_, by simpa [Dict.keys] using h1, h2⟩
  rw [moveFront, if_neg (by omega), rest_ok]
  intro e he
  rw [h1]
  simpa [Dict.keys] using (hk e.1).1 (List.mem_map_of_mem he)

/-! ## The claim -/

theorem filter_key (k : String) : ∀ (s : Fields V T), (s.map Prod.fst).Nodup →
    (s.filter fun e => e.1 = k).map Prod.snd = ((s.find? fun e => e.1 = k).map Prod.snd).toList := by
  intro s
  induction s with
  | nil => intro _; rfl
  | cons e s ih =>
    intro hn
    rw [List.map_cons, List.nodup_cons] at hn
    rw [List.filter_cons, List.find?_cons]
    by_cases h : e.1 = k
    · have : s.filter (fun e => decide (e.1 = k)) = [] := by
        rw [List.filter_eq_nil_iff]
        intro x hx hxk
        simp only [decide_eq_true_eq] at hxk
        exact hn.1 (h.trans hxk.symm ▸ List.mem_map_of_mem hx)
      simp [h, this]
    · simp only [h, decide_false]
      exact ih hn.2

theorem under_eq (k : String) : ∀ (structs : List (Fields V T)), (∀ s ∈ structs, (s.map Prod.fst).Nodup) →
    (structs.flatten.filter fun e => e.1 = k).map Prod.snd = under k structs := by
  intro structs
  induction structs with
  | nil => intro _; rfl
  | cons s r ih =>
    intro h
    rw [List.flatten_cons, List.filter_append, List.map_append, ih fun s hs => h s (List.mem_cons_of_mem _ hs),
      filter_key k s (h s List.mem_cons_self)]
    simp only [under, List.filterMap_cons]
    cases (s.find? fun e => decide (e.1 = k)) with
    | none => simp
    | some e => simp

theorem sel_eq (cls k : String) (structs : List (Fields V T)) (h : ∀ s ∈ structs, (s.map Prod.fst).Nodup) :
    sel cls k structs.flatten = ((under k structs).map asItem).filter fun i => kindOf i = some cls := by
  rw [← under_eq k structs h, sel, List.map_map, List.filter_map, List.filter_filter]
  simp only [Function.comp_apply, Function.comp_def]
  congr 1
  apply List.filter_congr
  intro e _
  simp [Bool.and_comm]

theorem values_map (l : List (Item V T)) (vs : List (List V)) (h : l.map values = vs.map some) : l.map asItem = vs.map Item.arr1 := by
  induction l generalizing vs with
  | nil => cases vs with
    | nil => rfl
    | cons _ _ => simp at h
  | cons i l ih =>
    cases vs with
    | nil => simp at h
    | cons v vs =>
      simp only [List.map_cons, List.cons.injEq] at h ⊢
      refine ⟨?_, ih vs h.2⟩
      cases i <;> simp_all [values, asItem]

/-- Items that can be joined are all of one class, and `hstack` joins them. -/
theorem joined_sel (stackT : String → List T → Option T) (l : List (Item V T)) (r : Item V T) (h : Joined stackT l r)
    (hcls : ∀ c x, Item.typed c x ∈ l → c ≠ "Array") (hne : l ≠ []) :
    ∃ cls, hstack stackT cls (l.map asItem) = .ok r ∧ (∀ i ∈ l.map asItem, kindOf i = some cls) ∧
      (cls = "Array" → ∃ i, stackArrays (l.map asItem) = .ok i) := by
  cases h with
  | arrays vs hv =>
    rw [values_map l vs hv]
    refine ⟨"Array", ?_, ?_, ?_⟩
    · rw [hstack, if_pos rfl, if_pos (by simp [dimOf])]
      simp [List.map_map, Function.comp_def, valuesOf]
    · simp [kindOf]
    · intro _
      rw [stackArrays, if_pos (by simp [dimOf])]
      exact ⟨_, rfl⟩
  | objects cls xs y hx hs =>
    subst hx
    have hc : cls ≠ "Array" := by
      cases xs with
      | nil => simp at hne
      | cons x xs => exact hcls cls x (by simp)
    have : (xs.map (Item.typed cls) : List (Item V T)).map asItem = xs.map (Item.typed cls) := by simp [asItem]
    rw [this]
    refine ⟨cls, ?_, by simp [kindOf], fun h => absurd h hc⟩
    rw [hstack, if_neg hc, List.filterMap_map]
    have : xs.filterMap (contentOf ∘ (Item.typed cls : T → Item V T)) = xs := by
      have hf : (contentOf ∘ (Item.typed cls : T → Item V T)) = some := rfl
      rw [hf, List.filterMap_some]
    rw [this, hs]

theorem cell2_mem {g : Groups V T} (hg : Good g) (cls : String) (d : Dict String (List (Item V T))) (he : (cls, d) ∈ g) (k : String)
    (l : List (Item V T)) (hf : (k, l) ∈ d) : cell2 g cls k = l ∧ l ≠ [] := by
  have h1 := Dict.get_of_mem hg.keys he
  have h2 := Dict.get_of_mem (hg.inner _ he).1 hf
  exact ⟨by simp [cell2, h1, h2], (hg.inner _ he).2 _ hf⟩

theorem cell2_ne {g : Groups V T} (cls k : String) (h : cell2 g cls k ≠ []) : ∃ d, (cls, d) ∈ g ∧ (k, cell2 g cls k) ∈ d := by
  cases h1 : Dict.get g cls with
  | none => simp [cell2, h1] at h
  | some d =>
    cases h2 : Dict.get d k with
    | none => simp [cell2, h1, h2] at h
    | some l => exact ⟨d, Dict.mem_of_get h1, by rw [show cell2 g cls k = l by simp [cell2, h1, h2]]; exact Dict.mem_of_get h2⟩

/-- **C284**: if under every key there are arrays of one dimension (or single values), or objects of one class that stacks them, then stacking gives
a Struct with all keys in the order of their first occurrence, and under each key what stands there joined Struct by Struct. -/
theorem stack_partial (stackT : String → List T → Option T) (structs : List (Fields V T)) (h2 : 2 ≤ structs.length)
    (hn : ∀ s ∈ structs, (s.map Prod.fst).Nodup) (hcls : ∀ s ∈ structs, ∀ k c x, (k, Item.typed c x) ∈ s → c ≠ "Array")
    (r : String → Item V T) (hr : ∀ k ∈ structs.flatten.map Prod.fst, Joined stackT (under k structs) (r k)) :
    ∃ t, stack stackT structs = .ok t ∧ (∀ k, k ∈ t.map Prod.fst ↔ ∃ s ∈ structs, k ∈ s.map Prod.fst) ∧ (t.map Prod.fst).Nodup ∧
      (t.map Prod.fst).Pairwise (fun a b => (structs.flatten.map Prod.fst).idxOf a < (structs.flatten.map Prod.fst).idxOf b) ∧
      ∀ k ∈ t.map Prod.fst, (k, r k) ∈ t := by
  obtain ⟨s, rest, rfl⟩ : ∃ s rest, structs = s :: rest := by
    cases structs with
    | nil => simp at h2
    | cons s rest => exact ⟨s, rest, rfl⟩
  have hrest : rest ≠ [] := by rintro rfl; simp at h2
  -- the items under a key
  have hmemU : ∀ k i, i ∈ under k (s :: rest) → ∃ e ∈ (s :: rest).flatten, e.1 = k ∧ e.2 = i := by
    intro k i hi
    rw [← under_eq k _ hn] at hi
    obtain ⟨e, he, rfl⟩ := List.mem_map.1 hi
    rw [List.mem_filter] at he
    exact ⟨e, he.1, by simpa using he.2, rfl⟩
  have hUne : ∀ k ∈ (s :: rest).flatten.map Prod.fst, under k (s :: rest) ≠ [] := by
    intro k hk
    obtain ⟨e, he, rfl⟩ := List.mem_map.1 hk
    rw [← under_eq e.1 _ hn]
    have : e ∈ (s :: rest).flatten.filter fun x => x.1 = e.1 := by rw [List.mem_filter]; exact ⟨he, by simp⟩
    intro h0
    rw [List.map_eq_nil_iff] at h0
    rw [h0] at this
    simp at this
  have hkey : ∀ k ∈ (s :: rest).flatten.map Prod.fst, ∃ cls, hstack stackT cls ((under k (s :: rest)).map asItem) = .ok (r k) ∧
      (∀ i ∈ (under k (s :: rest)).map asItem, kindOf i = some cls) ∧
      (cls = "Array" → ∃ i, stackArrays ((under k (s :: rest)).map asItem) = .ok i) := by
    intro k hk
    apply joined_sel stackT _ _ (hr k hk) _ (hUne k hk)
    intro c x hx
    obtain ⟨e, he, he1, he2⟩ := hmemU k _ hx
    obtain ⟨s', hs', hes⟩ := List.mem_flatten.1 he
    exact hcls s' hs' k c x (by rw [← he1, ← he2]; exact hes)
  have hother : ∀ e ∈ (s :: rest).flatten, e.2 ≠ .other := by
    intro e he ho
    obtain ⟨cls, -, hk, -⟩ := hkey e.1 (List.mem_map_of_mem he)
    have : e.2 ∈ under e.1 (s :: rest) := by
      rw [← under_eq e.1 _ hn]
      exact List.mem_map_of_mem (List.mem_filter.2 ⟨he, by simp⟩)
    have := hk _ (List.mem_map_of_mem this)
    rw [ho] at this
    simp [asItem, kindOf] at this
  obtain ⟨g, c1, c2, c3⟩ := collect_ok (s :: rest).flatten [] ⟨by simp [Dict.keys], by simp⟩ hother
  have hcell : ∀ cls k, cell2 g cls k = ((under k (s :: rest)).map asItem).filter fun i => kindOf i = some cls := by
    intro cls k
    rw [c3, sel_eq cls k _ hn]
    simp [cell2]
  -- an entry of the groups belongs to the class of its key
  have hent : ∀ cls d, (cls, d) ∈ g → ∀ k l, (k, l) ∈ d → k ∈ (s :: rest).flatten.map Prod.fst ∧ l = (under k (s :: rest)).map asItem ∧
      hstack stackT cls l = .ok (r k) ∧ (cls = "Array" → ∃ i, stackArrays l = .ok i) ∧ ∀ i ∈ l, kindOf i = some cls := by
    intro cls d he k l hf
    obtain ⟨h1, h2⟩ := cell2_mem c2 cls d he k l hf
    rw [hcell] at h1
    have hkm : k ∈ (s :: rest).flatten.map Prod.fst := by
      obtain ⟨i, hi⟩ := List.exists_mem_of_ne_nil l h2
      rw [← h1, List.mem_filter, List.mem_map] at hi
      obtain ⟨⟨j, hj, -⟩, -⟩ := hi
      obtain ⟨e, he, rfl, -⟩ := hmemU k j hj
      exact List.mem_map_of_mem he
    obtain ⟨cls', a1, a2, a3⟩ := hkey k hkm
    have hc : cls' = cls := by
      obtain ⟨i, hi⟩ := List.exists_mem_of_ne_nil l h2
      rw [← h1, List.mem_filter] at hi
      have := a2 i hi.1
      simp only [decide_eq_true_eq] at hi
      exact Option.some.inj (this.symm.trans hi.2)
    subst hc
    have hl : l = (under k (s :: rest)).map asItem := by
      rw [← h1, List.filter_eq_self]
      intro i hi
      simpa using a2 i hi
    rw [hl]
    exact ⟨hkm, rfl, a1, a3, a2⟩
  have hdisj : (g.map Prod.snd).Pairwise (fun a b => ∀ k ∈ Dict.keys a, k ∉ Dict.keys b) := by
    rw [List.pairwise_map]
    have hk := c2.keys
    rw [Dict.keys, List.Nodup, List.pairwise_map] at hk
    refine hk.imp_of_mem ?_
    intro a b ha hb hab k hka hkb
    obtain ⟨f, hf, rfl⟩ := List.mem_map.1 hka
    obtain ⟨f', hf', hff⟩ := List.mem_map.1 hkb
    obtain ⟨-, e1, -, -, k1⟩ := hent a.1 a.2 ha f.1 f.2 hf
    obtain ⟨-, e2, -, -, k2⟩ := hent b.1 b.2 hb f'.1 f'.2 hf'
    rw [hff, ← e1] at e2
    obtain ⟨i, hi⟩ := List.exists_mem_of_ne_nil f.2 (cell2_mem c2 a.1 a.2 ha f.1 f.2 hf).2
    exact hab (Option.some.inj ((k1 i hi).symm.trans (k2 i (e2 ▸ hi))))
  obtain ⟨fin, p1, p2, p3, -, -⟩ := pass_ok stackArrays ((Dict.get g "Array").getD []) [] (good_get c2 "Array").1 (by simp [Dict.keys]) (by
    intro f hf
    cases hg : Dict.get g "Array" with
    | none => rw [hg] at hf; simp at hf
    | some d =>
      rw [hg] at hf
      obtain ⟨-, -, -, h4, -⟩ := hent "Array" d (Dict.mem_of_get hg) f.1 f.2 hf
      exact h4 rfl)
  obtain ⟨fin2, q1, q2, q3, q4, -⟩ := passes_ok stackT g fin (fun e he => (c2.inner e he).1) p2
    (fun e he f hf => ⟨_, (hent e.1 e.2 he f.1 f.2 hf).2.2.1⟩) hdisj
  have hfinkeys : ∀ k, k ∈ Dict.keys fin2 ↔ k ∈ (s :: rest).flatten.map Prod.fst := by
    intro k
    rw [q3, p3]
    constructor
    · rintro ((h | h) | ⟨e, he, hk⟩)
      · simp [Dict.keys] at h
      · cases hg : Dict.get g "Array" with
        | none => rw [hg] at h; simp [Dict.keys] at h
        | some d =>
          rw [hg] at h
          obtain ⟨f, hf, rfl⟩ := List.mem_map.1 h
          exact (hent "Array" d (Dict.mem_of_get hg) f.1 f.2 hf).1
      · obtain ⟨f, hf, rfl⟩ := List.mem_map.1 hk
        exact (hent e.1 e.2 he f.1 f.2 hf).1
    · intro hk
      obtain ⟨cls, -, a2, -⟩ := hkey k hk
      have hc : cell2 g cls k = (under k (s :: rest)).map asItem := by
        rw [hcell, List.filter_eq_self]
        intro i hi
        simpa using a2 i hi
      obtain ⟨d, hd, hkd⟩ := cell2_ne (g := g) cls k (by rw [hc]; simpa using hUne k hk)
      exact .inr ⟨_, hd, List.mem_map_of_mem hkd⟩
  have hget : ∀ k ∈ (s :: rest).flatten.map Prod.fst, Dict.get fin2 k = some (r k) := by
    intro k hk
    obtain ⟨cls, a1, a2, -⟩ := hkey k hk
    have hc : cell2 g cls k = (under k (s :: rest)).map asItem := by
      rw [hcell, List.filter_eq_self]
      intro i hi
      simpa using a2 i hi
    obtain ⟨d, hd, hkd⟩ := cell2_ne (g := g) cls k (by rw [hc]; simpa using hUne k hk)
    rw [hc] at hkd
    exact q4 _ hd _ hkd _ a1
  -- the order
  have hsn : (s.map Prod.fst).Nodup := hn s List.mem_cons_self
  have hord : ((s :: rest).flatten.map Prod.fst).foldl addKey (s.map Prod.fst) = ((s :: rest).flatten.map Prod.fst).foldl addKey [] := by
    rw [List.flatten_cons, List.map_append, List.foldl_append, List.foldl_append, addKey_of_mem _ _ (fun k hk => hk),
      addKey_nodup _ [] (by simpa using hsn), List.nil_append]
  obtain ⟨s1, s2⟩ := addKeys_sorted ((s :: rest).flatten.map Prod.fst) [] [] (by simp) (by simp) (by simp)
  rw [List.nil_append] at s2
  have hordm : ∀ k, k ∈ ((s :: rest).flatten.map Prod.fst).foldl addKey [] ↔ k ∈ (s :: rest).flatten.map Prod.fst := by
    intro k
    rw [mem_addKeys]
    simp
  obtain ⟨t, t1, t2, t3⟩ := moveFront_ok fin2 _ s1 q2 (fun k => by rw [hfinkeys, hordm])
  rw [Dict.keys] at t2
  refine ⟨t, ?_, ?_, by rw [t2]; exact s1, by rw [t2]; exact s2, ?_⟩
  · match rest, hrest with
    | x :: xs, _ =>
      rw [stack]
      · simp only [c1, p1, q1]
        rw [hord]
        exact t1
      · simp
  · intro k
    rw [t2, hordm]
    constructor
    · intro hk
      obtain ⟨e, he, rfl⟩ := List.mem_map.1 hk
      obtain ⟨s', hs', hes⟩ := List.mem_flatten.1 he
      exact ⟨s', hs', List.mem_map_of_mem hes⟩
    · rintro ⟨s', hs', hk⟩
      obtain ⟨e, he, rfl⟩ := List.mem_map.1 hk
      exact List.mem_map_of_mem (List.mem_flatten.2 ⟨s', hs', he⟩)
  · intro k hk
    rw [t2] at hk
    apply Dict.mem_of_get
    rw [t3 k hk]
    exact hget k ((hordm k).1 hk)

/-- Two Structs with arrays, a Categorical and a single value; `c` is only in the second. -/
def exA : Fields Nat (List String) := [("a", .arr1 [1, 2]), ("k", .typed "Categorical" ["x"])]
def exB : Fields Nat (List String) := [("c", .arr1 []), ("k", .typed "Categorical" ["y"]), ("a", .scalar 3)]
def exStack : String → List (List String) → Option (List String) := fun _ xs => some xs.flatten
def exR : String → Item Nat (List String) := fun k => if k = "k" then .typed "Categorical" ["x", "y"] else if k = "a" then .arr1 [1, 2, 3] else .arr1 []

example : ∃ t, stack exStack [exA, exB] = .ok t ∧ (t.map Prod.fst).Nodup := by
  obtain ⟨t, h1, -, h2, -⟩ := stack_partial exStack [exA, exB] (by decide) (by decide) (by
    simp only [exA, exB, List.mem_cons, List.not_mem_nil, or_false, forall_eq_or_imp, forall_eq, Prod.mk.injEq, reduceCtorEq, and_false, false_or,
      Item.typed.injEq]
    constructor <;> (rintro k c x h; rcases h with h | h <;> simp_all)) exR (by
    intro k hk
    simp only [exA, exB, List.flatten_cons, List.flatten_nil, List.append_nil, List.cons_append, List.nil_append, List.map_cons, List.map_nil,
      List.mem_cons, List.not_mem_nil, or_false] at hk
    rcases hk with rfl | rfl | rfl | rfl | rfl
    · exact .arrays [[1, 2], [3]] (by decide)
    · exact .objects "Categorical" [["x"], ["y"]] ["x", "y"] (by decide) rfl
    · exact .arrays [[]] (by decide)
    · exact .objects "Categorical" [["x"], ["y"]] ["x", "y"] (by decide) rfl
    · exact .arrays [[1, 2], [3]] (by decide))
  exact ⟨t, h1, h2⟩

/-- **C284**: a single Struct is given back, and something that cannot be stacked is refused in two or more Structs. -/
theorem other_exact (stackT : String → List T → Option T) (s : Fields V T) (rest : List (Fields V T)) (ho : ∃ s' ∈ s :: rest, ∃ k, (k, Item.other) ∈ s') :
    stack stackT (s :: rest) = if rest = [] then .ok s else .error .type := by
  cases rest with
  | nil => rfl
  | cons x xs =>
    obtain ⟨s', hs', k, hk⟩ := ho
    rw [stack]
    · rw [collect_other _ _ ⟨(k, .other), List.mem_flatten.2 ⟨s', hs', hk⟩, rfl⟩]
      simp
    · simp

deriving instance DecidableEq for Except

/-- **C285**, what the code does with arrays of two dimensions: rows must have the same length (or TypeError), both arrays must have the same number
of rows (or ValueError), and then the second stands to the right of the first. -/
theorem matrix_exact (stackT : String → List T → Option T) (k : String) (n n' : Nat) (a b : List (List V)) :
    stack stackT [[(k, .arr2 n a)], [(k, .arr2 n' b)]] =
      if n' ≠ n then .error .type else if b.length ≠ a.length then .error .value else .ok [(k, .arr2 (n + n') (List.zipWith (· ++ ·) a b))] := by
  by_cases h1 : n' = n
  · subst h1
    by_cases h2 : b.length = a.length
    · simp [stack, collect, asItem, kindOf, addItem, Dict.set, Dict.get, Dict.has, pass, passes, stackArrays, dimOf, vstack, rowsOf, hstack, sideBySide, h2,
        moveFront, frontBody, addKey]
    · simp [stack, collect, asItem, kindOf, addItem, Dict.set, Dict.get, Dict.has, pass, passes, stackArrays, dimOf, vstack, rowsOf, hstack, sideBySide, h2]
  · simp [stack, collect, asItem, kindOf, addItem, Dict.set, Dict.get, Dict.has, pass, stackArrays, dimOf, vstack, rowsOf, h1]

/-- Disagreement (C285): arrays of two dimensions are stacked by rows first, and then the result is replaced: two rows and two rows give two rows of
twice the length, and two rows and one row raise ValueError. -/
theorem matrix_counterexample (stackT : String → List T → Option T) :
    stack stackT [[("m", .arr2 1 [[1], [2]])], [("m", .arr2 1 [[3], [4]])]] = .ok [("m", .arr2 2 [[1, 3], [2, 4]])] ∧
      stack stackT [[("m", .arr2 1 [[1], [2]])], [("m", .arr2 1 [[3]])]] = .error .value := by
  constructor <;> rw [matrix_exact] <;> simp

/-- Disagreement (C284): with different classes under a key only one of them is kept (with a warning). -/
theorem conflict_counterexample :
    stack exStack [[("a", .arr1 [1])], [("a", .typed "Date" ["d"])]] = .ok [("a", .typed "Date" ["d"])] := by decide +kernel

end Verif.StructStack
