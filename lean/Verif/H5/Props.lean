import Verif.H5.Model
import Mathlib.Data.List.Forall2
import Mathlib.Data.List.Nodup
import Mathlib.Data.List.Perm.Subperm
/-! # Loading HDF5 files: properties (C356 - C359) -/
namespace Verif.H5
open Spec
variable {A : Type}

/-! ## Names -/

theorem strip_spec (n : Name) : ∃ u, n = List.replicate u '_' ++ strip n ∧ (strip n).head? ≠ some '_' := by
  fun_induction strip n with
  | case1 n ih =>
    obtain ⟨u, h1, h2⟩ := ih
    refine ⟨u + 1, ?_, h2⟩
    rw [List.replicate_succ, List.cons_append, ← h1]
  | case2 n h =>
    refine ⟨0, by simp, ?_⟩
    cases n with
    | nil => simp
    | cons c n =>
      intro hc
      simp only [List.head?_cons, Option.some.injEq] at hc
      exact h n (by rw [hc])

theorem strip_unique (u v : Nat) (s t : Name) (h : List.replicate u '_' ++ s = List.replicate v '_' ++ t) (hs : s.head? ≠ some '_')
    (ht : t.head? ≠ some '_') : s = t := by
  induction u generalizing v with
  | zero =>
    cases v with
    | zero => simpa using h
    | succ v =>
      exfalso
      apply hs
      simp only [List.replicate_zero, List.nil_append] at h
      rw [h]
      simp [List.replicate_succ]
  | succ u ih =>
    cases v with
    | zero =>
      exfalso
      apply ht
      simp only [List.replicate_zero, List.nil_append] at h
      rw [← h]
      simp [List.replicate_succ]
    | succ v =>
      simp only [List.replicate_succ, List.cons_append, List.cons.injEq, true_and] at h
      exact ih v h

theorem bump_steps (f : Nat) (c : List Name) (n : Name) :
    ∃ k, k ≤ f ∧ bump f c n = n ++ List.replicate k '_' ∧ (∀ j, j < k → n ++ List.replicate j '_' ∈ c) ∧
      (k < f → n ++ List.replicate k '_' ∉ c) := by
  induction f generalizing n with
  | zero => exact ⟨0, Nat.le_refl _, by simp [bump], by omega, by omega⟩
  | succ f ih =>
    by_cases h : n ∈ c
    · obtain ⟨k, h1, h2, h3, h4⟩ := ih (n ++ ['_'])
      have e : ∀ j, n ++ ['_'] ++ List.replicate j '_' = n ++ List.replicate (j + 1) '_' := by
        intro j
        rw [List.append_assoc, List.replicate_succ]
        rfl
      refine ⟨k + 1, by omega, ?_, ?_, ?_⟩
      · simp only [bump]
        rw [if_pos (by simpa using h), h2, e]
      · intro j hj
        cases j with
        | zero => simpa using h
        | succ j =>
          rw [← e]
          exact h3 j (by omega)
      · intro hk
        rw [← e]
        exact h4 (by omega)
    · refine ⟨0, by omega, ?_, by omega, ?_⟩
      · simp only [bump]
        rw [if_neg (by simpa using h)]
        simp
      · intro _
        simpa using h

/-- **C357** The search for a free name ends: after as many rounds as there are names, whatever the names. -/
theorem bump_ends (c : List Name) (n : Name) (f : Nat) (hf : c.length < f) : bump f c n ∉ c := by
  obtain ⟨k, h1, h2, h3, h4⟩ := bump_steps f c n
  rw [h2]
  by_cases hk : k < f
  · exact h4 hk
  · exfalso
    have hk' : k = f := by omega
    subst hk'
    have hnd : ((List.range k).map fun j => n ++ List.replicate j '_').Nodup := by
      refine List.Nodup.map ?_ List.nodup_range
      intro a b hab
      have := congrArg List.length (List.append_cancel_left hab)
      simpa using this
    have hsub : ((List.range k).map fun j => n ++ List.replicate j '_') ⊆ c := by
      intro x hx
      obtain ⟨j, hj, rfl⟩ := List.mem_map.1 hx
      exact h3 j (by simpa using hj)
    have := (hnd.subperm hsub).length_le
    simp at this
    omega

/-- more rounds change nothing -/
theorem bump_more (c : List Name) (n : Name) (f g : Nat) (hf : c.length < f) (hg : f ≤ g) : bump g c n = bump f c n := by
  obtain ⟨k, h1, h2, h3, _⟩ := bump_steps f c n
  obtain ⟨l, l1, l2, l3, _⟩ := bump_steps g c n
  have a := bump_ends c n f hf
  have b := bump_ends c n g (by omega)
  rw [h2] at a
  rw [l2] at b
  rw [h2, l2]
  have : k = l := by
    rcases Nat.lt_trichotomy k l with h | h | h
    · exact absurd (l3 k h) a
    · exact h
    · exact absurd (h3 l h) b
  rw [this]

/-- **C357** The name of a column is the one described. -/
theorem escape_spec (w : Words) (c : List Name) (n m : Name) : escape w c n = m ↔ Escaped w.kw w.attr w.cap c n m := by
  obtain ⟨u, hu, hs⟩ := strip_spec n
  have key : Escaped w.kw w.attr w.cap c n (escape w c n) := by
    refine ⟨u, strip n, hu, hs, ?_⟩
    unfold escape
    by_cases hk : w.kw (strip n) = true
    · left
      refine ⟨hk, ?_⟩
      rw [if_pos hk]
      obtain ⟨k, h1, h2, h3, _⟩ := bump_steps (c.length + 1) c (strip n ++ ['_'])
      have e : ∀ j, strip n ++ ['_'] ++ List.replicate j '_' = strip n ++ List.replicate (j + 1) '_' := by
        intro j
        rw [List.append_assoc, List.replicate_succ]
        rfl
      refine ⟨k + 1, by omega, by rw [h2, e], bump_ends c _ _ (by omega), ?_⟩
      intro j hj1 hj2
      obtain ⟨i, rfl⟩ : ∃ i, j = i + 1 := ⟨j - 1, by omega⟩
      rw [← e]
      exact h3 i (by omega)
    · right
      rw [if_neg hk]
      have hk' : w.kw (strip n) = false := by simpa using hk
      by_cases ha : w.attr (strip n) = true
      · left
        rw [if_pos ha]
        exact ⟨hk', ha, rfl⟩
      · right
        rw [if_neg ha]
        exact ⟨hk', by simpa using ha, rfl⟩
  constructor
  · rintro rfl
    exact key
  · rintro ⟨v, t, hv, ht, h⟩
    obtain ⟨v', t', hv', ht', h'⟩ := key
    have e : t' = t := strip_unique v' v t' t (by rw [← hv', ← hv]) ht' ht
    subst e
    rcases h with ⟨a, k, h1, h2, h3, h4⟩ | ⟨a, b, c1⟩ | ⟨a, b, c1⟩ <;>
      rcases h' with ⟨a', k', h1', h2', h3', h4'⟩ | ⟨a', b', c1'⟩ | ⟨a', b', c1'⟩ <;>
      first
        | (rw [a] at a'; cases a'; done)
        | (rw [b] at b'; cases b'; done)
        | (rw [c1, c1']; done)
        | skip
    rw [h2, h2']
    rw [h2] at h3
    rw [h2'] at h3'
    have : k' = k := by
      rcases Nat.lt_trichotomy k' k with h | h | h
      · exact absurd (h4 k' h1' h) h3'
      · exact h
      · exact absurd (h4' k h1 h) h3
    rw [this]

/-! ## Dictionaries -/

theorem set_new {B : Type} (d : List (Name × B)) (k : Name) (v : B) (h : k ∉ d.map Prod.fst) : set d k v = d ++ [(k, v)] := by
  induction d with
  | nil => rfl
  | cons e es ih =>
    simp only [List.map_cons, List.mem_cons, not_or] at h
    simp only [set]
    rw [if_neg fun he => h.1 he.symm, ih h.2, List.cons_append]

theorem set_keys {B : Type} (d : List (Name × B)) (k : Name) (v : B) (h : k ∈ d.map Prod.fst) : (set d k v).map Prod.fst = d.map Prod.fst := by
  induction d with
  | nil => simp at h
  | cons e es ih =>
    simp only [set]
    by_cases he : e.1 = k
    · rw [if_pos he, List.map_cons, List.map_cons, he]
    · rw [if_neg he, List.map_cons, List.map_cons, ih]
      simp only [List.map_cons, List.mem_cons] at h
      rcases h with h | h
      · exact absurd h.symm he
      · exact h

theorem get_set {B : Type} (d : List (Name × B)) (k m : Name) (v : B) : get (set d k v) m = if k = m then some v else get d m := by
  induction d with
  | nil =>
    by_cases h : k = m
    · simp [set, get, h]
    · simp [set, get, h]
  | cons e es ih =>
    simp only [set]
    unfold get at ih ⊢
    by_cases he : e.1 = k
    · rw [if_pos he]
      by_cases h : k = m
      · simp [h]
      · have : e.1 ≠ m := fun h' => h (he.symm.trans h')
        simp [h, this]
    · rw [if_neg he, List.find?_cons, List.find?_cons]
      by_cases hm : e.1 = m
      · rw [show (e.1 == m) = true by simpa using hm]
        rw [if_neg fun h => he (hm.trans h.symm)]
      · rw [show (e.1 == m) = false by simpa using hm]
        exact ih

theorem foldl_set_new {B C : Type} (key : C → Name) (val : C → B) (l : List C) (d : List (Name × B))
    (h : (d.map Prod.fst ++ l.map key).Nodup) :
    l.foldl (fun out e => set out (key e) (val e)) d = d ++ l.map fun e => (key e, val e) := by
  induction l generalizing d with
  | nil => simp
  | cons e l ih =>
    rw [List.foldl_cons]
    have hn : key e ∉ d.map Prod.fst := by
      intro hm
      exact (List.nodup_append.1 h).2.2 _ hm _ (by simp) rfl
    rw [set_new d _ _ hn, ih]
    · simp
    · simpa using h

theorem foldl_get {B C : Type} (key : C → Name) (val : C → B) (l : List C) (d : List (Name × B)) (m : Name) :
    get (l.foldl (fun out e => set out (key e) (val e)) d) m =
      match (l.reverse.find? fun e => key e == m) with
      | some e => some (val e)
      | none => get d m := by
  induction l generalizing d with
  | nil => rfl
  | cons e l ih =>
    rw [List.foldl_cons, ih, List.reverse_cons, List.find?_append]
    cases hf : l.reverse.find? fun e => key e == m with
    | some e' => rfl
    | none =>
      simp only [Option.none_or, List.find?_cons, List.find?_nil]
      rw [get_set]
      by_cases h : key e = m
      · rw [if_pos h, show (key e == m) = true by simpa using h]
      · rw [if_neg h, show (key e == m) = false by simpa using h]

/-- **C356** All arrays are loaded, in order, under the names described, if these are different. -/
theorem load_partial (w : Words) (c : List Name) (d : List (Name × A)) (h : (d.map fun e => escape w c e.1).Nodup) :
    List.Forall₂ (fun e e' => e'.2 = e.2 ∧ Escaped w.kw w.attr w.cap c e.1 e'.1) d (loadDict w c d) := by
  have := foldl_set_new (fun e : Name × A => escape w c e.1) (fun e => e.2) d [] (by simpa using h)
  unfold loadDict
  rw [this, List.nil_append, List.forall₂_map_right_iff]
  exact List.forall₂_same.2 fun e _ => ⟨rfl, (escape_spec w _ _ _).1 rfl⟩

/-- **C356** What is loaded under a name, exactly: the last array with this name. -/
theorem load_exact (w : Words) (c : List Name) (d : List (Name × A)) (m : Name) :
    get (loadDict w c d) m = (d.reverse.find? fun e => escape w c e.1 == m).map Prod.snd := by
  unfold loadDict
  rw [foldl_get (fun e : Name × A => escape w c e.1) (fun e => e.2)]
  cases d.reverse.find? fun e => escape w c e.1 == m with
  | none => rfl
  | some e => rfl

theorem foldl_length {B C : Type} (key : C → Name) (val : C → B) (l : List C) (d : List (Name × B)) :
    (l.foldl (fun out e => set out (key e) (val e)) d).length ≤ d.length + l.length := by
  induction l generalizing d with
  | nil => simp
  | cons e l ih =>
    rw [List.foldl_cons]
    refine Nat.le_trans (ih _) ?_
    have : (set d (key e) (val e)).length ≤ d.length + 1 := by
      by_cases h : key e ∈ d.map Prod.fst
      · have := congrArg List.length (set_keys d (key e) (val e) h)
        simp at this
        omega
      · rw [set_new d _ _ h]
        simp
    simp only [List.length_cons]
    omega

/-- **C356** None is lost exactly if the names are different. -/
theorem load_all (w : Words) (c : List Name) (d : List (Name × A)) :
    (loadDict w c d).length = d.length ↔ (d.map fun e => escape w c e.1).Nodup := by
  have gen : ∀ (key : Name × A → Name) (l : List (Name × A)) (out : List (Name × A)), (out.map Prod.fst).Nodup →
      ((l.foldl (fun out e => set out (key e) e.2) out).length = out.length + l.length → (out.map Prod.fst ++ l.map key).Nodup) := by
    intro key l
    induction l with
    | nil => intro out ho _; simpa using ho
    | cons e l ih =>
      intro out ho h
      rw [List.foldl_cons] at h
      by_cases hm : key e ∈ out.map Prod.fst
      · exfalso
        have h1 := foldl_length key (fun e => e.2) l (set out (key e) e.2)
        have h2 := congrArg List.length (set_keys out (key e) e.2 hm)
        simp only [List.length_map] at h2
        simp only [List.length_cons] at h
        omega
      · rw [set_new out _ _ hm] at h
        have hnd : ((out ++ [(key e, e.2)]).map Prod.fst).Nodup := by
          rw [List.map_append]
          simp only [List.map_cons, List.map_nil]
          rw [List.nodup_append]
          refine ⟨ho, by simp, ?_⟩
          intro a ha b hb
          simp only [List.mem_singleton] at hb
          rintro rfl
          exact hm (hb ▸ ha)
        have := ih _ hnd (by simp only [List.length_append, List.length_cons, List.length_nil] at h ⊢; omega)
        simpa using this
  constructor
  · intro h
    have := gen (fun e => escape w c e.1) d [] List.nodup_nil (by simpa [loadDict] using h)
    simpa using this
  · intro h
    exact (load_partial w c d h).length_eq.symm

/-- words for examples: keyword `if`, attribute `sum` -/
def exW : Words := { kw := fun n => n == ['i', 'f'], attr := fun n => n == ['s', 'u', 'm'], cap := fun n => n.map fun c => if c = 's' then 'S' else c }

example : ([(['_', 'a'], 1), (['i', 'f'], 2), (['s', 'u', 'm'], 3)].map fun e : Name × Nat => escape exW [['_', 'a'], ['i', 'f'], ['i', 'f', '_'], ['s', 'u', 'm']] e.1).Nodup := by
  decide +kernel
example : loadDict exW [['_', 'a'], ['i', 'f'], ['i', 'f', '_'], ['s', 'u', 'm']] [(['_', 'a'], 1), (['i', 'f'], 2), (['s', 'u', 'm'], 3)] =
    [(['a'], 1), (['i', 'f', '_', '_'], 2), (['S', 'u', 'm'], 3)] := by decide +kernel

/-- **C356, violated** Arrays are lost without an error: `a` with `_a`, the keyword with the keyword after an underscore although free names are
looked for, and the name of an attribute with the same name with a capital letter. -/
theorem load_counterexample :
    loadDict exW [['_', 'a'], ['a']] [(['_', 'a'], 1), (['a'], 2)] = [(['a'], 2)] ∧
    loadDict exW [['i', 'f'], ['_', 'i', 'f']] [(['i', 'f'], 1), (['_', 'i', 'f'], 2)] = [(['i', 'f', '_'], 2)] ∧
    loadDict exW [['s', 'u', 'm'], ['S', 'u', 'm']] [(['s', 'u', 'm'], 1), (['S', 'u', 'm'], 2)] = [(['S', 'u', 'm'], 2)] := by
  decide +kernel

/-- **C356, violated** A name of underscores becomes the empty name. -/
theorem escape_counterexample : escape exW [['_']] ['_'] = [] ∧ escape exW [['_', '_']] ['_', '_'] = [] := by decide +kernel

/-! ## Blocks -/

theorem ends_iff (k : Name) : endsItems k = true ↔ ∃ p, k = p ++ itemsEnd := by
  unfold endsItems
  rw [List.isSuffixOf_iff_suffix]
  constructor
  · rintro ⟨p, h⟩
    exact ⟨p, h.symm⟩
  · rintro ⟨p, h⟩
    exact ⟨p, h.symm⟩

theorem valuesOf_items (ws : List (Name × Item A)) (p : Name) : valuesOf ws (p ++ itemsEnd) = get ws (p ++ valuesEnd) := by
  unfold valuesOf
  have h1 : (p ++ itemsEnd).length - 5 = (p ++ ['_']).length := by simp [itemsEnd]
  have h2 : p ++ itemsEnd = (p ++ ['_']) ++ itemsEnd.drop 1 := by simp [itemsEnd]
  rw [h1, h2, List.take_left]
  simp [valuesEnd]

theorem get_mem {B : Type} (d : List (Name × B)) (h : (d.map Prod.fst).Nodup) (k : Name) (v : B) : get d k = some v ↔ (k, v) ∈ d := by
  induction d with
  | nil => simp [get]
  | cons e es ih =>
    rw [List.map_cons, List.nodup_cons] at h
    have ih := ih h.2
    unfold get at ih ⊢
    rw [List.find?_cons]
    by_cases he : e.1 = k
    · rw [show (e.1 == k) = true by simpa using he]
      simp only [Option.map_some, Option.some.injEq, List.mem_cons]
      constructor
      · rintro rfl
        left
        rw [← he]
      · rintro (h' | h')
        · rw [← h']
        · exact absurd (List.mem_map.2 ⟨_, h', he.symm⟩) h.1
    · rw [show (e.1 == k) = false by simpa using he]
      rw [ih, List.mem_cons]
      constructor
      · exact Or.inr
      · rintro (h' | h')
        · exact absurd (by rw [← h']) he
        · exact h'

/-- every row has as many entries as the matrix has columns -/
def MatOK (m : Mat A) : Prop := ∀ r ∈ m.rows, r.length = m.width

theorem transpose_get (m : Mat A) (hm : MatOK m) (j : Nat) (col : List A) : (transpose m)[j]? = some col ↔ IsColumn m j col := by
  unfold transpose IsColumn
  by_cases hj : j < m.width
  · simp only [List.getElem?_map, List.getElem?_range hj, Option.map_some, Option.some.injEq, hj, true_and]
    have key : List.map some (m.rows.filterMap fun row => row[j]?) = m.rows.map fun row => row[j]? := by
      unfold MatOK at hm
      generalize m.rows = rows at hm
      induction rows with
      | nil => rfl
      | cons r rs ih =>
        have hr : j < r.length := by rw [hm r (by simp)]; exact hj
        rw [List.filterMap_cons, List.getElem?_eq_getElem hr]
        simp only [List.map_cons]
        rw [ih fun r hr => hm r (by simp [hr]), List.getElem?_eq_getElem hr]
    rw [← key]
    constructor
    · rintro rfl
      rfl
    · intro h
      exact (List.map_injective_iff.2 (fun _ _ h => Option.some.inj h) h).symm
  · simp [hj]

/-- the columns of one item -/
def colsOf (ws : List (Name × Item A)) (e : Name × Item A) : List (Name × List A) :=
  if endsItems e.1 then
    match e.2, valuesOf ws e.1 with
    | .names names, some (.mat m) => names.zip (transpose m)
    | _, _ => []
  else []

theorem block_cols (ws : List (Name × Item A)) (out out' : List (Name × List A)) (e : Name × Item A) (h : block ws out e = some out') :
    out' = (colsOf ws e).foldl (fun out c => set out c.1 c.2) out := by
  unfold block at h
  unfold colsOf
  by_cases he : endsItems e.1 = true
  · rw [if_pos he] at h
    rw [if_pos he]
    split at h
    · next h1 h2 =>
      cases h
      rw [h1, h2]
    · cases h
  · rw [if_neg he] at h
    rw [if_neg he]
    cases h
    rfl

theorem fix_cols (ws l : List (Name × Item A)) (out out' : List (Name × List A)) (h : l.foldlM (block ws) out = some out') :
    out' = (l.flatMap (colsOf ws)).foldl (fun out c => set out c.1 c.2) out := by
  induction l generalizing out with
  | nil =>
    simp only [List.foldlM_nil] at h
    cases h
    rfl
  | cons e l ih =>
    rw [List.foldlM_cons] at h
    cases hb : block ws out e with
    | none => rw [hb] at h; cases h
    | some o =>
      rw [hb] at h
      rw [List.flatMap_cons, List.foldl_append, ← block_cols ws out o e hb]
      exact ih o h

theorem fix_none (ws l : List (Name × Item A)) (out : List (Name × List A)) :
    l.foldlM (block ws) out = none ↔ ∃ e ∈ l, block ws [] e = none := by
  induction l generalizing out with
  | nil => simp
  | cons e l ih =>
    have hb : block ws out e = none ↔ block ws [] e = none := by
      unfold block
      by_cases he : endsItems e.1 = true
      · rw [if_pos he, if_pos he]
        split <;> simp
      · rw [if_neg he, if_neg he]
        simp
    rw [List.foldlM_cons]
    cases h : block ws out e with
    | none => exact ⟨fun _ => ⟨e, by simp, hb.1 h⟩, fun _ => rfl⟩
    | some o =>
      have hn : ¬ block ws [] e = none := by
        rw [← hb, h]
        simp
      refine (ih o).trans ?_
      constructor
      · rintro ⟨e', h1, h2⟩
        exact ⟨e', by simp [h1], h2⟩
      · rintro ⟨e', h1, h2⟩
        rcases List.mem_cons.1 h1 with rfl | h1
        · exact absurd h2 hn
        · exact ⟨e', h1, h2⟩

/-- **C358** It raises exactly if something called a list of names is none, or has no matrix. -/
theorem fix_raises (ws : List (Name × Item A)) (hws : (ws.map Prod.fst).Nodup) :
    fixBlocks ws = none ↔ ∃ p i, (p ++ itemsEnd, i) ∈ ws ∧ ¬ ∃ names m, i = .names names ∧ (p ++ valuesEnd, .mat m) ∈ ws := by
  unfold fixBlocks
  rw [fix_none]
  have hb : ∀ (p : Name) (i : Item A), block ws [] (p ++ itemsEnd, i) = none ↔ ¬ ∃ names m, i = .names names ∧ (p ++ valuesEnd, .mat m) ∈ ws := by
    intro p i
    unfold block
    rw [if_pos ((ends_iff _).2 ⟨p, rfl⟩)]
    simp only [valuesOf_items]
    constructor
    · rintro h ⟨names, m, rfl, hm⟩
      rw [← get_mem ws hws] at hm
      simp only [hm] at h
      cases h
    · intro h
      split
      · next names m h1 h2 =>
        exact absurd ⟨_, _, rfl, (get_mem ws hws _ _).1 h2⟩ h
      · rfl
  constructor
  · rintro ⟨⟨k, i⟩, h1, h2⟩
    by_cases he : endsItems k = true
    · obtain ⟨p, rfl⟩ := (ends_iff k).1 he
      exact ⟨p, i, h1, (hb p i).1 h2⟩
    · unfold block at h2
      rw [if_neg he] at h2
      cases h2
  · rintro ⟨p, i, h1, h2⟩
    exact ⟨_, h1, (hb p i).2 h2⟩

theorem colsOf_mem (ws : List (Name × Item A)) (hws : (ws.map Prod.fst).Nodup) (hm : ∀ k m, (k, Item.mat m) ∈ ws → MatOK m) (n : Name)
    (col : List A) :
    (n, col) ∈ ws.flatMap (colsOf ws) ↔ ∃ names m j, Block ws names m ∧ names[j]? = some n ∧ IsColumn m j col := by
  have hz : ∀ (names : List Name) (cs : List (List A)), (n, col) ∈ names.zip cs ↔ ∃ j : Nat, names[j]? = some n ∧ cs[j]? = some col := by
    intro names cs
    rw [List.mem_iff_getElem?]
    constructor
    · rintro ⟨j, hj⟩
      rw [List.getElem?_zip_eq_some] at hj
      exact ⟨j, hj⟩
    · rintro ⟨j, hj⟩
      exact ⟨j, List.getElem?_zip_eq_some.2 hj⟩
  rw [List.mem_flatMap]
  constructor
  · rintro ⟨⟨k, i⟩, h1, h2⟩
    unfold colsOf at h2
    by_cases he : endsItems k = true
    · rw [if_pos he] at h2
      obtain ⟨p, rfl⟩ := (ends_iff k).1 he
      simp only [valuesOf_items] at h2
      split at h2
      · next _ _ names m e2 =>
        have hv := (get_mem ws hws _ _).1 e2
        obtain ⟨j, hj1, hj2⟩ := (hz _ _).1 h2
        exact ⟨names, m, j, ⟨p, h1, hv⟩, hj1, (transpose_get m (hm _ _ hv) j col).1 hj2⟩
      · simp at h2
    · rw [if_neg he] at h2
      simp at h2
  · rintro ⟨names, m, j, ⟨p, h1, h2⟩, hj1, hj2⟩
    refine ⟨_, h1, ?_⟩
    unfold colsOf
    rw [if_pos ((ends_iff _).2 ⟨p, rfl⟩)]
    have hv := (get_mem ws hws _ _).2 h2
    simp only [valuesOf_items, hv]
    exact (hz _ _).2 ⟨j, hj1, (transpose_get m (hm _ _ h2) j col).2 hj2⟩

theorem zip_fst {B C : Type} (a : List B) (b : List C) : ((a.zip b).map Prod.fst).Sublist a := by
  induction a generalizing b with
  | nil => simp
  | cons x a ih =>
    cases b with
    | nil => simp
    | cons y b => simpa using ih b

/-- **C358** The columns are those of the blocks, each under its name and none else, if no name stands twice in the blocks. -/
theorem fix_partial (ws : List (Name × Item A)) (hws : (ws.map Prod.fst).Nodup) (hm : ∀ k m, (k, Item.mat m) ∈ ws → MatOK m)
    (hn : (ws.flatMap fun e => match e.2 with | .names l => l | _ => []).Nodup) (out : List (Name × List A)) (h : fixBlocks ws = some out) :
    (out.map Prod.fst).Nodup ∧
    ∀ n col, (n, col) ∈ out ↔ ∃ names m j, Block ws names m ∧ names[j]? = some n ∧ IsColumn m j col := by
  have ho := fix_cols ws ws [] out h
  have hsub : ((ws.flatMap (colsOf ws)).map Prod.fst).Sublist (ws.flatMap fun e => match e.2 with | .names l => l | _ => []) := by
    generalize hl : ws.flatMap (colsOf ws) = x
    have : ∀ l : List (Name × Item A), ((l.flatMap (colsOf ws)).map Prod.fst).Sublist (l.flatMap fun e => match e.2 with | .names l => l | _ => []) := by
      intro l
      induction l with
      | nil => simp
      | cons e l ih =>
        rw [List.flatMap_cons, List.flatMap_cons, List.map_append]
        refine List.Sublist.append ?_ ih
        unfold colsOf
        by_cases he : endsItems e.1 = true
        · rw [if_pos he]
          split
          · next names m e1 e2 =>
            rw [e1]
            exact zip_fst names (transpose m)
          · simp
        · rw [if_neg he]
          simp
    rw [← hl]
    exact this ws
  have hnd := hsub.nodup hn
  rw [foldl_set_new (fun c : Name × List A => c.1) (fun c => c.2) _ [] (by simpa using hnd)] at ho
  rw [List.nil_append, show (fun c : Name × List A => (c.1, c.2)) = id from rfl, List.map_id] at ho
  rw [ho]
  exact ⟨hnd, fun n col => colsOf_mem ws hws hm n col⟩

/-- blocks of the example -/
def exWs : List (Name × Item Nat) :=
  [(['b', '0'] ++ itemsEnd, .names [['x'], ['y']]), (['b', '0'] ++ valuesEnd, .mat ⟨2, [[1, 2], [3, 4], [5, 6]]⟩),
   (['b', '1'] ++ itemsEnd, .names [['z']]), (['b', '1'] ++ valuesEnd, .mat ⟨1, [[7], [8], [9]]⟩), (['n'], .other)]

example : (exWs.map Prod.fst).Nodup := by decide +kernel
example : (exWs.flatMap fun e => match e.2 with | .names l => l | _ => []).Nodup := by decide +kernel
example : fixBlocks exWs = some [(['x'], [1, 3, 5]), (['y'], [2, 4, 6]), (['z'], [7, 8, 9])] := by decide +kernel

/-- **C358, violated** A name in two blocks: the column of the first is lost; more names than columns: the others are lost. -/
theorem fix_counterexample :
    fixBlocks [(['a'] ++ itemsEnd, .names [['x']]), (['a'] ++ valuesEnd, .mat ⟨1, [[1]]⟩),
      (['b'] ++ itemsEnd, .names [['x'], ['y']]), (['b'] ++ valuesEnd, .mat ⟨1, [[2]]⟩)] = some [(['x'], [2])] := by
  decide +kernel

/-! ## Short columns -/

/-- **C359** Exactly the columns no shorter than any other are kept, in order, so that all have the same number of rows; it raises only if
there is none. -/
theorem drop_short (ws : List (Name × List A)) :
    (dropShort ws = none ↔ ws = []) ∧
    ∀ out, dropShort ws = some out → out.Sublist ws ∧ out ≠ [] ∧
      (∀ c ∈ ws, (c ∈ out ↔ ∀ b ∈ ws, b.2.length ≤ c.2.length)) ∧ ∀ c ∈ out, ∀ b ∈ out, c.2.length = b.2.length := by
  unfold dropShort
  constructor
  · constructor
    · intro h
      split at h
      · next hm =>
        rw [List.max?_eq_none_iff, List.map_eq_nil_iff] at hm
        exact hm
      · cases h
    · rintro rfl
      rfl
  · intro out h
    split at h
    · cases h
    · next m hm =>
      rw [List.max?_eq_some_iff] at hm
      obtain ⟨h1, h2⟩ := hm
      have hle : ∀ b ∈ ws, b.2.length ≤ m := fun b hb => h2 _ (List.mem_map.2 ⟨b, hb, rfl⟩)
      obtain ⟨c0, hc0, hm0⟩ := List.mem_map.1 h1
      cases h
      refine ⟨List.filter_sublist, ?_, ?_, ?_⟩
      · intro he
        have : c0 ∈ ws.filter fun c => c.2.length == m := List.mem_filter.2 ⟨hc0, by simpa using hm0⟩
        rw [he] at this
        simp at this
      · intro c hc
        rw [List.mem_filter, beq_iff_eq]
        constructor
        · rintro ⟨_, he⟩ b hb
          rw [he]
          exact hle b hb
        · intro hall
          refine ⟨hc, ?_⟩
          have := hall c0 hc0
          have := hle c hc
          omega
      · intro c hc b hb
        have h1 := (List.mem_filter.1 hc).2
        have h2 := (List.mem_filter.1 hb).2
        rw [beq_iff_eq] at h1 h2
        rw [h1, h2]

example : dropShort [(['a'], [1, 2]), (['b'], [1]), (['c'], [3, 4])] = some [(['a'], [1, 2]), (['c'], [3, 4])] := by decide +kernel
end Verif.H5
