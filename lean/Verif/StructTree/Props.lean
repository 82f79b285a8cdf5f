import Verif.StructTree.Search
import Verif.Items.Dict
/-! # `make_categoricals` and `make_struct_from_categories` (C312, C313) -/
namespace Verif.StructTree
open Verif.Items

variable {mk : List String → List String × List Nat}

theorem has_convertAll {f : Fields} {k : String} {w : Val} :
    Has (convertAll mk f) k w ↔ ∃ v, Has f k v ∧ w = convertVal mk v := by
  match f with
  | .nil => simp only [convertAll]; constructor; · intro h; cases h
            · rintro ⟨v, h, -⟩; cases h
  | .cons k' v' r =>
    simp only [convertAll]
    constructor
    · intro h
      cases h with
      | here => exact ⟨v', .here .., rfl⟩
      | later _ _ _ _ _ h =>
        obtain ⟨v, hx, rfl⟩ := has_convertAll.1 h
        exact ⟨v, .later _ _ _ _ _ hx, rfl⟩
    · rintro ⟨v, h, rfl⟩
      cases h with
      | here => exact .here ..
      | later _ _ _ _ _ h => exact .later _ _ _ _ _ (has_convertAll.2 ⟨v, h, rfl⟩)

theorem convert_struct {v : Val} {g : Fields} (h : Val.struct g = convertVal mk v) : ∃ g', v = .struct g' ∧ g = convertAll mk g' := by
  cases v <;> simp only [convertVal] at h <;> try cases h
  exact ⟨_, rfl, rfl⟩

theorem convert_dataset {v : Val} {g : Fields} (h : Val.dataset g = convertVal mk v) : ∃ g', v = .dataset g' ∧ g = convertAll mk g' := by
  cases v <;> simp only [convertVal] at h <;> try cases h
  exact ⟨_, rfl, rfl⟩

/-- the items after conversion, at every depth -/
theorem itemAt_convertAll {f : Fields} {p : List String} {w : Val} :
    ItemAt (convertAll mk f) p w ↔ ∃ v, ItemAt f p v ∧ w = convertVal mk v := by
  constructor
  · intro h
    generalize hg : convertAll mk f = g at h
    induction h generalizing f with
    | last g k v h =>
      subst hg
      obtain ⟨v', hx, rfl⟩ := has_convertAll.1 h
      exact ⟨v', .last _ _ _ hx, rfl⟩
    | struct g g' k p v h _ ih =>
      subst hg
      obtain ⟨v', hx, he⟩ := has_convertAll.1 h
      obtain ⟨g2, rfl, rfl⟩ := convert_struct he
      obtain ⟨v'', h'', rfl⟩ := ih rfl
      exact ⟨v'', .struct _ _ _ _ _ hx h'', rfl⟩
    | dataset g g' k p v h _ ih =>
      subst hg
      obtain ⟨v', hx, he⟩ := has_convertAll.1 h
      obtain ⟨g2, rfl, rfl⟩ := convert_dataset he
      obtain ⟨v'', h'', rfl⟩ := ih rfl
      exact ⟨v'', .dataset _ _ _ _ _ hx h'', rfl⟩
  · rintro ⟨v, h, rfl⟩
    induction h with
    | last g k v h => exact .last _ _ _ (has_convertAll.2 ⟨v, h, rfl⟩)
    | struct g g' k p v h _ ih => exact .struct _ (convertAll mk g') _ _ _ (has_convertAll.2 ⟨_, h, rfl⟩) ih
    | dataset g g' k p v h _ ih => exact .dataset _ (convertAll mk g') _ _ _ (has_convertAll.2 ⟨_, h, rfl⟩) ih

theorem keys_convertAll (f : Fields) : (convertAll mk f).keys = f.keys := by
  match f with
  | .nil => rfl
  | .cons k v r => simp only [convertAll, Fields.keys, keys_convertAll r]

/-- contract: a Categorical made of texts shows the texts -/
def MkOK (mk : List String → List String × List Nat) : Prop := ∀ l, shows (.cat [(mk l).1] (mk l).2) = some (l.map some)

/-- what becomes of one item: texts become a Categorical that shows them; containers stay containers with the same keys; all
else is as before -/
theorem convertVal_spec (hmk : MkOK mk) (v : Val) :
    (∀ l, v = .text l → (∃ c codes, convertVal mk v = .cat [c] codes) ∧ shows (convertVal mk v) = some (l.map some)) ∧
    (∀ g, v = .struct g → ∃ g', convertVal mk v = .struct g' ∧ g'.keys = g.keys) ∧
    (∀ g, v = .dataset g → ∃ g', convertVal mk v = .dataset g' ∧ g'.keys = g.keys) ∧
    ((∀ l, v ≠ .text l) → ¬ Container v → convertVal mk v = v) := by
  refine ⟨?_, ?_, ?_, ?_⟩
  · rintro l rfl; exact ⟨⟨_, _, rfl⟩, hmk l⟩
  · rintro g rfl; exact ⟨_, rfl, keys_convertAll g⟩
  · rintro g rfl; exact ⟨_, rfl, keys_convertAll g⟩
  · intro h1 h2
    cases v with
    | struct g => exact absurd (.inl ⟨g, rfl⟩) h2
    | dataset g => exact absurd (.inr ⟨g, rfl⟩) h2
    | text l => exact absurd rfl (h1 l)
    | cat => rfl
    | other => rfl

/-- C312: without a list of names all arrays of texts, at every depth, become Categoricals that show the same texts; all else stays, and
so do the keys and their order -/
theorem all_exact (hmk : MkOK mk) (attr : List String) (f : Fields) :
    ∃ f', makeCategoricals mk attr f none = (f', true) ∧ f'.keys = f.keys ∧
      ∀ (p : List String) (v : Val), ItemAt f p v → ∃ w, ItemAt f' p w ∧
        (∀ l, v = .text l → (∃ c codes, w = .cat [c] codes) ∧ shows w = some (l.map some)) ∧
        (∀ g, v = .struct g → ∃ g', w = .struct g' ∧ g'.keys = g.keys) ∧
        (∀ g, v = .dataset g → ∃ g', w = .dataset g' ∧ g'.keys = g.keys) ∧
        ((∀ l, v ≠ .text l) → ¬ Container v → w = v) :=
  ⟨_, rfl, keys_convertAll f, fun _ v h => ⟨convertVal mk v, itemAt_convertAll.2 ⟨v, h, rfl⟩, convertVal_spec hmk v⟩⟩

mutual
theorem convertAll_idem : (f : Fields) → convertAll mk (convertAll mk f) = convertAll mk f
  | .nil => rfl
  | .cons k v r => by simp only [convertAll, convertVal_idem v, convertAll_idem r]
theorem convertVal_idem : (v : Val) → convertVal mk (convertVal mk v) = convertVal mk v
  | .struct g => by simp only [convertVal, convertAll_idem g]
  | .dataset g => by simp only [convertVal, convertAll_idem g]
  | .text _ => rfl
  | .cat _ _ => rfl
  | .other _ => rfl
end

theorem keys_update (f : Fields) (k : String) (g : Val → Val) : (f.update k g).keys = f.keys := by
  match f with
  | .nil => rfl
  | .cons k' v r =>
    simp only [Fields.update]
    split <;> simp [Fields.keys, keys_update r]

theorem has_update {f : Fields} (hn : f.keys.Nodup) {c k : String} {g : Val → Val} {w : Val} :
    Has (f.update c g) k w ↔ ∃ v, Has f k v ∧ w = if k = c then g v else v := by
  match f with
  | .nil => simp only [Fields.update]; constructor; · intro h; cases h
            · rintro ⟨v, h, -⟩; cases h
  | .cons k' v' r =>
    obtain ⟨hn1, hn2⟩ := List.nodup_cons.1 hn
    simp only [Fields.update]
    by_cases hk : k' = c
    · rw [if_pos hk]
      constructor
      · intro h
        cases h with
        | here => exact ⟨v', .here .., by rw [if_pos hk]⟩
        | later _ _ _ _ _ h =>
          refine ⟨w, .later _ _ _ _ _ h, ?_⟩
          rw [if_neg]
          rintro rfl
          exact hn1 (hk ▸ has_key h)
      · rintro ⟨v, h, rfl⟩
        cases h with
        | here => rw [if_pos hk]; exact .here ..
        | later _ _ _ _ _ h =>
          rw [if_neg]
          · exact .later _ _ _ _ _ h
          · rintro rfl
            exact hn1 (hk ▸ has_key h)
    · rw [if_neg hk]
      constructor
      · intro h
        cases h with
        | here => exact ⟨_, .here .., by rw [if_neg hk]⟩
        | later _ _ _ _ _ h =>
          obtain ⟨v, hx, rfl⟩ := (has_update hn2).1 h
          exact ⟨v, .later _ _ _ _ _ hx, rfl⟩
      · rintro ⟨v, h, rfl⟩
        cases h with
        | here => rw [if_neg hk]; exact .here ..
        | later _ _ _ _ _ h => exact .later _ _ _ _ _ ((has_update hn2).2 ⟨v, h, rfl⟩)

theorem convertList_ok (cs : List String) (f : Fields) (hn : f.keys.Nodup) (h : ∀ c ∈ cs, c ∈ f.keys) :
    (convertList mk cs f).2 = true ∧ (convertList mk cs f).1.keys = f.keys ∧
      ∀ k w, Has (convertList mk cs f).1 k w ↔ ∃ v, Has f k v ∧ w = if k ∈ cs then convertVal mk v else v := by
  induction cs generalizing f with
  | nil =>
    refine ⟨rfl, rfl, fun k w => ?_⟩
    simp [convertList]
  | cons c cs ih =>
    have hk := keys_update f c (convertVal mk)
    obtain ⟨h1, h2, h3⟩ := ih (f.update c (convertVal mk)) (by rwa [hk]) (by rw [hk]; exact fun x hx => h x (by simp [hx]))
    simp only [convertList, if_pos (h c (by simp))]
    refine ⟨h1, h2.trans hk, fun k w => ?_⟩
    rw [h3]
    constructor
    · rintro ⟨v, hv, rfl⟩
      obtain ⟨v, hx, rfl⟩ := (has_update hn).1 hv
      refine ⟨v, hx, ?_⟩
      by_cases a : k = c <;> by_cases b : k ∈ cs <;> simp [a, b, convertVal_idem]
      all_goals (subst a; simp [b, convertVal_idem])
    · rintro ⟨v, hv, rfl⟩
      refine ⟨_, (has_update hn).2 ⟨v, hv, rfl⟩, ?_⟩
      by_cases a : k = c <;> by_cases b : k ∈ cs <;> simp [a, b, convertVal_idem]
      all_goals (subst a; simp [b, convertVal_idem])

/-- C312: with names of items exactly those items are converted (also if a name is given twice), the others stay -/
theorem list_partial (hmk : MkOK mk) (attr : List String) (f : Fields) (hn : f.keys.Nodup) (cs : List String)
    (h : ∀ c ∈ cs, c ∈ f.keys) :
    ∃ f', makeCategoricals mk attr f (some cs) = (f', true) ∧ f'.keys = f.keys ∧
      ∀ (k : String) (v : Val), Has f k v → ∃ w, Has f' k w ∧ (k ∉ cs → w = v) ∧
        (k ∈ cs → (∀ l, v = .text l → (∃ c codes, w = .cat [c] codes) ∧ shows w = some (l.map some)) ∧
          (∀ g, v = .struct g → ∃ g', w = .struct g' ∧ g'.keys = g.keys) ∧
          (∀ g, v = .dataset g → ∃ g', w = .dataset g' ∧ g'.keys = g.keys) ∧
          ((∀ l, v ≠ .text l) → ¬ Container v → w = v)) := by
  obtain ⟨h1, h2, h3⟩ := convertList_ok (mk := mk) cs f hn h
  refine ⟨(convertList mk cs f).1, ?_, h2, ?_⟩
  · simp only [makeCategoricals]
    rw [if_pos]
    · exact Prod.ext rfl h1
    · simp only [List.all_eq_true, Bool.or_eq_true, decide_eq_true_eq]
      exact fun c hc => .inl (h c hc)
  · intro k v hv
    refine ⟨_, (h3 k _).2 ⟨v, hv, rfl⟩, fun hk => if_neg hk, fun hk => ?_⟩
    rw [if_pos hk]
    exact convertVal_spec hmk v

/-- C312: a name that is neither an item nor another attribute: nothing is changed and an exception is raised -/
theorem missing_partial (attr : List String) (f : Fields) (cs : List String) (c : String) (hc : c ∈ cs) (h1 : c ∉ f.keys)
    (h2 : c ∉ attr) : makeCategoricals mk attr f (some cs) = (f, false) := by
  simp only [makeCategoricals]
  rw [if_neg]
  intro h
  rw [List.all_eq_true] at h
  have := h c hc
  simp [h1, h2] at this

/-- a Categorical of texts, by first occurrence -/
def exMk (l : List String) : List String × List Nat := (l, (List.range l.length).map (· + 1))

theorem exMk_ok : MkOK exMk := by
  intro l
  simp only [shows, exMk, List.map_map]
  congr 1
  refine List.ext_getElem (by simp) ?_
  intro i h1 h2
  simp at h1
  simp [h1]

/-- C312: the name of a method passes the test, so the first column is converted before the exception -/
theorem attribute_counterexample :
    ∃ f' : Fields, makeCategoricals exMk ["keys"] (.cons "s" (.text ["x"]) .nil) (some ["s", "keys"]) = (f', false) ∧
      Has f' "s" (.cat [["x"]] [1]) ∧ ¬ Has f' "s" (.text ["x"]) := by
  refine ⟨.cons "s" (.cat [["x"]] [1]) .nil, ?_, .here .., ?_⟩
  · simp [makeCategoricals, Fields.keys, convertList, Fields.update, convertVal, exMk]
  · intro h
    cases h with
    | later _ _ _ _ _ h => cases h

example : (exTree.keys).Nodup ∧ (∀ c ∈ ["s"], c ∈ exTree.keys) := by decide

/-! ## make_struct_from_categories -/

/-- the Categoricals with one key column -/
def single : List Char × Val → Option (List Char × List String)
  | (n, .cat [c] _) => some (n, c)
  | _ => none

theorem foldl_set {W : Type} (l : List (List Char × W)) (d : Dict (List Char) W) (hn : (l.map Prod.fst).Nodup)
    (hd : ∀ e ∈ l, e.1 ∉ d.keys) : l.foldl (fun s e => s.set e.1 e.2) d = d ++ l := by
  induction l generalizing d with
  | nil => exact (List.append_nil d).symm
  | cons e l ih =>
    rw [List.map_cons, List.nodup_cons] at hn
    rw [List.foldl_cons, Dict.set_of_notMem (hd e (by simp)), ih _ hn.2]
    · simp
    · intro e' he' hk
      simp only [Dict.keys, List.map_append, List.mem_append, List.map_cons, List.map_nil, List.mem_singleton] at hk
      rcases hk with hk | hk
      · exact hd e' (by simp [he']) hk
      · exact hn.1 (hk ▸ List.mem_map_of_mem he')

theorem catsOf_eq (plen : Nat) (l : List (List Char × Val)) :
    catsOf plen l = ((l.filterMap single).map fun e => (e.1.drop plen, e.2)).foldl (fun (s : Dict (List Char) (List String)) e => s.set e.1 e.2) [] := by
  unfold catsOf
  generalize ([] : Dict (List Char) (List String)) = d
  induction l generalizing d with
  | nil => rfl
  | cons e l ih =>
    rw [List.foldl_cons, ih]
    obtain ⟨n, v⟩ := e
    have : ∀ v, (∀ c codes, v ≠ .cat [c] codes) → single (n, v) = none := by
      intro v hv
      unfold single
      split
      · rename_i h; cases h; exact absurd rfl (hv _ _)
      · rfl
    cases v with
    | cat ks codes =>
      match ks with
      | [] => rw [List.filterMap_cons, this _ (by simp)]
      | [c] => rfl
      | _ :: _ :: _ => rw [List.filterMap_cons, this _ (by simp)]
    | struct => rw [List.filterMap_cons, this _ (by simp)]
    | dataset => rw [List.filterMap_cons, this _ (by simp)]
    | text => rw [List.filterMap_cons, this _ (by simp)]
    | other => rw [List.filterMap_cons, this _ (by simp)]

theorem mem_single {l : List (List Char × Val)} {n : List Char} {c : List String} :
    (n, c) ∈ l.filterMap single ↔ ∃ codes, (n, Val.cat [c] codes) ∈ l := by
  rw [List.mem_filterMap]
  constructor
  · rintro ⟨⟨n', v⟩, h, he⟩
    unfold single at he
    split at he
    · rename_i heq
      cases heq
      cases he
      exact ⟨_, h⟩
    · cases he
  · rintro ⟨codes, h⟩
    exact ⟨_, h, rfl⟩

theorem single_names (l : List (List Char × Val)) : ((l.filterMap single).map Prod.fst).Sublist (l.map Prod.fst) := by
  induction l with
  | nil => simp
  | cons e l ih =>
    rw [List.filterMap_cons]
    cases h : single e with
    | none => exact ih.cons _
    | some x =>
      have : x.1 = e.1 := by
        obtain ⟨n, v⟩ := e
        unfold single at h
        split at h
        · rename_i heq; cases heq; cases h; rfl
        · cases h
      rw [List.map_cons, List.map_cons, this]
      exact ih.cons_cons _

/-- the name in the result of a column that begins with `p` -/
def NewName (p : List Char) (keep : Bool) (name n : List Char) : Prop :=
  p <+: name ∧ if keep then n = name else name = p ++ n

/-- C313: if all new names can be used, the result has exactly the categories of the Categoricals with one key column whose name
begins with the prefix, under their new names -/
theorem categories_partial (bad : List (List Char)) (cols : List (List Char × Val)) (hn : (cols.map Prod.fst).Nodup)
    (pre : Option (List Char)) (keep : Bool)
    (h : ∀ (name n : List Char) (c : List String) (codes : List Nat), (name, Val.cat [c] codes) ∈ cols →
      NewName (pre.getD []) keep name n → n ≠ [] ∧ n.head? ≠ some '_' ∧ n ∉ bad) :
    ∃ s : Dict (List Char) (List String), structFromCategories bad cols pre keep = .ok s ∧ s.keys.Nodup ∧
      ∀ (n : List Char) (c : List String), (n, c) ∈ s ↔
        ∃ (name : List Char) (codes : List Nat), (name, Val.cat [c] codes) ∈ cols ∧ NewName (pre.getD []) keep name n := by
  -- one form for both cases
  generalize hp : pre.getD [] = p at h ⊢
  have form : structFromCategories bad cols pre keep =
      structOf bad (catsOf (if keep then 0 else p.length) (cols.filter fun e => p.isPrefixOf e.1)) := by
    cases pre with
    | none =>
      simp only [Option.getD_none] at hp
      subst hp
      simp only [structFromCategories, List.length_nil, ite_self]
      congr 2
      exact (List.filter_eq_self.2 (by simp)).symm
    | some q =>
      simp only [Option.getD_some] at hp
      subst hp
      rfl
  rw [form, catsOf_eq]
  generalize hsel : (cols.filter fun e => p.isPrefixOf e.1) = sel
  have hselm : ∀ (name : List Char) (v : Val), (name, v) ∈ sel ↔ (name, v) ∈ cols ∧ p <+: name := by
    intro name v; rw [← hsel, List.mem_filter, List.isPrefixOf_iff_prefix]
  have hseln : ((sel.filterMap single).map Prod.fst).Nodup :=
    (single_names sel).nodup ((by rw [← hsel]; exact (List.filter_sublist.map Prod.fst)) |> fun (hs : (sel.map Prod.fst).Sublist _) => hs.nodup hn)
  generalize hl : ((sel.filterMap single).map fun e => (e.1.drop (if keep then 0 else p.length), e.2)) = l
  have hmem : ∀ (n : List Char) (c : List String), (n, c) ∈ l ↔
      ∃ (name : List Char) (codes : List Nat), (name, Val.cat [c] codes) ∈ cols ∧ NewName p keep name n := by
    intro n c
    rw [← hl, List.mem_map]
    constructor
    · rintro ⟨⟨name, c'⟩, hm, he⟩
      obtain ⟨codes, hm⟩ := mem_single.1 hm
      obtain ⟨hm, hpre⟩ := (hselm _ _).1 hm
      cases he
      refine ⟨name, codes, hm, hpre, ?_⟩
      cases keep
      · obtain ⟨t, rfl⟩ := hpre
        simp
      · simp
    · rintro ⟨name, codes, hm, hpre, hk⟩
      refine ⟨(name, c), mem_single.2 ⟨codes, (hselm _ _).2 ⟨hm, hpre⟩⟩, ?_⟩
      cases keep
      · simp only [Bool.false_eq_true, if_false] at hk; subst hk; simp
      · simp only [if_true] at hk; subst hk; simp
  have hln : (l.map Prod.fst).Nodup := by
    rw [← hl, List.map_map]
    have : ((sel.filterMap single).map (Prod.fst ∘ fun e => (e.1.drop (if keep then 0 else p.length), e.2))) =
        ((sel.filterMap single).map Prod.fst).map (List.drop (if keep then 0 else p.length)) := by
      rw [List.map_map]; rfl
    rw [this]
    refine List.Nodup.map_on ?_ hseln
    have hpr : ∀ x ∈ (sel.filterMap single).map Prod.fst, p <+: x := by
      intro x hx
      obtain ⟨⟨x', c⟩, hy, rfl⟩ := List.mem_map.1 hx
      obtain ⟨codes, hm⟩ := mem_single.1 hy
      exact ((hselm _ _).1 hm).2
    intro x hx y hy hxy
    cases keep
    · obtain ⟨s, rfl⟩ := hpr x hx
      obtain ⟨t, rfl⟩ := hpr y hy
      simp at hxy
      rw [hxy]
    · simpa using hxy
  have hfold : l.foldl (fun (s : Dict (List Char) (List String)) e => s.set e.1 e.2) ([] : Dict (List Char) (List String)) = l := by
    have := foldl_set l [] hln (by simp [Dict.keys])
    simpa using this
  rw [hfold]
  have hok : ∀ e ∈ l, e.1 ≠ [] ∧ e.1.head? ≠ some '_' ∧ e.1 ∉ bad := by
    rintro ⟨n, c⟩ he
    obtain ⟨name, codes, hm, hnn⟩ := (hmem n c).1 he
    exact h name n c codes hm hnn
  refine ⟨l, ?_, hln, hmem⟩
  unfold structOf
  rw [if_neg, if_neg]
  · congr 1
    have : l.foldl (fun (s : Dict (List Char) (List String)) e => s.set (keptName bad e.1) e.2) ([] : Dict (List Char) (List String)) =
        (l.map fun e => (keptName bad e.1, e.2)).foldl (fun (s : Dict (List Char) (List String)) e => s.set e.1 e.2) [] := by
      rw [List.foldl_map]
    rw [this]
    have hid : (l.map fun e => (keptName bad e.1, e.2)) = l := by
      conv_rhs => rw [← List.map_id l]
      refine List.map_congr_left ?_
      rintro ⟨n, c⟩ he
      have h3 := (hok _ he).2.2
      unfold keptName
      cases n with
      | nil => rfl
      | cons a b => dsimp only at h3 ⊢; rw [if_neg (fun hh => h3 hh.1)]; rfl
    rw [hid, hfold]
  · rw [List.any_eq_true]
    rintro ⟨e, he, h0⟩
    exact (hok e he).1 (List.isEmpty_iff.1 h0)
  · rw [List.any_eq_true]
    rintro ⟨e, he, h0⟩
    rw [List.isPrefixOf_iff_prefix] at h0
    obtain ⟨t, ht⟩ := h0
    exact (hok e he).2.1 (by rw [← ht]; rfl)

def exCols : List (List Char × Val) := [("pSym".toList, .cat [["A", "B"]] [1, 2]), ("pX".toList, .other 1), ("q".toList, .cat [["C"]] [1])]

example : structFromCategories [] exCols (some ['p']) false = .ok [("Sym".toList, ["A", "B"])] := by decide +kernel

example : (exCols.map Prod.fst).Nodup := by decide +kernel

/-- C313: Categoricals with several key columns are left out without a word -/
theorem multikey_counterexample :
    structFromCategories [] [("a".toList, .cat [["A"], ["B"]] [1])] none false = .ok [] := by rfl

/-- C313: a new name with an underscore, or none at all: the call fails -/
theorem underscore_counterexample :
    (∃ e, structFromCategories [] [("p_a".toList, .cat [["A"]] [1]), ("pb".toList, .cat [["B"]] [1])] (some ['p']) false = .error e) ∧
    ∃ e, structFromCategories [] [("p".toList, .cat [["A"]] [1]), ("pb".toList, .cat [["B"]] [1])] (some ['p']) false = .error e :=
  ⟨⟨_, rfl⟩, ⟨_, rfl⟩⟩

/-- C313: a new name that is the name of a method is capitalised and hides another column -/
theorem capital_counterexample :
    structFromCategories ["keys".toList] [("pkeys".toList, .cat [["A"]] [1]), ("pKeys".toList, .cat [["B"]] [1])] (some ['p']) false =
      .ok [("Keys".toList, ["B"])] := by decide +kernel

end Verif.StructTree
