import Verif.SdsStack.Model
/-!
# C249, C250: rows of a stack of saved Datasets
-/
namespace Verif.SdsStack
open Verif.Items Verif.Cat
variable {L : Type} [DecidableEq L]

/-! ## Rows of files without the column -/

theorem cumsum_append (a : Nat) (xs ys : List Nat) : cumsum a (xs ++ ys) = cumsum a xs ++ cumsum (a + xs.sum) ys := by
  induction xs generalizing a with
  | nil => simp [cumsum]
  | cons x xs ih => simp [cumsum, ih, Nat.add_assoc]

theorem npGet_nat {α : Type} (a : List α) (k : Nat) : npGet a (k : Int) = a[k]? := by
  unfold npGet; rw [if_pos (by omega)]; rfl

/-- when every file has either no invalid or nothing else, all invalids become 0 -/
theorem fixGaps_eq (inv : Int) (segs : List (List Int)) (h : ∀ s ∈ segs, inv ∉ s ∨ ∀ x ∈ s, x = inv)
    (h1 : segs.length ≤ 1 → inv ∉ segs.flatten) :
    fixGaps inv (cumsum 0 (segs.map (·.length))) segs.flatten = segs.flatten.map fun k : Int => if k = inv then 0 else k := by
  have hid : inv ∉ segs.flatten → segs.flatten = segs.flatten.map fun k : Int => if k = inv then 0 else k := by
    intro hn
    conv_lhs => rw [← List.map_id segs.flatten]
    refine List.map_congr_left fun k hk => ?_
    rw [if_neg (show ¬ k = inv from fun e => hn (e ▸ hk))]; rfl
  unfold fixGaps
  rw [cumsum_length, List.length_map]
  by_cases hl : segs.length > 1
  · rw [if_pos hl]
    dsimp only
    by_cases ht : (((cumsum 0 (segs.map (·.length))).drop 1).map fun c : Nat => mbAt inv segs.flatten ((c : Int) - 1)).any
        (fun k : Int => decide (k = inv)) = true ∨ segs.flatten[0]? = some inv
    · rw [if_pos ht]
    · rw [if_neg ht]
      refine hid fun hm => ht ?_
      obtain ⟨s, hs, his⟩ := List.mem_flatten.1 hm
      have hall : ∀ x ∈ s, x = inv := (h s hs).resolve_left (fun hn => hn his)
      have hs0 : s ≠ [] := List.ne_nil_of_mem his
      obtain ⟨pre, post, rfl⟩ := List.append_of_mem hs
      cases hp : pre with
      | nil =>
        right
        cases s with
        | nil => exact absurd rfl hs0
        | cons x xs => simp [hall x List.mem_cons_self]
      | cons p ps =>
        left
        rw [List.any_eq_true]
        refine ⟨inv, List.mem_map.2 ⟨(pre.flatten.length + s.length), ?_, ?_⟩, by simp⟩
        · rw [← hp, List.map_append, cumsum_append, hp, List.map_cons, cumsum, List.cons_append, List.drop_succ_cons, List.drop_zero]
          refine List.mem_append_right _ ?_
          rw [List.map_cons, cumsum]
          refine List.mem_cons.2 (Or.inl ?_)
          simp [List.length_flatten]
        · rw [← hp]
          have hpos : 0 < s.length := List.length_pos_of_ne_nil hs0
          have e : (((pre.flatten.length + s.length : Nat) : Int) - 1) = ((pre.flatten.length + (s.length - 1) : Nat) : Int) := by omega
          unfold mbAt
          rw [e, npGet_nat, List.flatten_append, List.flatten_cons, List.getElem?_append_right (by omega),
            List.getElem?_append_left (by omega)]
          have : pre.flatten.length + (s.length - 1) - pre.flatten.length = s.length - 1 := by omega
          rw [this, List.getElem?_eq_getElem (by omega)]
          exact hall _ (List.getElem_mem _)
  · rw [if_neg hl]
    exact hid (h1 (by omega))

/-! ## Dictionaries of the saved file -/

theorem col_eq (t : Table L) (n : Name) : t.col n = Dict.get t.cols n := by
  unfold Table.col Dict.get
  rfl

theorem col_mem {t : Table L} {n : Name} {c : Column L} (h : t.col n = some c) : (n, c) ∈ t.cols := by
  rw [col_eq] at h; exact Dict.mem_of_get h

theorem mem_col {inv : Int} {t : Table L} (ht : TableOK inv t) {n : Name} {c : Column L} (h : (n, c) ∈ t.cols) : t.col n = some c := by
  rw [col_eq]; exact Dict.get_of_mem ht.names h

/-- the array of a column in the saved file -/
theorem save_orig (t : Table L) (n : Name) : Dict.get (save t).orig n = (t.col n).map (·.vals) := by
  rw [col_eq]
  unfold save
  dsimp only
  induction t.cols with
  | nil => rfl
  | cons e es ih =>
    rw [List.map_cons, Dict.get_cons, Dict.get_cons, ih]
    split <;> rfl

theorem save_orig_names (t : Table L) : (save t).orig.map (·.1) = t.cols.map (·.1) := by
  simp [save, List.map_map, Function.comp_def]

theorem auxName_inj {n n' : Name} (h : auxName n = auxName n') : n = n' := List.append_cancel_right h

/-- the entry of a column in a dictionary of additional arrays -/
theorem get_aux {β : Type} (f : Kind L → Option β) (cols : List (Name × Column L)) (hn : (cols.map (·.1)).Nodup) (n : Name) :
    Dict.get (cols.filterMap fun e => (f e.2.kind).map fun l => (auxName e.1, l)) (auxName n) =
      (Dict.get cols n).bind fun c => f c.kind := by
  induction cols with
  | nil => rfl
  | cons e es ih =>
    rw [List.map_cons, List.nodup_cons] at hn
    rw [Dict.get_cons, List.filterMap_cons]
    cases hf : f e.2.kind with
    | none =>
      dsimp only [Option.map_none]
      rw [ih hn.2]
      by_cases he : e.1 = n
      · rw [if_pos he]
        have : Dict.get es n = none := by rw [Dict.get_eq_none_iff]; rw [← he]; exact hn.1
        rw [this]; simp [hf]
      · rw [if_neg he]
    | some b =>
      dsimp only [Option.map_some]
      rw [Dict.get_cons, ih hn.2]
      by_cases he : e.1 = n
      · rw [if_pos he, if_pos (by rw [he])]; simp [hf]
      · rw [if_neg he, if_neg (fun h => he (auxName_inj h))]

theorem filter_metas (cols : List (Name × Column L)) (hn : (cols.map (·.1)).Nodup) (n : Name) :
    ((cols.filterMap fun e => (metaOf e.2.kind).map fun m => (e.1, m)).filter fun e => e.1 = n).map (·.2) =
      ((Dict.get cols n).bind fun c => metaOf c.kind).toList := by
  induction cols with
  | nil => rfl
  | cons e es ih =>
    rw [List.map_cons, List.nodup_cons] at hn
    rw [Dict.get_cons, List.filterMap_cons]
    have hnone : e.1 = n → Dict.get es n = none := fun he => by rw [Dict.get_eq_none_iff]; rw [← he]; exact hn.1
    cases hf : metaOf e.2.kind with
    | none =>
      dsimp only [Option.map_none]
      rw [ih hn.2]
      by_cases he : e.1 = n
      · rw [if_pos he, hnone he]; simp [hf]
      · rw [if_neg he]
    | some b =>
      dsimp only [Option.map_some]
      rw [List.filter_cons]
      by_cases he : e.1 = n
      · have := ih hn.2
        rw [hnone he] at this
        simp only [he, decide_true, if_true, List.map_cons]
        rw [this]; simp [hf]
      · simp only [he, decide_false, Bool.false_eq_true, if_false]
        rw [ih hn.2]

theorem specMeta_save {inv : Int} (ts : List (Table L)) (hok : ∀ t ∈ ts, TableOK inv t) (n : Name) :
    specMeta ((ts.map save).map (·.metas)) n = ts.flatMap fun t => ((t.col n).bind fun c => metaOf c.kind).toList := by
  unfold specMeta
  rw [List.map_map, List.flatMap_map]
  refine List.flatMap_congr fun t ht => ?_
  rw [col_eq]
  exact filter_metas t.cols (hok t ht).names n

theorem specName_aux {n : Name} (h : '!' ∉ n) : specName (auxName n) = n := by
  unfold specName auxName
  rw [if_pos (by simp)]
  rw [List.takeWhile_append_of_pos]
  · simp
  · intro c hc
    simp only [decide_not, Bool.not_eq_true', decide_eq_false_iff_not]
    exact fun e => h (e ▸ hc)

theorem nodup_names (l : List Name) : l.eraseDups.Nodup := by
  generalize hn : l.length = n
  induction n using Nat.strongRecOn generalizing l with
  | ind n ih =>
    cases l with
    | nil => simp
    | cons a l =>
      rw [List.eraseDups_cons, List.nodup_cons]
      refine ⟨by simp [List.mem_eraseDups], ?_⟩
      refine ih _ ?_ _ rfl
      have := List.length_filter_le (fun b => !b == a) l
      simp only [List.length_cons] at hn
      omega

/-- the additional arrays of one name -/
theorem filter_aux {β γ : Type} (f : Kind L → Option β) {inv : Int} (ts : List (Table L)) (hok : ∀ t ∈ ts, TableOK inv t) (n : Name) (hn : '!' ∉ n)
    (hex : ∃ t ∈ ts, ∃ c, t.col n = some c ∧ (f c.kind).isSome) (F : Name → γ) :
    ((((ts.flatMap fun t => (t.cols.filterMap fun e => (f e.2.kind).map fun l => (auxName e.1, l)).map (·.1)).eraseDups.map
      fun m => (m, F m)).filter fun a => specName a.1 = n).map (·.2)) = [F (auxName n)] := by
  rw [List.filter_map, List.map_map]
  have hfil : ((ts.flatMap fun t => (t.cols.filterMap fun e => (f e.2.kind).map fun l => (auxName e.1, l)).map (·.1)).eraseDups.filter
      ((fun a : Name × γ => decide (specName a.1 = n)) ∘ fun m => (m, F m))) = [auxName n] := by
    have hnd := nodup_names (ts.flatMap fun t => (t.cols.filterMap fun e => (f e.2.kind).map fun l => (auxName e.1, l)).map (·.1))
    have hmem : ∀ x, x ∈ (ts.flatMap fun t => (t.cols.filterMap fun e => (f e.2.kind).map fun l => (auxName e.1, l)).map (·.1)).eraseDups →
        (specName x = n ↔ x = auxName n) := by
      intro x hx
      rw [List.mem_eraseDups] at hx
      obtain ⟨t, ht, hx⟩ := List.mem_flatMap.1 hx
      obtain ⟨a, ha, rfl⟩ := List.mem_map.1 hx
      obtain ⟨e, he, hea⟩ := List.mem_filterMap.1 ha
      cases hf : f e.2.kind with
      | none => rw [hf] at hea; cases hea
      | some b =>
        rw [hf] at hea
        injection hea with hea
        rw [← hea]
        dsimp only
        rw [specName_aux ((hok t ht).bang e he)]
        exact ⟨fun h => by rw [h], fun h => auxName_inj h⟩
    have hin : auxName n ∈ (ts.flatMap fun t => (t.cols.filterMap fun e => (f e.2.kind).map fun l => (auxName e.1, l)).map (·.1)).eraseDups := by
      rw [List.mem_eraseDups]
      obtain ⟨t, ht, c, hc, hfc⟩ := hex
      obtain ⟨b, hb⟩ := Option.isSome_iff_exists.1 hfc
      refine List.mem_flatMap.2 ⟨t, ht, List.mem_map.2 ⟨(auxName n, b), ?_, rfl⟩⟩
      exact List.mem_filterMap.2 ⟨(n, c), col_mem hc, by simp [hb]⟩
    rw [List.filter_congr (q := fun m => decide (m = auxName n)) (fun x hx => by
      simp only [Function.comp]; rw [decide_eq_decide]; exact hmem x hx)]
    have hgen : ∀ (l : List Name) (a : Name), l.Nodup → a ∈ l → l.filter (fun m => decide (m = a)) = [a] := by
      intro l a hnd ha
      induction l with
      | nil => cases ha
      | cons y ys ih =>
        rw [List.nodup_cons] at hnd
        rw [List.filter_cons]
        by_cases hy : y = a
        · subst hy
          simp only [decide_true, if_true]
          rw [List.filter_eq_nil_iff.2]
          intro z hz
          simp only [decide_eq_true_eq]
          rintro rfl; exact hnd.1 hz
        · simp only [hy, decide_false, Bool.false_eq_true, if_false]
          exact ih hnd.2 ((List.mem_cons.1 ha).resolve_left (fun h => hy h.symm))
    exact hgen _ _ hnd hin
  rw [hfil]
  rfl

end Verif.SdsStack
