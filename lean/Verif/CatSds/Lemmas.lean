import Verif.CatSds.Model
import Mathlib.Data.List.Induction
import Mathlib.Data.List.Nodup
import Mathlib.Data.List.Forall2
/-! # Lemmas on saving Categoricals -/
namespace Verif.CatSds
open Verif.Items Verif.CatSds.Spec
variable {V M κ W : Type} [DecidableEq κ]

theorem dictOf_snoc (l : List (κ × W)) (e : κ × W) : dictOf (l ++ [e]) = (dictOf l).set e.1 e.2 := by
  unfold dictOf; rw [List.foldl_append]; rfl

theorem keys_dictOf (l : List (κ × W)) (k : κ) : k ∈ (dictOf l).keys ↔ k ∈ l.map Prod.fst := by
  induction l using List.reverseRecOn with
  | nil => simp [dictOf, Dict.keys]
  | append_singleton l e ih =>
    rw [dictOf_snoc, Dict.mem_keys_set, ih, List.map_append]
    simp [or_comm]

theorem nodup_dictOf (l : List (κ × W)) : (dictOf l).keys.Nodup := by
  induction l using List.reverseRecOn with
  | nil => simp [dictOf, Dict.keys]
  | append_singleton l e ih => rw [dictOf_snoc]; exact Dict.nodup_set ih _ _

theorem dictOf_nodup (l : List (κ × W)) (h : (l.map Prod.fst).Nodup) : dictOf l = l := by
  induction l using List.reverseRecOn with
  | nil => rfl
  | append_singleton l e ih =>
    rw [List.map_append] at h
    have h1 := List.nodup_append.1 h
    rw [dictOf_snoc, ih h1.1, Dict.set_of_notMem]
    intro hm
    exact h1.2.2 _ hm e.1 (by simp) rfl

theorem get_dictOf (l : List (κ × W)) (k : κ) (v : W) :
    (dictOf l).get k = some v ↔ ∃ p : Nat, l[p]? = some (k, v) ∧ ∀ (q : Nat) (w : W), p < q → l[q]? ≠ some (k, w) := by
  induction l using List.reverseRecOn generalizing v with
  | nil => simp [dictOf]
  | append_singleton l e ih =>
    rw [dictOf_snoc, Dict.get_set]
    by_cases hk : k = e.1
    · subst hk
      rw [if_pos rfl]
      constructor
      · intro h
        refine ⟨l.length, ?_, ?_⟩
        · rw [List.getElem?_append_right (Nat.le_refl _), Nat.sub_self]
          rw [← Option.some.inj h]; rfl
        · intro q w hq
          rw [List.getElem?_eq_none (by simp; omega)]
          exact fun h => nomatch h
      · rintro ⟨p, hp, hl⟩
        have hlt : p < (l ++ [e]).length := (List.getElem?_eq_some_iff.1 hp).1
        rw [List.length_append, List.length_singleton] at hlt
        rcases Nat.lt_or_ge p l.length with h | h
        · exact absurd (by rw [List.getElem?_append_right (Nat.le_refl _), Nat.sub_self]; rfl) (hl l.length e.2 h)
        · have : p = l.length := by omega
          subst this
          rw [List.getElem?_append_right (Nat.le_refl _), Nat.sub_self] at hp
          have : e = (e.1, v) := Option.some.inj hp
          rw [this]
    · rw [if_neg hk, ih]
      constructor
      · rintro ⟨p, hp, hl⟩
        have hlt : p < l.length := (List.getElem?_eq_some_iff.1 hp).1
        refine ⟨p, by rw [List.getElem?_append_left hlt]; exact hp, ?_⟩
        intro q w hq he
        have hlt' : q < (l ++ [e]).length := (List.getElem?_eq_some_iff.1 he).1
        rw [List.length_append, List.length_singleton] at hlt'
        rcases Nat.lt_or_ge q l.length with h | h
        · rw [List.getElem?_append_left h] at he
          exact hl q w hq he
        · have : q = l.length := by omega
          subst this
          rw [List.getElem?_append_right (Nat.le_refl _), Nat.sub_self] at he
          have : e = (k, w) := Option.some.inj he
          exact hk (by rw [this])
      · rintro ⟨p, hp, hl⟩
        have hlt : p < (l ++ [e]).length := (List.getElem?_eq_some_iff.1 hp).1
        rw [List.length_append, List.length_singleton] at hlt
        have hne : p ≠ l.length := by
          intro h
          subst h
          rw [List.getElem?_append_right (Nat.le_refl _), Nat.sub_self] at hp
          have : e = (k, v) := Option.some.inj hp
          exact hk (by rw [this])
        have hlt2 : p < l.length := by omega
        rw [List.getElem?_append_left hlt2] at hp
        refine ⟨p, hp, ?_⟩
        intro q w hq he
        have : q < l.length := (List.getElem?_eq_some_iff.1 he).1
        exact hl q w hq (by rw [List.getElem?_append_left this]; exact he)

theorem append_meta_inj {a b : String} (h : a ++ "_meta" = b ++ "_meta") : a = b := by
  have := congrArg String.toList h
  rw [String.toList_append, String.toList_append] at this
  exact String.toList_inj.1 (List.append_cancel_right this)

theorem nestedOf_snoc (l : List (String × Col V M)) (e : String × Col V M) :
    nestedOf (l ++ [e]) = addMeta (nestedOf l) e.1 e.2 := by
  unfold nestedOf; rw [List.foldl_append]; rfl

theorem get_nested_other (l : List (String × Col V M)) (name : String) (h : name ∉ l.map Prod.fst) :
    (nestedOf l).get (name ++ "_meta") = none := by
  induction l using List.reverseRecOn with
  | nil => rfl
  | append_singleton l e ih =>
    rw [List.map_append, List.mem_append, not_or] at h
    rw [nestedOf_snoc]
    unfold addMeta
    split
    · rw [Dict.get_set, if_neg, ih h.1]
      intro he
      exact h.2 (by simp [append_meta_inj he])
    · exact ih h.1

theorem get_nested (l : List (String × Col V M)) (hn : (l.map Prod.fst).Nodup) (name : String) (col : Col V M)
    (h : (name, col) ∈ l) : (nestedOf l).get (name ++ "_meta") = col.cls := by
  induction l using List.reverseRecOn with
  | nil => simp at h
  | append_singleton l e ih =>
    rw [List.map_append] at hn
    have h1 := List.nodup_append.1 hn
    rw [nestedOf_snoc]
    rcases List.mem_append.1 h with h | h
    · have hne : name ≠ e.1 := by
        intro he
        exact h1.2.2 _ (List.mem_map.2 ⟨_, h, rfl⟩) e.1 (by simp) he
      unfold addMeta
      split
      · rw [Dict.get_set, if_neg (fun he => hne (append_meta_inj he)), ih h1.1 h]
      · exact ih h1.1 h
    · have he : (name, col) = e := by simpa using h
      subst he
      have hno := get_nested_other l name (fun hm => h1.2.2 _ hm name (by simp) rfl)
      unfold addMeta
      dsimp only
      cases hc : col.cls with
      | none => exact hno
      | some m => rw [Dict.get_set, if_pos rfl]

theorem zip_fst_map {A B D : Type} (l : List (A × B)) (f : B → D) :
    (l.map Prod.fst).zip (l.map fun e => f e.2) = l.map fun e => (e.1, f e.2) := by
  induction l with
  | nil => rfl
  | cons e l ih => simp [ih]

theorem loadCols_eq (l : List (String × Col V M)) (hn : (l.map Prod.fst).Nodup) :
    loadCols (nestedOf l) ((l.map Prod.fst).zip (l.map fun e => e.2.vals)) = l := by
  unfold loadCols
  rw [zip_fst_map l (fun c => c.vals), List.map_map]
  have : l.map ((fun e => (e.1, loadCol (nestedOf l) e.1 e.2)) ∘ fun e => (e.1, e.2.vals)) = l := by
    refine (List.map_congr_left (g := id) ?_).trans (List.map_id l)
    rintro ⟨name, col⟩ he
    show (name, loadCol (nestedOf l) name col.vals) = (name, col)
    unfold loadCol
    rw [get_nested l hn name col he]
  rw [this]
  exact dictOf_nodup l hn

theorem filterMap_some_map {A B : Type} (l : List A) (f : A → B) : (l.map fun e => some (f e)).filterMap id = l.map f := by
  induction l with
  | nil => rfl
  | cons e l ih => simp [ih]

theorem any_none_map {A B : Type} (l : List A) (f : A → B) : (l.map fun e => some (f e)).any Option.isNone = false := by
  simp

theorem swap_zip (l : List (Int × String)) : (l.map Prod.snd).zip (l.map Prod.fst) = l.map Prod.swap := by
  induction l with
  | nil => rfl
  | cons e l ih => simp [ih, Prod.swap]

end Verif.CatSds
