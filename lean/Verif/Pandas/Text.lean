import Verif.Pandas.Model
/-! # Text and object columns (C205, C206, C207) -/
namespace Verif.Pandas
open Verif.NpOps hiding Err
open Verif.Arrow

theorem asciiB_iff (t : List Char) : asciiB t = true ↔ Ascii t := by
  unfold asciiB Ascii
  simp

theorem str_texts (vals : List (List Char)) : (vals.map Obj.text).map str = vals := by
  rw [List.map_map]
  conv_rhs => rw [← List.map_id vals]
  rfl

theorem first_texts (vals : List (List Char)) (h : vals ≠ []) : isNumber (firstElement (vals.map Obj.text)) = false := by
  cases vals with
  | nil => exact absurd rfl h
  | cons t vals => rfl

/-- texts of pandas become the same texts, as bytes if all are ASCII -/
theorem fromTexts (round : Int → Rat) (parse : List Char → Option Rat) (vals : List (List Char)) :
    fromPandasObj round parse (vals.map .text) = .ok (.text ⟨!(vals.all asciiB), vals.map stripNul⟩) := by
  have ha : asText (vals.map .text) = .text ⟨!(vals.all asciiB), vals.map stripNul⟩ := by
    unfold asText
    rw [str_texts]
  unfold fromPandasObj
  split
  · next h =>
    rw [first_texts vals (by rintro rfl; simp at h), ha]
    rfl
  · rw [ha]

/-- numpy arrays have no NUL at the end of an item -/
theorem stripNul_all {vals : List (List Char)} (h : ∀ t ∈ vals, withoutNuls t = t) : vals.map stripNul = vals := by
  conv_rhs => rw [← List.map_id vals]
  exact List.map_congr_left h

/-- **C205** A text column goes to pandas with its texts and comes back with them, as bytes if all characters are ASCII and as Unicode
otherwise; only bytes that are no ASCII are refused. -/
theorem text_round_trip (round : Int → Rat) (parse : List Char → Option Rat) (a : TextArr) (hz : ∀ t ∈ a.vals, withoutNuls t = t) :
    (toPandasText a = .error .unicodeError ↔ a.unicode = false ∧ ¬ ∀ t ∈ a.vals, Ascii t) ∧
    ∀ p, toPandasText a = .ok p → p.map Obj.shows = a.vals.map (fun t => some (.text t)) ∧
      ∃ b : TextArr, fromPandasObj round parse p = .ok (.text b) ∧ b.vals = a.vals ∧ (b.unicode = false ↔ ∀ t ∈ a.vals, Ascii t) := by
  have hany : a.vals.any (fun t => !asciiB t) = true ↔ ¬ ∀ t ∈ a.vals, Ascii t := by
    rw [List.any_eq_true]
    push Not
    refine exists_congr fun t => and_congr_right fun _ => ?_
    rw [← asciiB_iff]
    simp
  unfold toPandasText
  refine ⟨?_, ?_⟩
  · split
    · next h => exact ⟨fun _ => ⟨h.1, hany.1 h.2⟩, fun _ => rfl⟩
    · next h => exact ⟨(fun h2 => by cases h2), fun h2 => absurd ⟨h2.1, hany.2 h2.2⟩ h⟩
  · intro p hp
    split at hp
    · cases hp
    · cases hp
      refine ⟨by rw [List.map_map]; rfl, _, fromTexts round parse a.vals, stripNul_all hz, ?_⟩
      simp only [Bool.not_eq_false', List.all_eq_true, asciiB_iff]

example : ∀ t ∈ ["ab".toList, "".toList, "é".toList], withoutNuls t = t := by decide

/-- **C206 (partial)** An object column of pandas with texts and missing cells, and at least one text: the texts are the same, missing
cells become the texts "None" and "nan". -/
theorem nulls_exact (round : Int → Rat) (parse : List Char → Option Rat) (rows : List Obj)
    (ht : ∀ o ∈ rows, o = .none ∨ o = .nan ∨ ∃ t, o = .text t ∧ withoutNuls t = t) (h1 : ∃ t, Obj.text t ∈ rows) :
    ∃ b : TextArr, fromPandasObj round parse rows = .ok (.text b) ∧
      b.vals = rows.map Obj.written := by
  obtain ⟨t1, h1⟩ := h1
  have hfirst : isNumber (firstElement rows) = false := by
    unfold firstElement
    cases hf : rows.find? notNull with
    | none =>
      rw [List.find?_eq_none] at hf
      exact absurd rfl (hf _ h1)
    | some o =>
      have hm := List.mem_of_find?_eq_some hf
      have hn := List.find?_some hf
      rcases ht o hm with rfl | rfl | ⟨t, rfl, _⟩
      · cases hn
      · cases hn
      · rfl
  refine ⟨⟨!((rows.map str).all asciiB), (rows.map str).map stripNul⟩, ?_, ?_⟩
  · unfold fromPandasObj
    rw [if_pos (List.length_pos_of_mem h1), hfirst]
    rfl
  · show (rows.map str).map stripNul = _
    rw [List.map_map]
    apply List.map_congr_left
    intro o ho
    rcases ht o ho with rfl | rfl | ⟨t, rfl, hz⟩
    · decide
    · decide
    · exact hz

example : ∀ o ∈ [Obj.text ['a'], .none, .nan], o = .none ∨ o = .nan ∨ ∃ t, o = .text t ∧ withoutNuls t = t := by
  intro o ho
  simp at ho
  rcases ho with rfl | rfl | rfl
  · exact .inr (.inr ⟨['a'], rfl, by decide⟩)
  · exact .inl rfl
  · exact .inr (.inl rfl)

/-- **C206** violated: a missing text becomes a text, for which riptable has the empty text (as `from_arrow` gives). -/
theorem nulls_counterexample (round : Int → Rat) (parse : List Char → Option Rat) :
    fromPandasObj round parse [.text ['a'], .none, .nan] = .ok (.text ⟨false, [['a'], "None".toList, "nan".toList]⟩) := by
  rfl

/-- **C207 (partial)** An object column whose first cell that is not missing is an integer, and whose cells are integers up to 2 ^ 53 or
missing, becomes a float column with the same numbers, NaN for the missing ones. So does a column that is all missing. -/
theorem ints_partial (round : Int → Rat) (hr : Exact round) (parse : List Char → Option Rat) (rows : List Obj) (hne : rows ≠ [])
    (ht : ∀ o ∈ rows, o = .none ∨ o = .nan ∨ ∃ k : Int, o = .int k ∧ -2 ^ 53 ≤ k ∧ k ≤ 2 ^ 53) :
    fromPandasObj round parse rows = .ok (.floats (rows.map Obj.number)) := by
  have hfirst : isNumber (firstElement rows) = true := by
    unfold firstElement
    cases hf : rows.find? notNull with
    | none => rfl
    | some o =>
      have hn := List.find?_some hf
      rcases ht o (List.mem_of_find?_eq_some hf) with rfl | rfl | ⟨k, rfl, _⟩
      · cases hn
      · cases hn
      · rfl
  have hto : ∀ o ∈ rows, toFloat round parse o = some o.number := by
    intro o ho
    rcases ht o ho with rfl | rfl | ⟨k, rfl, h0, h1⟩
    · rfl
    · rfl
    · show some (some (round k)) = _
      rw [hr k h0 h1]
      rfl
  unfold fromPandasObj
  rw [if_pos (List.length_pos_of_ne_nil hne), hfirst, if_pos rfl]
  unfold asFloats
  rw [if_pos]
  · congr 2
    have : ∀ l : List Obj, (∀ o ∈ l, toFloat round parse o = some o.number) →
        l.filterMap (toFloat round parse) = l.map Obj.number := by
      intro l hl
      induction l with
      | nil => rfl
      | cons o l ih =>
        rw [List.filterMap_cons, hl o List.mem_cons_self, List.map_cons, ih fun x hx => hl x (List.mem_cons_of_mem _ hx)]
    exact this rows hto
  · rw [List.all_eq_true]
    intro o ho
    rw [hto o ho]
    rfl

/-- **C207** violated: which type a column has depends on its first cell. Booleans become numbers; the number 7 after a text becomes a
text, the same cells in the other order raise an error. -/
theorem objects_counterexample (round : Int → Rat) :
    fromPandasObj round (fun _ => none) [.bool true, .none] = .ok (.floats [some 1, none]) ∧
    fromPandasObj round (fun _ => none) [.text ['a'], .int 7] = .ok (.text ⟨false, [['a'], ['7']]⟩) ∧
    fromPandasObj round (fun _ => none) [.int 7, .text ['a']] = .error .valueError := by
  refine ⟨rfl, ?_, rfl⟩
  show Except.ok (FromObj.text ⟨_, [_, stripNul (Nat.toDigits 10 7)]⟩) = _
  decide

end Verif.Pandas
