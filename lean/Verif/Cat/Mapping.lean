import Verif.Items.Dict
import Verif.Cat.Model
import Mathlib.Data.List.Induction
/-!
# C30: code mappings of Categoricals in mapping mode

`GroupingEnum` keeps two dictionaries, code to label and label to code (`riptable/rt_grouping.py:3810-4000`); the
mapping edits of a Categorical change both (`riptable/rt_categorical.py:1050-1098`).
-/
namespace Verif.Cat
open Verif.Items

/-- `_int_to_str_dict` and `_str_to_int_dict` -/
structure Mapping where
  i2s : Dict Int Label
  s2i : Dict Label Int
deriving DecidableEq

/-- `rt_grouping.py:3868-3931` `_build_dicts_python`, after the types were checked: `pairs` are the labels with their codes
in the order of the given dictionary.  Labels or codes that occur twice give a warning only. -/
def buildDicts (pairs : List (Label × Int)) : Mapping :=
  pairs.foldl (fun m e => ⟨Dict.set m.i2s e.2 e.1, Dict.set m.s2i e.1 e.2⟩) ⟨[], []⟩

/-- result of an edit: the dictionaries afterwards and the exception, if one was raised -/
abbrev MRes := Mapping × Option String

/-- `rt_categorical.py:1059-1072` `_mapping_edit(code, value, how="add")` -/
def mappingAdd (m : Mapping) (code : Int) (value : Label) : MRes :=
  match Dict.get m.i2s code with
  | none => (⟨Dict.set m.i2s code value, Dict.set m.s2i value code⟩, none)
  | some _ => (m, some "ValueError: mapping already exists")

/-- `:1074-1080` `how="remove"`: the first `del` has happened when the second one raises -/
def mappingRemove (m : Mapping) (code : Int) : MRes :=
  match Dict.get m.i2s code with
  | some label =>
    let i2s := Dict.del m.i2s code
    if Dict.has m.s2i label then (⟨i2s, Dict.del m.s2i label⟩, none) else (⟨i2s, m.s2i⟩, some "KeyError")
  | none => (m, some "ValueError: mapping doesn't exist")

/-- `:1082-1092` `how="replace"` -/
def mappingReplace (m : Mapping) (code : Int) (value : Label) : MRes :=
  match Dict.get m.i2s code with
  | some _ => (⟨Dict.set m.i2s code value, Dict.set m.s2i value code⟩, none)
  | none => (m, some "ValueError: mapping doesn't exist")

inductive MOp where
  | add (code : Int) (value : Label)
  | remove (code : Int)
  | replace (code : Int) (value : Label)
deriving DecidableEq

def mstep (m : Mapping) : MOp → MRes
  | .add c v => mappingAdd m c v
  | .remove c => mappingRemove m c
  | .replace c v => mappingReplace m c v

def mrun (m : Mapping) : List MOp → Mapping
  | [] => m
  | o :: os => mrun (mstep m o).1 os

/-- `from_code` and `from_category` (`rt_grouping.py:3955-3978`): the label of a code, the code of a label -/
def labelOf (m : Mapping) (c : Int) : Option Label := Dict.get m.i2s c
def codeOf (m : Mapping) (l : Label) : Option Int := Dict.get m.s2i l

/-! ## Specification -/

/-- looking up the label of a code and then the code of that label gives the code back -/
def CodeRoundTrip (m : Mapping) : Prop := ∀ c l, labelOf m c = some l → codeOf m l = some c

/-- looking up the code of a label and then the label of that code gives the label back -/
def LabelRoundTrip (m : Mapping) : Prop := ∀ l c, codeOf m l = some c → labelOf m c = some l

/-- the operation gives a code a label that no other code has -/
def Unused (m : Mapping) : MOp → Prop
  | .add c v => ∀ c', labelOf m c' = some v → c' = c
  | .remove _ => True
  | .replace c v => ∀ c', labelOf m c' = some v → c' = c

/-- every operation of the history does so -/
def AllUnused : Mapping → List MOp → Prop
  | _, [] => True
  | m, o :: os => Unused m o ∧ AllUnused (mstep m o).1 os

def noReplace : MOp → Bool
  | .replace _ _ => false
  | _ => true

/-- what an operation should do to the labels of the codes -/
def codeSpec (f : Int → Option Label) : MOp → Int → Option Label
  | .add c v => fun x => if x = c then (if f c = none then some v else f c) else f x
  | .remove c => fun x => if x = c then none else f x
  | .replace c v => fun x => if x = c then (if f c = none then none else some v) else f x

/-! ## Theorems -/

theorem has_iff_get {κ V : Type} [DecidableEq κ] (d : Dict κ V) (k : κ) : Dict.has d k = true ↔ ∃ v, Dict.get d k = some v := by
  unfold Dict.has Dict.get
  constructor
  · intro h
    rw [List.any_eq_true] at h
    obtain ⟨e, he, hk⟩ := h
    cases hf : d.find? fun e => e.1 = k with
    | none => exact absurd hk (by simpa using List.find?_eq_none.1 hf e he)
    | some e' => exact ⟨e'.2, rfl⟩
  · rintro ⟨v, hv⟩
    cases hf : d.find? fun e => e.1 = k with
    | none => rw [hf] at hv; simp at hv
    | some e' =>
      have hp := List.find?_some hf
      rw [List.any_eq_true]
      exact ⟨e', List.mem_of_find?_eq_some hf, hp⟩

/-- Every operation changes the label of its own code only, as it should — whatever state the two dictionaries are in. -/
theorem mstep_codes (m : Mapping) (o : MOp) (x : Int) : labelOf (mstep m o).1 x = codeSpec (labelOf m) o x := by
  cases o with
  | add c v =>
    simp only [mstep, mappingAdd, codeSpec, labelOf]
    split
    · rename_i hg; simp [Dict.get_set, hg]
    · rename_i l hg; by_cases hx : x = c <;> simp [hx, hg]
  | remove c =>
    simp only [mstep, mappingRemove, codeSpec, labelOf]
    cases hg : Dict.get m.i2s c with
    | none => by_cases hx : x = c <;> simp [hx, hg]
    | some l => dsimp only; split <;> simp [Dict.get_del]
  | replace c v =>
    simp only [mstep, mappingReplace, codeSpec, labelOf]
    split
    · rename_i l hg; simp [Dict.get_set, hg]
    · rename_i hg; by_cases hx : x = c <;> simp [hx, hg]

/-- One operation keeps the round trip, if it uses a label no other code has; and if it raises, nothing has changed. -/
theorem mstep_round_trip {m : Mapping} (h : CodeRoundTrip m) (o : MOp) (hu : Unused m o) :
    CodeRoundTrip (mstep m o).1 ∧ ((mstep m o).2 ≠ none → (mstep m o).1 = m) := by
  unfold CodeRoundTrip labelOf codeOf at *
  cases o with
  | add c v =>
    simp only [mstep, mappingAdd]
    cases hg : Dict.get m.i2s c with
    | some l => exact ⟨h, fun _ => rfl⟩
    | none =>
      refine ⟨?_, by simp⟩
      intro c' l hl
      dsimp only at hl ⊢
      rw [Dict.get_set] at hl ⊢
      by_cases hc : c' = c
      · rw [if_pos hc] at hl
        rw [if_pos (Option.some.inj hl).symm, hc]
      · rw [if_neg hc] at hl
        have hne : l ≠ v := by
          rintro rfl
          exact hc (hu c' hl)
        rw [if_neg hne]
        exact h c' l hl
  | remove c =>
    simp only [mstep, mappingRemove]
    cases hg : Dict.get m.i2s c with
    | none => exact ⟨h, fun _ => rfl⟩
    | some l =>
      have hs := h c l hg
      have hh : Dict.has m.s2i l = true := (has_iff_get _ _).2 ⟨c, hs⟩
      dsimp only
      rw [if_pos hh]
      refine ⟨?_, by simp⟩
      intro c' l' hl
      dsimp only at hl ⊢
      rw [Dict.get_del] at hl ⊢
      by_cases hc : c' = c
      · rw [if_pos hc] at hl; simp at hl
      · rw [if_neg hc] at hl
        have h' := h c' l' hl
        have hne : l' ≠ l := by
          rintro rfl
          rw [hs] at h'
          exact hc (Option.some.inj h').symm
        rw [if_neg hne]
        exact h'
  | replace c v =>
    simp only [mstep, mappingReplace]
    cases hg : Dict.get m.i2s c with
    | none => exact ⟨h, fun _ => rfl⟩
    | some l0 =>
      refine ⟨?_, by simp⟩
      intro c' l hl
      dsimp only at hl ⊢
      rw [Dict.get_set] at hl ⊢
      by_cases hc : c' = c
      · rw [if_pos hc] at hl
        rw [if_pos (Option.some.inj hl).symm, hc]
      · rw [if_neg hc] at hl
        have hne : l ≠ v := by
          rintro rfl
          exact hc (hu c' hl)
        rw [if_neg hne]
        exact h c' l hl

/-- After any history of additions, removals and replacements in which no label is given to a second code, the code of the
label of a code is that code. -/
theorem mapping_round_trip_partial (os : List MOp) (m : Mapping) (h : CodeRoundTrip m) (hu : AllUnused m os) :
    CodeRoundTrip (mrun m os) := by
  induction os generalizing m with
  | nil => exact h
  | cons o os ih => exact ih _ (mstep_round_trip h o hu.1).1 hu.2

/-- In such a history, an operation that raises changes nothing. -/
theorem mapping_error_unchanged_partial (os : List MOp) (m : Mapping) (h : CodeRoundTrip m) (o : MOp) (hu : AllUnused m (os ++ [o]))
    (he : (mstep (mrun m os) o).2 ≠ none) : (mstep (mrun m os) o).1 = mrun m os := by
  induction os generalizing m with
  | nil => exact (mstep_round_trip h o hu.1).2 he
  | cons o' os ih => exact ih _ (mstep_round_trip h o' hu.1).1 hu.2 he

/-- Without replacements the label of the code of a label is that label, too. -/
theorem mapping_label_round_trip_partial (os : List MOp) (m : Mapping) (h : CodeRoundTrip m) (hl : LabelRoundTrip m)
    (hu : AllUnused m os) (hr : os.all noReplace = true) : LabelRoundTrip (mrun m os) := by
  induction os generalizing m with
  | nil => exact hl
  | cons o os ih =>
    rw [List.all_cons, Bool.and_eq_true] at hr
    refine ih _ (mstep_round_trip h o hu.1).1 ?_ hu.2 hr.2
    unfold LabelRoundTrip CodeRoundTrip labelOf codeOf at *
    cases o with
    | replace c v => exact absurd hr.1 (by simp [noReplace])
    | add c v =>
      simp only [mstep, mappingAdd]
      cases hg : Dict.get m.i2s c with
      | some l => exact hl
      | none =>
        intro l c' hc
        dsimp only at hc ⊢
        rw [Dict.get_set] at hc ⊢
        by_cases hlv : l = v
        · rw [if_pos hlv] at hc
          rw [if_pos (Option.some.inj hc).symm, hlv]
        · rw [if_neg hlv] at hc
          have h' := hl l c' hc
          have hne : c' ≠ c := by
            rintro rfl
            rw [hg] at h'; simp at h'
          rw [if_neg hne]
          exact h'
    | remove c =>
      simp only [mstep, mappingRemove]
      cases hg : Dict.get m.i2s c with
      | none => exact hl
      | some l0 =>
        have hh : Dict.has m.s2i l0 = true := (has_iff_get _ _).2 ⟨c, h c l0 hg⟩
        dsimp only
        rw [if_pos hh]
        intro l c' hc
        dsimp only at hc ⊢
        rw [Dict.get_del] at hc ⊢
        by_cases hl0 : l = l0
        · rw [if_pos hl0] at hc; simp at hc
        · rw [if_neg hl0] at hc
          have h' := hl l c' hc
          have hne : c' ≠ c := by
            rintro rfl
            rw [hg] at h'
            exact hl0 (Option.some.inj h').symm
          rw [if_neg hne]
          exact h'

theorem build_snoc (ps : List (Label × Int)) (e : Label × Int) :
    buildDicts (ps ++ [e]) = ⟨Dict.set (buildDicts ps).i2s e.2 e.1, Dict.set (buildDicts ps).s2i e.1 e.2⟩ := by
  unfold buildDicts
  rw [List.foldl_append]
  rfl

theorem build_labels (ps : List (Label × Int)) : ∀ c l, labelOf (buildDicts ps) c = some l → (l, c) ∈ ps := by
  induction ps using List.reverseRecOn with
  | nil => intro c l h; simp [buildDicts, labelOf, Dict.get] at h
  | append_singleton ps e ih =>
    intro c l h
    rw [build_snoc] at h
    unfold labelOf at h
    rw [Dict.get_set] at h
    by_cases hc : c = e.2
    · rw [if_pos hc] at h
      rw [← Option.some.inj h, hc]; simp
    · rw [if_neg hc] at h
      exact List.mem_append_left _ (ih c l h)

/-- A mapping built from distinct labels starts with the round trip from codes; with distinct codes as well, both. -/
theorem build_round_trip (ps : List (Label × Int)) (hn : (ps.map (·.1)).Nodup) :
    CodeRoundTrip (buildDicts ps) ∧ ((ps.map (·.2)).Nodup → LabelRoundTrip (buildDicts ps)) := by
  induction ps using List.reverseRecOn with
  | nil => exact ⟨fun c l h => by simp [buildDicts, labelOf, Dict.get] at h, fun _ l c h => by simp [buildDicts, codeOf, Dict.get] at h⟩
  | append_singleton ps e ih =>
    rw [List.map_append, List.nodup_append] at hn
    obtain ⟨hn1, _, hdis⟩ := hn
    obtain ⟨ih1, ih2⟩ := ih hn1
    rw [build_snoc]
    constructor
    · intro c l hl
      unfold labelOf codeOf at *
      dsimp only at hl ⊢
      rw [Dict.get_set] at hl ⊢
      by_cases hc : c = e.2
      · rw [if_pos hc] at hl
        rw [if_pos (Option.some.inj hl).symm, hc]
      · rw [if_neg hc] at hl
        have hne : l ≠ e.1 := by
          intro hle
          have := build_labels ps c l hl
          exact hdis l (List.mem_map_of_mem (f := (·.1)) this) e.1 (by simp) hle
        rw [if_neg hne]
        exact ih1 c l hl
    · intro hc2 l c hl
      rw [List.map_append, List.nodup_append] at hc2
      obtain ⟨hc1, _, hdc⟩ := hc2
      unfold labelOf codeOf at *
      dsimp only at hl ⊢
      rw [Dict.get_set] at hl ⊢
      by_cases hle : l = e.1
      · rw [if_pos hle] at hl
        rw [if_pos (Option.some.inj hl).symm, hle]
      · rw [if_neg hle] at hl
        have h' := ih2 hc1 l c hl
        have hm := build_labels ps c l h'
        have hne : c ≠ e.2 := fun hce => hdc c (List.mem_map_of_mem (f := (·.2)) hm) e.2 (by simp) hce
        rw [if_neg hne]
        exact h'

/-! ## Examples and counterexamples -/

def exM : Mapping := buildDicts [("a".toList, 1), ("b".toList, 2)]

example : CodeRoundTrip exM ∧ LabelRoundTrip exM := by
  have := build_round_trip [("a".toList, 1), ("b".toList, 2)] (by decide)
  exact ⟨this.1, this.2 (by decide)⟩

example : AllUnused exM [.add 3 "c".toList, .replace 1 "z".toList, .remove 2] := by
  refine ⟨?_, ?_, trivial, trivial⟩
  · intro c' h
    rw [exM] at h
    have := build_labels _ _ _ h
    simp at this
  · intro c' h
    rw [mstep_codes] at h
    simp only [codeSpec] at h
    split at h
    · split at h
      · simp at h
      · rename_i hc h3
        rw [show labelOf exM 3 = none from by decide] at h3
        simp at h3
    · have := build_labels _ _ _ h
      simp at this

/-- A label can be given to a second code: the first code's label then leads to the second code. -/
theorem duplicate_label_counterexample : ∃ m : Mapping, m = (mstep exM (.add 3 "a".toList)).1 ∧ (mstep exM (.add 3 "a".toList)).2 = none ∧
    labelOf m 1 = some "a".toList ∧ codeOf m "a".toList = some 3 :=
  ⟨_, rfl, by decide, by decide, by decide⟩

/-- Then removing both codes raises a KeyError, and the mapping has changed all the same. -/
theorem remove_keyerror_counterexample : ∃ m : Mapping, m = mrun exM [.add 3 "a".toList, .remove 3] ∧
    (mstep m (.remove 1)).2 = some "KeyError" ∧ (mstep m (.remove 1)).1 ≠ m :=
  ⟨_, rfl, by decide, by decide⟩

/-- A replaced label is not forgotten: it still leads to the code, even when the code has been removed. -/
theorem replaced_label_stale_counterexample : ∃ m : Mapping, m = mrun exM [.replace 1 "z".toList, .remove 1] ∧
    codeOf m "a".toList = some 1 ∧ labelOf m 1 = none :=
  ⟨_, rfl, by decide, by decide⟩

/-- A mapping in which two codes share a label is accepted at construction (with a warning only). -/
theorem build_duplicate_counterexample : ∃ m : Mapping, m = buildDicts [("a".toList, 1), ("a".toList, 2)] ∧
    labelOf m 1 = some "a".toList ∧ codeOf m "a".toList = some 2 :=
  ⟨_, rfl, by decide, by decide⟩

end Verif.Cat
