import Verif.SdsPath.Model
import Mathlib.Data.List.Basic
/-! # Paths of saved files (C301 - C303) -/
namespace Verif.SdsPath
open Spec

theorem isIn_pair (a : List Char) (x y : Char) : isIn a [x, y] = true ↔ a = [] ∨ a = [x] ∨ a = [y] ∨ a = [x, y] := by
  simp only [isIn, Bool.or_eq_true, List.isPrefixOf_iff_prefix, List.isEmpty_iff]
  constructor
  · rintro (h | h | h)
    · rcases a with _ | ⟨b, _ | ⟨c, _ | ⟨d, a⟩⟩⟩
      · simp
      · rw [List.cons_prefix_cons] at h; simp [h.1]
      · rw [List.cons_prefix_cons, List.cons_prefix_cons] at h; simp [h.1, h.2.1]
      · have := h.length_le; simp at this
    · rcases a with _ | ⟨b, _ | ⟨c, a⟩⟩
      · simp
      · rw [List.cons_prefix_cons] at h; simp [h.1]
      · have := h.length_le; simp at this
    · exact .inl h
  · rintro (rfl | rfl | rfl | rfl) <;> simp

/-- the answers that the prompt for a file takes as a yes, and as a no -/
def yes' (a : String) : Prop := a = "" ∨ a = "Y" ∨ a = "y" ∨ a = "Yy"
def no' (a : String) : Prop := a = "N" ∨ a = "n" ∨ a = "Nn"

theorem toList_eq (a b : String) : a.toList = b.toList ↔ a = b := String.toList_inj

theorem isIn_yes (a : String) : isIn a.toList ['Y', 'y'] = true ↔ yes' a := by
  rw [isIn_pair]
  unfold yes'
  rw [← toList_eq a "", ← toList_eq a "Y", ← toList_eq a "y", ← toList_eq a "Yy"]
  rfl

theorem isIn_no (a : String) (h : ¬ yes' a) : isIn a.toList ['N', 'n'] = true ↔ no' a := by
  rw [isIn_pair]
  unfold no'
  rw [← toList_eq a "N", ← toList_eq a "n", ← toList_eq a "Nn"]
  constructor
  · rintro (h' | h')
    · exact absurd (.inl ((toList_eq a "").1 h')) h
    · exact h'
  · exact .inr

/-- C301, what the prompt for a file does, in full: an empty answer counts as a yes -/
theorem prompt_exact (answers : List String) :
    promptSingle answers = .go ↔
      ∃ (i : Nat) (a : String), answers[i]? = some a ∧ (a = "" ∨ a = "Y" ∨ a = "y" ∨ a = "Yy") ∧
        ∀ (j : Nat) (b : String), j < i → answers[j]? = some b →
          ¬ (b = "" ∨ b = "Y" ∨ b = "y" ∨ b = "Yy") ∧ ¬ (b = "N" ∨ b = "n" ∨ b = "Nn") := by
  show _ ↔ ∃ (i : Nat) (a : String), answers[i]? = some a ∧ yes' a ∧
    ∀ (j : Nat) (b : String), j < i → answers[j]? = some b → ¬ yes' b ∧ ¬ no' b
  induction answers with
  | nil => simp [promptSingle]
  | cons a as ih =>
    unfold promptSingle
    by_cases hy : yes' a
    · rw [if_pos ((isIn_yes a).2 hy)]
      simp only [true_iff]
      exact ⟨0, a, rfl, hy, fun j b hj => absurd hj (Nat.not_lt_zero j)⟩
    · rw [if_neg (fun h => hy ((isIn_yes a).1 h))]
      by_cases hn : no' a
      · rw [if_pos ((isIn_no a hy).2 hn)]
        simp only [reduceCtorEq, false_iff]
        rintro ⟨i, b, hi, hb, hall⟩
        cases i with
        | zero =>
          obtain rfl : a = b := by simpa using hi
          exact hy hb
        | succ i => exact (hall 0 a (Nat.succ_pos i) rfl).2 hn
      · rw [if_neg (fun h => hn ((isIn_no a hy).1 h)), ih]
        constructor
        · rintro ⟨i, b, hi, hb, hall⟩
          refine ⟨i + 1, b, by simpa using hi, hb, ?_⟩
          intro j c hj hc
          cases j with
          | zero =>
            obtain rfl : a = c := by simpa using hc
            exact ⟨hy, hn⟩
          | succ j => exact hall j c (by omega) (by simpa using hc)
        · rintro ⟨i, b, hi, hb, hall⟩
          cases i with
          | zero =>
            obtain rfl : a = b := by simpa using hi
            exact absurd hb hy
          | succ i =>
            exact ⟨i, b, by simpa using hi, hb, fun j c hj hc => hall (j + 1) c (by omega) (by simpa using hc)⟩

/-- C302: the prompt for a folder lets the save go on exactly if the first yes or no is a yes -/
theorem promptMulti_exact (answers : List String) : promptMulti answers = .go ↔ SaysYes answers := by
  unfold SaysYes
  induction answers with
  | nil => simp [promptMulti]
  | cons a as ih =>
    unfold promptMulti
    have h1 : ["Y", "y"].contains a = true ↔ Yes a := by simp [Yes, or_comm]
    have h2 : ["N", "n"].contains a = true ↔ No a := by simp [No, or_comm]
    by_cases hy : Yes a
    · rw [if_pos (h1.2 hy)]
      simp only [true_iff]
      exact ⟨0, a, rfl, hy, fun j b hj => absurd hj (Nat.not_lt_zero j)⟩
    · rw [if_neg (fun h => hy (h1.1 h))]
      by_cases hn : No a
      · rw [if_pos (h2.2 hn)]
        simp only [reduceCtorEq, false_iff]
        rintro ⟨i, b, hi, hb, hall⟩
        cases i with
        | zero =>
          obtain rfl : a = b := by simpa using hi
          exact hy hb
        | succ i => exact (hall 0 a (Nat.succ_pos i) rfl).2 hn
      · rw [if_neg (fun h => hn (h2.1 h)), ih]
        constructor
        · rintro ⟨i, b, hi, hb, hall⟩
          refine ⟨i + 1, b, by simpa using hi, hb, ?_⟩
          intro j c hj hc
          cases j with
          | zero =>
            obtain rfl : a = c := by simpa using hc
            exact ⟨hy, hn⟩
          | succ j => exact hall j c (by omega) (by simpa using hc)
        · rintro ⟨i, b, hi, hb, hall⟩
          cases i with
          | zero =>
            obtain rfl : a = b := by simpa using hi
            exact absurd hb hy
          | succ i =>
            exact ⟨i, b, by simpa using hi, hb, fun j c hj hc => hall (j + 1) c (by omega) (by simpa using hc)⟩

/-- C302: a folder that exists is written to without `overwrite` exactly if the user says yes; otherwise nothing is written -/
theorem folder_exact (fs : FS) (path : List Char) (answers : List String) :
    ((∃ p, saveFolder fs path false false answers = .wrote p) ↔
      ((fs.file path = false ∧ fs.dir path = false) ∨ SaysYes answers)) ∧
    (∀ p, saveFolder fs path false false answers = .wrote p → p = path) := by
  unfold saveFolder finish pathMulti
  rw [← promptMulti_exact]
  cases fs.file path <;> cases fs.dir path <;> cases promptMulti answers <;> simp

/-- C302: with `overwrite` a folder is written to without a question -/
theorem folder_overwrite (fs : FS) (path : List Char) (share : Bool) (answers : List String) :
    saveFolder fs path share true answers = .wrote path := by
  unfold saveFolder finish pathMulti
  cases share <;> cases fs.file path <;> cases fs.dir path <;> rfl

example : SaysYes ["what", "y"] := ⟨1, "y", rfl, .inl rfl, fun j b hj hb => by
  obtain rfl : j = 0 := by omega
  obtain rfl : "what" = b := by simpa using hb
  simp [Yes, No]⟩

/-! ## paths -/

/-- a path that does not end in "/" and has the extension in lower case, if at all -/
def Plain (p : List Char) : Prop := p.getLast? ≠ some '/' ∧ (endsLower p = true → ext <:+ p)

theorem endsLower_of_ext {p : List Char} (h : ext <:+ p) : endsLower p = true := by
  unfold endsLower
  rw [List.isSuffixOf_iff_suffix]
  have := h.map Char.toLower
  exact this

theorem suffix_base {s q : List Char} (hs : ∀ c ∈ s, c ≠ '/') (hq : q.getLast? ≠ some '/') (h : s <:+ q) :
    s <:+ baseName q := by
  unfold baseName
  rw [← List.reverse_prefix, List.reverse_reverse]
  have hd : q.reverse.dropWhile (· == '/') = q.reverse := by
    cases hr : q.reverse with
    | nil => rfl
    | cons c r =>
      rw [List.dropWhile_cons_of_neg]
      intro hc
      have hc' : c = '/' := by simpa using hc
      refine hq ?_
      rw [← List.head?_reverse, hr, hc']
      rfl
  rw [hd]
  obtain ⟨t, ht⟩ := h
  rw [← ht, List.reverse_append]
  rw [List.takeWhile_append_of_pos]
  · exact List.prefix_append _ _
  · intro c hc
    simpa using hs c (List.mem_reverse.1 hc)

theorem base_suffix (q : List Char) (hq : q.getLast? ≠ some '/') : baseName q <:+ q := by
  unfold baseName
  rw [← List.reverse_prefix, List.reverse_reverse]
  have hd : q.reverse.dropWhile (· == '/') = q.reverse := by
    cases hr : q.reverse with
    | nil => rfl
    | cons c r =>
      rw [List.dropWhile_cons_of_neg]
      intro hc
      have hc' : c = '/' := by simpa using hc
      refine hq ?_
      rw [← List.head?_reverse, hr, hc']
      rfl
  rw [hd]
  exact List.takeWhile_prefix _

theorem plain_base {p : List Char} (h : Plain p) : endsLower (baseName p) = ext.isSuffixOf p := by
  rw [Bool.eq_iff_iff, List.isSuffixOf_iff_suffix]
  constructor
  · intro he
    refine h.2 ?_
    unfold endsLower at he ⊢
    rw [List.isSuffixOf_iff_suffix] at he ⊢
    exact he.trans ((base_suffix p h.1).map Char.toLower)
  · intro he
    exact endsLower_of_ext (suffix_base (by decide) h.1 he)

theorem checked_none {p : List Char} (h : Plain p) : checkedPath p none = addExt p := by
  unfold checkedPath addExt
  rw [plain_base h]

theorem nestedName_id {n : List Char} (h : '/' ∉ n) : nestedName n = n := by
  unfold nestedName
  refine (List.map_congr_left (g := id) ?_).trans (List.map_id n)
  intro c hc
  rw [if_neg]
  · rfl
  · rintro rfl; exact h hc

theorem suffix_append_of {s p n : List Char} (hs : s <:+ p ++ '/' :: n) (hc : '/' ∉ s) : s <:+ n := by
  rcases List.suffix_or_suffix_of_suffix hs (List.suffix_append p ('/' :: n)) with h | h
  · rcases List.suffix_cons_iff.1 h with h | h
    · exact absurd (by rw [h]; simp) hc
    · exact h
  · exact absurd (h.subset (by simp)) hc

theorem checked_name {p n : List Char} (hn : Plain n) (hs : '/' ∉ n) : checkedPath p (some n) = addExt (p ++ '/' :: n) := by
  unfold checkedPath addExt
  dsimp only
  rw [nestedName_id hs]
  have : endsLower n = ext.isSuffixOf (p ++ '/' :: n) := by
    rw [Bool.eq_iff_iff, List.isSuffixOf_iff_suffix]
    constructor
    · intro h
      exact (hn.2 h).trans ((List.suffix_cons '/' n).trans (List.suffix_append p _))
    · intro h
      exact endsLower_of_ext (suffix_append_of h (by decide))
  rw [this]

theorem addExt_belongs (p : List Char) : Belongs p (addExt p) := by
  unfold addExt
  by_cases h : ext <:+ p
  · rw [if_pos (List.isSuffixOf_iff_suffix.2 h)]
    exact .there h
  · rw [if_neg (fun h' => h (List.isSuffixOf_iff_suffix.1 h'))]
    exact .added h

theorem ext_last {p : List Char} (h : ext <:+ p) : p.getLast? ≠ some '/' := by
  obtain ⟨t, rfl⟩ := h
  rw [List.getLast?_append_of_ne_nil _ (by decide)]
  decide

theorem addExt_checked (p : List Char) : addExt (checkedPath p none) = addExt p := by
  unfold checkedPath
  by_cases h : endsLower (baseName p) = true
  · rw [if_pos h]
  · rw [if_neg h]
    have hp : ¬ ext <:+ p := fun he => h (endsLower_of_ext (suffix_base (by decide) (ext_last he) he))
    unfold addExt
    rw [if_pos (List.isSuffixOf_iff_suffix.2 (List.suffix_append p ext)),
      if_neg (fun h' => hp (List.isSuffixOf_iff_suffix.1 h'))]

theorem finish_wrote {a : Option Ask} {w : Option (List Char)} {p : List Char} (h : finish a w = .wrote p) :
    a = some .go ∧ w = some p := by
  unfold finish at h
  split at h
  · cases h
  · cases h
  · cases h
  · split at h
    · cases h
    · cases h; exact ⟨rfl, rfl⟩

/-- C303: without `name`, a Dataset, an array and a Struct without nested containers are written to the same file: the path
with the extension added unless it is there -/
theorem file_exact (fs : FS) (path : List Char) (share overwrite append : Bool) (answers : List String) (p : List Char) :
    (saveDataset fs path none share overwrite append answers = .wrote p → Belongs path p) ∧
    (saveArray fs path none share overwrite answers = .wrote p → Belongs path p) ∧
    (∀ name, saveStruct fs path name share overwrite answers = .wrote p → Belongs path p) := by
  refine ⟨fun h => ?_, fun h => ?_, fun name h => ?_⟩
  · have := (finish_wrote h).2
    simp only [writtenDs, Option.some.injEq] at this
    exact this ▸ addExt_belongs path
  · have := (finish_wrote h).2
    rw [addExt_checked, Option.some.injEq] at this
    exact this ▸ addExt_belongs path
  · have := (finish_wrote h).2
    rw [addExt_checked, Option.some.injEq] at this
    exact this ▸ addExt_belongs path

private def fsOf (files dirs : List (List Char)) : FS := ⟨fun p => files.contains p, fun p => dirs.contains p⟩

example : saveDataset (fsOf [] []) "a/b".toList none false true false [] = .wrote "a/b.sds".toList := by decide +kernel

/-- with `name`, a Dataset is written to a file of that name in the folder; (missing: Structs, see `struct_counterexample`,
and arrays whose name has a "/") -/
theorem named_partial (fs : FS) (path name : List Char) (share overwrite append : Bool) (answers : List String) (p : List Char) :
    (saveDataset fs path (some name) share overwrite append answers = .wrote p → Belongs (path ++ '/' :: name) p) ∧
    (Plain name → '/' ∉ name → saveArray fs path (some name) share overwrite answers = .wrote p →
      Belongs (path ++ '/' :: name) p) := by
  refine ⟨fun h => ?_, fun hp hs h => ?_⟩
  · have := (finish_wrote h).2
    simp only [writtenDs] at this
    split at this
    · cases this
    · rw [Option.some.injEq] at this
      exact this ▸ addExt_belongs _
  · have := (finish_wrote h).2
    rw [checked_name hp hs, Option.some.injEq] at this
    have hb := addExt_belongs (path ++ '/' :: name)
    have he : addExt (addExt (path ++ '/' :: name)) = addExt (path ++ '/' :: name) := by
      generalize path ++ '/' :: name = q
      unfold addExt
      by_cases h : ext <:+ q
      · rw [if_pos (List.isSuffixOf_iff_suffix.2 h), if_pos (List.isSuffixOf_iff_suffix.2 h)]
      · rw [if_neg (c := ext.isSuffixOf q = true) (fun h' => h (List.isSuffixOf_iff_suffix.1 h')),
          if_pos (List.isSuffixOf_iff_suffix.2 (List.suffix_append q ext))]
    rw [he] at this
    exact this ▸ hb

example : Plain "my ds".toList ∧ '/' ∉ "my ds".toList := ⟨⟨by decide, by decide⟩, by decide⟩

/-- C303: a Struct without nested containers is not written to the named file of the folder but to the path itself -/
theorem struct_counterexample :
    ∃ (fs : FS) (path name p : List Char), saveStruct fs path (some name) false true [] = .wrote p ∧
      ¬ Belongs (path ++ '/' :: name) p := by
  refine ⟨fsOf [] [], "dir".toList, "st".toList, "dir.sds".toList, by decide +kernel, ?_⟩
  intro h
  generalize hx : "dir.sds".toList = x at h
  cases h with
  | added _ => revert hx; decide
  | there _ => revert hx; decide

/-- C301, partial: with `overwrite=False` a file that exists is replaced only after a yes; for paths without a trailing "/"
and with the extension in lower case, names without "/", and users who do not type an empty line, "Yy" or "Nn".  (Missing: the other cases,
see the counterexamples.) -/
theorem asks_partial (fs : FS) (path : List Char) (name : Option (List Char)) (answers : List String) (p : List Char)
    (hp : name = none → Plain path) (hn : ∀ n, name = some n → Plain n ∧ '/' ∉ n)
    (ha : ∀ a ∈ answers, a ≠ "" ∧ a ≠ "Yy" ∧ a ≠ "Nn") (hf : fs.file p = true)
    (h : saveDataset fs path name false false false answers = .wrote p ∨
      saveArray fs path name false false answers = .wrote p) : SaysYes answers := by
  have hc : checkedPath path name = p := by
    rcases h with h | h
    · have := (finish_wrote h).2
      cases name with
      | none =>
        rw [checked_none (hp rfl)]
        simpa [writtenDs] using this
      | some n =>
        rw [checked_name (hn n rfl).1 (hn n rfl).2]
        simp only [writtenDs] at this
        split at this
        · cases this
        · exact Option.some.inj this
    · have := (finish_wrote h).2
      have hi : ∀ q, addExt (addExt q) = addExt q := by
        intro q
        unfold addExt
        by_cases h : ext <:+ q
        · rw [if_pos (List.isSuffixOf_iff_suffix.2 h), if_pos (List.isSuffixOf_iff_suffix.2 h)]
        · rw [if_neg (c := ext.isSuffixOf q = true) (fun h' => h (List.isSuffixOf_iff_suffix.1 h')),
            if_pos (List.isSuffixOf_iff_suffix.2 (List.suffix_append q ext))]
      cases name with
      | none =>
        rw [checked_none (hp rfl), hi] at this
        rw [checked_none (hp rfl)]
        exact Option.some.inj this
      | some n =>
        rw [checked_name (hn n rfl).1 (hn n rfl).2, hi] at this
        rw [checked_name (hn n rfl).1 (hn n rfl).2]
        exact Option.some.inj this
  have hg : promptSingle answers = .go := by
    rcases h with h | h <;>
    · have := (finish_wrote h).1
      unfold pathSingle at this
      rw [hc, hf] at this
      simpa using this
  obtain ⟨i, a, hi, hy, hall⟩ := (prompt_exact answers).1 hg
  have hm := ha a (List.mem_of_getElem? hi)
  refine ⟨i, a, hi, ?_, ?_⟩
  · rcases hy with h | h | h | h
    · exact absurd h hm.1
    · exact .inr h
    · exact .inl h
    · exact absurd h hm.2.1
  · intro j b hj hb
    obtain ⟨h1, h2⟩ := hall j b hj hb
    exact ⟨fun h => h1 (by rcases h with h | h <;> simp [h]), fun h => h2 (by rcases h with h | h <;> simp [h])⟩

example : saveDataset (fsOf ["a.sds".toList] []) "a".toList none false false false ["what", "y"] = .wrote "a.sds".toList ∧
    Plain "a".toList := ⟨by decide +kernel, by decide, by decide⟩

/-- C301: an empty line at the prompt replaces the file -/
theorem enter_counterexample :
    saveDataset (fsOf ["a.sds".toList] []) "a".toList none false false false [""] = .wrote "a.sds".toList ∧
    (fsOf ["a.sds".toList] []).file "a.sds".toList = true ∧ ¬ SaysYes [""] := by
  refine ⟨by decide +kernel, by decide, ?_⟩
  rintro ⟨i, a, hi, hy, -⟩
  cases i with
  | zero =>
    obtain rfl : "" = a := by simpa using hi
    rcases hy with h | h <;> exact absurd h (by decide)
  | succ i => simp at hi

/-- C301: a name with "/": the file that is looked for is not the file that is written, and no question is asked -/
theorem slash_counterexample :
    saveDataset (fsOf ["d/a/b.sds".toList] []) "d".toList (some "a/b".toList) false false false [] = .wrote "d/a/b.sds".toList ∧
    (fsOf ["d/a/b.sds".toList] []).file "d/a/b.sds".toList = true := by
  refine ⟨by decide +kernel, by decide⟩

/-- C301: an extension in upper case: likewise -/
theorem upper_counterexample :
    saveDataset (fsOf ["a.SDS.sds".toList] []) "a.SDS".toList none false false false [] = .wrote "a.SDS.sds".toList ∧
    (fsOf ["a.SDS.sds".toList] []).file "a.SDS.sds".toList = true := by
  refine ⟨by decide +kernel, by decide⟩

/-- C301: after a no nothing is written, and a folder of that name is never replaced -/
theorem stop_exact (fs : FS) (path : List Char) (name : Option (List Char)) (answers : List String) :
    (fs.file (checkedPath path name) = true → promptSingle answers = .stop →
      saveDataset fs path name false false false answers = .nothing ∧ saveArray fs path name false false answers = .nothing) ∧
    (∀ overwrite append, fs.file (checkedPath path name) = false → fs.dir (checkedPath path name) = true →
      saveDataset fs path name false overwrite append answers = .raised ∧
      saveArray fs path name false overwrite answers = .raised) := by
  refine ⟨fun h1 h2 => ?_, fun o a h1 h2 => ?_⟩
  · simp [saveDataset, saveArray, pathSingle, h1, h2, finish]
  · simp [saveDataset, saveArray, pathSingle, h1, h2, finish]

example : promptSingle ["what", "n", "y"] = .stop := by decide +kernel

end Verif.SdsPath
