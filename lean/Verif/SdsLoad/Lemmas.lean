import Verif.SdsLoad.Model
import Verif.Items.Dict
namespace Verif.SdsLoad
open Verif.Items Spec

theorem ext_eq : ".sds".toList = ext := rfl

theorem hasExt_iff (p : Path) : hasExt p = true ↔ HasExt p := by
  unfold hasExt HasExt
  rw [List.isSuffixOf_iff_suffix, ext_eq]
  constructor
  · rintro ⟨t, ht⟩
    have hl : (p.map Char.toLower).length = t.length + 4 := by rw [← ht]; simp [ext]
    rw [List.length_map] at hl
    refine ⟨p.take t.length, p.drop t.length, (List.take_append_drop _ _).symm, ?_⟩
    rw [List.map_drop, ← ht, List.drop_left]
  · rintro ⟨stem, e, rfl, he⟩
    exact ⟨stem.map Char.toLower, by rw [List.map_append, he]⟩

theorem ext_length {e : Path} (h : e.map Char.toLower = ".sds".toList) : e.length = 4 := by
  have := congrArg List.length h
  rw [List.length_map] at this
  exact this

theorem strip_append {stem e : Path} (h : e.map Char.toLower = ".sds".toList) : strip (stem ++ e) = stem := by
  unfold strip
  rw [List.length_append, ext_length h, Nat.add_sub_cancel, List.take_left]

theorem lower_ext : ext.map Char.toLower = ".sds".toList := by decide

theorem hasExt_append (p : Path) : hasExt (p ++ ext) = true := (hasExt_iff _).mpr ⟨p, ext, rfl, lower_ext⟩

theorem hasExt_false (p : Path) : hasExt p = false ↔ ¬ HasExt p := by rw [← hasExt_iff]; simp

theorem fileOf_iff (p f : Path) : FileOf p f ↔ f = withExt p := by
  unfold FileOf withExt
  by_cases h : hasExt p = true
  · have h' := (hasExt_iff p).mp h
    simp [h, h']
  · have h' := (hasExt_false p).mp (by simpa using h)
    simp [h, h', ext_eq]

theorem nameOf_iff (inc n : Path) : NameOf inc n ↔ n = strip (withExt inc) := by
  unfold NameOf withExt
  by_cases h : hasExt inc = true
  · have h' := (hasExt_iff inc).mp h
    rw [if_pos h]
    constructor
    · rintro (⟨e, rfl, he⟩ | ⟨hn, _⟩)
      · exact (strip_append he).symm
      · exact absurd h' hn
    · intro hn
      obtain ⟨stem, e, rfl, he⟩ := h'
      rw [strip_append he] at hn
      subst hn
      exact Or.inl ⟨e, rfl, he⟩
  · have h' := (hasExt_false inc).mp (by simpa using h)
    rw [if_neg h, strip_append lower_ext]
    constructor
    · rintro (⟨e, rfl, he⟩ | ⟨_, hn⟩)
      · exact absurd ⟨n, e, rfl, he⟩ h'
      · exact hn.symm
    · intro hn
      exact Or.inr ⟨h', hn.symm⟩

theorem candidates_ext {p : Path} (h : hasExt p = true) (l : List Thing) :
    Candidates p l ↔ l = [.file p, .folder p, .folder (strip p)] := by
  unfold Candidates
  have h' := (hasExt_iff p).mp h
  constructor
  · rintro (⟨stem, e, rfl, he, rfl⟩ | ⟨hn, _⟩)
    · rw [strip_append he]
    · exact absurd h' hn
  · intro hl
    obtain ⟨stem, e, rfl, he⟩ := h'
    rw [strip_append he] at hl
    exact Or.inl ⟨stem, e, rfl, he, hl⟩

theorem candidates_no {p : Path} (h : hasExt p = false) (l : List Thing) :
    Candidates p l ↔ l = [.file p, .folder p, .file (p ++ ext)] := by
  unfold Candidates
  have h' := (hasExt_false p).mp h
  constructor
  · rintro (⟨stem, e, rfl, he, rfl⟩ | ⟨_, hl⟩)
    · exact absurd ⟨stem, e, rfl, he⟩ h'
    · exact hl
  · intro hl
    exact Or.inr ⟨h', hl⟩

theorem first_three {d : Disk} (a b c t : Thing) :
    (∃ before after, before ++ t :: after = [a, b, c] ∧ There d t ∧ ∀ u ∈ before, ¬ There d u) ↔
    (There d a ∧ t = a) ∨ (¬ There d a ∧ There d b ∧ t = b) ∨ (¬ There d a ∧ ¬ There d b ∧ There d c ∧ t = c) := by
  constructor
  · rintro ⟨before, after, hl, ht, hb⟩
    match before, hl with
    | [], hl =>
      simp at hl
      exact Or.inl ⟨hl.1 ▸ ht, hl.1⟩
    | [x], hl =>
      simp at hl
      obtain ⟨rfl, rfl, _⟩ := hl
      exact Or.inr (Or.inl ⟨hb _ (by simp), ht, rfl⟩)
    | [x, y], hl =>
      simp at hl
      obtain ⟨rfl, rfl, rfl, _⟩ := hl
      exact Or.inr (Or.inr ⟨hb _ (by simp), hb _ (by simp), ht, rfl⟩)
    | x :: y :: z :: w, hl => simp at hl
  · rintro (⟨h, rfl⟩ | ⟨h1, h, rfl⟩ | ⟨h1, h2, h, rfl⟩)
    · exact ⟨[], [b, c], rfl, h, by simp⟩
    · exact ⟨[a], [c], rfl, h, by simpa using h1⟩
    · exact ⟨[a, b], [], rfl, h, by simpa using ⟨h1, h2⟩⟩

theorem target_iff (d : Disk) (p : Path) (t : Thing) : target d p = some t ↔ StandsFor d p t := by
  unfold StandsFor target
  by_cases hx : hasExt p = true
  · simp only [candidates_ext hx]
    rw [first_three]
    simp only [There, hx, if_true]
    by_cases h1 : d.file p = true
    · simp only [h1, if_true, if_false, Bool.false_eq_true, reduceCtorEq, not_true, not_false_iff, true_and, false_and, or_false, false_or, Option.some.injEq]
      exact eq_comm
    · by_cases h2 : d.folder p = true
      · simp only [h1, h2, if_true, if_false, Bool.false_eq_true, reduceCtorEq, not_true, not_false_iff, true_and, false_and, or_false, false_or, Option.some.injEq]
        exact eq_comm
      · by_cases h3 : d.folder (strip p) = true
        · simp only [h1, h2, h3, if_true, if_false, Bool.false_eq_true, reduceCtorEq, not_true, not_false_iff, true_and, false_and, or_false, false_or, Option.some.injEq]
          exact eq_comm
        · simp [h1, h2, h3]
  · simp only [candidates_no (by simpa using hx)]
    rw [first_three]
    simp only [There, hx]
    by_cases h1 : d.file p = true
    · simp only [h1, if_true, if_false, Bool.false_eq_true, reduceCtorEq, not_true, not_false_iff, true_and, false_and, or_false, false_or, Option.some.injEq]
      exact eq_comm
    · by_cases h2 : d.folder p = true
      · simp only [h1, h2, if_true, if_false, Bool.false_eq_true, reduceCtorEq, not_true, not_false_iff, true_and, false_and, or_false, false_or, Option.some.injEq]
        exact eq_comm
      · by_cases h3 : d.file (p ++ ext) = true
        · simp only [h1, h2, h3, if_true, if_false, Bool.false_eq_true, reduceCtorEq, not_true, not_false_iff, true_and, false_and, or_false, false_or, Option.some.injEq]
          exact eq_comm
        · simp [h1, h2, h3]

/-! ## Lists -/

theorem found_iff (d : Disk) (p : Path) (t : Thing) :
    Found d p t ↔ (d.folder p = true ∧ t = .folder p) ∨ (d.folder p = false ∧ d.file (withExt p) = true ∧ t = .file (withExt p)) := by
  unfold Found
  simp only [fileOf_iff]
  simp

theorem missing_iff (d : Disk) (p : Path) : Missing d p ↔ d.folder p = false ∧ d.file (withExt p) = false := by
  unfold Missing
  simp only [found_iff]
  constructor
  · intro h
    have h1 : d.folder p = false := by
      cases hp : d.folder p
      · rfl
      · exact absurd (Or.inl ⟨hp, rfl⟩) (h _)
    refine ⟨h1, ?_⟩
    cases hp : d.file (withExt p)
    · rfl
    · exact absurd (Or.inr ⟨h1, hp, rfl⟩) (h _)
  · rintro ⟨h1, h2⟩ t
    simp [h1, h2]

/-- the things found for the paths of a list -/
def things (d : Disk) : List Path → List Thing
  | [] => []
  | p :: ps =>
    if d.folder p then .folder p :: things d ps
    else if d.file (withExt p) then .file (withExt p) :: things d ps
    else things d ps

def placeOf : Thing → Option Path
  | .file _ => none
  | .folder p => some p

def fileOf : Thing → Option Path
  | .file p => some p
  | .folder _ => none

theorem dirsFiles_some (d : Disk) (m : Bool) (ps : List Path) (h : m = true → ∀ p ∈ ps, ¬ Missing d p) :
    dirsFiles d m ps = some ⟨(things d ps).map placeOf, (things d ps).filterMap fileOf⟩ := by
  induction ps with
  | nil => rfl
  | cons p ps ih =>
    have ih' := ih fun hm q hq => h hm q (List.mem_cons_of_mem _ hq)
    unfold dirsFiles things
    by_cases h1 : d.folder p = true
    · simp [h1, ih', placeOf, List.filterMap_cons, fileOf]
    · by_cases h2 : d.file (withExt p) = true
      · simp [h1, h2, ih', placeOf, List.filterMap_cons, fileOf]
      · have hm : ¬ m = true := fun hm => h hm p (by simp) ((missing_iff d p).mpr ⟨by simpa using h1, by simpa using h2⟩)
        rw [if_neg h1, if_neg h2, if_neg hm, ih', if_neg h1, if_neg h2]

theorem dirsFiles_none (d : Disk) (ps : List Path) (p : Path) (hp : p ∈ ps) (h : Missing d p) : dirsFiles d true ps = none := by
  induction ps with
  | nil => simp at hp
  | cons q ps ih =>
    unfold dirsFiles
    rcases List.mem_cons.mp hp with rfl | hp
    · obtain ⟨h1, h2⟩ := (missing_iff d p).mp h
      simp [h1, h2]
    · rw [ih hp]
      simp

/-- the things found, one after the other, are those of the paths that are not missing -/
theorem things_spec (d : Disk) [DecidablePred (Missing d)] (ps : List Path) :
    List.Forall₂ (Found d) (ps.filter fun p => ¬ Missing d p) (things d ps) := by
  induction ps with
  | nil => exact .nil
  | cons p ps ih =>
    unfold things
    by_cases h1 : d.folder p = true
    · have hm : ¬ Missing d p := by rw [missing_iff]; simp [h1]
      rw [if_pos h1, List.filter_cons, if_pos (by simpa using hm)]
      exact .cons ((found_iff d p _).mpr (Or.inl ⟨h1, rfl⟩)) ih
    · rw [if_neg h1]
      by_cases h2 : d.file (withExt p) = true
      · have hm : ¬ Missing d p := by rw [missing_iff]; simp [h2]
        rw [if_pos h2, List.filter_cons, if_pos (by simpa using hm)]
        exact .cons ((found_iff d p _).mpr (Or.inr ⟨by simpa using h1, h2, rfl⟩)) ih
      · have hm : Missing d p := (missing_iff d p).mpr ⟨by simpa using h1, by simpa using h2⟩
        rw [if_neg h2, List.filter_cons, if_neg (by simpa using hm)]
        exact ih

theorem things_unique (d : Disk) {ps : List Path} {ts us : List Thing} (h : List.Forall₂ (Found d) ps ts)
    (h' : List.Forall₂ (Found d) ps us) : ts = us := by
  induction h generalizing us with
  | nil => cases h'; rfl
  | cons hx _ ih =>
    cases h' with
    | cons hy h'' =>
      congr 1
      · rw [found_iff] at hx hy
        rcases hx with ⟨a, rfl⟩ | ⟨a, _, rfl⟩ <;> rcases hy with ⟨b, rfl⟩ | ⟨b, _, rfl⟩ <;> simp_all
      · exact ih h''

theorem fillPlaces_spec {R : Type} (readDir : Option (List Path) → Path → Option R) (readFile : Path → R) (ts : List Thing) (rs : List R) :
    fillPlaces readDir (ts.map placeOf) ((ts.filterMap fileOf).map readFile) = some rs ↔
      List.Forall₂ (fun t r => match t with
        | .file p => r = readFile p
        | .folder p => readDir none p = some r) ts rs := by
  induction ts generalizing rs with
  | nil => simp [fillPlaces, eq_comm]
  | cons t ts ih =>
    have ih' := ih
    cases t with
    | file p =>
      simp only [List.map_cons, placeOf, List.filterMap_cons, fileOf, fillPlaces, Option.map_eq_some_iff, ih']
      constructor
      · rintro ⟨r, hr, rfl⟩
        exact .cons rfl hr
      · intro h
        cases h with
        | cons h1 h2 => exact ⟨_, h2, by rw [h1]⟩
    | folder p =>
      simp only [List.map_cons, placeOf, List.filterMap_cons, fileOf, fillPlaces, Option.bind_eq_some_iff, Option.map_eq_some_iff, ih']
      constructor
      · rintro ⟨r, hr, rs', hrs, rfl⟩
        exact .cons hr hrs
      · intro h
        cases h with
        | cons h1 h2 => exact ⟨_, h1, _, h2, rfl⟩

/-! ## Dictionaries of files -/

theorem addFile_get (dct : Dict Path (List Path)) (n f n' : Path) :
    (addFile dct n f).get n' = if n' = n then some ((dct.get n).getD [] ++ [f]) else dct.get n' := by
  unfold addFile
  rw [Dict.get_set]

theorem incs_get (path : Path) (incs : List Path) (dct : Dict Path (List Path)) (n : Path) :
    (incs.foldl (addInc path) dct).get n =
      if (incs.filter fun i => strip (withExt i) = n) = [] then dct.get n
      else some ((dct.get n).getD [] ++ (incs.filter fun i => strip (withExt i) = n).map fun i => path ++ '/' :: withExt i) := by
  induction incs generalizing dct with
  | nil => simp
  | cons i incs ih =>
    rw [List.foldl_cons, ih]
    unfold addInc
    rw [addFile_get, List.filter_cons]
    by_cases h : strip (withExt i) = n
    · subst h
      simp only [decide_true, if_true, Option.getD_some, List.map_cons, reduceCtorEq, if_false]
      split
      · rename_i he
        rw [he]
        rfl
      · rw [List.append_assoc]
        rfl
    · have hd : decide (strip (withExt i) = n) = false := by simpa using h
      have hn : ¬ n = strip (withExt i) := fun h' => h h'.symm
      simp only [hd, Bool.false_eq_true, if_false, if_neg hn]

theorem dirs_get (dirs incs : List Path) (dct : Dict Path (List Path)) (n : Path) :
    (dirs.foldl (fun dct path => incs.foldl (addInc path) dct) dct).get n =
      if (incs.filter fun i => strip (withExt i) = n) = [] ∨ dirs = [] then dct.get n
      else some ((dct.get n).getD [] ++
        dirs.flatMap fun path => (incs.filter fun i => strip (withExt i) = n).map fun i => path ++ '/' :: withExt i) := by
  induction dirs generalizing dct with
  | nil => simp
  | cons p dirs ih =>
    rw [List.foldl_cons, ih, incs_get]
    by_cases h : (incs.filter fun i => strip (withExt i) = n) = []
    · rw [if_pos h, if_pos (Or.inl h), if_pos (Or.inl h)]
    · rw [if_neg h]
      have h2 : ¬ ((incs.filter fun i => strip (withExt i) = n) = [] ∨ p :: dirs = []) := by
        rintro (h' | h')
        · exact h h'
        · simp at h'
      rw [if_neg h2]
      by_cases hd : dirs = []
      · rw [if_pos (Or.inr hd)]
        subst hd
        simp
      · have h3 : ¬ ((incs.filter fun i => strip (withExt i) = n) = [] ∨ dirs = []) := by
          rintro (h' | h')
          · exact h h'
          · exact hd h'
        rw [if_neg h3, List.flatMap_cons, Option.getD_some, List.append_assoc]

theorem nodup_incs (path : Path) (incs : List Path) (dct : Dict Path (List Path)) (h : dct.keys.Nodup) :
    (incs.foldl (addInc path) dct).keys.Nodup := by
  induction incs generalizing dct with
  | nil => exact h
  | cons i incs ih => exact ih _ (Dict.nodup_set h _ _)

theorem nodup_dirs (dirs incs : List Path) (dct : Dict Path (List Path)) (h : dct.keys.Nodup) :
    (dirs.foldl (fun dct path => incs.foldl (addInc path) dct) dct).keys.Nodup := by
  induction dirs generalizing dct with
  | nil => exact h
  | cons p dirs ih => exact ih _ (nodup_incs _ _ _ h)

theorem get_mapSnd {V W : Type} (d : Dict Path V) (f : V → W) (n : Path) :
    Dict.get (κ := Path) (d.map fun e => (e.1, f e.2)) n = (d.get n).map f := by
  induction d with
  | nil => rfl
  | cons e d ih =>
    rw [List.map_cons, Dict.get_cons, Dict.get_cons, ih]
    by_cases h : e.1 = n
    · simp [h]
    · simp [h]

theorem folders_get (g : Path → Call) (l : List Path) (dct : Dict Path Call) (n : Path)
    (hg : ∀ f ∈ l, ∀ f' ∈ l, f.take (f.length - 1) = f'.take (f'.length - 1) → g f = g f') :
    (∀ f ∈ l, f.take (f.length - 1) = n → (l.foldl (fun dct f => dct.set (f.take (f.length - 1)) (g f)) dct).get n = some (g f)) ∧
    ((∀ f ∈ l, f.take (f.length - 1) ≠ n) → (l.foldl (fun dct f => dct.set (f.take (f.length - 1)) (g f)) dct).get n = dct.get n) := by
  induction l generalizing dct with
  | nil => simp
  | cons a l ih =>
    have ih' := ih (dct.set (a.take (a.length - 1)) (g a)) fun f hf f' hf' => hg f (List.mem_cons_of_mem _ hf) f' (List.mem_cons_of_mem _ hf')
    constructor
    · intro f hf hn
      rw [List.foldl_cons]
      by_cases hex : ∃ f' ∈ l, f'.take (f'.length - 1) = n
      · obtain ⟨f', hf', hn'⟩ := hex
        rw [ih'.1 f' hf' hn', hg f hf f' (List.mem_cons_of_mem _ hf') (hn.trans hn'.symm)]
      · have hfa : f = a := by
          rcases List.mem_cons.mp hf with h | h
          · exact h
          · exact absurd ⟨f, h, hn⟩ hex
        subst hfa
        rw [ih'.2 (fun f' hf' hn' => hex ⟨f', hf', hn'⟩), Dict.get_set, if_pos hn.symm]
    · intro hno
      rw [List.foldl_cons, ih'.2 (fun f hf => hno f (List.mem_cons_of_mem _ hf)), Dict.get_set,
        if_neg (fun h => hno a (by simp) h.symm)]

theorem withSlash_spec (f : Path) : ∃ n, withSlash f = n ++ ['/'] ∧ (f = n ∨ f = n ++ ['/']) ∧ (f = n → ∀ m, f ≠ m ++ ['/']) := by
  unfold withSlash
  by_cases h : ['/'].isSuffixOf f = true
  · rw [if_pos h]
    rw [List.isSuffixOf_iff_suffix] at h
    obtain ⟨t, rfl⟩ := h
    exact ⟨t, rfl, Or.inr rfl, fun h => absurd (congrArg List.length h) (by simp)⟩
  · rw [if_neg h]
    refine ⟨f, rfl, Or.inl rfl, fun _ m hm => h ?_⟩
    rw [List.isSuffixOf_iff_suffix]
    exact ⟨m, hm.symm⟩

theorem take_slash (n : Path) : (n ++ ['/']).take ((n ++ ['/']).length - 1) = n := by
  simp
end Verif.SdsLoad
