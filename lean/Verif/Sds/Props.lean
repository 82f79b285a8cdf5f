import Verif.Sds.Undo
import Verif.Sds.DirLoad

/-!
# Theorems: saving and loading containers
-/
namespace Verif.Sds
open Verif.Items (Dict Name)
open Verif.Items.Dict

variable {A S X M : Type}

/-! ## A library that meets the assumptions -/

/-- arrays for the examples: numbers, a scalar, a text -/
inductive Arr where
  | num (n : Nat)
  | one (n : Nat)
  | text (d : Dict Name (Info ⊕ Nat))
  deriving DecidableEq, Repr

/-- a special array made of a number and one category -/
def refLib : Lib Arr Nat (Nat × Nat) Nat where
  one := .one
  first
    | .one s => s
    | _ => 0
  base x := .num x.1
  cols x := [("col_0".toList, .num x.2)]
  info _ := 7
  load
    | .num a, [.num c], 7 => some (a, c)
    | _, _, _ => none
  enc := .text
  dec
    | .text d => some d
    | _ => none

theorem refLib_ok : LibOK refLib :=
  ⟨fun _ => rfl, fun _ => rfl, fun _ => by simp [refLib], fun _ => rfl⟩

/-! ## One container in one file -/

/-- A container saved to a file comes back with its class, labels and sort columns and with
all its items, arrays, scalars and special arrays, under their names and in their order, and
with the places of the containers inside it. -/
theorem file_roundtrip (L : Lib A S X M) (hL : LibOK L) (i : Info) (b : Box A S X)
    (hn : b.names.Nodup) (hs : ∀ n x, (n, some (.spec x)) ∈ b.level → '!' ∉ n) :
    loadFile L (buildFile L i b) = some (i, b.level) :=
  loadFile_buildFile L hL i b hn fun p hp => hs p.1 p.2 ((specials_level b p.1 p.2).1 hp)

/-- a Dataset with a plain column, two Categoricals with one name a prefix of the other, and a scalar -/
def exFile : Box Arr Nat (Nat × Nat) :=
  .leaf "k!".toList (.arr (.num 1)) (.leaf "c".toList (.spec (2, 3)) (.leaf "cc".toList (.spec (4, 5))
    (.leaf "s".toList (.sc 6) .nil)))

example : loadFile refLib (buildFile refLib ⟨true, ["c".toList], none⟩ exFile)
    = some (⟨true, ["c".toList], none⟩, exFile.level) :=
  file_roundtrip refLib refLib_ok _ _ (by decide) (by
    intro n x h
    have h : n = "c".toList ∨ n = "cc".toList := by
      simp only [exFile, Box.level, List.mem_cons, Prod.mk.injEq, Option.some.injEq, reduceCtorEq, and_false,
        List.not_mem_nil, or_false, false_or] at h
      exact h.imp And.left And.left
    rcases h with rfl | rfl <;> decide)

/-- A special array whose name has a `!` makes a saved container unreadable: its extra
arrays are filed under the part of the name before the `!`. -/
theorem file_special_counterexample : ∃ b : Box Arr Nat (Nat × Nat), b.names.Nodup ∧
    loadFile refLib (buildFile refLib ⟨true, [], none⟩ b) = none :=
  ⟨.leaf "a!b".toList (.spec (1, 2)) .nil, by decide, by decide +kernel⟩

/-! ## A nested container in one file -/

/-- Saving a nested container to one file and loading it gives the same container: the same
names in the same order at every depth, the same arrays, scalars and special arrays, and the
same classes and labels.  Only what it is sorted by is lost. -/
theorem onefile_roundtrip (L : Lib A S X M) (hL : LibOK L) (i : Info) (b : Box A S X)
    (h : FlatNames b) (h1 : ¬ b.LeafNamed "metastring".toList) (h2 : ¬ b.LeafNamed "arrayflags".toList) :
    loadOne L (saveOne L i b) = some ({ i with sort := none }, b.unsorted) := by
  have hflat := flatInto_eq L hL b h ⟨[], [], []⟩ (by simp [keys]) (by simp [keys])
  simp only [List.nil_append] at hflat
  have key : ∀ (c : Box A S X), FlatNames c → ∀ (e : Entry A), e ∈ ents L [] c → '/' ∉ e.1 → '!' ∉ e.1 →
      c.LeafNamed e.1 := by
    intro c
    induction c with
    | nil => intro _ e he; simp [ents] at he
    | leaf n l rest ih =>
      intro hc e he hs hb
      simp only [ents, List.nil_append, List.mem_append] at he
      rcases he with he | he
      · have : e.1 = n := by
          cases l with
          | arr a => simp only [leafEnts, List.mem_singleton] at he; rw [he]
          | sc s => simp only [leafEnts, List.mem_singleton] at he; rw [he]
          | spec x =>
            simp only [leafEnts, List.mem_cons, List.mem_map] at he
            rcases he with rfl | ⟨c, _, rfl⟩
            · rfl
            · exact absurd (by simp) hb
        rw [this]
        exact ⟨l, by simp [Box.level]⟩
      · obtain ⟨l', hl'⟩ := ih hc.2.2.2 e he hs hb
        exact ⟨l', List.mem_cons_of_mem _ hl'⟩
    | nest n j c rest _ ih =>
      intro hc e he hs hb
      simp only [ents, List.nil_append, List.mem_cons, List.mem_append] at he
      rcases he with rfl | he | he
      · exact absurd (by simp) hs
      · rw [ents_eq, List.mem_map] at he
        obtain ⟨e', _, rfl⟩ := he
        exact absurd (by simp [epre]) hs
      · obtain ⟨l', hl'⟩ := ih hc.2.2.2 e he hs hb
        exact ⟨l', List.mem_cons_of_mem _ hl'⟩
  have hfil : (toDict (ents L [] b)).filter
      (fun p => p.1 ≠ "arrayflags".toList && p.1 ≠ "metastring".toList) = toDict (ents L [] b) := by
    rw [List.filter_eq_self]
    intro p hp
    obtain ⟨e, he, rfl⟩ := List.mem_map.1 hp
    have n1 : e.1 ≠ "arrayflags".toList := fun hh => h2 (hh ▸ key b h e he (hh ▸ by decide) (hh ▸ by decide))
    have n2 : e.1 ≠ "metastring".toList := fun hh => h1 (hh ▸ key b h e he (hh ▸ by decide) (hh ▸ by decide))
    simp only [n1, n2, ne_eq, not_false_eq_true, decide_true, Bool.and_self]
  unfold saveOne loadOne
  simp only [hflat, hfil, zipWith_entries, undo_all L hL i b h]
  rfl

/-- nested three deep, with items after the nested ones, names that are prefixes of each
other, an empty container and special arrays -/
def exNest : Box Arr Nat (Nat × Nat) :=
  .nest "a".toList ⟨false, [], none⟩
    (.leaf "x".toList (.spec (1, 2)) (.nest "b".toList ⟨true, ["v".toList], some ["v".toList]⟩
      (.leaf "v".toList (.arr (.num 3)) .nil) (.leaf "y".toList (.sc 4) .nil)))
    (.leaf "ab".toList (.spec (5, 6)) (.nest "e".toList ⟨false, [], none⟩ .nil
      (.leaf "x".toList (.arr (.num 7)) .nil)))

theorem exNest_flat : FlatNames exNest := by
  simp only [exNest, FlatNames, FlatName, Box.names, Box.items]
  simp

example : loadOne refLib (saveOne refLib ⟨false, [], none⟩ exNest) = some (⟨false, [], none⟩, exNest.unsorted) :=
  onefile_roundtrip refLib refLib_ok _ _ exNest_flat
    (by rintro ⟨l, hl⟩; simp [exNest, Box.level] at hl)
    (by rintro ⟨l, hl⟩; simp [exNest, Box.level] at hl)

/-- The columns a Dataset is sorted by are lost. -/
theorem onefile_sort_counterexample : ∃ (i : Info) (b : Box Arr Nat (Nat × Nat)), FlatNames b ∧
    loadOne refLib (saveOne refLib i b) ≠ some (i, b) :=
  ⟨⟨false, [], none⟩, exNest, exNest_flat, by decide +kernel⟩

/-- An item whose name has a `/` can end up in another container. -/
theorem onefile_slash_counterexample : ∃ b : Box Arr Nat (Nat × Nat), b.names.Nodup ∧
    b = .nest "a".toList ⟨false, [], none⟩ .nil (.leaf "a/b".toList (.arr (.num 1)) .nil) ∧
    loadOne refLib (saveOne refLib ⟨false, [], none⟩ b) = some (⟨false, [], none⟩,
      .nest "a".toList ⟨false, [], none⟩ (.leaf "b".toList (.arr (.num 1)) .nil) .nil) :=
  ⟨_, by decide, rfl, by decide +kernel⟩

/-- An item whose name is that of a Categorical and a `!` can make the file unreadable. -/
theorem onefile_bang_counterexample : ∃ b : Box Arr Nat (Nat × Nat), b.names.Nodup ∧
    loadOne refLib (saveOne refLib ⟨false, [], none⟩ b) = none :=
  ⟨.leaf "c".toList (.spec (1, 2)) (.leaf "c!x".toList (.arr (.num 3)) .nil), by decide, by decide +kernel⟩

/-- A Categorical called `_root` makes the file unreadable. -/
theorem onefile_root_counterexample : ∃ b : Box Arr Nat (Nat × Nat), b.names.Nodup ∧
    loadOne refLib (saveOne refLib ⟨false, [], none⟩ b) = none :=
  ⟨.leaf "_root".toList (.spec (1, 2)) .nil, by decide, by decide +kernel⟩

/-- An item called `metastring` is lost, and the item after it is read as what it was: here
an array comes back as a scalar. -/
theorem onefile_metastring_counterexample : ∃ b : Box Arr Nat (Nat × Nat), b.names.Nodup ∧
    b = .leaf "metastring".toList (.sc 1) (.leaf "v".toList (.arr (.num 2)) (.nest "n".toList ⟨false, [], none⟩ .nil .nil)) ∧
    ∃ s c, loadOne refLib (saveOne refLib ⟨false, [], none⟩ b) = some c ∧ c.2.find "v".toList = some (.leaf (.sc s)) :=
  ⟨_, by decide, rfl, 0, (⟨false, [], none⟩, .leaf "v".toList (.sc 0) (.leaf "n/".toList (.arr (.text [("_root".toList, .inl ⟨false, [], none⟩)])) .nil)),
    by decide +kernel, by decide⟩

/-! ## A nested container in a directory -/

theorem path_inj {p q : List Name} (hp : p ≠ []) (hq : q ≠ []) (h1 : ∀ n ∈ p, DirName n)
    (h2 : ∀ n ∈ q, DirName n) (h : pathFile p = pathFile q) : p = q := by
  have hj : joinBang p = joinBang q := List.append_cancel_right h
  have := congrArg splitBang hj
  rwa [split_join p hp fun n hn => (h1 n hn).bang, split_join q hq fun n hn => (h2 n hn).bang] at this

theorem root_dirName : DirName "_root".toList := by
  constructor <;> decide

theorem take_ext (n e : Name) (h : e.length = 4) : (n ++ e).take ((n ++ e).length - 4) = n := by
  rw [List.length_append, h, Nat.add_sub_cancel]
  simp

theorem pathFile_take (p : List Name) : (pathFile p).take ((pathFile p).length - 4) = joinBang p :=
  take_ext _ _ rfl

/-- some container inside has a file -/
theorem exists_file : ∀ (b : Box A S X) (i : Info), ∃ q c, follow q (i, b) = some c ∧ needsFile c.2 = true
  | .nil, i => ⟨[], _, rfl, rfl⟩
  | .leaf _ _ _, i => ⟨[], _, rfl, rfl⟩
  | .nest n j b rest, i => by
    obtain ⟨q, c, h1, h2⟩ := exists_file b j
    exact ⟨n :: q, c, by simpa [follow, Box.find] using h1, h2⟩

theorem follow_prefix {p q : List Name} {s : Info × Box A S X} (h : p <+: q) (hq : (follow q s).isSome) :
    (follow p s).isSome := by
  obtain ⟨r, rfl⟩ := h
  induction p generalizing s with
  | nil => rfl
  | cons n p ih =>
    obtain ⟨i, b⟩ := s
    rcases follow_cons n (p ++ r) i b with ⟨j, d, h1, h2⟩ | ⟨_, h2⟩
    · rw [List.cons_append, h2] at hq
      rw [follow_find h1]
      exact ih hq
    · rw [List.cons_append, h2] at hq; simp at hq

theorem endsSds_take {f : Name} (h : endsSds f = true) :
    ∃ e, f = f.take (f.length - 4) ++ e ∧ e.map Char.toLower = sdsExt := by
  refine ⟨f.drop (f.length - 4), (List.take_append_drop _ _).symm, ?_⟩
  unfold endsSds at h
  rw [List.isSuffixOf_iff_suffix] at h
  have hd := List.suffix_iff_eq_drop.1 h
  rw [List.length_map] at hd
  rw [List.map_drop]
  exact hd.symm

/-- the outcome of saving -/
theorem saveDir_eq (L : Lib A S X M) (s : Info × Box A S X) (hs : DirNames s.2) (old : Fs A M) :
    saveDir L s.1 s.2 old = some (setAll (old.set (pathFile ["_root".toList]) (buildFile L s.1 s.2)) (writes L [] s.2)) := by
  unfold saveDir
  have := writeFile_eq L (p := []) (n := "_root".toList)
    (by intro k hk; rw [List.nil_append, List.mem_singleton] at hk; exact hk ▸ root_dirName) s.1 s.2 old
  rw [List.nil_append] at this
  rw [show ("_root".toList : Name) = joinBang ["_root".toList] from rfl, this]
  exact saveKids_eq L s.2 [] _ hs (by simp)

/-- A nested container saved into a directory comes back when it is loaded, in whatever order
the operating system lists the files.  The directory may hold older files as long as none of
them belongs to a container that is directly inside the new one, unless it is written
again. -/
theorem dir_roundtrip (L : Lib A S X M) (hL : LibOK L) (s : Info × Box A S X) (hs : DirNames s.2)
    (hroot : "_root".toList ∉ s.2.boxNames) (old : Fs A M) (hold : old.keys.Nodup)
    (hharm : ∀ f ∈ old.keys, HarmlessFile s f) :
    ∃ fs, saveDir L s.1 s.2 old = some fs ∧
      ∀ fs' : Fs A M, fs'.Perm fs → ∃ s', loadDir L fs' = some s' ∧ SameTree s s' := by
  obtain ⟨i, b⟩ := s
  refine ⟨_, saveDir_eq L (i, b) hs old, ?_⟩
  simp only at hs hroot ⊢
  intro fs' hperm
  generalize hfsdef : setAll (old.set (pathFile ["_root".toList]) (buildFile L i b)) (writes L [] b) = fs at hperm
  have hnod : (keys fs).Nodup := by rw [← hfsdef]; exact setAll_nodup _ _ (nodup_set hold _ _)
  have hget : ∀ k, fs'.get k = fs.get k := get_perm hnod hperm.symm
  have hkeys : ∀ k, k ∈ keys fs' ↔ k ∈ keys fs := fun k => (hperm.map Prod.fst).mem_iff
  have hw := fun w => mem_writes L w b [] i hs
  have hdn : ∀ q c, follow q (i, b) = some c → ∀ n ∈ q, DirName n :=
    fun q c h => (follow_dirNames q (i, b) c hs h).2
  have hrootne : ∀ q c, q ≠ [] → follow q (i, b) = some c → pathFile q ≠ pathFile ["_root".toList] := by
    intro q c hq hf he
    have := path_inj hq (by simp) (hdn q c hf)
      (by intro n hn; rw [List.mem_singleton] at hn; exact hn ▸ root_dirName) he
    subst this
    rcases follow_cons "_root".toList [] i b with ⟨j, d, h1, _⟩ | ⟨_, h2⟩
    · exact hroot ((boxNames_find hs _).2 ⟨j, d, h1⟩)
    · rw [h2] at hf; cases hf
  have hhead : ∀ n p c, follow (n :: p) (i, b) = some c → n ∈ b.boxNames := by
    intro n p c hf
    rcases follow_cons n p i b with ⟨j, d, h1, _⟩ | ⟨_, h2⟩
    · exact (boxNames_find hs n).2 ⟨j, d, h1⟩
    · rw [h2] at hf; cases hf
  -- the directory holds the files
  have hholds : Holds L fs' (i, b) := by
    intro P c hP hf
    rw [hget, ← hfsdef]
    by_cases hn : needsFile c.2 = true
    · rw [if_pos hn]
      refine setAll_get _ _ _ _ ?_ ⟨(pathFile P, buildFile L c.1 c.2), (hw _).2 ⟨P, c, hP, hf, hn, rfl⟩, rfl⟩
      intro w hwm hwk
      obtain ⟨q, d, hq, hfq, _, rfl⟩ := (hw w).1 hwm
      have := path_inj hq hP (hdn q d hfq) (hdn P c hf) (by simpa using hwk)
      subst this
      rw [hf] at hfq
      cases hfq; rfl
    · rw [if_neg hn, setAll_get_other, get_set, if_neg (hrootne P c hP hf), get_eq_none_iff]
      · intro hk
        rcases hharm _ hk with h | ⟨p, d, hp, hfp, ho, he⟩ | h
        · refine h ?_
          have : (pathFile P).map Char.toLower = (joinBang P).map Char.toLower ++ sdsExt := by
            rw [pathFile, List.map_append]; rfl
          rw [this]
          exact List.suffix_append _ _
        · have := path_inj hP hp (hdn P c hf) (hdn p d hfp) he
          subst this
          rw [hf] at hfp
          cases hfp
          exact hn ((needsFile_iff _).2 ho)
        · cases P with
          | nil => exact hP rfl
          | cons n P =>
            refine h n (hhead n P c hf) ?_
            cases P with
            | nil => exact ⟨".sds".toList, rfl, Or.inl (by decide)⟩
            | cons m P =>
              refine ⟨'!' :: joinBang (m :: P) ++ ".sds".toList, ?_, Or.inr rfl⟩
              rw [pathFile, join_cons _ _ (by simp)]
              simp
      · intro w hwm hwk
        obtain ⟨q, d, hq, hfq, hnd, rfl⟩ := (hw w).1 hwm
        have := path_inj hq hP (hdn q d hfq) (hdn P c hf) (by simpa using hwk)
        subst this
        rw [hf] at hfq
        cases hfq
        exact hn hnd
  -- the root file
  have hrootfile : fs'.get ("_root".toList ++ sdsExt) = some (buildFile L i b) := by
    rw [hget, ← hfsdef, show ("_root".toList ++ sdsExt : Name) = pathFile ["_root".toList] from rfl,
      setAll_get_other, get_set, if_pos rfl]
    intro w hwm hwk
    obtain ⟨q, d, hq, hfq, _, rfl⟩ := (hw w).1 hwm
    exact hrootne q d hq hfq (by simpa using hwk)
  have hnone : ∀ n, isNone b.level n = true ↔ n ∈ b.boxNames := by
    intro n
    unfold isNone
    rw [level_get, boxNames_find hs]
    cases hv : b.find n with
    | none => simp
    | some v => cases v <;> simp [shell]
  generalize hsch : ((buildSchema fs').keep fun n => n ≠ "_root".toList).keep (isNone b.level) = sch
  have hwf : sch.WF := by
    rw [← hsch]
    exact Sch.keep_WF _ _ (Sch.keep_WF _ _ (Sch.fold_WF _ _ trivial))
  have hhas : ∀ n p, sch.has (n :: p) ↔ n ∈ b.boxNames ∧ n ≠ "_root".toList ∧
      ∃ f ∈ keys fs', endsSds f = true ∧ n :: p <+: splitBang (f.take (f.length - 4)) := by
    intro n p
    rw [← hsch, Sch.keep_has, Sch.keep_has, hnone, buildSchema, Sch.fold_has]
    simp [Sch.has]
    aesop
  have hsound : ∀ q, q ≠ [] → sch.has q → (follow q (i, b)).isSome := by
    intro q hq hh
    cases q with
    | nil => exact absurd rfl hq
    | cons n p =>
      obtain ⟨hn, hnr, f, hf, he, hpre⟩ := (hhas n p).1 hh
      rw [hkeys, ← hfsdef, setAll_keys, mem_keys_set] at hf
      have own : ∀ q c, q ≠ [] → follow q (i, b) = some c → f = pathFile q → (follow (n :: p) (i, b)).isSome := by
        intro q c hq hfq hfe
        rw [hfe, pathFile_take, split_join q hq fun m hm => (hdn q c hfq m hm).bang] at hpre
        exact follow_prefix hpre (by rw [hfq]; rfl)
      rcases hf with (hf | hf) | ⟨w, hwm, hwk⟩
      · rw [hf, pathFile_take] at hpre
        have : splitBang (joinBang ["_root".toList]) = ["_root".toList] :=
          split_join _ (by simp) (by intro m hm; rw [List.mem_singleton] at hm; rw [hm]; decide)
        rw [this, List.cons_prefix_cons] at hpre
        exact absurd hpre.1 hnr
      · rcases hharm f hf with h | ⟨q, c, hq, hfq, _, hfe⟩ | h
        · refine absurd ?_ h
          unfold endsSds at he
          rw [List.isSuffixOf_iff_suffix] at he
          exact he
        · exact own q c hq hfq hfe
        · refine absurd ?_ (h n hn)
          obtain ⟨e, he1, he2⟩ := endsSds_take he
          have hj := join_split (f.take (f.length - 4))
          obtain ⟨r, hr⟩ := hpre
          rw [← hr] at hj
          by_cases hpr : p ++ r = []
          · refine ⟨e, ?_, Or.inl he2⟩
            rw [List.cons_append, hpr, joinBang] at hj
            rw [hj]; exact he1
          · refine ⟨'!' :: joinBang (p ++ r) ++ e, ?_, Or.inr rfl⟩
            rw [List.cons_append, join_cons _ _ hpr] at hj
            rw [he1, ← hj]
            simp
      · obtain ⟨q, c, hq, hfq, _, rfl⟩ := (hw w).1 hwm
        exact own q c hq hfq hwk.symm
  have hcomp : ∀ n p, (follow (n :: p) (i, b)).isSome → sch.has (n :: p) := by
    intro n p hfo
    obtain ⟨c, hc⟩ := Option.isSome_iff_exists.1 hfo
    have hnb := hhead n p c hc
    obtain ⟨q, d, hq1, hq2⟩ := exists_file c.2 c.1
    have hfull : follow (n :: p ++ q) (i, b) = some d := by
      rw [follow_append (i, b) (n :: p) q c hc]; exact hq1
    refine (hhas n p).2 ⟨hnb, fun h => hroot (h ▸ hnb), pathFile (n :: p ++ q), ?_, ?_, ?_⟩
    · rw [hkeys, ← hfsdef, setAll_keys]
      exact Or.inr ⟨_, (hw _).2 ⟨n :: p ++ q, d, by simp, hfull, hq2, rfl⟩, rfl⟩
    · unfold endsSds
      rw [List.isSuffixOf_iff_suffix, pathFile, List.map_append]
      exact List.suffix_append _ _
    · rw [pathFile_take, split_join _ (by simp) fun m hm => (hdn _ _ hfull m hm).bang]
      exact List.prefix_append _ _
  obtain ⟨kids, h1, h2, h3⟩ := assemble_eq L hL fs' (i, b) hs hholds sch [] i b [] rfl hwf hsound
    (fun n p _ h => hcomp n p h)
  rw [List.append_nil] at h1
  have hkn : ∀ n, n ∈ kids.map Prod.fst ↔ n ∈ b.boxNames := by
    intro n
    rw [h2, Sch.keys_has]
    constructor
    · intro h; exact ((hhas n []).1 h).1
    · intro h
      obtain ⟨j, d, hjd⟩ := (boxNames_find hs n).1 h
      exact hcomp n [] (by rw [follow_find hjd]; rfl)
  have hput := put_file hs (by rw [h2]; exact hwf.nodup) hkn h3 i
  refine ⟨(i, ofSlots (putKids (slotsOf b.level) kids)), ?_, ?_⟩
  · unfold loadDir
    rw [hrootfile]
    simp only
    rw [loadFile_buildFile L hL i b (dirNames_nodup hs) (dirNames_special hs)]
    simp only [hsch]
    rw [show (none : Option Name) = pfx [] from rfl, h1]
    rfl
  · refine ⟨hput.1.found, hput.1.names, hput.1.leaf, ?_⟩
    intro p c c' hc hc' ho
    by_cases hp : p = []
    · subst hp
      cases hc; cases hc'
      exact ⟨rfl, hput.2⟩
    · exact hput.1.own p c c' hc hc' (ho.resolve_left hp)

/-- a Struct of items -/
def exStruct : Info := ⟨false, [], none⟩

theorem exNest_dir : DirNames exNest := by
  simp only [exNest, DirNames, DirName, Box.names, Box.items, Box.boxNames]
  refine ⟨⟨?_, ?_⟩, ?_, ?_, ⟨?_, ?_, ⟨?_, ?_⟩, ?_, ?_, ⟨?_, ?_, ?_⟩, ?_, ?_, ?_⟩, ?_, ?_, ⟨?_, ?_⟩, ?_, ?_, ?_, ?_, ?_, ?_⟩ <;>
    first | decide | trivial | simp

example : ∃ fs, saveDir refLib exStruct exNest [] = some fs ∧
    ∀ fs' : Fs Arr Nat, fs'.Perm fs → ∃ s', loadDir refLib fs' = some s' ∧ SameTree (exStruct, exNest) s' :=
  dir_roundtrip refLib refLib_ok (exStruct, exNest) exNest_dir (by decide) [] (by simp [keys]) (by simp [keys])

/-- the same with an older file in the directory that is in nobody's way, and one that is
written again -/
example : ∃ fs, saveDir refLib exStruct exNest
      [("zz!a.sds".toList, buildFile refLib exStruct .nil), ("a!b.sds".toList, buildFile refLib exStruct .nil)] = some fs ∧
    ∀ fs' : Fs Arr Nat, fs'.Perm fs → ∃ s', loadDir refLib fs' = some s' ∧ SameTree (exStruct, exNest) s' := by
  refine dir_roundtrip refLib refLib_ok (exStruct, exNest) exNest_dir (by decide) _ (by decide) ?_
  intro f hf
  simp only [keys, List.map_cons, List.map_nil, List.mem_cons, List.not_mem_nil, or_false] at hf
  rcases hf with rfl | rfl
  · refine Or.inr (Or.inr ?_)
    intro n hn
    simp only [exNest, Box.boxNames, List.mem_cons, List.not_mem_nil, or_false] at hn
    rintro ⟨r, hr, _⟩
    rcases hn with rfl | rfl <;> simp at hr
  · refine Or.inr (Or.inl ⟨["a".toList, "b".toList], _, by simp, rfl, ?_, by decide⟩)
    rintro ⟨_, h⟩
    simp [Box.boxNames, Box.names, Box.items] at h

/-! ### Order -/

/-- The order of the items of a container that holds only containers is not kept: it is the
order in which the operating system lists the files. -/
theorem dir_order_counterexample : ∃ (b : Box Arr Nat (Nat × Nat)) (fs fs' : Fs Arr Nat), DirNames b ∧
    saveDir refLib exStruct b [] = some fs ∧ fs'.Perm fs ∧
    ∃ s' c c', loadDir refLib fs' = some s' ∧ follow ["a".toList] (exStruct, b) = some c ∧
      follow ["a".toList] s' = some c' ∧ c.2.names = ["q".toList, "p".toList] ∧ c'.2.names = ["p".toList, "q".toList] := by
  refine ⟨.nest "a".toList exStruct (.nest "q".toList exStruct .nil (.nest "p".toList exStruct .nil .nil)) .nil,
    [("_root.sds".toList, buildFile refLib exStruct (.nest "a".toList exStruct .nil .nil)),
      ("a!q.sds".toList, buildFile refLib exStruct .nil), ("a!p.sds".toList, buildFile refLib exStruct .nil)],
    [("_root.sds".toList, buildFile refLib exStruct (.nest "a".toList exStruct .nil .nil)),
      ("a!p.sds".toList, buildFile refLib exStruct .nil), ("a!q.sds".toList, buildFile refLib exStruct .nil)],
    ?_, by decide +kernel, ?_,
    (exStruct, .nest "a".toList exStruct (.nest "p".toList exStruct .nil (.nest "q".toList exStruct .nil .nil)) .nil),
    (exStruct, .nest "q".toList exStruct .nil (.nest "p".toList exStruct .nil .nil)),
    (exStruct, .nest "p".toList exStruct .nil (.nest "q".toList exStruct .nil .nil)),
    by decide +kernel, by decide, by decide, by decide, by decide⟩
  · simp only [DirNames, DirName, Box.names, Box.items, Box.boxNames]
    refine ⟨⟨?_, ?_⟩, ?_, ?_, ⟨⟨?_, ?_⟩, ?_, ?_, ?_, ⟨?_, ?_⟩, ?_, ?_, ?_, ?_⟩, ?_⟩ <;> first | decide | trivial | simp
  · exact List.Perm.cons _ (List.Perm.swap _ _ _)

/-! ### Saving again -/

/-- one leaf -/
def one1 (n : String) (v : Nat) (rest : Box Arr Nat (Nat × Nat)) : Box Arr Nat (Nat × Nat) :=
  .leaf n.toList (.arr (.num v)) rest

/-- one container -/
def nest1 (n : String) (b rest : Box Arr Nat (Nat × Nat)) : Box Arr Nat (Nat × Nat) :=
  .nest n.toList exStruct b rest

/-- save two containers to the same place, one after the other, and load -/
def twice (b1 b2 : Box Arr Nat (Nat × Nat)) : Option (Info × Box Arr Nat (Nat × Nat)) :=
  (savePath refLib exStruct b1 ⟨none, none⟩).bind fun d => (savePath refLib exStruct b2 d).bind (loadPath refLib)

/-- A container that the new Struct no longer has comes back after saving to the same
place. -/
theorem resave_stale_counterexample :
    twice (nest1 "a" (nest1 "b" (one1 "x" 1 .nil) (one1 "y" 2 .nil)) .nil) (nest1 "a" (one1 "y" 3 .nil) .nil)
      = some (exStruct, nest1 "a" (one1 "y" 3 (nest1 "b" (one1 "x" 1 .nil) .nil)) .nil) := by
  decide +kernel

/-- An old container takes the place of a new array. -/
theorem resave_array_counterexample :
    twice (nest1 "a" (nest1 "x" (one1 "v" 1 .nil) .nil) .nil) (nest1 "a" (one1 "x" 2 .nil) .nil)
      = some (exStruct, nest1 "a" (nest1 "x" (one1 "v" 1 .nil) .nil) .nil) := by
  decide +kernel

/-- Arrays that the new Struct no longer has come back in a container that now holds only
containers. -/
theorem resave_leaf_counterexample :
    twice (nest1 "a" (one1 "v" 1 .nil) .nil) (nest1 "a" (nest1 "b" (one1 "w" 2 .nil) .nil) .nil)
      = some (exStruct, nest1 "a" (one1 "v" 1 (nest1 "b" (one1 "w" 2 .nil) .nil)) .nil) := by
  decide +kernel

/-- A Struct without nested containers saved where one with nested containers was is not
seen: loading gives the old one. -/
theorem resave_flat_counterexample :
    twice (nest1 "a" (one1 "v" 1 .nil) .nil) (one1 "w" 2 .nil) = some (exStruct, nest1 "a" (one1 "v" 1 .nil) .nil) := by
  decide +kernel

theorem level_some_find (b : Box A S X) (h : b.boxNames = []) : Box.ofItems
    ((slotsOf b.level).filterMap fun e => e.2.map fun v => (e.1, v)) = b := by
  induction b with
  | nil => rfl
  | leaf n l rest ih =>
    have : slotsOf (Box.leaf n l rest).level = (n, some (.leaf l)) :: slotsOf rest.level := rfl
    rw [this, List.filterMap_cons_some (by rfl), Box.ofItems, ih h]
  | nest n i b rest _ _ => simp [Box.boxNames] at h

/-- Where there is no directory, the Struct without nested containers that was saved last is
the one that is loaded, whatever was saved before it. -/
theorem path_flat (L : Lib A S X M) (hL : LibOK L) (i : Info) (b : Box A S X) (hb : b.boxNames = [])
    (hn : b.names.Nodup) (hs : ∀ n x, (n, some (.spec x)) ∈ b.level → '!' ∉ n) (d : Disk A M) (hd : d.dir = none) :
    (savePath L i b d).bind (loadPath L) = some (i, b) := by
  have hnn : hasNested b = false := by
    induction b with
    | nil => rfl
    | leaf n l rest ih =>
      rw [names_leaf, List.nodup_cons] at hn
      exact ih hb hn.2 fun m x h => hs m x (List.mem_cons_of_mem _ h)
    | nest n i b rest _ _ => simp [Box.boxNames] at hb
  unfold savePath
  rw [if_neg (by simp [hnn])]
  simp only [Option.bind_some, loadPath, hd]
  rw [file_roundtrip L hL i b hn hs]
  simp only [Option.map_some, ofSlots]
  rw [level_some_find b hb]

example : (savePath refLib ⟨true, ["c".toList], none⟩ exFile ⟨none, some (buildFile refLib exStruct .nil)⟩).bind (loadPath refLib)
    = some (⟨true, ["c".toList], none⟩, exFile) :=
  path_flat refLib refLib_ok _ _ rfl (by decide) (by
    intro n x h
    have h : n = "c".toList ∨ n = "cc".toList := by
      simp only [exFile, Box.level, List.mem_cons, Prod.mk.injEq, Option.some.injEq, reduceCtorEq, and_false,
        List.not_mem_nil, or_false, false_or] at h
      exact h.imp And.left And.left
    rcases h with rfl | rfl <;> decide) _ rfl

/-- A nested container saved to a path comes back from that path, whether or not there is
also a file of that name, if the old files in the directory are in nobody's way. -/
theorem path_nested (L : Lib A S X M) (hL : LibOK L) (s : Info × Box A S X) (hs : DirNames s.2)
    (hnest : s.2.boxNames ≠ []) (hroot : "_root".toList ∉ s.2.boxNames) (d : Disk A M)
    (hold : ∀ fs, d.dir = some fs → fs.keys.Nodup ∧ ∀ f ∈ fs.keys, HarmlessFile s f) :
    ∃ s', (savePath L s.1 s.2 d).bind (loadPath L) = some s' ∧ SameTree s s' := by
  have hnn : hasNested s.2 = true := by
    have : ∀ b : Box A S X, b.boxNames ≠ [] → hasNested b = true := by
      intro b
      induction b with
      | nil => intro h; exact absurd rfl h
      | leaf n l rest ih => exact ih
      | nest n i b rest _ _ => intro _; rfl
    exact this s.2 hnest
  have hcond : (d.dir.getD []).keys.Nodup ∧ ∀ f ∈ (d.dir.getD []).keys, HarmlessFile s f := by
    cases hd : d.dir with
    | none => simp [keys]
    | some fs => exact hold fs hd
  obtain ⟨fs, h1, h2⟩ := dir_roundtrip L hL s hs hroot _ hcond.1 hcond.2
  obtain ⟨s', h3, h4⟩ := h2 fs (List.Perm.refl _)
  refine ⟨s', ?_, h4⟩
  unfold savePath
  rw [if_pos hnn, h1]
  exact h3

example : ∃ s', (savePath refLib exStruct exNest ⟨none, some (buildFile refLib exStruct .nil)⟩).bind (loadPath refLib) = some s' ∧
    SameTree (exStruct, exNest) s' :=
  path_nested refLib refLib_ok (exStruct, exNest) exNest_dir (by decide) (by decide) _ (by simp)

/-! ### Names of containers -/

/-- the characters that saving refuses -/
def refused : List Char := ['\\', ':', '<', '>', '|', '*', '?']

theorem afterBang_child (p : Option Name) {n : Name} (h : '!' ∉ n) : afterBang (childName p n) = n := by
  have hall : ∀ c ∈ n.reverse, (c != '!') = true := by
    intro c hc
    have : c ≠ '!' := fun e => h (e ▸ List.mem_reverse.1 hc)
    simp [this]
  unfold afterBang
  cases p with
  | none => rw [childName, takeWhile_all hall, List.reverse_reverse]
  | some p => rw [childName, List.reverse_append, List.reverse_cons, List.append_assoc,
      List.singleton_append, takeWhile_stop (by decide) _ hall, List.reverse_reverse]

theorem saveKids_refuses (L : Lib A S X M) {n : Name} (hn : '!' ∉ n) (hr : ∃ c ∈ n, c ∈ refused) :
    ∀ (b : Box A S X) (i : Info) (p : List Name) (c : Info × Box A S X), follow (p ++ [n]) (i, b) = some c →
      needsFile c.2 = true → ∀ (o : Option Name) (fs : Fs A M), saveKids L o b fs = none
  | .nil, i, p, c, hf, _, o, fs => by
    cases p <;> simp [follow, Box.find] at hf
  | .leaf m l rest, i, p, c, hf, hc, o, fs => by
    rw [saveKids]
    refine saveKids_refuses L hn hr rest i p c ?_ hc o fs
    cases p with
    | nil =>
      by_cases hm : m = n
      · simp [follow, Box.find, hm] at hf
      · simpa [follow, Box.find, hm] using hf
    | cons k p =>
      by_cases hm : m = k
      · simp [follow, Box.find, hm] at hf
      · simpa [follow, Box.find, hm] using hf
  | .nest m j d rest, i, p, c, hf, hc, o, fs => by
    rw [saveKids]
    have hwrite : ∀ fs1 : Fs A M, writeFile L (childName o n) j d fs1 = none := by
      intro fs1
      unfold writeFile
      rw [afterBang_child o hn, if_pos]
      obtain ⟨ch, h1, h2⟩ := hr
      refine List.any_eq_true.2 ⟨ch, h1, ?_⟩
      rw [List.contains_iff_mem]
      simp only [refused, List.mem_cons, List.not_mem_nil, or_false] at h2
      simp only [invalidChars, List.mem_cons, List.not_mem_nil, or_false]
      tauto
    have hrest : ∀ fs1 : Fs A M, follow (p ++ [n]) (i, rest) = some c → saveKids L o rest fs1 = none :=
      fun fs1 h => saveKids_refuses L hn hr rest i p c h hc o fs1
    cases p with
    | nil =>
      by_cases hm : m = n
      · subst hm
        have : c = (j, d) := by
          simp [follow, Box.find] at hf
          exact hf.symm
        subst this
        cases saveKids L (some (childName o m)) d fs with
        | none => rfl
        | some fs1 => simp only [hc, if_true, hwrite]
      · have hf' : follow ([] ++ [n]) (i, rest) = some c := by simpa [follow, Box.find, hm] using hf
        cases saveKids L (some (childName o m)) d fs with
        | none => rfl
        | some fs1 =>
          simp only
          cases (if needsFile d then writeFile L (childName o m) j d fs1 else some fs1) with
          | none => rfl
          | some fs2 => exact hrest fs2 hf'
    | cons k p =>
      by_cases hm : m = k
      · subst hm
        have hf' : follow (p ++ [n]) (j, d) = some c := by simpa [follow, Box.find] using hf
        rw [saveKids_refuses L hn hr d j p c hf' hc]
      · have hf' : follow (k :: p ++ [n]) (i, rest) = some c := by simpa [follow, Box.find, hm] using hf
        cases saveKids L (some (childName o m)) d fs with
        | none => rfl
        | some fs1 =>
          simp only
          cases (if needsFile d then writeFile L (childName o m) j d fs1 else some fs1) with
          | none => rfl
          | some fs2 => exact hrest fs2 hf'

/-- Saving refuses a container, at any depth, whose name has no `!` but a character that is
not allowed in file names, if the container is empty or has an item that is not a
container. -/
theorem dir_refuses (L : Lib A S X M) (s : Info × Box A S X) (p : List Name) (n : Name) (c : Info × Box A S X)
    (hf : follow (p ++ [n]) s = some c) (hc : ¬ c.2.OnlyBoxes) (hn : '!' ∉ n)
    (hr : ∃ ch ∈ n, ch ∈ ['\\', ':', '<', '>', '|', '*', '?']) (old : Fs A M) :
    saveDir L s.1 s.2 old = none := by
  unfold saveDir
  cases writeFile L "_root".toList s.1 s.2 old with
  | none => rfl
  | some fs0 => exact saveKids_refuses L hn hr s.2 s.1 p c hf ((needsFile_iff _).2 hc) none fs0

example : saveDir refLib exStruct (nest1 "a" (one1 "v" 1 (nest1 "b?" (one1 "w" 2 .nil) .nil)) .nil) [] = none :=
  dir_refuses refLib (exStruct, _) ["a".toList] "b?".toList (exStruct, one1 "w" 2 .nil) rfl
    (by rintro ⟨_, h⟩; simp [one1, Box.boxNames, Box.names, Box.items] at h) (by decide) ⟨'?', by decide, by decide⟩ []

/-- A container that holds only containers is saved under a name that is not allowed. -/
theorem dir_refuses_counterexample :
    (saveDir refLib exStruct (nest1 "a?" (nest1 "b" (one1 "w" 2 .nil) .nil) .nil) []).isSome = true := by
  decide +kernel

/-- A container whose name has a `!` is saved without an error and is not there after
loading. -/
theorem dir_bang_counterexample :
    twice .nil (one1 "v" 1 (nest1 "x!y" (one1 "w" 2 .nil) .nil)) = some (exStruct, one1 "v" 1 .nil) := by
  decide +kernel

/-- A container whose name ends in `.sds` is not there after loading. -/
theorem dir_ext_counterexample :
    twice .nil (one1 "v" 1 (nest1 "x.sds" (one1 "w" 2 .nil) .nil)) = some (exStruct, one1 "v" 1 .nil) := by
  decide +kernel

/-- A container called `_root` takes the place of the whole Struct. -/
theorem dir_root_counterexample :
    twice .nil (one1 "v" 1 (nest1 "_root" (one1 "w" 2 .nil) .nil)) = some (exStruct, one1 "w" 2 .nil) := by
  decide +kernel

end Verif.Sds
