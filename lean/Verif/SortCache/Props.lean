import Verif.SortCache.Spec
import Mathlib.Data.List.Sort
import Mathlib.Data.List.Zip
/-!
# C26: the cached row order is the fresh one; C47: sorting and copying sorted Datasets
-/
namespace Verif.SortCache
open Verif.SortCache.Spec
variable {V C : Type}

/-! ## Lemmas -/

theorem zip_all_eq {α : Type} [DecidableEq α] : ∀ (a b : List α), a.length = b.length → ((a.zip b).all fun p => p.1 == p.2) = true → a = b
  | [], [], _, _ => rfl
  | x :: a, y :: b, h, hz => by
    simp only [List.zip_cons_cons, List.all_cons, Bool.and_eq_true, beq_iff_eq] at hz
    rw [hz.1, zip_all_eq a b (by simpa using h) hz.2]
  | [], y :: b, h, _ => by simp at h
  | x :: a, [], h, _ => by simp at h

theorem zip_any_ne {α : Type} [DecidableEq α] (a b : List α) (h : a.length = b.length)
    (hz : ((a.zip b).any fun p => p.1 != p.2) = false) : a = b := by
  apply zip_all_eq a b h
  rw [List.any_eq_false] at hz
  rw [List.all_eq_true]
  intro p hp
  have := hz p hp
  simpa using this

theorem sameValue_eq {a b : Asc} (h : a.sameValue b = true) : a = b := by
  cases a <;> cases b <;> simp only [Asc.sameValue, Bool.and_eq_true, beq_iff_eq, Bool.false_eq_true] at h
  · rw [h]
  · rw [zip_all_eq _ _ h.1 (by simpa using h.2)]
  · rw [zip_all_eq _ _ h.1 (by simpa using h.2)]

theorem dictKeys_filter (p : Name → Bool) : ∀ l, dictKeys (l.filter p) = (dictKeys l).filter p
  | [] => rfl
  | n :: l => by
    by_cases hp : p n
    · rw [List.filter_cons_of_pos hp]
      simp only [dictKeys]
      rw [List.filter_cons_of_pos hp, dictKeys_filter p l, List.filter_filter, List.filter_filter]
      congr 1
      apply List.filter_congr
      intro a _
      rw [Bool.and_comm]
    · rw [List.filter_cons_of_neg hp]
      simp only [dictKeys]
      rw [List.filter_cons_of_neg hp, dictKeys_filter p l, List.filter_filter]
      apply List.filter_congr
      intro a _
      by_cases ha : a = n
      · subst ha; simp [hp]
      · simp [ha]

theorem dictKeys_eraseDups (l : List Name) : dictKeys l = l.eraseDups := by
  induction hn : l.length using Nat.strong_induction_on generalizing l with
  | _ n ih =>
    cases l with
    | nil => rfl
    | cons a l =>
      rw [List.eraseDups_cons]
      simp only [dictKeys]
      congr 1
      have hlt : (l.filter fun b => !b == a).length < n := by
        have := List.length_filter_le (fun b => !b == a) l
        simp only [List.length_cons] at hn
        omega
      rw [← ih _ hlt _ rfl, dictKeys_filter]
      apply List.filter_congr
      intro b _
      by_cases hb : b = a <;> simp [hb]

theorem dictKeys_sub (l : List Name) : ∀ n ∈ dictKeys l, n ∈ l := by
  induction l with
  | nil => simp [dictKeys]
  | cons a l ih =>
    intro n hn
    simp only [dictKeys, List.mem_cons, List.mem_filter] at hn
    rcases hn with h | h
    · simp [h]
    · exact List.mem_cons_of_mem _ (ih n h.1)

theorem dictKeys_mem (l : List Name) : ∀ n ∈ l, n ∈ dictKeys l := by
  induction l with
  | nil => simp
  | cons a l ih =>
    intro n hn
    simp only [dictKeys, List.mem_cons, List.mem_filter]
    by_cases h : n = a
    · exact Or.inl h
    · rcases List.mem_cons.1 hn with h' | h'
      · exact absurd h' h
      · exact Or.inr ⟨ih n h', by simpa using h⟩

theorem dictKeys_nodup_self : ∀ (l : List Name), l.Nodup → dictKeys l = l
  | [], _ => rfl
  | a :: l, h => by
    rw [List.nodup_cons] at h
    simp only [dictKeys]
    rw [dictKeys_nodup_self l h.2]
    congr 1
    rw [List.filter_eq_self]
    intro b hb
    have : b ≠ a := by rintro rfl; exact h.1 hb
    simpa using this

theorem mapM_filterMap {α β : Type} (f : α → Option β) : ∀ l : List α, (∀ a ∈ l, (f a).isSome) →
    l.mapM f = some (l.filterMap f)
  | [], _ => rfl
  | a :: l, h => by
    have ha := h a (List.mem_cons_self ..)
    obtain ⟨b, hb⟩ := Option.isSome_iff_exists.1 ha
    rw [List.mapM_cons, hb, mapM_filterMap f l (fun x hx => h x (List.mem_cons_of_mem _ hx)), List.filterMap_cons_some hb]
    rfl

theorem mapM_none {α β : Type} (f : α → Option β) : ∀ l : List α, (∃ a ∈ l, f a = none) → l.mapM f = none
  | [], h => by simp at h
  | a :: l, h => by
    rw [List.mapM_cons]
    cases hf : f a with
    | none => rfl
    | some b =>
      have : l.mapM f = none := by
        apply mapM_none f l
        obtain ⟨x, hx, hn⟩ := h
        rcases List.mem_cons.1 hx with h' | h'
        · rw [h', hf] at hn; exact absurd hn (by simp)
        · exact ⟨x, h', hn⟩
      rw [this]; rfl

theorem col?_mem {d : Ds V} {n : Name} {v : V} (h : d.col? n = some v) : v ∈ d.cols.map (·.2) := by
  unfold Ds.col? at h
  cases hf : d.cols.find? fun p => p.1 = n with
  | none => rw [hf] at h; simp at h
  | some p =>
    rw [hf] at h
    simp only [Option.map_some, Option.some.injEq] at h
    rw [← h]
    have := List.mem_of_find?_eq_some hf
    exact List.mem_map_of_mem this

section
variable [DecidableEq C]

/-- what `get_row_sort_info` hands to the cache is what a fresh sort uses -/
theorem rowSortInfo_fresh (lib : Lib V C) (d : Ds V) :
    freshOrder lib d = orderOf lib (rowSortInfo d).1.asc (rowSortInfo d).2 := by
  unfold freshOrder rowSortInfo
  cases hs : d.sortlist with
  | none => rfl
  | some names =>
    dsimp only
    rw [← dictKeys_eraseDups]
    by_cases hall : (names.all fun n => (d.col? n).isSome) = true
    · rw [if_pos hall, mapM_filterMap d.col? (dictKeys names)]
      intro a ha
      exact List.all_eq_true.1 hall a (dictKeys_sub _ _ ha)
    · rw [if_neg hall, mapM_none]
      · rfl
      rw [List.all_eq_true] at hall
      push Not at hall
      obtain ⟨n, hn, hne⟩ := hall
      exact ⟨n, dictKeys_mem _ _ hn, by simpa using hne⟩

/-- An entry describes a sort of some contents occurring in the history. -/
def EntryOK (lib : Lib V C) (S : List V) (e : Entry C) : Prop :=
  ∃ cols : List V, (∀ v ∈ cols, v ∈ S) ∧ e.crcs = cols.map lib.crc ∧ e.idx = lib.lexsort cols.reverse e.asc

def CacheOK (lib : Lib V C) (S : List V) (c : Cache C) : Prop := ∀ uid e, c uid = some e → EntryOK lib S e

theorem CacheOK.set {lib : Lib V C} {S : List V} {c : Cache C} (h : CacheOK lib S c) (uid : Nat) (o : Option (Entry C))
    (ho : ∀ e, o = some e → EntryOK lib S e) : CacheOK lib S (c.set uid o) := by
  intro u e he
  unfold Cache.set at he
  split at he
  · exact ho e he
  · exact h u e he

theorem map_inj_on {lib : Lib V C} {S : List V} (hd : Distinct lib S) : ∀ (a b : List V), (∀ v ∈ a, v ∈ S) → (∀ v ∈ b, v ∈ S) →
    a.map lib.crc = b.map lib.crc → a = b
  | [], [], _, _, _ => rfl
  | x :: a, y :: b, ha, hb, h => by
    simp only [List.map_cons, List.cons.injEq] at h
    rw [hd x (ha x (List.mem_cons_self ..)) y (hb y (List.mem_cons_self ..)) h.1,
      map_inj_on hd a b (fun v hv => ha v (List.mem_cons_of_mem _ hv)) (fun v hv => hb v (List.mem_cons_of_mem _ hv)) h.2]
  | [], y :: b, _, _, h => by simp at h
  | x :: a, [], _, _, h => by simp at h

/-- the cache keeps its invariant and returns the fresh order -/
theorem getSorted_correct {lib : Lib V C} {S : List V} (hd : Distinct lib S) {c : Cache C} (hc : CacheOK lib S c)
    (uid nrows : Nat) (cols : Option (List V)) (hcols : ∀ l, cols = some l → ∀ v ∈ l, v ∈ S) (asc : Asc) :
    CacheOK lib S (getSorted lib c uid nrows cols asc).1 ∧
    (getSorted lib c uid nrows cols asc).2 = orderOf lib asc cols := by
  cases cols with
  | none => exact ⟨hc, rfl⟩
  | some l =>
    cases l with
    | nil => exact ⟨hc, rfl⟩
    | cons x l =>
      have hS := hcols _ rfl
      generalize hl : x :: l = cols at *
      have hgs : getSorted lib c uid nrows (some cols) asc =
          (match cached c uid nrows (cols.map lib.crc) asc with
            | some idx => (c, some idx)
            | none => (c.set uid (some ⟨cols.map lib.crc, lib.lexsort cols.reverse asc, nrows, asc⟩), some (lib.lexsort cols.reverse asc))) := by
        rw [← hl]; rfl
      have hrhs : orderOf lib asc (some cols) = some (lib.lexsort cols.reverse asc) := by
        rw [← hl]; rfl
      rw [hrhs, hgs]
      cases hcc : cached c uid nrows (cols.map lib.crc) asc with
      | none =>
        refine ⟨hc.set uid _ ?_, rfl⟩
        intro e he
        obtain rfl := Option.some.inj he
        exact ⟨cols, hS, rfl, rfl⟩
      | some idx =>
        refine ⟨hc, ?_⟩
        unfold cached at hcc
        cases hu : c uid with
        | none => rw [hu] at hcc; simp at hcc
        | some e =>
          rw [hu] at hcc
          dsimp only at hcc
          split at hcc
          · simp at hcc
          · rename_i hcond
            split at hcc
            · rename_i hval
              simp only [Bool.or_eq_true, not_or, Bool.not_eq_true] at hcond
              obtain ⟨⟨⟨_, hlen⟩, _⟩, hany⟩ := hcond
              have hcrc : e.crcs = cols.map lib.crc := zip_any_ne _ _ (by simpa using hlen) hany
              obtain ⟨cols', hS', hc', hidx⟩ := hc uid e hu
              have : cols' = cols := map_inj_on hd _ _ hS' hS (by rw [← hc', hcrc])
              rw [← Option.some.inj hcc, hidx, this, sameValue_eq hval]
            · simp at hcc

/-- a saved file has contents that occurred, and no sort -/
def FileOK (S : List V) (f : File V) : Prop := (∀ p ∈ f.cols, p.2 ∈ S) ∧ f.sortlist = none

structure Inv (lib : Lib V C) (S : List V) (w : World V C) : Prop where
  cache : CacheOK lib S w.cache
  ds : ∀ h d, w.ds h = some d → ∀ p ∈ d.cols, p.2 ∈ S
  files : ∀ f ∈ w.files, FileOK S f

theorem rowSortInfo_cols (d : Ds V) : (rowSortInfo d).1.cols = d.cols := by
  unfold rowSortInfo
  cases d.sortlist with
  | none => rfl
  | some names => dsimp only; split <;> rfl

theorem rowSortInfo_sub {S : List V} (d : Ds V) (hd : ∀ p ∈ d.cols, p.2 ∈ S) :
    ∀ l, (rowSortInfo d).2 = some l → ∀ v ∈ l, v ∈ S := by
  intro l hl v hv
  unfold rowSortInfo at hl
  cases hs : d.sortlist with
  | none => rw [hs] at hl; simp at hl
  | some names =>
    rw [hs] at hl
    dsimp only at hl
    split at hl
    · simp only [Option.some.injEq] at hl
      rw [← hl, List.mem_filterMap] at hv
      obtain ⟨n, _, hn⟩ := hv
      have := col?_mem hn
      rw [List.mem_map] at this
      obtain ⟨p, hp, rfl⟩ := this
      exact hd p hp
    · simp at hl

theorem setDs_ds {lib : Lib V C} {S : List V} {w : World V C} (hi : Inv lib S w) (h : Nat) (o : Option (Ds V))
    (ho : ∀ d, o = some d → ∀ p ∈ d.cols, p.2 ∈ S) (h' : Nat) (d : Ds V) (hd : (w.setDs h o).ds h' = some d) :
    ∀ p ∈ d.cols, p.2 ∈ S := by
  unfold World.setDs at hd
  dsimp only at hd
  split at hd
  · exact ho d hd
  · exact hi.ds h' d hd

theorem col?_congr {d d' : Ds V} (h : d.cols = d'.cols) : d.col? = d'.col? := by
  funext n; unfold Ds.col?; rw [h]

theorem step_inv {lib : Lib V C} {S : List V} (hd : Distinct lib S) {w : World V C} (hi : Inv lib S w) (o : Op V)
    (hput : ∀ v ∈ contents [o], v ∈ S)
    (hsave : ∀ h, o = .save h → ∀ d, w.ds h = some d → d.sortlist = none) :
    Inv lib S (step lib w o).1 := by
  cases o with
  | put h d =>
    refine ⟨hi.cache, ?_, hi.files⟩
    apply setDs_ds hi
    rintro _ ⟨⟩ p hp
    apply hput
    simp only [contents, List.append_nil]
    exact List.mem_map_of_mem hp
  | order h =>
    simp only [step]
    cases hw : w.ds h with
    | none => exact hi
    | some d =>
      dsimp only
      refine ⟨?_, ?_, hi.files⟩
      · exact (getSorted_correct hd hi.cache _ _ _ (rowSortInfo_sub d (hi.ds h d hw)) _).1
      · apply setDs_ds hi
        rintro _ ⟨⟩ p hp
        rw [rowSortInfo_cols] at hp
        exact hi.ds h d hw p hp
  | save h =>
    simp only [step]
    cases hw : w.ds h with
    | none => exact hi
    | some d =>
      dsimp only [save]
      have hg := getSorted_correct hd hi.cache (rowSortInfo d).1.uid (rowSortInfo d).1.nrows _
        (rowSortInfo_sub d (hi.ds h d hw)) (rowSortInfo d).1.asc
      refine ⟨hg.1, ?_, ?_⟩
      · apply setDs_ds hi
        rintro _ ⟨⟩ p hp
        rw [rowSortInfo_cols] at hp
        exact hi.ds h d hw p hp
      · intro f hf
        rcases List.mem_append.1 hf with hf | hf
        · exact hi.files f hf
        · rw [List.mem_singleton] at hf
          subst hf
          exact ⟨hi.ds h d hw, hsave h rfl d hw⟩
  | load k h uid =>
    simp only [step]
    cases hk : w.files[k]? with
    | none => exact hi
    | some f =>
      dsimp only
      have hf := hi.files f (List.mem_of_getElem? hk)
      have hl : load lib w.cache f uid = (w.cache, ⟨uid, f.nrows, f.cols, f.sortlist, .bool true, false⟩) := by
        unfold load
        rw [hf.2]
      rw [hl]
      refine ⟨hi.cache, ?_, hi.files⟩
      apply setDs_ds hi
      rintro _ ⟨⟩ p hp
      exact hf.1 p hp
  | del h =>
    simp only [step]
    cases hw : w.ds h with
    | none => exact hi
    | some d =>
      dsimp only
      refine ⟨hi.cache.set _ _ (by simp), ?_, hi.files⟩
      apply setDs_ds hi
      rintro _ ⟨⟩
  | invalidate uid => exact ⟨hi.cache.set _ _ (by simp), hi.ds, hi.files⟩
  | invalidateAll => exact ⟨fun u e he => by simp [step, invalidateAll] at he, hi.ds, hi.files⟩

theorem contents_cons (o : Op V) (os : List (Op V)) : contents (o :: os) = contents [o] ++ contents os := by
  cases o <;> simp [contents]

theorem run_inv {lib : Lib V C} {S : List V} (hd : Distinct lib S) : ∀ (os : List (Op V)) (w : World V C), Inv lib S w →
    (∀ v ∈ contents os, v ∈ S) → SavesUnsorted lib w os → Inv lib S (run lib w os)
  | [], _, hi, _, _ => hi
  | o :: os, w, hi, hc, hs => by
    rw [contents_cons] at hc
    exact run_inv hd os _ (step_inv hd hi o (fun v hv => hc v (List.mem_append_left _ hv)) hs.1)
      (fun v hv => hc v (List.mem_append_right _ hv)) hs.2

theorem start_inv (lib : Lib V C) (S : List V) : Inv lib S start :=
  ⟨fun _ _ h => by simp [start] at h, fun _ _ h => by simp [start] at h, fun _ h => by simp [start] at h⟩

/-! ## C26 -/

/-- After any history of creating, changing in any way, displaying, saving, loading and deleting Datasets (even with
equal identifiers), the row order obtained for a Dataset is the one computed afresh from its present sort columns and
direction — as long as the checksum tells the contents that occurred apart and no Dataset was saved with a sort set.
Missing: saving Datasets with a sort. -/
theorem order_fresh_partial (lib : Lib V C) (os : List (Op V)) (hd : Distinct lib (contents os)) (hs : SavesUnsorted lib start os)
    (h : Nat) (d : Ds V) (hw : (run lib start os).ds h = some d) :
    (step lib (run lib start os) (.order h)).2 = freshOrder lib d := by
  have hi := run_inv hd os _ (start_inv lib (contents os)) (fun v hv => hv) hs
  generalize run lib start os = w at *
  simp only [step, hw]
  rw [(getSorted_correct hd hi.cache _ _ _ (rowSortInfo_sub d (hi.ds h d hw)) _).2, rowSortInfo_fresh]

/-- What happens to a Dataset that is saved with a sort: the row order after loading is the first column, whatever it contains. -/
theorem load_sorted_exact (lib : Lib V C) (w : World V C) (k h uid : Nat) (f : File V) (names : List Name) (c : Name × V) (cs : List (Name × V))
    (hk : w.files[k]? = some f) (hs : f.sortlist = some names) (hn : names ≠ []) (hnd : names.Nodup) (hc : f.cols = c :: cs)
    (hcol : ∀ n ∈ names, n ∈ f.cols.map (·.1)) (hrow : (lib.asRows c.2).length = f.nrows) :
    (step lib (step lib w (.load k h uid)).1 (.order h)).2 = some (lib.asRows c.2) := by
  let d : Ds V := ⟨uid, f.nrows, f.cols, f.sortlist, .bool true, false⟩
  have hall : ∀ n ∈ names, (d.col? n).isSome := by
    intro n hn
    obtain ⟨p, hp, rfl⟩ := List.mem_map.1 (hcol n hn)
    unfold Ds.col?
    rw [Option.isSome_map, List.find?_isSome]
    exact ⟨p, hp, by simp⟩
  have hm := mapM_filterMap d.col? names hall
  have hl : load lib w.cache f uid = (storeSort lib w.cache uid (names.filterMap d.col?) (lib.asRows c.2) (.bool true), d) := by
    show (match f.sortlist with
      | none => (w.cache, d)
      | some names =>
        match f.cols, names.mapM d.col? with
        | c :: _, some cols => (storeSort lib w.cache uid cols (lib.asRows c.2) d.asc, d)
        | _, _ => (w.cache, d)) = _
    have ha : d.asc = .bool true := rfl
    rw [← ha]
    clear_value d
    rw [hs]
    dsimp only
    rw [hm, hc]
  have hd : ((step lib w (.load k h uid)).1).ds h = some d := by
    simp [step, hk, hl, World.setDs]
  have hcache : ((step lib w (.load k h uid)).1).cache = storeSort lib w.cache uid (names.filterMap d.col?) (lib.asRows c.2) (.bool true) := by
    simp [step, hk, hl, World.setDs]
  generalize (step lib w (.load k h uid)).1 = w' at *
  have hinfo : rowSortInfo d = (d, some (names.filterMap d.col?)) := by
    unfold rowSortInfo
    have hs' : d.sortlist = some names := hs
    rw [hs']
    dsimp only
    rw [if_pos (List.all_eq_true.2 hall), dictKeys_nodup_self names hnd]
  have hne : ∃ x l, names.filterMap d.col? = x :: l := by
    cases names with
    | nil => exact absurd rfl hn
    | cons n names =>
      obtain ⟨v, hv⟩ := Option.isSome_iff_exists.1 (hall n (List.mem_cons_self ..))
      exact ⟨v, _, List.filterMap_cons_some hv⟩
  obtain ⟨x, l, hx⟩ := hne
  simp only [step, hd, hinfo, hx]
  unfold getSorted
  dsimp only
  have hcc : cached w'.cache d.uid d.nrows ((x :: l).map lib.crc) d.asc = some (lib.asRows c.2) := by
    unfold cached
    have : w'.cache d.uid = some ⟨(x :: l).map lib.crc, lib.asRows c.2, (lib.asRows c.2).length, .bool true⟩ := by
      rw [hcache, hx]
      simp [storeSort, Cache.set, d]
    rw [this]
    dsimp only
    have hz : (((x :: l).map lib.crc).zip ((x :: l).map lib.crc)).any (fun p => p.1 != p.2) = false := by
      rw [List.any_eq_false]
      intro p hp
      have : ∀ (m : List C) (p : C × C), p ∈ m.zip m → p.1 = p.2 := by
        intro m
        induction m with
        | nil => intro p hp; simp at hp
        | cons a m ih =>
          intro p hp
          rw [List.zip_cons_cons, List.mem_cons] at hp
          rcases hp with rfl | hp
          · rfl
          · exact ih p hp
      simp [this _ p hp]
    have hrow' : (lib.asRows c.2).length = d.nrows := hrow
    rw [hz, hrow']
    have hdasc : d.asc = .bool true := rfl
    rw [hdasc]
    simp [Asc.sameType, Asc.sameValue]
  rw [hcc]

/-- Asking for the order a second time returns the same order. -/
theorem order_idempotent (lib : Lib V C) (os : List (Op V)) (hd : Distinct lib (contents os)) (hs : SavesUnsorted lib start os)
    (h : Nat) : (step lib (step lib (run lib start os) (.order h)).1 (.order h)).2 = (step lib (run lib start os) (.order h)).2 := by
  have hi := run_inv hd os _ (start_inv lib (contents os)) (fun v hv => hv) hs
  generalize run lib start os = w at *
  have hi' := step_inv hd hi (.order h) (by simp [contents]) (by simp)
  cases hw : w.ds h with
  | none => simp [step, hw]
  | some d =>
    have h1 : (step lib w (.order h)).2 = freshOrder lib d := by
      simp only [step, hw]
      rw [(getSorted_correct hd hi.cache _ _ _ (rowSortInfo_sub d (hi.ds h d hw)) _).2, rowSortInfo_fresh]
    rw [h1]
    have hds : (step lib w (.order h)).1.ds h = some (rowSortInfo d).1 := by
      simp [step, hw, World.setDs]
    generalize (step lib w (.order h)).1 = w' at *
    have h2 : (step lib w' (.order h)).2 = freshOrder lib (rowSortInfo d).1 := by
      simp only [step, hds]
      rw [(getSorted_correct hd hi'.cache _ _ _ (rowSortInfo_sub _ (hi'.ds h _ hds)) _).2, rowSortInfo_fresh]
    rw [h2]
    by_cases hall : ∀ names, d.sortlist = some names → (names.all fun n => (d.col? n).isSome) = true
    · have : (rowSortInfo d).1 = d := by
        unfold rowSortInfo
        cases hsl : d.sortlist with
        | none => rfl
        | some names => dsimp only; rw [if_pos (hall names hsl)]
      rw [this]
    · push Not at hall
      obtain ⟨names, hsl, hall⟩ := hall
      have : (rowSortInfo d).1.sortlist = none := by
        unfold rowSortInfo
        rw [hsl]
        dsimp only
        rw [if_neg hall]
      unfold freshOrder
      rw [this, hsl]
      dsimp only
      rw [mapM_none]
      · rfl
      rw [ne_eq, List.all_eq_true] at hall
      push Not at hall
      obtain ⟨n, hn, hne⟩ := hall
      exact ⟨n, by rw [← dictKeys_eraseDups]; exact dictKeys_mem _ _ hn, by simpa using hne⟩

end
end Verif.SortCache
