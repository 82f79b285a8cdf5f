import Verif.NpIo.Model
import Verif.Items.Dict
import Mathlib.Data.List.Infix
/-!
# Datasets as folders of numpy files (C282, C283)
-/
namespace Verif.NpIo
open Verif.Items (Dict)

variable {V L : Type}

theorem colName_cons_of_ne (c : Char) (r : Name) (h : ¬ ext <+: c :: r) : colName (c :: r) = c :: colName r := by
  rw [colName.eq_2]
  rintro r' rfl rfl
  exact h ⟨r', rfl⟩

theorem colName_append (n : Name) (h : ¬ ext <:+: n) : colName (n ++ ext) = n := by
  induction n with
  | nil => decide
  | cons c r ih =>
    have hr : ¬ ext <:+: r := fun hi => h (hi.trans (List.suffix_cons c r).isInfix)
    rw [List.cons_append, colName_cons_of_ne, ih hr]
    rintro ⟨t, ht⟩
    have e : ext = ['.', 'n', 'p', 'y'] := by decide
    rw [e] at ht h
    match r, ht with
    | [], ht => simp at ht
    | [a], ht => simp at ht
    | [a, b], ht => simp at ht
    | a :: b :: d :: s, ht =>
      simp only [List.cons_append, List.nil_append, List.cons.injEq] at ht
      obtain ⟨rfl, rfl, rfl, rfl, -⟩ := ht
      exact h ⟨[], s, rfl⟩

theorem fileName_eq (n : Name) (h : ¬ ext <:+: n) : fileName n = n ++ ext := by
  rw [fileName, if_neg]
  intro hs
  exact h (List.isSuffixOf_iff_suffix.1 hs).isInfix

theorem fold_set {K A B : Type} [DecidableEq K] (f : A → K) (g : A → B) : ∀ (l : List A) (d : Dict K B), (Dict.keys d ++ l.map f).Nodup →
    l.foldl (fun (d : Dict K B) (e : A) => Dict.set d (f e) (g e)) d = d ++ l.map fun e => (f e, g e) := by
  intro l
  induction l with
  | nil => intro d _; simp
  | cons e l ih =>
    intro d h
    have hne : f e ∉ Dict.keys d := by
      rw [List.map_cons, List.nodup_append] at h
      exact fun hc => h.2.2 (f e) hc (f e) List.mem_cons_self rfl
    rw [List.foldl_cons, Dict.set_of_notMem hne, ih]
    · simp
    · simpa [Dict.keys] using h

/-- The files of a Dataset. -/
theorem write_eq (ds : List (Name × Col V L)) (hn : (ds.map Prod.fst).Nodup) (hx : ∀ e ∈ ds, ¬ ext <:+: e.1) :
    write ds = ds.map fun e => (e.1 ++ ext, e.2.raw) := by
  have hmap : ds.map (fun e => fileName e.1) = (ds.map Prod.fst).map (· ++ ext) := by
    rw [List.map_map]
    apply List.map_congr_left
    intro e he
    exact fileName_eq e.1 (hx e he)
  rw [write, fold_set (fun e : Name × Col V L => fileName e.1) (fun e => e.2.raw), List.nil_append]
  · apply List.map_congr_left
    intro e he
    rw [fileName_eq e.1 (hx e he)]
  · rw [hmap]
    simpa [Dict.keys] using hn.map fun a b h => List.append_cancel_right h

theorem raw_exact (ds : List (Name × Col V L)) (hn : (ds.map Prod.fst).Nodup) (hx : ∀ e ∈ ds, ¬ ext <:+: e.1)
    (listing : List (Name × List V)) (hl : listing.Perm (write ds)) :
    (read listing : List (Name × Col V L)).Perm (ds.map fun e => (e.1, .plain e.2.raw)) ∧
      ((read listing : List (Name × Col V L)).map Prod.fst).map fileName = listing.map Prod.fst := by
  rw [write_eq ds hn hx] at hl
  have hname : ∀ f ∈ listing, ∃ n, f.1 = n ++ ext ∧ ¬ ext <:+: n := by
    intro f hf
    obtain ⟨e, he, rfl⟩ := List.mem_map.1 (hl.mem_iff.1 hf)
    exact ⟨e.1, rfl, hx e he⟩
  have hp : (listing.map fun f => colName f.1).Perm (ds.map Prod.fst) := by
    refine (hl.map _).trans ?_
    rw [List.map_map]
    refine List.Perm.of_eq (List.map_congr_left fun e he => ?_)
    exact colName_append e.1 (hx e he)
  have hread : (read listing : List (Name × Col V L)) = listing.map fun f => (colName f.1, .plain f.2) := by
    rw [read, fold_set (fun f : Name × List V => colName f.1) (fun f => Col.plain f.2), List.nil_append]
    simpa [Dict.keys] using hp.nodup_iff.2 hn
  constructor
  · rw [hread]
    refine (hl.map _).trans ?_
    rw [List.map_map]
    refine List.Perm.of_eq (List.map_congr_left fun e he => ?_)
    simp only [Function.comp_apply, colName_append e.1 (hx e he)]
  · rw [hread, List.map_map, List.map_map]
    apply List.map_congr_left
    intro f hf
    obtain ⟨n, h1, h2⟩ := hname f hf
    simp only [Function.comp_apply, h1, colName_append n h2, fileName_eq n h2]

/-- **C282**: if no column name contains `.npy` and all columns are plain arrays, then for every order in which the folder is listed the Dataset
read has the same columns under the same names, in some order. -/
theorem round_trip_partial (ds : List (Name × Col V L)) (hn : (ds.map Prod.fst).Nodup) (hx : ∀ e ∈ ds, ¬ ext <:+: e.1)
    (hp : ∀ e ∈ ds, ∃ v, e.2 = .plain v) (listing : List (Name × List V)) (hl : listing.Perm (write ds)) :
    (read listing : List (Name × Col V L)).Perm ds := by
  have h := (raw_exact ds hn hx listing hl).1
  have : (ds.map fun e => ((e.1, .plain e.2.raw) : Name × Col V L)) = ds := by
    conv_rhs => rw [← List.map_id ds]
    apply List.map_congr_left
    intro e he
    obtain ⟨v, hv⟩ := hp e he
    apply Prod.ext
    · rfl
    · simp [hv, Col.raw]
  rwa [this] at h

/-- **C282**: and the columns come back in the same order if the folder is listed in the order of writing. -/
theorem order_exact (ds : List (Name × Col V L)) (hn : (ds.map Prod.fst).Nodup) (hx : ∀ e ∈ ds, ¬ ext <:+: e.1)
    (listing : List (Name × List V)) (hl : listing.Perm (write ds)) :
    (read listing : List (Name × Col V L)).map Prod.fst = ds.map Prod.fst ↔ listing = write ds := by
  obtain ⟨h1, h2⟩ := raw_exact ds hn hx listing hl
  have hw : (write ds).map Prod.fst = (ds.map Prod.fst).map (· ++ ext) := by
    rw [write_eq ds hn hx, List.map_map, List.map_map]; rfl
  have hf : (ds.map Prod.fst).map fileName = (ds.map Prod.fst).map (· ++ ext) := by
    rw [List.map_map, List.map_map]
    exact List.map_congr_left fun e he => fileName_eq e.1 (hx e he)
  have hwn : ((write ds).map Prod.fst).Nodup := by
    rw [hw]; exact hn.map fun a b h => List.append_cancel_right h
  constructor
  · intro h
    rw [h, hf, ← hw] at h2
    -- the same keys in the same order, and a permutation
    have hln : (listing.map Prod.fst).Nodup := by rw [← h2]; exact hwn
    have hlen : listing.length = (write ds).length := hl.length_eq
    apply List.ext_getElem hlen
    intro i hi hi'
    have hk : (listing[i]).1 = ((write ds)[i]).1 := by
      have := congrArg (fun l => l[i]?) h2
      simp only [List.getElem?_map, List.getElem?_eq_getElem hi, List.getElem?_eq_getElem hi', Option.map_some, Option.some.injEq] at this
      exact this.symm
    have hm : listing[i] ∈ write ds := hl.mem_iff.1 (List.getElem_mem hi)
    apply Prod.ext hk
    have g1 := Dict.get_of_mem (d := write ds) hwn (show ((listing[i]).1, (listing[i]).2) ∈ write ds from hm)
    have g2 := Dict.get_of_mem (d := write ds) hwn (show (((write ds)[i]).1, ((write ds)[i]).2) ∈ write ds from List.getElem_mem hi')
    rw [hk, g2] at g1
    exact (Option.some.inj g1).symm
  · intro h
    subst h
    have hp : (write ds).map (fun f => colName f.1) = ds.map Prod.fst := by
      rw [write_eq ds hn hx, List.map_map]
      exact List.map_congr_left fun e he => colName_append e.1 (hx e he)
    rw [read, fold_set (fun f : Name × List V => colName f.1) (fun f => Col.plain f.2), List.nil_append, List.map_map]
    · exact hp
    · simpa [Dict.keys, hp] using hn

/-- A Dataset with two columns. -/
def exDs : List (Name × Col Nat String) := [("b".toList, .plain [1, 2]), ("a.np".toList, .plain [3, 4])]

example : (read (write exDs).reverse : List (Name × Col Nat String)).Perm exDs :=
  round_trip_partial exDs (by decide) (by decide) (by simp [exDs]) _ (List.reverse_perm _)

/-- Disagreement (C282): `os.listdir` lists in any order, so the order of the columns is lost. -/
theorem order_counterexample : ∃ listing : List (Name × List Nat), listing.Perm (write exDs) ∧
    (read listing : List (Name × Col Nat String)).map Prod.fst ≠ exDs.map Prod.fst :=
  ⟨(write exDs).reverse, List.reverse_perm _, by decide +kernel⟩

/-- Disagreement (C282): `.npy` is removed anywhere in the name, and columns `a` and `a.npy` share a file. -/
theorem name_counterexample :
    (read (write [("a.npyb".toList, (.plain [1] : Col Nat String))]) : List (Name × Col Nat String)) = [("ab".toList, .plain [1])] ∧
      (read (write [("a".toList, (.plain [1] : Col Nat String)), ("a.npy".toList, .plain [2])]) : List (Name × Col Nat String)) =
        [("a".toList, .plain [2])] := by decide +kernel

/-- Disagreement (C283): a Categorical comes back as the array of its codes. -/
theorem category_counterexample :
    (read (write [("a".toList, (.coded [1, 2] ["x", "y"] : Col Nat String))]) : List (Name × Col Nat String)) = [("a".toList, .plain [1, 2])] := by
  decide +kernel

/-- **C283**, what is true: all columns come back as the arrays that numpy sees. -/
theorem raw_partial (ds : List (Name × Col V L)) (hn : (ds.map Prod.fst).Nodup) (hx : ∀ e ∈ ds, ¬ ext <:+: e.1)
    (listing : List (Name × List V)) (hl : listing.Perm (write ds)) :
    (read listing : List (Name × Col V L)).Perm (ds.map fun e => (e.1, .plain e.2.raw)) :=
  (raw_exact ds hn hx listing hl).1

end Verif.NpIo
