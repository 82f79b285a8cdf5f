import Verif.PDs.Names
/-! # Theorems on Datasets in partitions -/
namespace Verif.PDs
open Verif.Items (Name Dict)
open Verif.Items.Dict

variable {R : Type}

theorem inv_list {cols : List Name} {dss : List (List R)} {files : List Name} {pn : Option (List Name)} {d : PDS R}
    (h : ofList cols dss files pn = some d) (hfiles : pn = none → files = [] ∨ files.length = dss.length)
    (hpn : ∀ ps, pn = some ps → ps.Nodup ∧ ps.length = dss.length) :
    d.pcat = none ∧ Inv d dss (pn.getD (if files = [] then autoNames dss.length else fileNames files)) := by
  unfold ofList at h
  by_cases hd : dss = []
  · rw [if_pos hd] at h; cases h
  · rw [if_neg hd] at h
    cases h
    refine ⟨rfl, ⟨rfl, rfl, rfl, ?_, ?_⟩⟩
    · cases pn with
      | some ps => exact (hpn ps rfl).1
      | none =>
        simp only [Option.getD_none]
        split
        · exact autoNames_nodup _
        · exact (fileNames_ok files).2
    · cases pn with
      | some ps => exact (hpn ps rfl).2
      | none =>
        simp only [Option.getD_none]
        rcases hfiles rfl with hf | hf
        · rw [if_pos hf, autoNames_length]
        · split
          · exact autoNames_length _
          · rw [(fileNames_ok files).1, hf]

/-- A PDataset made of a list of Datasets shows exactly these Datasets as its partitions,
under different names: the given ones, if there are any. -/
theorem list_shows {cols : List Name} {dss : List (List R)} {files : List Name} {pn : Option (List Name)} {d : PDS R}
    (h : ofList cols dss files pn = some d) (hfiles : pn = none → files = [] ∨ files.length = dss.length)
    (hpn : ∀ ps, pn = some ps → ps.Nodup ∧ ps.length = dss.length) :
    ∃ ps, ps.Nodup ∧ ps.length = dss.length ∧ (∀ qs, pn = some qs → ps = qs) ∧ Shows d dss ps := by
  have hi := (inv_list h hfiles hpn).2
  refine ⟨_, hi.nodup, hi.len, ?_, shows_of_inv hi⟩
  intro qs hq
  subst hq
  rfl

/-- three Datasets, one of them empty -/
def exDss : List (List Nat) := [[1, 2], [], [3]]

example : ∃ d, ofList ["x".toList] exDss [] none = some d ∧ ∃ ps, ps.Nodup ∧ ps.length = exDss.length ∧
    (∀ qs, none = some qs → ps = qs) ∧ Shows d exDss ps :=
  ⟨_, rfl, list_shows (files := []) (pn := none) rfl (fun _ => Or.inl rfl) (by simp)⟩

example : (ofList ["x".toList] exDss [] none).map (fun d => (names d, piter d)) =
    some (["p0".toList, "p1".toList, "p2".toList],
      some [("p0".toList, [1, 2]), ("p1".toList, []), ("p2".toList, [3])]) := by decide +kernel

/-- Every non-empty list of Datasets makes a PDataset. -/
theorem list_some (cols : List Name) (dss : List (List R)) (files : List Name) (pn : Option (List Name)) :
    (ofList cols dss files pn).isSome ↔ dss ≠ [] := by
  unfold ofList
  split <;> simp_all

/-- Files that are stacked, and whose names differ in a number of fixed width such as a date,
are the partitions, named by that number. -/
theorem files_shows (cols : List Name) (dss : List (List R)) (pre suf : Name) (ds : List Name) (m : Nat)
    (hlen : ds.length = dss.length) (h2 : 2 ≤ ds.length) (hn : ds.Nodup)
    (hm : ∀ d ∈ ds, d.length = m) (hd : ∀ d ∈ ds, ∀ c ∈ d, c.isDigit = true)
    (hpre : ∀ c, pre.getLast? = some c → ¬ (48 ≤ c.toNat ∧ c.toNat ≤ 58))
    (hsuf : ∀ c, suf.head? = some c → ¬ (48 ≤ c.toNat ∧ c.toNat ≤ 58)) :
    Shows (make cols dss.flatten (some (cumsum 0 (dss.map List.length))) (ds.map fun d => pre ++ d ++ suf) none)
      dss ds := by
  have hne : (ds.map fun d => pre ++ d ++ suf) ≠ [] := by
    intro h
    have := congrArg List.length h
    simp at this
    rw [this] at h2
    simp at h2
  refine shows_of_inv ⟨rfl, rfl, ?_, hn, hlen⟩
  simp only [make, Option.getD_none, if_neg hne, fileNames_number pre suf ds m h2 hn hm hd hpre hsuf]

example : Shows (make ["x".toList] [1, 2, 3] (some [2, 3]) ["d/0204.sds".toList, "d/0205.sds".toList] none)
    [[1, 2], [3]] ["0204".toList, "0205".toList] :=
  files_shows ["x".toList] [[1, 2], [3]] "d/".toList ".sds".toList ["0204".toList, "0205".toList] 4 rfl (by decide)
    (by decide) (by decide) (by decide) (by intro c h; revert h; simp; rintro rfl; decide)
    (by intro c h; revert h; simp; rintro rfl; decide)

/-- A number finds the partition named by it, unless it is the position of a column. -/
theorem item_int {d : PDS R} {dss : List (List R)} {ps : List Name} (h : Inv d dss ps) (i : Nat) (k : Int)
    (hk : ps[i]? = some (intName k)) (hc : (d.cols.length : Int) ≤ k ∨ k < -(d.cols.length : Int)) :
    ∃ r, dss[i]? = some r ∧ getItem d (.int k) = .part r := by
  have hl : i < dss.length := by rw [← h.len]; exact (List.getElem?_eq_some_iff.1 hk).1
  have hnone : pyGet d.cols k = none := by
    unfold pyGet
    by_cases h0 : 0 ≤ k
    · rw [if_pos h0, List.getElem?_eq_none]
      omega
    · rw [if_neg h0, if_neg (by omega)]
  refine ⟨dss[i], List.getElem?_eq_getElem hl, ?_⟩
  have hp := (shows_of_inv h).part i hl
  rw [List.getElem?_eq_getElem hl] at hp
  rw [getItem, hnone]
  simp only [byName, h.pnames, nameDict_get h.nodup hk, hp]

/-- The same for a PDataset made of a list. -/
theorem list_item_int {cols : List Name} {dss : List (List R)} {ps : List Name} {d : PDS R}
    (h : ofList cols dss [] (some ps) = some d) (hn : ps.Nodup) (hl : ps.length = dss.length) (i : Nat) (k : Int)
    (hk : ps[i]? = some (intName k)) (hc : (cols.length : Int) ≤ k ∨ k < -(cols.length : Int)) :
    ∃ r, dss[i]? = some r ∧ getItem d (.int k) = .part r := by
  have hi := (inv_list h (by simp) (by rintro _ ⟨⟩; exact ⟨hn, hl⟩)).2
  have hcol : d.cols = cols := by
    unfold ofList at h
    split at h
    · cases h
    · cases h; rfl
  exact item_int hi i k hk (by rw [hcol]; exact hc)

example : ∃ r, [[1, 2], [3]][1]? = some r ∧
    getItem (make ["x".toList] [1, 2, 3] (some [2, 3]) [] (some ["20190204".toList, "20190205".toList])) (.int 20190205)
      = .part r :=
  list_item_int (R := Nat) (cols := ["x".toList]) (dss := [[1, 2], [3]]) (ps := ["20190204".toList, "20190205".toList])
    (by decide +kernel) (by decide) rfl 1 20190205 (by decide) (by decide)

/-- A column with the name of a partition hides the partition. -/
theorem item_column_counterexample :
    (ofList ["p1".toList] [[1], [2]] [] none).map (fun d => getItem d (.str "p1".toList)) = some (.column "p1".toList) := by
  decide +kernel

/-- A number that is the position of a column gives the column. -/
theorem item_position_counterexample :
    (ofList ["x".toList, "y".toList] [[1], [2]] [] (some ["1".toList, "2".toList])).map (fun d => getItem d (.int 1))
      = some (.column "y".toList) := by
  decide +kernel

/-- The first partition cannot be reached from the end, as the others can. -/
theorem back_first {cols : List Name} {dss : List (List R)} {d : PDS R}
    (h : ofList cols dss [] none = some d) : partition d (-(dss.length : Int)) = none := by
  have hi := (inv_list h (fun _ => Or.inl rfl) (by simp)).2
  have hne : dss ≠ [] := (list_some _ _ _ _).1 (by rw [h]; rfl)
  have hpos : 0 < dss.length := List.length_pos_iff.2 hne
  have hl : d.cutoffs.length = dss.length := by rw [hi.cutoffs, cumsum_length, List.length_map]
  have a1 : ¬ -(dss.length : Int) = 0 := by omega
  have a2 : ¬ (0 : Int) ≤ -(dss.length : Int) - 1 := by omega
  have a3 : ¬ -(d.cutoffs.length : Int) ≤ -(dss.length : Int) - 1 := by omega
  rw [partition, pslice, if_neg a1, pyGet, if_neg a2, if_neg a3]
  rfl

example : partition (make ["x".toList] [1, 2] (some [1, 2]) [] (some ["p0".toList, "p1".toList])) (-2) = none :=
  back_first (cols := ["x".toList]) (dss := [[1], [2]]) (d := make ["x".toList] [1, 2] (some [1, 2]) []
    (some ["p0".toList, "p1".toList])) (by decide +kernel)

/-- Names given twice make the partitions unusable: iterating over them raises. -/
theorem names_twice_counterexample :
    (ofList ["x".toList] [[1], [2]] [] (some ["a".toList, "a".toList])).map (fun d => (names d, piter d))
      = some (["a".toList], none) := by
  decide +kernel

/-! ## New names, copies -/

theorem setPnames_inv {d : PDS R} {dss : List (List R)} {ps : List Name} (h : Inv d dss ps) (qs : List Name) :
    (∀ d', setPnames d qs = some d' → Inv d' dss qs) ∧
      ((setPnames d qs).isSome ↔ qs.length = dss.length ∧ qs.Nodup) := by
  have hlen : d.pnames.length = dss.length := by
    rw [h.pnames, nameDict_nodup h.nodup]
    simp [h.len]
  unfold setPnames
  by_cases h1 : qs.length = d.pnames.length
  · rw [if_pos h1]
    by_cases h2 : (nameDict qs).length = d.pnames.length
    · rw [if_pos h2]
      have hn := nodup_of_length (h2.trans h1.symm)
      refine ⟨?_, by simp [h1, hlen, hn]⟩
      rintro _ ⟨⟩
      exact ⟨h.rows, h.cutoffs, rfl, hn, h1.trans hlen⟩
    · rw [if_neg h2]
      refine ⟨by simp, ?_⟩
      simp only [Option.isSome_none, Bool.false_eq_true, false_iff, not_and]
      intro _ hn
      rw [nameDict_nodup hn] at h2
      simp [h1] at h2
  · rw [if_neg h1]
    refine ⟨by simp, ?_⟩
    simp only [Option.isSome_none, Bool.false_eq_true, false_iff, not_and]
    intro h3
    exact absurd (h3.trans hlen.symm) h1

/-- New names are accepted exactly if there is one for each partition and all are different,
and then the same partitions are shown under the new names. -/
theorem setPnames_exact {cols : List Name} {dss : List (List R)} {d : PDS R}
    (h : ofList cols dss [] none = some d) (qs : List Name) :
    ((setPnames d qs).isSome ↔ qs.length = dss.length ∧ qs.Nodup) ∧
      ∀ d', setPnames d qs = some d' → Shows d' dss qs := by
  have hi := (inv_list h (fun _ => Or.inl rfl) (by simp)).2
  have := setPnames_inv hi qs
  exact ⟨this.2, fun d' hd' => shows_of_inv (this.1 d' hd')⟩

example : (setPnames (make ["x".toList] [1, 2] (some [1, 2]) [] (some ["p0".toList, "p1".toList]))
    ["b".toList, "a".toList]).isSome :=
  (setPnames_exact (cols := ["x".toList]) (dss := [[1], [2]]) (by decide +kernel) _).1.2 ⟨rfl, by decide⟩

/-- The Categorical of the partitions keeps the old names if it has been used before. -/
theorem pcat_stale_counterexample : ∃ d d' : PDS Nat, ofList ["x".toList] [[1], [2]] [] none = some d ∧
    setPnames (pcat d).2 ["a".toList, "b".toList] = some d' ∧ names d' = ["a".toList, "b".toList] ∧
    shown (pcat d').1 = [some "p0".toList, some "p1".toList] :=
  ⟨_, _, rfl, rfl, by decide +kernel, by decide +kernel⟩

/-- A copy shows the same partitions. -/
theorem copy_shows {cols : List Name} {dss : List (List R)} {d : PDS R} (h : ofList cols dss [] none = some d) :
    ∃ ps, Shows d dss ps ∧ Shows (copy d) dss ps ∧ Shows (copy (pcat d).2) dss ps := by
  have hi := (inv_list h (fun _ => Or.inl rfl) (by simp)).2
  refine ⟨_, shows_of_inv hi, shows_of_inv ⟨hi.rows, hi.cutoffs, hi.pnames, hi.nodup, hi.len⟩, shows_of_inv ?_⟩
  have hp : copy (pcat d).2 = copy d := by
    unfold copy pcat
    cases d.pcat <;> rfl
  rw [hp]
  exact ⟨hi.rows, hi.cutoffs, hi.pnames, hi.nodup, hi.len⟩

example : ∃ ps, Shows (make ["x".toList] [1, 2] (some [1, 2]) [] (some ["p0".toList, "p1".toList])) [[1], [2]] ps ∧
    Shows (copy (make ["x".toList] [1, 2] (some [1, 2]) [] (some ["p0".toList, "p1".toList]))) [[1], [2]] ps ∧
    Shows (copy (pcat (make ["x".toList] [1, 2] (some [1, 2]) [] (some ["p0".toList, "p1".toList]))).2) [[1], [2]] ps :=
  copy_shows (cols := ["x".toList]) (by decide +kernel)

/-! ## Operations that change the rows -/

/-- Filtering in place leaves the borders between the partitions where they were: a row that
is left moves to another partition. -/
theorem filter_inplace_counterexample : ∃ d : PDS Nat, ofList ["x".toList] [[1, 2], [3, 4]] [] none = some d ∧
    piter (filterInplace d [1, 2, 3]) = some [("p0".toList, [2, 3]), ("p1".toList, [4])] :=
  ⟨_, rfl, by decide +kernel⟩

/-- Sorting in place does so too. -/
theorem sort_inplace_counterexample : ∃ d : PDS Nat, ofList ["x".toList] [[3, 4], [1, 2]] [] none = some d ∧
    piter (sortInplace d [2, 3, 0, 1]) = some [("p0".toList, [1, 2]), ("p1".toList, [3, 4])] :=
  ⟨_, rfl, by decide +kernel⟩

/-- What is in a partition after rows have been replaced in place: the rows that are now at
its place, so that the partitions are still all rows as long as no rows are added or taken
away. -/
theorem inplace_exact {cols : List Name} {dss : List (List R)} {d : PDS R} (h : ofList cols dss [] none = some d)
    (order : List Nat) (ho : order.length = d.rows.length) (hb : ∀ i ∈ order, i < d.rows.length) :
    ∃ ps es, Shows d dss ps ∧ Shows { sortInplace d order with pcat := none } es ps ∧
      es.map List.length = dss.map List.length ∧ es.flatten = takeRows d.rows order := by
  have hi := (inv_list h (fun _ => Or.inl rfl) (by simp)).2
  have hlen : (takeRows d.rows order).length = (dss.map List.length).sum := by
    have h1 : (takeRows d.rows order).length = order.length := by
      unfold takeRows
      clear ho
      induction order with
      | nil => rfl
      | cons i order ih =>
        rw [List.filterMap_cons, List.getElem?_eq_getElem (hb i (by simp))]
        simp only [List.length_cons]
        rw [ih fun j hj => hb j (by simp [hj])]
    rw [h1, ho, hi.rows, List.length_flatten]
  have hsplit : ∀ (ns : List Nat) (rows : List R), rows.length = ns.sum →
      ∃ es : List (List R), es.map List.length = ns ∧ es.flatten = rows := by
    intro ns
    induction ns with
    | nil => intro rows hr; exact ⟨[], rfl, (List.length_eq_zero_iff.1 hr).symm⟩
    | cons n ns ih =>
      intro rows hr
      rw [List.sum_cons] at hr
      obtain ⟨es, h1, h2⟩ := ih (rows.drop n) (by rw [List.length_drop]; omega)
      refine ⟨rows.take n :: es, ?_, ?_⟩
      · rw [List.map_cons, h1, List.length_take, Nat.min_eq_left (by omega)]
      · rw [List.flatten_cons, h2, List.take_append_drop]
  obtain ⟨es, h1, h2⟩ := hsplit _ _ hlen
  refine ⟨_, es, shows_of_inv hi, shows_of_inv ⟨h2.symm, ?_, hi.pnames, hi.nodup, ?_⟩, h1, h2⟩
  · rw [h1]; exact hi.cutoffs
  · rw [hi.len]
    have := congrArg List.length h1
    simpa using this.symm

example : ∃ ps es, Shows (make ["x".toList] [3, 1] (some [1, 2]) [] (some ["p0".toList, "p1".toList])) [[3], [1]] ps ∧
    Shows { sortInplace (make ["x".toList] [3, 1] (some [1, 2]) [] (some ["p0".toList, "p1".toList])) [1, 0] with pcat := none } es ps ∧
    es.map List.length = [[3], [1]].map List.length ∧ es.flatten = takeRows [3, 1] [1, 0] :=
  inplace_exact (cols := ["x".toList]) (dss := [[3], [1]]) (by decide +kernel) [1, 0] rfl (by decide)

/-- A sorted copy has a single partition. -/
theorem sortCopy_shows (d : PDS R) (order : List Nat) :
    Shows (sortCopy d order) [takeRows d.rows order] ["p0".toList] := by
  refine shows_of_inv ⟨by simp [sortCopy, make], by simp [sortCopy, make, cumsum], ?_, by simp, rfl⟩
  simp only [sortCopy, make, Option.getD_none]
  congr 1

end Verif.PDs
