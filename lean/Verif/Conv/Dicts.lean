import Verif.Conv.Model
import Verif.PDs.Names

namespace Verif.Conv

theorem fill_zip {V : Type} (names : List Name) (cols : List (List V)) (hn : names.Nodup) :
    fill names cols = List.zip names cols := by
  have aux : ∀ (l d : List (Name × List V)), ((d ++ l).map Prod.fst).Nodup →
      l.foldl (fun d e => put d e.1 e.2) d = d ++ l := by
    intro l
    induction l with
    | nil => simp
    | cons e t ih =>
      intro d h
      have hne : e.1 ∉ d.map Prod.fst := by
        simp only [List.map_append, List.map_cons] at h
        have := (List.nodup_append.1 h).2.2
        intro hm
        exact this _ hm _ (by simp) rfl
      rw [List.foldl_cons, put, if_neg hne, ih]
      · simp
      · simpa using h
  unfold fill
  rw [aux _ []]
  · simp
  · simp only [List.nil_append]
    have : (List.zip names cols).map Prod.fst <+: names := by
      induction names generalizing cols with
      | nil => simp
      | cons a t ih =>
        cases cols with
        | nil => simp
        | cons b u =>
          simp only [List.zip_cons_cons, List.map_cons, List.cons_prefix_cons, true_and]
          exact ih u (List.nodup_cons.1 hn).2
    exact this.sublist.nodup hn

theorem varNames_nodup (n : Nat) : ((List.range n).map varName).Nodup := by
  rw [List.nodup_map_iff_inj_on List.nodup_range]
  intro a _ b _ h
  exact Verif.PDs.toDigits_inj (List.append_cancel_left h)

/-- Two dimensions: with as many different names as columns the dictionary has the columns under these names, in order. -/
theorem two_partial {V : Type} (cols : List (List V)) (names : List Name) (hlen : names.length = cols.length) (hn : names.Nodup) :
    toDict (.two cols) (.list names) = .ok (List.zip names cols) ∧ twoD cols names = .ok (List.zip names cols) := by
  simp [toDict, twoToDict, twoD, Names.items, hlen, fill_zip names cols hn]

/-- Without names every column is there once, under `Var_0`, `Var_1` and so on. -/
theorem two_default {V : Type} (cols : List (List V)) :
    ∃ names : List Name, toDict (.two cols) .none = .ok (List.zip names cols) ∧ names.length = cols.length ∧ names.Nodup ∧
      ∀ k, k < cols.length → names[k]? = some ("Var_".toList ++ Nat.toDigits 10 k) := by
  refine ⟨(List.range cols.length).map varName, ?_, by simp, varNames_nodup _, ?_⟩
  · simp [toDict, twoToDict, fill_zip _ cols (varNames_nodup _)]
  · intro k hk
    simp [hk, varName]

/-- A wrong number of names is refused, in two dimensions and of structured arrays; more than one name in one dimension, too. -/
theorem count_exact {V : Type} (cols : List (List V)) (fs : List (Name × List V)) (vals : List V) (names : List Name) :
    (names.length ≠ cols.length → toDict (.two cols) (.list names) = .error .valueError ∧ twoD cols names = .error .valueError) ∧
    (names.length ≠ fs.length → toDict (.fields fs) (.list names) = .error .valueError) ∧
    (1 < names.length → toDict (.one vals) (.list names) = .error .valueError) := by
  refine ⟨fun h => ⟨?_, ?_⟩, fun h => ?_, fun h => ?_⟩
  · simp [toDict, twoToDict, Names.items, h]
  · simp [twoD, h]
  · simp [toDict, fieldsToDict, Names.items, h.symm]
  · simp [toDict, oneToDict, h]

/-- Structured arrays: the fields in order, under their names or under the names that are given (if they are different). -/
theorem fields_partial {V : Type} (fs : List (Name × List V)) (hf : (fs.map Prod.fst).Nodup) (names : List Name) (hn : names.Nodup)
    (hlen : names.length = fs.length) :
    toDict (.fields fs) .none = .ok fs ∧ toDict (.fields fs) (.list names) = .ok (List.zip names (fs.map Prod.snd)) := by
  constructor
  · simp only [toDict, fieldsToDict, fill_zip _ _ hf]
    congr 1
    induction fs with
    | nil => rfl
    | cons a t ih => simp at hf; simp [List.zip_map, List.zip_eq_zipWith]
  · simp [toDict, fieldsToDict, Names.items, hlen, fill_zip names _ hn]

/-- One dimension: one item, under the name that is given or `Var`. -/
theorem one_exact {V : Type} (vals : List V) (n : Name) :
    toDict (.one vals) (.list [n]) = .ok [(n, vals)] ∧ toDict (.one vals) (.str n) = .ok [(n, vals)] ∧
    toDict (.one vals) .none = .ok [("Var".toList, vals)] := by
  refine ⟨rfl, rfl, rfl⟩

/-- A name that is given twice loses a column without an error. -/
theorem twice_counterexample :
    ∃ (cols : List (List Nat)) (names : List Name), names.length = cols.length ∧
      toDict (.two cols) (.list names) = .ok [(['a'], [3, 4])] ∧ twoD cols names = .ok [(['a'], [3, 4])] ∧
      cols = [[1, 2], [3, 4]] :=
  ⟨[[1, 2], [3, 4]], [['a'], ['a']], by decide, by decide, by decide, rfl⟩

/-- A text as `columns` of a matrix is taken letter by letter, and an empty list of names for one dimension raises IndexError. -/
theorem str_counterexample :
    ∃ (cols : List (List Nat)) (s : Name), toDict (.two cols) (.str s) = .ok [(['a'], [1, 2]), (['b'], [3, 4])] ∧ s = ['a', 'b'] ∧
      toDict (.one ([] : List Nat)) (.list []) = .error .indexError :=
  ⟨[[1, 2], [3, 4]], ['a', 'b'], by decide, rfl, by decide⟩

example : toDict (.two [[(1 : Nat), 2], [3, 4]]) (.list [['x'], ['y']]) = .ok [(['x'], [1, 2]), (['y'], [3, 4])] :=
  (two_partial [[(1 : Nat), 2], [3, 4]] [['x'], ['y']] rfl (by decide)).1

example : toDict (.fields [(['x'], [1, 2]), (['y'], [3, 4])]) (.list [['u'], ['v']]) = .ok [(['u'], [1, 2]), (['v'], [3, 4])] :=
  (fields_partial [(['x'], [1, 2]), (['y'], [3, 4])] (by decide) [['u'], ['v']] (by decide) rfl).2

end Verif.Conv
