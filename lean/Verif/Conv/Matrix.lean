import Verif.Conv.Model
import Mathlib.Data.List.Dedup
import Mathlib.Data.Rat.Cast.Order

namespace Verif.Conv

variable {N T : Type} [LinearOrder T]

theorem mem_uniques (vals : List T) (v : T) : v ∈ uniques vals ↔ v ∈ vals := by
  unfold uniques
  rw [List.mem_insertionSort, List.mem_dedup]

/-- The matrix has one column for every column of the Dataset, numbers are the numbers of the Dataset, and `column_info` has the same names. -/
theorem numbers_exact (conv : N → Option Rat) (ds : List (Name × Col N T)) (cd : Name → Option (List T)) :
    (asMatrix conv ds cd).1.length = ds.length ∧ (asMatrix conv ds cd).2.map Prod.fst = ds.map Prod.fst ∧
    ∀ (c : Nat) (n : Name) (vals : List N), ds[c]? = some (n, .num vals) → (asMatrix conv ds cd).1[c]? = some (vals.map conv) := by
  refine ⟨by simp [asMatrix], by simp [asMatrix, Function.comp_def], ?_⟩
  intro c n vals h
  simp [asMatrix, h, normalize]

/-- Texts and Booleans without a key: every cell is the place of the value among the category values, which are sorted and are exactly
the values of the column. -/
theorem text_exact (conv : N → Option Rat) (ds : List (Name × Col N T)) (cd : Name → Option (List T)) (c : Nat) (n : Name) (vals : List T)
    (h : ds[c]? = some (n, .other vals)) (hk : cd n = none) :
    ∃ (cells : List (Option Rat)) (cats : List T),
      (asMatrix conv ds cd).1[c]? = some cells ∧ (asMatrix conv ds cd).2[c]? = some (n, ⟨some cats, false⟩) ∧
      cells.length = vals.length ∧ cats.Pairwise (· < ·) ∧ (∀ v, v ∈ cats ↔ v ∈ vals) ∧
      ∀ (r : Nat) (v : T), vals[r]? = some v → ∃ k : Nat, cells[r]? = some (some (k : Rat)) ∧ cats[k]? = some v := by
  refine ⟨inverse vals, uniques vals, by simp [asMatrix, h, normalize, hk], by simp [asMatrix, h, normalize, hk], by simp [inverse], ?_,
    mem_uniques vals, ?_⟩
  · have h1 : (uniques vals).Pairwise (· ≤ ·) := List.pairwise_insertionSort _ _
    have h2 : (uniques vals).Nodup := (List.perm_insertionSort _ _).nodup_iff.2 (List.nodup_dedup vals)
    have := h1.and h2
    exact this.imp fun ⟨a, b⟩ => lt_of_le_of_ne a b
  · intro r v hv
    have hm : v ∈ uniques vals := (mem_uniques vals v).2 (List.mem_of_getElem? hv)
    refine ⟨(uniques vals).idxOf v, by simp [inverse, hv], ?_⟩
    rw [List.getElem?_eq_getElem (List.idxOf_lt_length_of_mem hm)]
    simp

/-- With a key every cell is the place in the key, NaN for values that the key does not have. -/
theorem keyed_exact (conv : N → Option Rat) (ds : List (Name × Col N T)) (cd : Name → Option (List T)) (c : Nat) (n : Name) (vals fk : List T)
    (h : ds[c]? = some (n, .other vals)) (hk : cd n = some fk) :
    ∃ cells : List (Option Rat),
      (asMatrix conv ds cd).1[c]? = some cells ∧ (asMatrix conv ds cd).2[c]? = some (n, ⟨some fk, false⟩) ∧ cells.length = vals.length ∧
      ∀ (r : Nat) (v : T), vals[r]? = some v →
        (v ∈ fk → ∃ k : Nat, cells[r]? = some (some (k : Rat)) ∧ fk[k]? = some v) ∧ (v ∉ fk → cells[r]? = some none) := by
  refine ⟨keyed fk vals, by simp [asMatrix, h, normalize, hk], by simp [asMatrix, h, normalize, hk], by simp [keyed], ?_⟩
  intro r v hv
  refine ⟨fun hm => ⟨fk.idxOf v, by simp [keyed, hv, hm], ?_⟩, fun hm => by simp [keyed, hv, hm]⟩
  rw [List.getElem?_eq_getElem (List.idxOf_lt_length_of_mem hm)]
  simp

/-- Two Datasets with the same key: values of the key have the same cell if and only if they are the same. -/
theorem keyed_compare (conv : N → Option Rat) (ds ds' : List (Name × Col N T)) (cd cd' : Name → Option (List T)) (c c' : Nat) (n n' : Name)
    (vals vals' fk : List T) (h : ds[c]? = some (n, .other vals)) (h' : ds'[c']? = some (n', .other vals'))
    (hk : cd n = some fk) (hk' : cd' n' = some fk) (r r' : Nat) (v v' : T) (hv : vals[r]? = some v) (hv' : vals'[r']? = some v')
    (hm : v ∈ fk) :
    ((asMatrix conv ds cd).1[c]?.bind (·[r]?) = (asMatrix conv ds' cd').1[c']?.bind (·[r']?) ↔ v = v') := by
  obtain ⟨cells, e1, _, _, e2⟩ := keyed_exact conv ds cd c n vals fk h hk
  obtain ⟨cells', e1', _, _, e2'⟩ := keyed_exact conv ds' cd' c' n' vals' fk h' hk'
  obtain ⟨k, hk1, hk2⟩ := (e2 r v hv).1 hm
  rw [e1, e1']
  simp only [Option.bind_some, hk1]
  constructor
  · intro he
    by_cases hm' : v' ∈ fk
    · obtain ⟨k', hk1', hk2'⟩ := (e2' r' v' hv').1 hm'
      rw [hk1'] at he
      have : k = k' := by
        have := Option.some.inj (Option.some.inj he)
        exact_mod_cast this
      subst this
      rw [hk2] at hk2'
      exact Option.some.inj hk2'
    · rw [(e2' r' v' hv').2 hm'] at he
      simp at he
  · rintro rfl
    -- both are the place of the first occurrence
    have a : cells[r]? = some (some ((fk.idxOf v : Nat) : Rat)) := by
      have : cells = keyed fk vals := by
        have := e1; simp [asMatrix, h, normalize, hk] at this; exact this.symm
      simp [this, keyed, hv, hm]
    have b : cells'[r']? = some (some ((fk.idxOf v : Nat) : Rat)) := by
      have : cells' = keyed fk vals' := by
        have := e1'; simp [asMatrix, h', normalize, hk'] at this; exact this.symm
      simp [this, keyed, hv', hm]
    rw [b, ← hk1, a]

/-- Without a key the same value has different cells in two Datasets, and different values the same. -/
theorem compare_counterexample :
    ∃ (ds ds' : List (Name × Col Int Nat)),
      (asMatrix (fun x : Int => some (x : Rat)) ds fun _ => none).1[0]?.bind (·[0]?) ≠ (asMatrix (fun x : Int => some (x : Rat)) ds' fun _ => none).1[0]?.bind (·[0]?) ∧
      (asMatrix (fun x : Int => some (x : Rat)) ds fun _ => none).1[0]?.bind (·[1]?) = (asMatrix (fun x : Int => some (x : Rat)) ds' fun _ => none).1[0]?.bind (·[0]?) ∧
      ds = [(['a'], .other [7, 5])] ∧ ds' = [(['a'], .other [7])] :=
  ⟨_, _, by decide +kernel, by decide +kernel, rfl, rfl⟩

/-- A column of Booleans that are all True is a column of zeros, as if they were all False. -/
theorem bool_counterexample :
    ∃ (t f : List (Name × Col Int Bool)),
      (asMatrix (fun x : Int => some (x : Rat)) t fun _ => none).1 = [[some 0, some 0]] ∧ (asMatrix (fun x : Int => some (x : Rat)) f fun _ => none).1 = [[some 0, some 0]] ∧
      t = [(['a'], .other [true, true])] ∧ f = [(['a'], .other [false, false])] :=
  ⟨_, _, by decide +kernel, by decide +kernel, rfl, rfl⟩

/-- Of a Categorical the cells are the codes, counted from 1, which are not the places in the category values. -/
theorem category_counterexample :
    ∃ (codes : List Nat) (cats : List Nat),
      (asMatrix (fun x : Int => some (x : Rat)) [(['a'], .cat codes cats)] fun _ => none).1 = [[some 1, some 2]] ∧
      cats[(1 : Nat)]? = some 6 ∧ cats[(2 : Nat)]? = none ∧ codes.map (fun k => cats[k - 1]?) = [some 5, some 6] :=
  ⟨[1, 2], [5, 6], by decide +kernel, rfl, rfl, rfl⟩

/-- Cells of a Categorical are one more than the place in the category values, 0 for rows without a category. -/
theorem category_exact (conv : N → Option Rat) (ds : List (Name × Col N T)) (cd : Name → Option (List T)) (c : Nat) (n : Name)
    (codes : List Nat) (cats : List T) (h : ds[c]? = some (n, .cat codes cats)) :
    ∃ cells : List (Option Rat),
      (asMatrix conv ds cd).1[c]? = some cells ∧ (asMatrix conv ds cd).2[c]? = some (n, ⟨some cats, true⟩) ∧
      cells.length = codes.length ∧
      ∀ (r k : Nat), codes[r]? = some k → cells[r]? = some (some (k : Rat)) := by
  refine ⟨codes.map fun k => some ((k : Nat) : Rat), by simp [asMatrix, h, normalize], by simp [asMatrix, h, normalize], by simp, ?_⟩
  intro r k hk
  simp [hk]

/-- texts with and without a key -/
example : (asMatrix (fun x : Int => some (x : Rat)) [(['n'], .num [3, -1, 4]), (['t'], .other [7, 5, 7]), (['k'], .other [7, 5, 6])]
    (fun n => if n = ['k'] then some [6, 7] else none)).1 =
    [[some 3, some (-1), some 4], [some 1, some 0, some 1], [some 1, none, some 0]] := by decide +kernel

end Verif.Conv
