import Mathlib.Data.List.Sort
import Mathlib.Tactic.Linarith
/-!
# C247, C248, C252: loading selected rows of an .sds file

`load_sds(file, filter=…)` turns its filter into a boolean mask (`rt_sds.py:1512-1533`, `:2270-2280`) and hands the mask to
the C++ reader, which is not in the repository.  Contract of the reader for a mask that is not empty: every column keeps the
rows whose entry is `True`, in the order of the file, and rows past the end of the mask are left out.  For an empty mask
nothing is assumed (`zread`): Python throws the rows away itself (`:2380-2382`).
-/
namespace Verif.SdsStack

/-- names are lists of characters, because `find("!")` is modelled -/
abbrev Name := List Char

inductive Err where
  | type | index | value | key
deriving DecidableEq, Repr

/-- the `filter` argument after `np.atleast_1d` (`rt_sds.py:1513-1514`), by the kind of its elements -/
inductive Filter where
  | bools (m : List Bool)
  | ints (v : List Int)
  | other            -- floats, text, objects, times; also `[]`, which numpy makes an array of floats
deriving DecidableEq

/-! ## Specification -/

/-- the rows at the positions `ps` (all in range) -/
def rowsAt {α : Type} (l : List α) (ps : List Nat) : List α := ps.filterMap fun p : Nat => l[p]?

/-- the positions below `n` that are chosen, ascending -/
def chosen (n : Nat) (p : Nat → Bool) : List Nat := (List.range n).filter p

/-- an integer index counts from the end when negative -/
def position (n : Nat) (k : Int) : Option Nat :=
  if 0 ≤ k ∧ k < n then some k.toNat else if -(n : Int) ≤ k ∧ k < 0 then some (k + n).toNat else none

/-! ## Model -/

/-- `mask[k] = True` for one integer of the index: numpy's rule (`FastArray.__setitem__`) -/
def setTrue (mask : List Bool) (k : Int) : Except Err (List Bool) :=
  if 0 ≤ k then (if k.toNat < mask.length then .ok (mask.set k.toNat true) else .error .index)
  else if 0 ≤ k + mask.length then .ok (mask.set (k + mask.length).toNat true) else .error .index

/-- `mask[filter] = True` -/
def setAll : List Bool → List Int → Except Err (List Bool)
  | mask, [] => .ok mask
  | mask, k :: ks => match setTrue mask k with
    | .ok m => setAll m ks
    | .error e => .error e

/-- `np.max` -/
def maxInt (k : Int) (ks : List Int) : Int := ks.foldl max k

/-- `_convert_to_mask` (`rt_sds.py:1512-1533`) -/
def convertToMask : Filter → Except Err (List Bool)
  | .bools m => .ok m                       -- `:1521`; an empty one becomes `zeros(0)` (`:1531`), which is the same
  | .ints [] => .ok []                      -- `:1531`
  | .ints (k :: ks) =>                      -- `:1527-1529`
    if maxInt k ks + 1 < 0 then .error .value
    else setAll (List.replicate (maxInt k ks + 1).toNat false) (k :: ks)
  | .other => .error .type                  -- `:1524`, `:1534`

/-- contract of the C++ reader for a mask -/
def maskKeep {α : Type} (mask : List Bool) (l : List α) : List α := ((l.zip mask).filter (·.2)).map (·.1)

/-- `_make_zero_length` (`rt_sds.py:2035-2062`) for a Dataset or an array -/
def makeZeroLength {α : Type} (cols : List (Name × List α)) : List (Name × List α) :=
  cols.map fun c => if '!' ∈ c.1 then c else (c.1, [])

/-- `decompress_dataset_internal` (`rt_sds.py:2262-2384`) for one file: without `share` the mask is passed on (`:2302-2340`),
with it `rc.DecompressFile` is called with `filter`, which is `None` by then (`:2362-2373`).  `zread`: what the reader returns
for an empty mask. -/
def decompress {α : Type} (zread : List α → List α) (share : Bool) (filter : Option Filter) (cols : List (Name × List α)) :
    Except Err (List (Name × List α)) :=
  match filter with
  | none => .ok cols
  | some f => match convertToMask f with
    | .error e => .error e
    | .ok mask =>
      let res : List (Name × List α) :=
        if share then cols
        else if mask = [] then cols.map fun c => (c.1, zread c.2)
        else cols.map fun c => (c.1, maskKeep mask c.2)
      .ok (if mask = [] then makeZeroLength res else res)

/-! ## Proofs -/

theorem maskKeep_nil {α : Type} (mask : List Bool) : maskKeep mask ([] : List α) = [] := rfl

/-- positions are shifted by one -/
theorem rowsAt_succ {α : Type} (a : α) (l : List α) (ps : List Nat) : rowsAt (a :: l) (ps.map (· + 1)) = rowsAt l ps := by
  unfold rowsAt
  rw [List.filterMap_map]
  rfl

theorem chosen_succ (n : Nat) (p : Nat → Bool) :
    chosen (n + 1) p = (if p 0 then [0] else []) ++ (chosen n fun i => p (i + 1)).map (· + 1) := by
  unfold chosen
  rw [List.range_succ_eq_map, List.filter_cons, List.filter_map]
  by_cases h : p 0 = true
  · simp [h]; rfl
  · simp [h]; rfl

theorem maskKeep_eq {α : Type} (mask : List Bool) (l : List α) :
    maskKeep mask l = rowsAt l (chosen l.length fun i : Nat => mask[i]? = some true) := by
  induction l generalizing mask with
  | nil => rfl
  | cons a l ih =>
    rw [List.length_cons, chosen_succ]
    cases mask with
    | nil =>
      simp [maskKeep, rowsAt, chosen]
    | cons b mask =>
      have h1 : maskKeep (b :: mask) (a :: l) = (if b then [a] else []) ++ maskKeep mask l := by
        cases b <;> simp [maskKeep]
      rw [h1, ih mask]
      have h2 : rowsAt (a :: l) ((if (decide ((b :: mask)[0]? = some true)) then [0] else []) ++
          (chosen l.length fun i : Nat => decide ((b :: mask)[i + 1]? = some true)).map (· + 1)) =
          rowsAt (a :: l) (if (decide ((b :: mask)[0]? = some true)) then [0] else []) ++
          rowsAt (a :: l) ((chosen l.length fun i : Nat => decide ((b :: mask)[i + 1]? = some true)).map (· + 1)) := by
        unfold rowsAt; rw [List.filterMap_append]
      rw [h2, rowsAt_succ]
      congr 1
      cases b <;> simp [rowsAt]

theorem maxInt_ge (k : Int) (ks : List Int) : ∀ x ∈ k :: ks, x ≤ maxInt k ks := by
  unfold maxInt
  induction ks generalizing k with
  | nil => intro x hx; simp at hx; subst hx; exact le_refl _
  | cons y ys ih =>
    intro x hx
    rw [List.foldl_cons]
    have h0 := ih (max k y) (max k y) List.mem_cons_self
    rcases List.mem_cons.1 hx with h | h
    · subst h; exact le_trans (le_max_left _ _) h0
    · rcases List.mem_cons.1 h with h | h
      · subst h; exact le_trans (le_max_right _ _) h0
      · exact ih (max k y) x (List.mem_cons_of_mem _ h)

theorem maxInt_mem (k : Int) (ks : List Int) : maxInt k ks ∈ k :: ks := by
  unfold maxInt
  induction ks generalizing k with
  | nil => simp
  | cons y ys ih =>
    rw [List.foldl_cons]
    rcases List.mem_cons.1 (ih (max k y)) with h | h
    · rw [h]
      rcases max_choice k y with h | h <;> rw [h] <;> simp
    · exact List.mem_cons_of_mem _ (List.mem_cons_of_mem _ h)

theorem setAll_nonneg (ks : List Int) (mask : List Bool) (h : ∀ k ∈ ks, 0 ≤ k ∧ k < mask.length) :
    ∃ m, setAll mask ks = .ok m ∧ m.length = mask.length ∧
      ∀ i : Nat, m[i]? = some true ↔ mask[i]? = some true ∨ ((i : Int) ∈ ks) := by
  induction ks generalizing mask with
  | nil => exact ⟨mask, rfl, rfl, fun i => by simp⟩
  | cons k ks ih =>
    have hk := h k List.mem_cons_self
    have h1 : setTrue mask k = .ok (mask.set k.toNat true) := by
      unfold setTrue; rw [if_pos hk.1, if_pos (by omega)]
    obtain ⟨m, hm, hl, hi⟩ := ih (mask.set k.toNat true) (fun x hx => by
      have := h x (List.mem_cons_of_mem _ hx); simpa using this)
    refine ⟨m, ?_, by simpa using hl, ?_⟩
    · simp only [setAll, h1, hm]
    · intro i
      rw [hi i, List.getElem?_set]
      by_cases hki : k.toNat = i
      · have : (i : Int) = k := by omega
        rw [if_pos hki, if_pos (by omega)]
        simp [this]
      · have : ¬ (i : Int) = k := by omega
        rw [if_neg hki]
        simp [this]

/-- **C252** A boolean filter of the length of the file: exactly the rows whose entry is `True`, in the order of the file. -/
theorem filter_bools {α : Type} (zread : List α → List α) (m : List Bool) (hm : m ≠ []) (cols : List (Name × List α)) :
    decompress zread false (some (.bools m)) cols =
      .ok (cols.map fun c => (c.1, rowsAt c.2 (chosen c.2.length fun i : Nat => m[i]? = some true))) := by
  have : (fun c : Name × List α => (c.1, maskKeep m c.2)) =
      fun c => (c.1, rowsAt c.2 (chosen c.2.length fun i : Nat => m[i]? = some true)) := by
    funext c; rw [maskKeep_eq]
  simp only [decompress, convertToMask, hm, if_false, this, Bool.false_eq_true]

/-- **C247** (exactly) A filter of row numbers that are not negative: the rows whose number occurs, in the order of the
file and once each. -/
theorem filter_ints_exact {α : Type} (zread : List α → List α) (v : List Int) (hne : v ≠ []) (h0 : ∀ k ∈ v, 0 ≤ k)
    (cols : List (Name × List α)) :
    decompress zread false (some (.ints v)) cols =
      .ok (cols.map fun c => (c.1, rowsAt c.2 (chosen c.2.length fun i : Nat => (i : Int) ∈ v))) := by
  cases v with
  | nil => exact absurd rfl hne
  | cons k ks =>
    have hmem := h0 _ (maxInt_mem k ks)
    obtain ⟨m, hm, hl, hi⟩ := setAll_nonneg (k :: ks) (List.replicate (maxInt k ks + 1).toNat false) (fun x hx => by
      refine ⟨h0 x hx, ?_⟩
      have := maxInt_ge k ks x hx
      rw [List.length_replicate]; omega)
    have hne' : m ≠ [] := by
      intro h; rw [h, List.length_replicate] at hl; simp at hl; omega
    have hc : convertToMask (.ints (k :: ks)) = .ok m := by
      simp only [convertToMask]; rw [if_neg (by omega), hm]
    have hiff : (fun i : Nat => decide (m[i]? = some true)) = fun i : Nat => decide ((i : Int) ∈ k :: ks) := by
      funext i
      rw [decide_eq_decide, hi i]
      constructor
      · rintro (h | h)
        · rw [List.getElem?_replicate] at h; split at h <;> simp at h
        · exact h
      · exact Or.inr
    have : (fun c : Name × List α => (c.1, maskKeep m c.2)) =
        fun c => (c.1, rowsAt c.2 (chosen c.2.length fun i : Nat => (i : Int) ∈ k :: ks)) := by
      funext c; rw [maskKeep_eq, hiff]
    simp only [decompress, hc, hne', if_false, this, Bool.false_eq_true]

/-- **C247** (part) Row numbers that ascend and are not negative: the loaded rows are those of fancy indexing.  Missing:
other orders, repeated rows and negative numbers (`filter_order_counterexample`, `filter_repeat_counterexample`,
`filter_negative_counterexample`). -/
theorem filter_ascending_partial {α : Type} (zread : List α → List α) (v : List Nat) (hne : v ≠ [])
    (hs : v.Pairwise (· < ·)) (cols : List (Name × List α)) (hr : ∀ c ∈ cols, ∀ k ∈ v, k < c.2.length) :
    decompress zread false (some (.ints (v.map fun k : Nat => (k : Int)))) cols = .ok (cols.map fun c => (c.1, rowsAt c.2 v)) := by
  rw [filter_ints_exact zread _ (by simpa using hne) (by intro k hk; obtain ⟨n, _, rfl⟩ := List.mem_map.1 hk; omega)]
  congr 1
  refine List.map_congr_left fun c hc => ?_
  have : (chosen c.2.length fun i : Nat => (i : Int) ∈ v.map fun k : Nat => (k : Int)) = v := by
    refine List.Perm.eq_of_pairwise (le := (· < ·)) (fun a b _ _ h1 h2 => absurd h1 (by omega)) ?_ hs ?_
    · exact List.Pairwise.filter _ List.pairwise_lt_range
    · refine (List.perm_ext_iff_of_nodup ?_ (hs.imp (fun h => by omega))).2 fun a => ?_
      · exact List.nodup_range.filter _
      · unfold chosen
        rw [List.mem_filter, List.mem_range]
        constructor
        · rintro ⟨_, h⟩
          obtain ⟨n, hn, he⟩ := List.mem_map.1 (of_decide_eq_true h)
          have : n = a := by omega
          exact this ▸ hn
        · intro h
          exact ⟨hr c hc a h, decide_eq_true (List.mem_map.2 ⟨a, h, rfl⟩)⟩
  rw [this]

/-- **C252** Filters that are neither booleans nor integers are refused. -/
theorem filter_other_refused {α : Type} (zread : List α → List α) (share : Bool) (cols : List (Name × List α)) :
    decompress zread share (some .other) cols = .error .type := rfl

/-- **C247** A filter without entries loads no rows, whatever the reader returned. -/
theorem filter_empty {α : Type} (zread : List α → List α) (share : Bool) (f : Filter) (hf : f = .ints [] ∨ f = .bools [])
    (cols : List (Name × List α)) (hn : ∀ c ∈ cols, '!' ∉ c.1) :
    decompress zread share (some f) cols = .ok (cols.map fun c => (c.1, [])) := by
  have hz : ∀ g : List α → List α, makeZeroLength (cols.map fun c => (c.1, g c.2)) = cols.map fun c => (c.1, []) := by
    intro g
    unfold makeZeroLength
    rw [List.map_map]
    refine List.map_congr_left fun c hc => ?_
    simp [Function.comp, hn c hc]
  have h1 := hz id
  have h2 := hz zread
  simp only [id] at h1
  have h1' : makeZeroLength cols = cols.map fun c => (c.1, []) := by simpa using h1
  rcases hf with rfl | rfl <;> cases share <;> simp [decompress, convertToMask, h1', h2]

/-- **C247** is not true for rows in another order. -/
theorem filter_order_counterexample : ∃ v : List Nat, (∀ k ∈ v, k < 3) ∧ rowsAt [10, 20, 30] v = [30, 10] ∧
    decompress id false (some (.ints (v.map fun k : Nat => (k : Int)))) [(['x'], [10, 20, 30])] = .ok [(['x'], [10, 30])] :=
  ⟨[2, 0], by decide, by decide, by rfl⟩

/-- **C247** is not true for repeated rows. -/
theorem filter_repeat_counterexample : ∃ v : List Nat, (∀ k ∈ v, k < 3) ∧ rowsAt [10, 20, 30] v = [20, 20] ∧
    decompress id false (some (.ints (v.map fun k : Nat => (k : Int)))) [(['x'], [10, 20, 30])] = .ok [(['x'], [20])] :=
  ⟨[1, 1], by decide, by decide, by rfl⟩

/-- **C247** is not true for negative numbers: `[-1, 1]` is the last and the second row, loaded is the second; `[-1]` alone
raises. -/
theorem filter_negative_counterexample : position 3 (-1) = some 2 ∧ position 3 1 = some 1 ∧
    decompress id false (some (.ints [-1, 1])) [(['x'], [10, 20, 30])] = .ok [(['x'], [20])] ∧
    decompress id false (some (.ints [-1])) [(['x'], [10, 20, 30])] = .error .index :=
  ⟨by decide, by decide, by rfl, by rfl⟩

/-- **C247** is not true without entries for a column whose name contains `!`: it keeps what the reader returned. -/
theorem filter_empty_bang_counterexample (zread : List Nat → List Nat) :
    decompress zread false (some (.ints [])) [(['a'], [1, 2]), (['o', '!'], [3, 4])] =
      .ok [(['a'], []), (['o', '!'], zread [3, 4])] := by rfl

/-- **C248** is not true: a file loaded with `share=` shows all rows whatever filter with entries is given. -/
theorem filter_share_counterexample {α : Type} (zread : List α → List α) (m : List Bool) (hm : m ≠ []) (cols : List (Name × List α)) :
    decompress zread true (some (.bools m)) cols = .ok cols := by
  simp [decompress, convertToMask, hm]

/-- **C248** (exactly) With `share=` a filter of row numbers is either refused or has no effect, unless it is empty. -/
theorem filter_share_ints_exact {α : Type} (zread : List α → List α) (v : List Int) (hne : v ≠ []) (cols : List (Name × List α)) :
    (∃ e, decompress zread true (some (.ints v)) cols = .error e ∧ convertToMask (.ints v) = .error e) ∨
      decompress zread true (some (.ints v)) cols = .ok cols := by
  cases hc : convertToMask (.ints v) with
  | error e => exact Or.inl ⟨e, by simp only [decompress, hc], rfl⟩
  | ok m =>
    refine Or.inr ?_
    have hm : m ≠ [] := by
      rintro rfl
      cases v with
      | nil => exact hne rfl
      | cons k ks =>
        simp only [convertToMask] at hc
        split at hc
        · cases hc
        · have hlen : ∀ (ks : List Int) (a b : List Bool), setAll a ks = .ok b → b.length = a.length := by
            intro ks
            induction ks with
            | nil => intro a b h; simp only [setAll] at h; injection h with h; rw [h]
            | cons x xs ih =>
              intro a b h
              simp only [setAll] at h
              cases ha : setTrue a x with
              | error e => rw [ha] at h; cases h
              | ok a' =>
                rw [ha] at h
                rw [ih _ _ h]
                unfold setTrue at ha
                split at ha
                · split at ha
                  · injection ha with ha; rw [← ha, List.length_set]
                  · cases ha
                · split at ha
                  · injection ha with ha; rw [← ha, List.length_set]
                  · cases ha
          have h0 := hlen _ _ _ hc
          have hz : (maxInt k ks + 1).toNat = 0 := by simpa using h0.symm
          have hmax := maxInt_ge k ks k List.mem_cons_self
          -- a mask without entries cannot be written
          have : setTrue (List.replicate (maxInt k ks + 1).toNat false) k = .error .index := by
            unfold setTrue
            rw [hz]
            by_cases hk : 0 ≤ k
            · omega
            · rw [if_neg hk, if_neg (by simp; omega)]
          simp only [setAll, this] at hc
          cases hc
    simp [decompress, hc, hm]

-- the hypotheses are met
example : decompress id false (some (.bools [true, false, true])) [(['x'], [10, 20, 30]), (['y'], [1, 2, 3])] =
    .ok [(['x'], [10, 30]), (['y'], [1, 3])] := by rfl
example : ([0, 2] : List Nat).Pairwise (· < ·) ∧ decompress id false (some (.ints [0, 2])) [(['x'], [10, 20, 30])] = .ok [(['x'], [10, 30])] :=
  ⟨by decide, by rfl⟩
example : decompress id true (some (.ints [2])) [(['x'], [10, 20, 30])] = .ok [(['x'], [10, 20, 30])] := by rfl

end Verif.SdsStack
