import Verif.NpOps.Unique
import Mathlib.Data.List.Sort
/-! # map, count and sample (C175, C176, C183) -/
namespace Verif.NpOps

/-- `d` says that `k` becomes `v` -/
def Says {K V : Type} (d : List (K × V)) (k : K) (v : V) : Prop := (k, v) ∈ d

/-! ## map (C175) -/

theorem memberAt_some {K V : Type} [DecidableEq K] {d : List (K × V)} (hd : (d.map (·.1)).Nodup) {k : K} {v : V} (h : Says d k v) :
    ∃ j, memberAt (d.map (·.1)) k = some j ∧ (d.map (·.2))[j]? = some v := by
  have hk : k ∈ d.map (·.1) := List.mem_map.2 ⟨_, h, rfl⟩
  refine ⟨(d.map (·.1)).idxOf k, by unfold memberAt; rw [if_pos hk], ?_⟩
  obtain ⟨i, hi⟩ := List.mem_iff_getElem?.1 h
  have h1 : (d.map (·.1))[i]? = some k := by rw [List.getElem?_map, hi]; rfl
  have hlt := (List.getElem?_eq_some_iff.1 h1).1
  have h2 : (d.map (·.1)).idxOf k = i := by
    have hx := List.idxOf_lt_length_iff.2 hk
    refine (List.getElem?_inj hx hd).1 ?_
    rw [h1, List.getElem?_eq_getElem hx, List.getElem_idxOf]
  rw [h2, List.getElem?_map, hi]; rfl

/-- **C175** `map`: every item that is a key of the dictionary becomes its value, every other item the invalid value; one result per item. -/
theorem map_rows {K V : Type} [DecidableEq K] (inv : V) (xs : List K) (d : List (K × V)) (hd : (d.map (·.1)).Nodup) :
    (mapDict inv xs d).length = xs.length ∧ ∀ (i : Nat) (x : K), xs[i]? = some x →
      (∀ v, Says d x v → (mapDict inv xs d)[i]? = some v) ∧ ((¬ ∃ v, Says d x v) → (mapDict inv xs d)[i]? = some inv) := by
  refine ⟨by simp [mapDict], fun i x hx => ⟨fun v hv => ?_, fun hv => ?_⟩⟩
  · obtain ⟨j, h1, h2⟩ := memberAt_some hd hv
    unfold mapDict
    dsimp only
    rw [List.getElem?_zipWith, List.getElem?_map, List.getElem?_map, hx]
    simp only [Option.map_some, h1, List.getD_eq_getElem?_getD, h2, Option.getD_some]
  · have hk : x ∉ d.map (·.1) := by
      intro h
      obtain ⟨kv, h1, rfl⟩ := List.mem_map.1 h
      exact hv ⟨kv.2, h1⟩
    unfold mapDict
    dsimp only
    rw [List.getElem?_zipWith, List.getElem?_map, List.getElem?_map, hx]
    simp only [Option.map_some, memberAt, if_neg hk]

theorem mapOld_steps {K : Type} [DecidableEq K] (xs : List K) : ∀ (d : List (K × K)) (out : List K), out.length = xs.length → (d.map (·.1)).Nodup →
    (d.foldl (assignWhere xs) out).length = xs.length ∧ ∀ (i : Nat) (x : K), xs[i]? = some x →
      (∀ v, Says d x v → (d.foldl (assignWhere xs) out)[i]? = some v) ∧ ((¬ ∃ v, Says d x v) → (d.foldl (assignWhere xs) out)[i]? = out[i]?) := by
  intro d
  induction d with
  | nil => intro out ho _; exact ⟨ho, fun i x hx => ⟨fun v hv => by simp [Says] at hv, fun _ => rfl⟩⟩
  | cons kv d ih =>
    intro out ho hd
    rw [List.map_cons, List.nodup_cons] at hd
    have hl : (assignWhere xs out kv).length = xs.length := by simp [assignWhere, ho]
    obtain ⟨h1, h2⟩ := ih _ hl hd.2
    refine ⟨h1, fun i x hx => ?_⟩
    obtain ⟨h3, h4⟩ := h2 i x hx
    have hi : i < out.length := by rw [ho]; exact (List.getElem?_eq_some_iff.1 hx).1
    have hstep : (assignWhere xs out kv)[i]? = if x = kv.1 then some kv.2 else out[i]? := by
      unfold assignWhere
      rw [List.getElem?_zipWith, hx, List.getElem?_eq_getElem hi]
      dsimp only
      split_ifs <;> rfl
    refine ⟨fun v hv => ?_, fun hv => ?_⟩
    · rcases List.mem_cons.1 hv with he | hm
      · have hno : ¬ ∃ v, Says d x v := by
          rintro ⟨w, hw⟩
          exact hd.1 (by rw [← he]; exact List.mem_map.2 ⟨_, hw, rfl⟩)
        rw [List.foldl_cons, h4 hno, hstep, ← he, if_pos rfl]
      · exact h3 v hm
    · have hno : ¬ ∃ v, Says d x v := fun ⟨w, hw⟩ => hv ⟨w, List.mem_cons_of_mem _ hw⟩
      have hne : x ≠ kv.1 := fun he => hv ⟨kv.2, by rw [he]; exact List.mem_cons_self⟩
      rw [List.foldl_cons, h4 hno, hstep, if_neg hne]

/-- **C175** `map_old`: every item that is a key becomes its value (once, though the value may be a key again), every other item stays. -/
theorem mapOld_rows {K : Type} [DecidableEq K] (xs : List K) (d : List (K × K)) (hd : (d.map (·.1)).Nodup) :
    (mapOld xs d).length = xs.length ∧ ∀ (i : Nat) (x : K), xs[i]? = some x →
      (∀ v, Says d x v → (mapOld xs d)[i]? = some v) ∧ ((¬ ∃ v, Says d x v) → (mapOld xs d)[i]? = some x) := by
  obtain ⟨h1, h2⟩ := mapOld_steps xs d xs rfl hd
  exact ⟨h1, fun i x hx => ⟨(h2 i x hx).1, fun h => by rw [← hx]; exact (h2 i x hx).2 h⟩⟩

example : mapDict 0 [1, 2, 3] [(1, 10), (3, 30)] = [10, 0, 30] ∧ mapOld [1, 2, 3] [(1, 2), (2, 1)] = [2, 1, 3] ∧ ([(1, 2), (2, 1)].map (·.1)).Nodup := by decide

/-! ## count (C176) -/

/-- **C176 (partial)** `count` gives the different values and how often they occur, in two columns. Missing: an array named `Count`, see the
counterexample. -/
theorem count_partial {S : Type} [LinearOrder S] {name : Option (List Char)} (hname : name ≠ some "Count".toList) {a : List S} (ha : a.length < 2 ^ 63) (sorted : Bool)
    {u : Uniq (List S)} (h : uniqueArrays [(none, a)] sorted false none = .ok u) :
    countDs name (Sum.inl u.un : List (List S) ⊕ List Nat) (.inr u.counts) =
        [(name.getD "Unique".toList, .inl u.un), ("Count".toList, .inr u.counts)] ∧
      Different (fun i => (a[i]?).toList) none a.length u.un ∧ Counted (fun i => (a[i]?).toList) none a.length u.un u.counts := by
  have hne : name.getD "Unique".toList ≠ "Count".toList := by
    cases name with
    | none => decide
    | some n => exact fun h => hname (congrArg some h)
  obtain ⟨n, h1, h2, _, _, h3, _⟩ := unique_arrays h (by simpa using ha) (Or.inl rfl)
  have hn : a.length = n := h1 _ (List.mem_singleton.2 rfl)
  subst hn
  have hk : CatNew.keysOf ([((none : Option CatNew.Name), a)].map (·.2)) = fun i => (a[i]?).toList := by
    funext i
    simp only [CatNew.keysOf, List.map_cons, List.map_nil]
    cases hq : a[i]? <;> simp [hq]
  rw [hk] at h2 h3
  exact ⟨by unfold countDs pairDict; rw [if_neg hne], h2, h3⟩

/-- **C176** violated: the values of an array named `Count` are lost. -/
theorem count_name_counterexample {A : Type} (un counts : A) : countDs (some "Count".toList) un counts = [("Count".toList, counts)] := rfl

/-! ## sample (C183) -/

/-- `l` has `k` of the items of `M`, each at most as often as `M` has it -/
def Draws (M : List Int) (k : Nat) (l : List Int) : Prop := l.Subperm M ∧ l.length = k

theorem sample_sorted (l : List Int) : (l.insertionSort (· ≤ ·)).Perm l ∧ (l.insertionSort (· ≤ ·)).Pairwise (· ≤ ·) :=
  ⟨List.perm_insertionSort _ _, List.pairwise_insertionSort _ _⟩

/-- **C183** `sample(N, filter)`: `N` different rows among all rows, or among those of the mask (all of them if there are fewer), in ascending order. -/
theorem sample_rows {pick : List Int → Nat → List Int} (hp : ∀ M k, k ≤ M.length → Draws M k (pick M k)) (n N : Nat) {f : SampleFilter}
    (hf : ∀ r, f ≠ .rows r) {out : List Int} (h : sampleRows pick n N f = .ok out) :
    ∃ allowed : Nat → Prop, (f = .none → ∀ i, allowed i ↔ i < n) ∧ (∀ m, f = .mask m → m.length = n ∧ ∀ i, allowed i ↔ m[i]? = some true) ∧
      out.Pairwise (· < ·) ∧ (∀ k ∈ out, ∃ i : Nat, k = i ∧ allowed i) ∧ (out.length < N → ∀ i, allowed i → (i : Int) ∈ out) ∧ out.length ≤ N := by
  have key : ∀ rows : List Nat, rows.Nodup → samplePool n f = .ok (rows.map fun (i : Nat) => (i : Int)) →
      out.Pairwise (· < ·) ∧ (∀ k ∈ out, ∃ i : Nat, k = i ∧ i ∈ rows) ∧ (out.length < N → ∀ i, i ∈ rows → (i : Int) ∈ out) ∧ out.length ≤ N := by
    intro rows hnd hpool
    unfold sampleRows at h
    rw [hpool] at h
    have hout : ((pick (rows.map fun (i : Nat) => (i : Int)) (min N (rows.map fun (i : Nat) => (i : Int)).length)).insertionSort (· ≤ ·)) = out := by
      injection h
    obtain ⟨hs1, hs2⟩ := hp (rows.map fun (i : Nat) => (i : Int)) (min N (rows.map fun (i : Nat) => (i : Int)).length) (Nat.min_le_right _ _)
    obtain ⟨hperm, hsort⟩ := sample_sorted (pick (rows.map fun (i : Nat) => (i : Int)) (min N (rows.map fun (i : Nat) => (i : Int)).length))
    rw [hout] at hperm hsort
    have hnd2 : (rows.map fun (i : Nat) => (i : Int)).Nodup := hnd.map (fun a b h => by exact_mod_cast h)
    have hsub : out.Subperm (rows.map fun (i : Nat) => (i : Int)) := hperm.subperm.trans hs1
    have hndo : out.Nodup := by
      obtain ⟨l, hl1, hl2⟩ := hsub
      exact hl1.nodup_iff.1 (hl2.nodup hnd2)
    have hlen : out.length = min N rows.length := by rw [hperm.length_eq, hs2, List.length_map]
    refine ⟨?_, fun k hk => ?_, fun hlt i hi => ?_, by omega⟩
    · exact (hsort.and hndo).imp fun h => by rcases h with ⟨h1, h2⟩; omega
    · obtain ⟨i, hi, rfl⟩ := List.mem_map.1 (hsub.subset hk)
      exact ⟨i, rfl, hi⟩
    · have : out.Perm (rows.map fun (i : Nat) => (i : Int)) := hsub.perm_of_length_le (by rw [List.length_map]; omega)
      exact this.mem_iff.2 (List.mem_map.2 ⟨i, hi, rfl⟩)
  cases f with
  | none =>
    obtain ⟨a1, a2, a3, a4⟩ := key (List.range n) List.nodup_range rfl
    exact ⟨fun i => i < n, fun _ i => Iff.rfl, (fun m hm => by cases hm), a1, fun k hk => by simpa using a2 k hk, fun hl i hi => a3 hl i (List.mem_range.2 hi), a4⟩
  | mask m =>
    by_cases hm : m.length = n
    · obtain ⟨a1, a2, a3, a4⟩ := key ((List.range n).filter fun i => m.getD i false) (List.nodup_range.filter _) (by unfold samplePool; dsimp only; rw [if_neg (by simpa using hm)])
      have hmem : ∀ i, i ∈ (List.range n).filter (fun i => m.getD i false) ↔ m[i]? = some true := by
        intro i
        rw [List.mem_filter, List.mem_range, List.getD_eq_getElem?_getD]
        constructor
        · rintro ⟨hi, h⟩
          rw [List.getElem?_eq_getElem (by omega)] at h ⊢
          simpa using h
        · intro h
          exact ⟨by rw [← hm]; exact (List.getElem?_eq_some_iff.1 h).1, by rw [h]; rfl⟩
      refine ⟨fun i => m[i]? = some true, (fun h => by cases h), ?_, a1, ?_, fun hl i hi => a3 hl i ((hmem i).2 hi), a4⟩
      · rintro m' h'
        cases h'
        exact ⟨hm, fun i => Iff.rfl⟩
      · intro k hk
        obtain ⟨i, h1, h2⟩ := a2 k hk
        exact ⟨i, h1, (hmem i).1 h2⟩
    · unfold sampleRows samplePool at h
      dsimp only at h
      rw [if_pos hm] at h
      cases h
  | rows r => exact absurd rfl (hf r)

/-- **C183** With given row numbers: `N` of them (all if there are fewer), in ascending order. A number given twice can be taken twice. -/
theorem sample_given {pick : List Int → Nat → List Int} (hp : ∀ M k, k ≤ M.length → Draws M k (pick M k)) (n N : Nat) (r : List Int) :
    ∃ out, sampleRows pick n N (.rows r) = .ok out ∧ out.Subperm r ∧ out.Pairwise (· ≤ ·) ∧ out.length = min N r.length := by
  obtain ⟨h1, h2⟩ := hp r (min N r.length) (Nat.min_le_right _ _)
  obtain ⟨hperm, hsort⟩ := sample_sorted (pick r (min N r.length))
  exact ⟨_, rfl, hperm.subperm.trans h1, hsort, hperm.length_eq.trans h2⟩

/-- **C183** Masks of another length are refused. -/
theorem sample_mask_length (pick : List Int → Nat → List Int) (n N : Nat) (m : List Bool) :
    (∃ out, sampleRows pick n N (.mask m) = .ok out) ↔ m.length = n := by
  unfold sampleRows samplePool
  dsimp only
  by_cases h : m.length = n
  · rw [if_neg (by simpa using h)]; exact ⟨fun _ => h, fun _ => ⟨_, rfl⟩⟩
  · rw [if_pos h]; exact ⟨(fun ⟨o, ho⟩ => by cases ho), fun h' => absurd h' h⟩

/-- taking the first items is a way to draw; a sample of two rows of a mask -/
example : (∀ (M : List Int) k, k ≤ M.length → Draws M k (M.take k)) ∧
    (sampleRows (fun M k => (M.reverse).take k) 4 2 (.mask [true, false, true, true])).toOption = some [2, 3] :=
  ⟨fun M k h => ⟨(List.take_sublist k M).subperm, by simp [h]⟩, by decide +kernel⟩

end Verif.NpOps
