import Verif.Dup.Props
import Verif.Grp.Apply
import Mathlib.Data.List.Perm.Subperm
/-! # C71: `drop_duplicates` -/
namespace Verif.Dup
open Verif.Grp
open Verif.Items (Dict)

section
variable {K : Type} {rows : List K} {keys : List Nat} {n : Nat}

/-- two strictly ascending lists with the same items are the same -/
theorem sorted_ext {a b : List Nat} (ha : a.Pairwise (· < ·)) (hb : b.Pairwise (· < ·)) (h : ∀ (i : Nat), i ∈ a ↔ i ∈ b) : a = b := by
  have na : a.Nodup := ha.imp fun h => Nat.ne_of_lt h
  have nb : b.Nodup := hb.imp fun h => Nat.ne_of_lt h
  refine List.Perm.eq_of_pairwise (fun x y _ _ h1 h2 => ?_) ha hb ((List.perm_ext_iff_of_nodup na nb).2 h)
  omega

theorem mem_firstRows {i : Nat} : i ∈ firstRows rows ↔ i < rows.length ∧ ¬ Earlier rows i := by
  unfold firstRows
  simp

theorem mem_onceRows {i : Nat} : i ∈ onceRows rows ↔ i < rows.length ∧ ¬ Earlier rows i ∧ ¬ Later rows i := by
  unfold onceRows
  simp

theorem firstRows_sorted : (firstRows rows).Pairwise (· < ·) := List.Pairwise.filter _ List.pairwise_lt_range

theorem onceRows_sorted : (onceRows rows).Pairwise (· < ·) := List.Pairwise.filter _ List.pairwise_lt_range

/-- the first row of each group, in the order of the groups -/
def heads (keys : List Nat) (n : Nat) : List Nat := (List.range n).filterMap fun (g : Nat) => firstOf keys (g + 1)

theorem Numbered.head (h : Numbered rows keys n) (g : Nat) (hg : g < n) : ∃ i, firstOf keys (g + 1) = some i := by
  have hp := rowsOf_ne (h.used (g + 1) (by omega) (by omega))
  exact ⟨_, by unfold firstOf; rw [List.head?_eq_getElem?, List.getElem?_eq_getElem hp]⟩

theorem Numbered.last (h : Numbered rows keys n) (g : Nat) (hg : g < n) : ∃ i, lastOf keys (g + 1) = some i := by
  have hp := rowsOf_ne (h.used (g + 1) (by omega) (by omega))
  exact ⟨_, by unfold lastOf; rw [List.getLast?_eq_some_getLast (List.length_pos_iff.1 hp)]⟩

/-- numbers are given in the order of first rows -/
theorem Numbered.head_lt_head (h : Numbered rows keys n) {a b i j : Nat} (hab : a < b) (ha : firstOf keys (a + 1) = some i)
    (hb : firstOf keys (b + 1) = some j) : i < j := by
  have hkb := head_rowsOf.1 hb
  have hka := head_rowsOf.1 ha
  obtain ⟨k, hk, hkk⟩ := h.order j (b + 1) hkb.1 (a + 1) (by omega) (by omega)
  have := hka.2 k hkk
  omega

theorem Numbered.heads_eq (h : Numbered rows keys n) : heads keys n = firstRows rows := by
  refine sorted_ext ?_ firstRows_sorted ?_
  · unfold heads
    rw [List.pairwise_filterMap]
    refine List.Pairwise.imp ?_ (List.pairwise_lt_range (n := n))
    intro a b hab i hi j hj
    exact h.head_lt_head hab hi hj
  · intro i
    rw [mem_firstRows]
    unfold heads
    rw [List.mem_filterMap]
    constructor
    · rintro ⟨g, hg, hh⟩
      rw [List.mem_range] at hg
      have hi := h.lt (head_rowsOf.1 hh).1
      exact ⟨hi, (h.head_iff hi).1 ⟨g + 1, by omega, by omega, hh⟩⟩
    · rintro ⟨hi, he⟩
      obtain ⟨g, h1, h2, h3⟩ := (h.head_iff hi).2 he
      exact ⟨g - 1, by rw [List.mem_range]; omega, by unfold firstOf; rw [show g - 1 + 1 = g by omega]; exact h3⟩

/-- entries of a `filterMap` that never drops -/
theorem filterMap_get {A B : Type} (f : A → Option B) (l : List A) : (∀ a ∈ l, ∃ b, f a = some b) → ∀ (k : Nat),
    (l.filterMap f)[k]? = (l[k]?).bind f := by
  induction l with
  | nil => intro _ k; simp
  | cons a l ih =>
    intro h k
    obtain ⟨b, hb⟩ := h a (by simp)
    rw [List.filterMap_cons, hb]
    dsimp only
    cases k with
    | zero => simp [hb]
    | succ k =>
      rw [List.getElem?_cons_succ, List.getElem?_cons_succ]
      exact ih (fun x hx => h x (List.mem_cons_of_mem _ hx)) k

theorem perGroup_eq {V : Type} (col : List V) (keys : List Nat) (n : Nat) (row : Nat → Option Nat) :
    perGroup col n row = valuesAt col ((List.range n).filterMap fun (g : Nat) => row (g + 1)) := by
  unfold perGroup valuesAt
  rw [List.filterMap_filterMap]

/-- the last row of each group, in the order of the groups, against the first rows -/
theorem Numbered.lasts (h : Numbered rows keys n) :
    let L := (List.range n).filterMap fun (g : Nat) => lastOf keys (g + 1)
    L.length = (firstRows rows).length ∧
    ∀ (k i : Nat), (firstRows rows)[k]? = some i → ∃ j, L[k]? = some j ∧ IsLastOf rows i j := by
  intro L
  have hL : ∀ (k : Nat), L[k]? = ((List.range n)[k]?).bind fun (g : Nat) => lastOf keys (g + 1) :=
    filterMap_get _ _ fun g hg => h.last g (List.mem_range.1 hg)
  have hH : ∀ (k : Nat), (firstRows rows)[k]? = ((List.range n)[k]?).bind fun (g : Nat) => firstOf keys (g + 1) := by
    rw [← h.heads_eq]
    exact filterMap_get _ _ fun g hg => h.head g (List.mem_range.1 hg)
  constructor
  · have e1 : L.length = n := by
      have := List.length_filterMap_le (fun (g : Nat) => lastOf keys (g + 1)) (List.range n)
      rw [List.length_range] at this
      refine Nat.le_antisymm this ?_
      by_contra hn
      have hlt : L.length < n := by omega
      have := hL L.length
      rw [List.getElem?_eq_none (Nat.le_refl _), List.getElem?_range hlt] at this
      obtain ⟨i, hi⟩ := h.last L.length hlt
      simp [hi] at this
    have e2 : (firstRows rows).length = n := by
      have := List.length_filterMap_le (fun (g : Nat) => firstOf keys (g + 1)) (List.range n)
      rw [List.length_range] at this
      rw [← h.heads_eq]
      refine Nat.le_antisymm this ?_
      by_contra hn
      have hlt : (heads keys n).length < n := by omega
      have := hH (heads keys n).length
      rw [← h.heads_eq, List.getElem?_eq_none (Nat.le_refl _), List.getElem?_range hlt] at this
      obtain ⟨i, hi⟩ := h.head (heads keys n).length hlt
      simp [hi] at this
    rw [e1, e2]
  · intro k i hi
    have hkn : k < n := by
      by_contra hn
      rw [hH k, List.getElem?_eq_none (by rw [List.length_range]; omega)] at hi
      simp at hi
    rw [hH k, List.getElem?_range hkn, Option.bind_some] at hi
    obtain ⟨j, hj⟩ := h.last k hkn
    refine ⟨j, by rw [hL k, List.getElem?_range hkn, Option.bind_some, hj], ?_⟩
    have hkj := (last_rowsOf.1 hj).1
    have hki := (head_rowsOf.1 hi).1
    exact ⟨h.lt hkj, (h.same j i (h.lt hkj) (h.lt hki)).1 (by rw [hkj, hki]), (h.last_iff hkj).1 hj⟩

end

section
variable {V : Type}

/-- what a grouping function must do -/
def GroupOK (group : List (List (Option V)) → List Nat × Nat) : Prop := ∀ rows, Numbered rows (group rows).1 (group rows).2

theorem contents_length (t : List (String × List V)) (sub : List String) (nrows : Nat) : (contents t sub nrows).length = nrows := by
  simp [contents]

theorem contents_get (t : List (String × List V)) (sub : List String) (nrows i : Nat) (h : i < nrows) :
    (contents t sub nrows)[i]? = some (sub.map fun c => cell t c i) := by
  simp [contents, h]

/-- **C71** (what "the same" means) -/
theorem earlier_contents (t : List (String × List V)) (sub : List String) (nrows i : Nat) (h : i < nrows) :
    Earlier (contents t sub nrows) i ↔ ∃ j, j < i ∧ ∀ c ∈ sub, cell t c j = cell t c i := by
  unfold Earlier
  constructor
  · rintro ⟨j, hj, he⟩
    rw [contents_get _ _ _ _ h, contents_get _ _ _ _ (by omega), Option.some.injEq] at he
    exact ⟨j, hj, fun c hc => List.map_inj_left.1 he c hc⟩
  · rintro ⟨j, hj, he⟩
    refine ⟨j, hj, ?_⟩
    rw [contents_get _ _ _ _ h, contents_get _ _ _ _ (by omega), Option.some.injEq]
    exact List.map_inj_left.2 he

theorem cell_of_mem {t : List (String × List V)} {nrows : Nat} (ht : Rect t nrows) {e : String × List V} (he : e ∈ t) (i : Nat) :
    cell t e.1 i = e.2[i]? := by
  unfold cell
  have : (t.find? fun x => decide (x.1 = e.1)) = some e := by
    obtain ⟨hn, ht2⟩ := ht
    clear ht2
    induction t with
    | nil => simp at he
    | cons x t ih =>
      rw [List.find?_cons]
      rw [List.map_cons, List.nodup_cons] at hn
      rcases List.mem_cons.1 he with rfl | he
      · simp
      · have hne : x.1 ≠ e.1 := fun hx => hn.1 (by rw [hx]; exact List.mem_map_of_mem he)
        simp only [hne, decide_false]
        exact ih he hn.2
  rw [this]

theorem valuesAt_congr (col : List V) : ∀ (a b : List Nat), a.length = b.length →
    (∀ (k i j : Nat), a[k]? = some i → b[k]? = some j → col[i]? = col[j]?) → valuesAt col a = valuesAt col b := by
  intro a
  induction a with
  | nil => intro b hb _; rw [List.length_eq_zero_iff.1 hb.symm]
  | cons x a ih =>
    intro b hb h
    cases b with
    | nil => simp at hb
    | cons y b =>
      have h0 := h 0 x y rfl rfl
      have := ih b (by simpa using hb) fun k i j hi hj => h (k + 1) i j (by simpa using hi) (by simpa using hj)
      unfold valuesAt at this ⊢
      rw [List.filterMap_cons, List.filterMap_cons, h0, this]

theorem subset_ok {t : Table V} {subset : Option (List String)} (hs : ∀ c ∈ subset.getD (Dict.keys t), c ∈ t.map Prod.fst) :
    ((subset.getD (Dict.keys t)).all fun c => Dict.has t c) = true := by
  rw [List.all_eq_true]
  intro c hc
  obtain ⟨e, he, hec⟩ := List.mem_map.1 (hs c hc)
  unfold Dict.has
  rw [List.any_eq_true]
  exact ⟨e, he, by simp [hec]⟩

/-- **C71** `drop_duplicates(keep='first')` returns exactly the rows that repeat no earlier row, whole rows, in their order. -/
theorem dropDuplicates_first (group : List (List (Option V)) → List Nat × Nat) (hg : GroupOK group) (isOne : V → Bool) (t : Table V)
    (nrows : Nat) (h0 : 0 < nrows) (subset : Option (List String))
    (hs : ∀ c ∈ subset.getD (Dict.keys t), c ∈ t.map Prod.fst) :
    dropDuplicates group isOne t nrows subset .first =
      .ok (takeRows t (firstRows (contents t (subset.getD (Dict.keys t)) nrows))) := by
  unfold dropDuplicates
  rw [if_neg (by omega)]
  dsimp only
  rw [if_pos (subset_ok hs)]
  congr 1
  unfold reduceBy takeRows
  refine List.map_congr_left fun e _ => ?_
  rw [perGroup_eq e.2 (group (contents t (subset.getD (Dict.keys t)) nrows)).1, ite_self]
  have := (hg (contents t (subset.getD (Dict.keys t)) nrows)).heads_eq
  unfold heads at this
  rw [this]

/-- **C71** `drop_duplicates(keep='last')` returns for every different content, in order of first appearance, the last row that holds
it, whole rows. -/
theorem dropDuplicates_last (group : List (List (Option V)) → List Nat × Nat) (hg : GroupOK group) (isOne : V → Bool) (t : Table V)
    (nrows : Nat) (ht : Rect t nrows) (h0 : 0 < nrows) (subset : Option (List String))
    (hs : ∀ c ∈ subset.getD (Dict.keys t), c ∈ t.map Prod.fst) :
    ∃ L, dropDuplicates group isOne t nrows subset .last = .ok (takeRows t L) ∧
      L.length = (firstRows (contents t (subset.getD (Dict.keys t)) nrows)).length ∧
      ∀ (k i : Nat), (firstRows (contents t (subset.getD (Dict.keys t)) nrows))[k]? = some i →
        ∃ j, L[k]? = some j ∧ IsLastOf (contents t (subset.getD (Dict.keys t)) nrows) i j := by
  generalize hsub : subset.getD (Dict.keys t) = sub at *
  have hN := hg (contents t sub nrows)
  obtain ⟨h1, h2⟩ := hN.lasts
  refine ⟨_, ?_, h1, h2⟩
  unfold dropDuplicates
  rw [if_neg (by omega)]
  dsimp only
  rw [hsub, if_pos (by rw [← hsub] at hs ⊢; exact subset_ok hs)]
  congr 1
  unfold reduceBy takeRows
  refine List.map_congr_left fun e he => ?_
  rw [perGroup_eq e.2 (group (contents t sub nrows)).1, perGroup_eq e.2 (group (contents t sub nrows)).1]
  split
  · rename_i hec
    congr 1
    have hh := hN.heads_eq
    unfold heads at hh
    rw [hh]
    refine valuesAt_congr _ _ _ h1.symm fun k i j hi hj => ?_
    obtain ⟨j', hj', hl⟩ := h2 k i hi
    rw [hj] at hj'
    cases hj'
    have hil : i < nrows := by
      have := (mem_firstRows.1 (List.mem_of_getElem? hi)).1
      rwa [contents_length] at this
    have hjl : j < nrows := by have := hl.1; rwa [contents_length] at this
    have := hl.2.1
    rw [contents_get _ _ _ _ hil, contents_get _ _ _ _ hjl, Option.some.injEq, List.map_inj_left] at this
    rw [← cell_of_mem ht he, ← cell_of_mem ht he]
    exact (this e.1 hec).symm
  · rfl

theorem mask_zip {A : Type} (f : Nat → Option A) (p : Nat → Bool) : ∀ (l : List Nat), (∀ i ∈ l, ∃ a, f i = some a) →
    (List.zip (l.filterMap f) (l.map p)).filterMap (fun (x : A × Bool) => if x.2 then some x.1 else none) =
      (l.filter p).filterMap f := by
  intro l
  induction l with
  | nil => intro _; rfl
  | cons i l ih =>
    intro h
    obtain ⟨a, ha⟩ := h i (by simp)
    have := ih fun j hj => h j (List.mem_cons_of_mem _ hj)
    rw [List.filterMap_cons, ha, List.map_cons]
    dsimp only
    rw [List.zip_cons_cons, List.filterMap_cons, List.filter_cons]
    cases hp : p i
    · simpa using this
    · simp [ha, this]

/-- the counts of the groups, as a property of their first rows -/
theorem counts_mask {K : Type} {rows : List K} {keys : List Nat} {n : Nat} (h : Numbered rows keys n) :
    open Classical in
    ((List.range n).map fun (g : Nat) => decide ((rowsOf keys (g + 1)).length = 1)) =
      (firstRows rows).map fun i => decide (¬ Earlier rows i ∧ ¬ Later rows i) := by
  classical
  have hH : ∀ (k : Nat), (firstRows rows)[k]? = ((List.range n)[k]?).bind fun (g : Nat) => firstOf keys (g + 1) := by
    rw [← h.heads_eq]
    exact filterMap_get _ _ fun g hg => h.head g (List.mem_range.1 hg)
  refine List.ext_getElem? fun k => ?_
  rw [List.getElem?_map, List.getElem?_map, hH k]
  by_cases hk : k < n
  · rw [List.getElem?_range hk, Option.bind_some, Option.map_some]
    obtain ⟨i, hi⟩ := h.head k hk
    rw [hi, Option.map_some, Option.some.injEq, decide_eq_decide]
    have hki := (head_rowsOf.1 hi).1
    have hil := h.lt hki
    have hne : ¬ Earlier rows i := (h.head_iff hil).1 ⟨k + 1, by omega, by omega, hi⟩
    constructor
    · intro hl
      refine ⟨hne, ?_⟩
      rw [← h.last_iff hki]
      obtain ⟨a, ha⟩ := List.length_eq_one_iff.1 hl
      unfold firstOf at hi
      rw [ha] at hi ⊢
      exact hi
    · rintro ⟨_, hnl⟩
      have hl := last_rowsOf.1 ((h.last_iff hki).2 hnl)
      have hall : ∀ j ∈ rowsOf keys (k + 1), j = i := by
        intro j hj
        have a := (head_rowsOf.1 hi).2 j (mem_rowsOf.1 hj)
        have b := hl.2 j (mem_rowsOf.1 hj)
        omega
      have hrep := List.eq_replicate_of_mem hall
      have hnd := rowsOf_nodup keys (k + 1)
      have hpos := rowsOf_ne (h.used (k + 1) (by omega) (by omega))
      rw [hrep, List.nodup_replicate] at hnd
      omega
  · rw [List.getElem?_eq_none (by simp; omega)]
    rfl

/-- **C71** (partial) `drop_duplicates(keep=False)` returns exactly the rows that occur once, whole rows, in their order, when no column
looked at is called `Count`. Missing: that name, see `dropDuplicates_count_counterexample`. -/
theorem dropDuplicates_drop_partial (group : List (List (Option V)) → List Nat × Nat) (hg : GroupOK group) (isOne : V → Bool)
    (t : Table V) (nrows : Nat) (ht : Rect t nrows) (h0 : 0 < nrows) (subset : Option (List String))
    (hs : ∀ c ∈ subset.getD (Dict.keys t), c ∈ t.map Prod.fst) (hcount : "Count" ∉ subset.getD (Dict.keys t)) :
    dropDuplicates group isOne t nrows subset .drop =
      .ok (takeRows t (onceRows (contents t (subset.getD (Dict.keys t)) nrows))) := by
  classical
  generalize hsub : subset.getD (Dict.keys t) = sub at *
  have hN := hg (contents t sub nrows)
  unfold dropDuplicates
  rw [if_neg (by omega)]
  dsimp only
  rw [hsub, if_pos (by rw [← hsub] at hs ⊢; exact subset_ok hs)]
  congr 1
  unfold countIsOne
  rw [if_neg hcount, counts_mask hN]
  unfold maskRows reduceBy takeRows
  rw [List.map_map]
  refine List.map_congr_left fun e he => ?_
  dsimp only [Function.comp_apply]
  rw [perGroup_eq e.2 (group (contents t sub nrows)).1, ite_self]
  have hh := hN.heads_eq
  unfold heads at hh
  rw [hh]
  congr 1
  unfold valuesAt
  rw [mask_zip]
  · congr 1
    unfold firstRows onceRows
    rw [List.filter_filter]
    refine List.filter_congr fun i _ => ?_
    by_cases h1 : Earlier (contents t sub nrows) i <;> simp [h1]
  · intro i hi
    have := (mem_firstRows.1 hi).1
    rw [contents_length, ← ht.2 e he] at this
    exact ⟨_, List.getElem?_eq_getElem this⟩

theorem takeRows_all (t : Table V) (nrows : Nat) (ht : Rect t nrows) : takeRows t (List.range nrows) = t := by
  unfold takeRows
  conv_rhs => rw [← List.map_id t]
  refine List.map_congr_left fun e he => ?_
  have hl := ht.2 e he
  have : valuesAt e.2 (List.range nrows) = e.2 := by
    unfold valuesAt
    refine List.ext_getElem? fun k => ?_
    rw [filterMap_get _ _ fun i hi => ⟨_, List.getElem?_eq_getElem (by rw [hl]; exact List.mem_range.1 hi)⟩]
    by_cases hk : k < nrows
    · rw [List.getElem?_range hk]; rfl
    · rw [List.getElem?_eq_none (by simp; omega), List.getElem?_eq_none (by omega)]
      rfl
  rw [this]
  rfl

theorem nrowsOf_takeRows (t : Table V) (hne : t ≠ []) (nrows : Nat) (ht : Rect t nrows) (L : List Nat) (hL : ∀ i ∈ L, i < nrows) :
    nrowsOf (takeRows t L) = L.length := by
  cases t with
  | nil => exact absurd rfl hne
  | cons e t =>
    unfold takeRows nrowsOf
    rw [List.map_cons]
    exact valuesAt_length _ _ fun i hi => by rw [ht.2 e (by simp)]; exact hL i hi

/-- a strictly ascending list of `nrows` numbers below `nrows` -/
theorem sorted_full {L : List Nat} {nrows : Nat} (h : L.Pairwise (· < ·)) (hb : ∀ i ∈ L, i < nrows) (hl : L.length = nrows) :
    L = List.range nrows := by
  have hnd : L.Nodup := h.imp fun h => Nat.ne_of_lt h
  have hsub : L.Subperm (List.range nrows) := List.subperm_of_subset hnd fun i hi => List.mem_range.2 (hb i hi)
  have hperm := hsub.perm_of_length_le (by rw [hl, List.length_range])
  exact List.Perm.eq_of_pairwise (fun x y _ _ h1 h2 => by omega) h List.pairwise_lt_range hperm

/-- **C71** `drop_duplicates(inplace=True)` leaves the Dataset with the same contents that the call without `inplace` returns, and
returns these contents. The object returned is not always the Dataset itself, see the third component. -/
theorem dropDuplicates_inplace (group : List (List (Option V)) → List Nat × Nat) (hg : GroupOK group) (isOne : V → Bool) (t : Table V)
    (nrows : Nat) (hne : t ≠ []) (ht : Rect t nrows) (subset : Option (List String))
    (hs : ∀ c ∈ subset.getD (Dict.keys t), c ∈ t.map Prod.fst) (keep : Keep)
    (hk : keep = .drop → "Count" ∉ subset.getD (Dict.keys t)) (a r : Table V) (same : Bool)
    (hr : dropDuplicatesInplace group isOne t nrows subset keep = .ok (a, r, same)) :
    a = r ∧ dropDuplicates group isOne t nrows subset keep = .ok r := by
  unfold dropDuplicatesInplace at hr
  by_cases h0 : nrows = 0
  · rw [if_pos h0] at hr
    cases hr
    refine ⟨rfl, ?_⟩
    unfold dropDuplicates
    rw [if_pos h0]
  · rw [if_neg h0] at hr
    cases hd : dropDuplicates group isOne t nrows subset keep with
    | error e => rw [hd] at hr; simp [bind, Except.bind] at hr
    | ok d =>
      rw [hd] at hr
      simp only [bind, Except.bind] at hr
      by_cases hl : nrowsOf d ≠ nrows
      · rw [if_pos hl] at hr
        cases hr
        exact ⟨rfl, rfl⟩
      · rw [if_neg hl] at hr
        cases hr
        refine ⟨?_, rfl⟩
        replace hl := not_not.1 hl
        generalize hsub : subset.getD (Dict.keys t) = sub at *
        have hfirst : ∀ (i : Nat), i ∈ firstRows (contents t sub nrows) → i < nrows := fun i hi => by
          have := (mem_firstRows.1 hi).1; rwa [contents_length] at this
        cases keep with
        | first =>
          rw [dropDuplicates_first group hg isOne t nrows (by omega) subset (by rw [hsub]; exact hs), hsub] at hd
          cases hd
          rw [nrowsOf_takeRows t hne nrows ht _ hfirst] at hl
          rw [sorted_full firstRows_sorted hfirst hl, takeRows_all t nrows ht]
        | last =>
          obtain ⟨L, h1, h2, h3⟩ := dropDuplicates_last group hg isOne t nrows ht (by omega) subset (by rw [hsub]; exact hs)
          rw [hsub] at h2 h3
          rw [h1] at hd
          cases hd
          have hLlt : ∀ i ∈ L, i < nrows := by
            intro j hj
            obtain ⟨k, hk'⟩ := List.mem_iff_getElem?.1 hj
            have hkl : k < L.length := by
              by_contra hn
              rw [List.getElem?_eq_none (by omega)] at hk'
              simp at hk'
            rw [h2] at hkl
            obtain ⟨j', hj', hlast⟩ := h3 k _ (List.getElem?_eq_getElem hkl)
            rw [hk'] at hj'
            cases hj'
            have := hlast.1
            rwa [contents_length] at this
          rw [nrowsOf_takeRows t hne nrows ht _ hLlt, h2] at hl
          have hall := sorted_full firstRows_sorted hfirst hl
          have hLe : L = List.range nrows := by
            refine List.ext_getElem? fun k => ?_
            by_cases hk : k < nrows
            · have hke : (firstRows (contents t sub nrows))[k]? = some k := by rw [hall, List.getElem?_range hk]
              obtain ⟨j, hj, hlast⟩ := h3 k k hke
              have hjl : j < nrows := by have := hlast.1; rwa [contents_length] at this
              have : j = k := by
                by_contra hne'
                have hjf : j ∈ firstRows (contents t sub nrows) := by rw [hall]; exact List.mem_range.2 hjl
                have hkf : k ∈ firstRows (contents t sub nrows) := by rw [hall]; exact List.mem_range.2 hk
                rcases Nat.lt_or_gt_of_ne hne' with hjk | hjk
                · exact (mem_firstRows.1 hkf).2 ⟨j, hjk, hlast.2.1⟩
                · exact (mem_firstRows.1 hjf).2 ⟨k, hjk, hlast.2.1.symm⟩
              rw [hj, List.getElem?_range hk, this]
            · rw [List.getElem?_eq_none (by rw [h2, hl]; omega), List.getElem?_eq_none (by rw [List.length_range]; omega)]
          rw [hLe, takeRows_all t nrows ht]
        | drop =>
          rw [dropDuplicates_drop_partial group hg isOne t nrows ht (by omega) subset (by rw [hsub]; exact hs)
            (by rw [hsub]; exact hk rfl), hsub] at hd
          cases hd
          have honce : ∀ (i : Nat), i ∈ onceRows (contents t sub nrows) → i < nrows := fun i hi => by
            have := (mem_onceRows.1 hi).1; rwa [contents_length] at this
          rw [nrowsOf_takeRows t hne nrows ht _ honce] at hl
          rw [sorted_full onceRows_sorted honce hl, takeRows_all t nrows ht]
        | other =>
          unfold dropDuplicates at hd
          rw [if_neg h0] at hd
          dsimp only at hd
          split at hd <;> simp at hd

/-- **C71** (violation) A column called `Count` among the columns looked at: the row (1, 5) occurs twice, (2, 7) once;
`drop_duplicates(keep=False)` compares the values of the column with 1 and returns the first of the repeated rows. -/
theorem dropDuplicates_count_counterexample :
    let t : Table Nat := [("Count", [1, 2, 1]), ("b", [5, 7, 5])]
    dropDuplicates refGroup (fun v => v == 1) t 3 none .drop = .ok [("Count", [1]), ("b", [5])] ∧
    Later (contents t ["Count", "b"] 3) 0 := by
  refine ⟨by decide +kernel, ⟨2, by omega, by decide, by decide +kernel⟩⟩

/-- **C71** (violation) When nothing is dropped, `drop_duplicates(inplace=True)` does not return the Dataset itself. -/
theorem dropDuplicates_inplace_counterexample :
    dropDuplicatesInplace refGroup (fun v => v == 1) [("a", [1, 2])] 2 none .first =
      .ok ([("a", [1, 2])], [("a", [1, 2])], false) := by decide +kernel

/-- hypotheses of the theorems can be met -/
example : GroupOK (refGroup : List (List (Option Nat)) → List Nat × Nat) ∧
    dropDuplicates refGroup (fun v => v == 1) [("a", [1, 2, 1]), ("b", [5, 7, 6])] 3 (some ["a"]) .first =
      .ok [("a", [1, 2]), ("b", [5, 7])] ∧
    dropDuplicates refGroup (fun v => v == 1) [("a", [1, 2, 1]), ("b", [5, 7, 6])] 3 (some ["a"]) .last =
      .ok [("a", [1, 2]), ("b", [6, 7])] ∧
    dropDuplicates refGroup (fun v => v == 1) [("a", [1, 2, 1]), ("b", [5, 7, 6])] 3 (some ["a"]) .drop =
      .ok [("a", [2]), ("b", [7])] :=
  ⟨fun rows => refGroup_numbered rows, by decide +kernel, by decide +kernel, by decide +kernel⟩

end

end Verif.Dup
