import Verif.Idx.Lemmas
import Verif.CatNew.Model
import Mathlib.Order.Lattice
/-! # Making Categoricals: lemmas -/
namespace Verif.CatNew

/-! ## integer types -/

theorem lenBits_pos (n : Nat) : 8 ≤ lenBits n := by unfold lenBits; split_ifs <;> omega

theorem lenBits_fits {n : Nat} (h : n < 2 ^ 63) : n + 1 < 2 ^ (lenBits n - 1) ∨ (lenBits n = 64 ∧ n < 2 ^ 63) := by
  unfold lenBits
  split_ifs with h1 h2 h3
  · left; norm_num; omega
  · left; norm_num; omega
  · left; norm_num; omega
  · right; exact ⟨rfl, h⟩

theorem lenBits_recast (n : Nat) (req : Option Nat) : lenBits n ≤ recastBits n req := by
  unfold recastBits
  cases req with
  | none => exact le_refl _
  | some r =>
    dsimp only
    split_ifs with h
    · exact h
    · exact le_refl _

theorem store_id {bits : Nat} {k : Int} (hb : 1 ≤ bits) (h0 : -(2 ^ (bits - 1) : Nat) ≤ k) (h1 : k < (2 ^ (bits - 1) : Nat)) : store bits k = k := by
  obtain ⟨b, rfl⟩ : ∃ b, bits = b + 1 := ⟨bits - 1, by omega⟩
  rw [Nat.add_sub_cancel] at h0 h1
  have hp : (2 : Nat) ^ (b + 1) = 2 * 2 ^ b := by rw [Nat.pow_succ]; omega
  unfold store
  rw [hp]
  generalize (2 : Nat) ^ b = m at *
  apply Int.bmod_eq_of_le_mul_two
  · push_cast; omega
  · push_cast; omega

/-- a code that is in range fits into the type chosen, whatever type was requested -/
theorem store_recast {n : Nat} (req : Option Nat) (h : n < 2 ^ 63) {k : Int} (h0 : 0 ≤ k) (h1 : k ≤ n) : store (recastBits n req) k = k := by
  have hb := lenBits_recast n req
  have h8 := lenBits_pos n
  have hmono : (2 : Nat) ^ (lenBits n - 1) ≤ 2 ^ (recastBits n req - 1) := Nat.pow_le_pow_right (by omega) (by omega)
  refine store_id (by omega) ?_ ?_
  · have : (0 : Int) ≤ ((2 ^ (recastBits n req - 1) : Nat) : Int) := Int.natCast_nonneg _
    omega
  · rcases lenBits_fits h with h2 | ⟨h2, h3⟩
    · omega
    · rw [h2] at hmono
      have : (2 : Nat) ^ (64 - 1) = 2 ^ 63 := rfl
      omega

/-! ## columns -/
section
variable {S : Type}

theorem rowAt_eq (d : Cols S) (i : Nat) : rowAt d i = keysOf (d.map (·.2)) i := by
  simp [rowAt, keysOf, List.filterMap_map, Function.comp_def]

theorem pickAt_get {col : List S} {ix : List Nat} (h : ∀ i ∈ ix, i < col.length) (j : Nat) : (pickAt col ix)[j]? = (ix[j]?).bind fun i => col[i]? := by
  unfold pickAt
  exact Verif.Idx.filterMap_total _ _ (fun i hi => ⟨_, List.getElem?_eq_getElem (h i hi)⟩) j

theorem pickAt_length {col : List S} {ix : List Nat} (h : ∀ i ∈ ix, i < col.length) : (pickAt col ix).length = ix.length := by
  induction ix with
  | nil => rfl
  | cons i ix ih =>
    have hi := h i (by simp)
    have := ih fun j hj => h j (List.mem_cons_of_mem _ hj)
    unfold pickAt at this ⊢
    rw [List.filterMap_cons, List.getElem?_eq_getElem hi]
    simp [this]

/-- all columns have `n` items -/
def Rect (d : Cols S) (n : Nat) : Prop := ∀ kv ∈ d, kv.2.length = n

theorem rowAt_takeAll {d : Cols S} {n : Nat} (hd : Rect d n) {ix : List Nat} (h : ∀ i ∈ ix, i < n) {j i : Nat} (hj : ix[j]? = some i) :
    rowAt (takeAll d ix) j = rowAt d i := by
  unfold rowAt takeAll
  rw [List.filterMap_map]
  refine List.filterMap_congr fun kv hkv => ?_
  show (pickAt kv.2 ix)[j]? = kv.2[i]?
  rw [pickAt_get (fun x hx => by rw [hd kv hkv]; exact h x hx), hj]
  rfl

theorem rect_takeAll {d : Cols S} {n : Nat} (hd : Rect d n) {ix : List Nat} (h : ∀ i ∈ ix, i < n) : Rect (takeAll d ix) ix.length := by
  intro kv hkv
  obtain ⟨a, ha, rfl⟩ := List.mem_map.1 hkv
  exact pickAt_length fun x hx => by rw [hd a ha]; exact h x hx

theorem rows_takeAll {d : Cols S} {n : Nat} (hd : Rect d n) {ix : List Nat} (h : ∀ i ∈ ix, i < n) :
    (List.range ix.length).map (rowAt (takeAll d ix)) = ix.map (rowAt d) := by
  refine List.ext_getElem (by simp) fun j h1 h2 => ?_
  rw [List.getElem_map, List.getElem_map, List.getElem_range]
  rw [List.length_map] at h2
  exact rowAt_takeAll hd h (List.getElem?_eq_getElem h2)

theorem kept_iff (filter : Option (List Bool)) (i : Nat) : kept filter i = true ↔ Passes filter i := by
  unfold kept Passes
  cases filter with
  | none => simp
  | some f =>
    dsimp only
    rw [List.getD_eq_getElem?_getD]
    cases f[i]? with
    | none => simp
    | some b => simp

theorem find_pos {A : Type} [BEq A] [LawfulBEq A] {l : List A} {a : A} (h : a ∈ l) : l[l.idxOf a]? = some a := by
  rw [List.getElem?_eq_getElem (List.idxOf_lt_length_of_mem h)]
  simp
end

/-! ## groups -/
section
variable {S : Type} [LinearOrder S] {d : Cols S} {n : Nat} {filter : Option (List Bool)}

/-- `first` has one row of every group -/
structure FirstOK (d : Cols S) (n : Nat) (filter : Option (List Bool)) (first : List Nat) : Prop where
  lt : ∀ i ∈ first, i < n
  pass : ∀ i ∈ first, Passes filter i
  inj : (first.map (rowAt d)).Nodup
  all : ∀ i, i < n → Passes filter i → rowAt d i ∈ first.map (rowAt d)

theorem mem_hashFirst {i : Nat} : i ∈ hashFirst d n filter ↔ i < n ∧ Passes filter i ∧ ∀ j < i, Passes filter j → rowAt d j ≠ rowAt d i := by
  unfold hashFirst
  rw [List.mem_filter, List.mem_range, Bool.and_eq_true, kept_iff, List.all_eq_true]
  constructor
  · rintro ⟨h1, h2, h3⟩
    refine ⟨h1, h2, fun j hj hp he => ?_⟩
    have := h3 j (List.mem_range.2 hj)
    rw [← kept_iff] at hp
    simp [hp, he] at this
  · rintro ⟨h1, h2, h3⟩
    refine ⟨h1, h2, fun j hj => ?_⟩
    have := h3 j (List.mem_range.1 hj)
    rw [← kept_iff] at this
    by_cases hk : kept filter j = true
    · simp [hk, this hk]
    · simp [hk]

theorem hashFirst_sorted : (hashFirst d n filter).Pairwise (· < ·) := List.Pairwise.filter _ List.pairwise_lt_range

theorem exists_first : ∀ (i : Nat), i < n → Passes filter i → ∃ j ∈ hashFirst d n filter, rowAt d j = rowAt d i := by
  intro i
  induction i using Nat.strong_induction_on with
  | _ i ih =>
    intro hi hp
    by_cases h : ∀ j < i, Passes filter j → rowAt d j ≠ rowAt d i
    · exact ⟨i, mem_hashFirst.2 ⟨hi, hp, h⟩, rfl⟩
    · push Not at h
      obtain ⟨j, hj, hpj, he⟩ := h
      obtain ⟨k, hk, hke⟩ := ih j hj (by omega) hpj
      exact ⟨k, hk, hke.trans he⟩

theorem hashFirst_ok : FirstOK d n filter (hashFirst d n filter) where
  lt i hi := (mem_hashFirst.1 hi).1
  pass i hi := (mem_hashFirst.1 hi).2.1
  inj := by
    unfold List.Nodup
    rw [List.pairwise_map]
    refine (List.Pairwise.and_mem.1 hashFirst_sorted).imp ?_
    rintro a b ⟨ha, hb, hab⟩
    exact (mem_hashFirst.1 hb).2.2 a hab (mem_hashFirst.1 ha).2.1
  all i hi hp := by
    obtain ⟨j, hj, he⟩ := exists_first (d := d) i hi hp
    exact List.mem_map.2 ⟨j, hj, he⟩

theorem FirstOK.perm {a b : List Nat} (h : FirstOK d n filter a) (hp : a.Perm b) : FirstOK d n filter b where
  lt i hi := h.lt i (hp.mem_iff.2 hi)
  pass i hi := h.pass i (hp.mem_iff.2 hi)
  inj := (hp.map _).nodup_iff.1 h.inj
  all i hi hpass := (hp.map _).mem_iff.1 (h.all i hi hpass)

/-- keys of a grouping with categories `u`: row `i` has the number of its category, filtered rows have 0 -/
structure KeysOK (d : Cols S) (n : Nat) (filter : Option (List Bool)) (u : Cols S) (m : Nat) (key : List Int) : Prop where
  len : key.length = n
  inn : ∀ i, i < n → Passes filter i → ∃ j, j < m ∧ key[i]? = some ((j : Int) + 1) ∧ rowAt u j = rowAt d i
  out : ∀ i, i < n → ¬ Passes filter i → key[i]? = some 0

theorem keysFor_ok (hd : Rect d n) {first : List Nat} (hf : FirstOK d n filter first) :
    KeysOK d n filter (takeAll d first) first.length (keysFor d n filter first) where
  len := by simp [keysFor]
  inn i hi hp := by
    have hm := hf.all i hi hp
    have hlt := List.idxOf_lt_length_of_mem hm
    rw [List.length_map] at hlt
    refine ⟨_, hlt, ?_, ?_⟩
    · unfold keysFor
      rw [List.getElem?_map, List.getElem?_range hi]
      simp [(kept_iff filter i).2 hp]
    · have h1 := find_pos hm
      rw [List.getElem?_map] at h1
      rw [Option.map_eq_some_iff] at h1
      obtain ⟨x, hx, hxe⟩ := h1
      rw [rowAt_takeAll hd hf.lt hx, hxe]
  out i hi hp := by
    unfold keysFor
    rw [List.getElem?_map, List.getElem?_range hi]
    rw [← kept_iff] at hp
    simp [hp]

/-! ## sorting -/

theorem lexsort_perm (keys : List (List S)) (m : Nat) : (lexsort keys m).Perm (List.range m) := List.perm_insertionSort _ _

theorem lexsort_sorted (keys : List (List S)) (m : Nat) :
    (lexsort keys m).Pairwise fun i j => keysOf keys.reverse i ≤ keysOf keys.reverse j := by
  have : Std.Total fun (i j : Nat) => keysOf keys.reverse i ≤ keysOf keys.reverse j := ⟨fun i j => le_total _ _⟩
  have : IsTrans Nat fun (i j : Nat) => keysOf keys.reverse i ≤ keysOf keys.reverse j := ⟨fun i j k => le_trans⟩
  exact List.pairwise_insertionSort _ _

theorem isortrows_sorted (u : Cols S) (m : Nat) : (isortrows u m).Pairwise fun i j => rowAt u i ≤ rowAt u j := by
  have := lexsort_sorted (u.map (·.2)).reverse m
  rw [List.reverse_reverse] at this
  refine this.imp fun {i j} h => ?_
  rw [rowAt_eq, rowAt_eq]
  exact h

theorem isortrows_perm (u : Cols S) (m : Nat) : (isortrows u m).Perm (List.range m) := lexsort_perm _ _

/-- rows in ascending order without repetition are strictly ascending -/
theorem strict {l : List (List S)} (h : l.Pairwise (· ≤ ·)) (hn : l.Nodup) : l.Pairwise (· < ·) :=
  (h.and hn).imp fun h => lt_of_le_of_ne h.1 h.2

theorem ismember1_get {a b : List Int} {i : Nat} {x : Int} (h : a[i]? = some x) : (ismember1 a b)[i]? = some (if x ∈ b then (b.idxOf x : Int) + 1 else 0) := by
  unfold ismember1
  rw [List.getElem?_map, h]
  rfl

theorem idxOf_map_inj {A B : Type} [BEq A] [LawfulBEq A] [BEq B] [LawfulBEq B] (f : A → B) (hf : Function.Injective f) (l : List A) (a : A) :
    (l.map f).idxOf (f a) = l.idxOf a := by
  induction l with
  | nil => rfl
  | cons x l ih =>
    rw [List.map_cons, List.idxOf_cons, List.idxOf_cons, ih]
    by_cases h : x = a
    · subst h
      rw [beq_self_eq_true, beq_self_eq_true]
    · have h1 : (x == a) = false := beq_eq_false_iff_ne.2 h
      have h2 : (f x == f a) = false := beq_eq_false_iff_ne.2 fun he => h (hf he)
      rw [h1, h2]

/-- sorting the categories and renumbering the rows -/
theorem sortedKeys_ok {u : Cols S} {m : Nat} (hu : Rect u m) {key : List Int} (base : Nat) (hb : base = 0 → filter = none)
    (hk : KeysOK d n filter u m key) {ix : List Nat} (hp : ix.Perm (List.range m)) :
    KeysOK d n filter (takeAll u ix) m (sortedKeys base key ix) := by
  have hlt : ∀ i ∈ ix, i < m := fun i hi => List.mem_range.1 (hp.mem_iff.1 hi)
  have hlen : ix.length = m := by rw [hp.length_eq, List.length_range]
  refine ⟨?_, ?_, ?_⟩
  · unfold sortedKeys ismember1
    split_ifs <;> simp [hk.len]
  · intro i hi hpass
    obtain ⟨j, hj, hkey, hrow⟩ := hk.inn i hi hpass
    have hmem : j ∈ ix := hp.mem_iff.2 (List.mem_range.2 hj)
    refine ⟨ix.idxOf j, by rw [← hlen]; exact List.idxOf_lt_length_of_mem hmem, ?_, ?_⟩
    · unfold sortedKeys
      split_ifs with h0
      · have hkey' : (key.map (· - 1))[i]? = some (j : Int) := by rw [List.getElem?_map, hkey]; simp
        rw [ismember1_get hkey', if_pos (List.mem_map.2 ⟨j, hmem, rfl⟩),
          idxOf_map_inj (fun (i : Nat) => (i : Int)) (fun a b h => by simpa using h)]
      · rw [ismember1_get hkey, if_pos (List.mem_map.2 ⟨j, hmem, rfl⟩),
          idxOf_map_inj (fun (i : Nat) => (i : Int) + 1) (fun a b h => by simpa using h)]
    · rw [rowAt_takeAll hu hlt (find_pos hmem), hrow]
  · intro i hi hpass
    have h0 : base ≠ 0 := fun h => by
      have := hb h
      subst this
      exact hpass trivial
    unfold sortedKeys
    rw [if_neg h0, ismember1_get (hk.out i hi hpass), if_neg]
    intro h
    obtain ⟨x, _, hx⟩ := List.mem_map.1 h
    omega
end
end Verif.CatNew
