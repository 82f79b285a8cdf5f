import Verif.RecArr.Model
import Mathlib.Data.List.Forall2
import Mathlib.Tactic.Linarith
/-! # Record arrays and numbers of bits: properties (C360 - C363) -/
namespace Verif.RecArr
open Spec
variable {V : Type}

/-- the number of rows of a column -/
def Col.length : Col V → Nat
  | .nano l => l.length
  | .date l => l.length
  | .dateSpan l => l.length
  | .timeSpan l => l.length
  | .other l => l.length

theorem cells_length (allow : Bool) (c : Col V) : (cells allow c).length = c.length := by
  cases c <;> cases allow <;> simp [cells, Col.length]

theorem filterMap_at {B : Type} (cols : List (List B)) (i : Nat) (h : ∀ c ∈ cols, i < c.length) :
    (cols.filterMap fun c => c[i]?).map some = cols.map fun c => c[i]? := by
  induction cols with
  | nil => rfl
  | cons c cs ih =>
    have hc := h c (by simp)
    rw [List.filterMap_cons, List.getElem?_eq_getElem hc]
    simp only [List.map_cons]
    rw [ih fun c hc => h c (by simp [hc]), List.getElem?_eq_getElem hc]

/-- a record for every row, with a field for every column -/
theorem records (allow : Bool) (ds : List (List Char × Col V)) (n : Nat) (hds : ds ≠ []) (hn : ∀ c ∈ ds, c.2.length = n) :
    ∃ rows, asRecordArray allow ds = some (ds.map Prod.fst, rows) ∧ rows.length = n ∧
      ∀ i, i < n → ∃ rec, rows[i]? = some rec ∧ rec.length = ds.length ∧
        ∀ (j : Nat) (name : List Char) (col : Col V), ds[j]? = some (name, col) → rec[j]? = (cells allow col)[i]? := by
  cases ds with
  | nil => exact absurd rfl hds
  | cons c cs =>
    have hl : (cells allow c.2).length = n := by
      rw [cells_length]
      exact hn c (by simp)
    refine ⟨_, rfl, by simpa using hl, ?_⟩
    intro i hi
    have key := filterMap_at ((c :: cs).map fun c => cells allow c.2) i (by
      intro l hl
      obtain ⟨e, he, rfl⟩ := List.mem_map.1 hl
      rw [cells_length, hn e he]
      exact hi)
    refine ⟨((c :: cs).map fun c => cells allow c.2).filterMap fun col => col[i]?, ?_, ?_, ?_⟩
    · rw [List.getElem?_map, List.getElem?_range (by rw [hl]; exact hi)]
      rfl
    · have := congrArg List.length key
      simpa using this
    · intro j name col hj
      have hk := congrArg (fun l => l[j]?) key
      simp only [List.getElem?_map, hj, Option.map_some] at hk
      have hlen : j < (c :: cs).length := by
        rcases Nat.lt_or_ge j (c :: cs).length with h | h
        · exact h
        · rw [List.getElem?_eq_none h] at hj
          cases hj
      generalize hr : (((c :: cs).map fun c => cells allow c.2).filterMap fun col => col[i]?)[j]? = r at hk ⊢
      cases r with
      | none => simp at hk
      | some r => simpa using hk

/-- **C360** It raises only without columns. -/
theorem records_raise (allow : Bool) (ds : List (List Char × Col V)) : asRecordArray allow ds = none ↔ ds = [] := by
  cases ds with
  | nil => exact ⟨fun _ => rfl, fun _ => rfl⟩
  | cons c cs => simp [asRecordArray, fromArrays]

theorem ofInt_shown (x y : Int) (h : shown min64 x = some y) : ofInt x = some y := by
  unfold shown at h
  split at h
  · cases h
  · next hx =>
    cases h
    unfold ofInt
    rw [if_neg fun h => hx (Or.inr h)]

theorem ofInt_small (x : Int) (h : min32 ≤ x) : ofInt x = some x := by
  unfold ofInt
  rw [if_neg (by unfold min32 at h; unfold min64; omega)]

theorem ofFloat_trunc (q : Rat) : ∃ n, ofFloat (some q) = some n ∧ Truncated q n := by
  refine ⟨_, rfl, ?_⟩
  unfold Truncated
  by_cases h : 0 ≤ q
  · rw [if_pos h]
    refine ⟨fun _ => ⟨Int.floor_le q, Int.lt_floor_add_one q⟩, ?_⟩
    intro h'
    exact absurd h (not_le.2 h')
  · rw [if_neg h]
    refine ⟨fun h' => absurd h' h, fun _ => ⟨Int.le_ceil q, ?_⟩⟩
    have := Int.ceil_lt_add_one q
    linarith

theorem cells_keep (allow : Bool) (col : Col V) (hf : Fits col) (i : Nat) (c : Cell V) (h : (cells allow col)[i]? = some c) :
    Keeps allow col i c := by
  cases col with
  | nano l =>
    simp only [cells, List.getElem?_map, Option.map_eq_some_iff] at h
    obtain ⟨x, hx, rfl⟩ := h
    exact ⟨x, _, hx, rfl, fun y hy => ofInt_shown x y hy⟩
  | date l =>
    cases allow
    · simp only [cells, Bool.false_eq_true, if_false, List.getElem?_map, Option.map_eq_some_iff] at h
      obtain ⟨x, hx, rfl⟩ := h
      exact ⟨x, hx, Or.inl ⟨rfl, rfl⟩⟩
    · simp only [cells, if_true, List.getElem?_map, Option.map_eq_some_iff] at h
      obtain ⟨x, hx, rfl⟩ := h
      refine ⟨x, hx, Or.inr ⟨rfl, _, rfl, ?_⟩⟩
      intro y hy
      rw [ofInt_small x (hf x (List.mem_of_getElem? hx))]
      unfold shown at hy
      split at hy
      · cases hy
      · exact hy
  | dateSpan l =>
    cases allow
    · simp only [cells, Bool.false_eq_true, if_false, List.getElem?_map, Option.map_eq_some_iff] at h
      obtain ⟨x, hx, rfl⟩ := h
      exact ⟨x, hx, Or.inl ⟨rfl, rfl⟩⟩
    · simp only [cells, if_true, List.getElem?_map, Option.map_eq_some_iff] at h
      obtain ⟨x, hx, rfl⟩ := h
      refine ⟨x, hx, Or.inr ⟨rfl, _, rfl, ?_⟩⟩
      intro y hy
      rw [ofInt_small x (hf x (List.mem_of_getElem? hx))]
      unfold shownSpan at hy
      split at hy
      · cases hy
      · exact hy
  | timeSpan l =>
    cases allow
    · simp only [cells, Bool.false_eq_true, if_false, List.getElem?_map, Option.map_eq_some_iff] at h
      obtain ⟨x, hx, rfl⟩ := h
      exact ⟨x, hx, Or.inl ⟨rfl, rfl⟩⟩
    · simp only [cells, if_true, List.getElem?_map, Option.map_eq_some_iff] at h
      obtain ⟨x, hx, rfl⟩ := h
      refine ⟨x, hx, Or.inr ⟨rfl, _, rfl, ?_, ?_⟩⟩
      · cases x <;> simp [ofFloat]
      · rintro q n rfl hn
        obtain ⟨n', h1, h2⟩ := ofFloat_trunc q
        rw [h1] at hn
        cases hn
        exact h2
  | other l =>
    simp only [cells, List.getElem?_map, Option.map_eq_some_iff] at h
    obtain ⟨v, hv, rfl⟩ := h
    exact ⟨v, hv, rfl⟩

/-- **C360** A record for every row, with a field for every column in order, of the documented type and with the value of this row. -/
theorem records_keep (allow : Bool) (ds : List (List Char × Col V)) (n : Nat) (hds : ds ≠ []) (hn : ∀ c ∈ ds, c.2.length = n)
    (hf : ∀ c ∈ ds, Fits c.2) :
    ∃ rows, asRecordArray allow ds = some (ds.map Prod.fst, rows) ∧ rows.length = n ∧
      ∀ i rec, rows[i]? = some rec → List.Forall₂ (fun e c => Keeps allow e.2 i c) ds rec := by
  obtain ⟨rows, h1, h2, h3⟩ := records allow ds n hds hn
  refine ⟨rows, h1, h2, ?_⟩
  intro i rec hr
  have hi : i < n := by
    rw [← h2]
    exact (List.getElem?_eq_some_iff.1 hr).1
  obtain ⟨rec', e1, e2, e3⟩ := h3 i hi
  rw [hr] at e1
  cases e1
  rw [List.forall₂_iff_get]
  refine ⟨e2.symm, ?_⟩
  intro j hj hj'
  have hd : ds[j]? = some (ds[j].1, ds[j].2) := List.getElem?_eq_getElem hj
  have := e3 j _ _ hd
  rw [List.getElem?_eq_getElem hj'] at this
  exact cells_keep allow _ (hf _ (List.getElem_mem hj)) i _ this.symm

example : asRecordArray (V := Nat) true [(['a'], .nano [5, 6]), (['b'], .timeSpan [some (5 / 2), none]), (['c'], .other [7, 8])] =
    some ([['a'], ['b'], ['c']], [[.datetime64ns (some 5), .timedelta64ns (some 2), .plain 7],
      [.datetime64ns (some 6), .timedelta64ns none, .plain 8]]) := by decide +kernel

/-- **C361** Moments and days that riptable shows, and spans of days that are not invalid, are the same in the records. -/
theorem moments_partial (x : Int) (h64 : min64 < x) :
    (∀ y, shown min64 x = some y → cells (V := V) true (.nano [x]) = [.datetime64ns (some y)] ∧ cells (V := V) false (.nano [x]) = [.datetime64ns (some y)]) ∧
    (∀ y, shown min32 x = some y → cells (V := V) true (.date [x]) = [.datetime64D (some y)]) ∧
    (∀ y, shownSpan x = some y → cells (V := V) true (.dateSpan [x]) = [.timedelta64D (some y)]) := by
  have hx : ofInt x = some x := by
    unfold ofInt
    rw [if_neg (by omega)]
  refine ⟨?_, ?_, ?_⟩
  · intro y hy
    unfold shown at hy
    split at hy
    · cases hy
    · cases hy
      simp [cells, hx]
  · intro y hy
    unfold shown at hy
    split at hy
    · cases hy
    · cases hy
      simp [cells, hx]
  · intro y hy
    unfold shownSpan at hy
    split at hy
    · cases hy
    · cases hy
      simp [cells, hx]

/-- **C361** Exactly: NaT is where the number is the smallest of 64 bits, so for Dates and DateSpans, of 32 bits, nowhere. -/
theorem nat_exact (x : Int) : cells (V := V) true (.nano [x]) = [.datetime64ns none] ↔ x = min64 := by
  unfold cells ofInt
  by_cases h : x = min64
  · simp [h]
  · simp [h]

theorem nat_never (x : Int) (h : min32 ≤ x) :
    cells (V := V) true (.date [x]) = [.datetime64D (some x)] ∧ cells (V := V) true (.dateSpan [x]) = [.timedelta64D (some x)] := by
  have hx : ofInt x = some x := by
    unfold ofInt
    rw [if_neg (by unfold min32 at h; unfold min64; omega)]
  simp [cells, hx]

/-- **C361, violated** Invalid values become moments: an invalid DateTimeNano or Date is the first of January 1970, an invalid DateSpan a
span of more than five million years back. -/
theorem moments_counterexample :
    shown min64 0 = none ∧ cells (V := Unit) true (.nano [0]) = [.datetime64ns (some 0)] ∧
    shown min32 0 = none ∧ cells (V := Unit) true (.date [0]) = [.datetime64D (some 0)] ∧
    shownSpan min32 = none ∧ cells (V := Unit) true (.dateSpan [min32]) = [.timedelta64D (some (-2147483648))] := by
  decide +kernel

example : min64 < 1577836800000000000 ∧ shown min64 1577836800000000000 = some 1577836800000000000 := by decide +kernel

/-- **C362** TimeSpans lose at most the part of a nanosecond, towards zero, and are NaT exactly where they are NaN. -/
theorem spans (l : List (Option Rat)) :
    List.Forall₂ (fun x c => (x = none ∧ c = .timedelta64ns none) ∨ ∃ q n, x = some q ∧ c = .timedelta64ns (some n) ∧ Truncated q n) l
      (cells (V := V) true (.timeSpan l)) := by
  simp only [cells, if_true]
  rw [List.forall₂_map_right_iff, List.forall₂_same]
  intro x _
  cases x with
  | none => exact Or.inl ⟨rfl, rfl⟩
  | some q =>
    right
    obtain ⟨n, h1, h2⟩ := ofFloat_trunc q
    exact ⟨q, n, rfl, by rw [h1], h2⟩

/-- the truncation is the only one -/
theorem truncated_unique (q : Rat) (m n : Int) (hm : Truncated q m) (hn : Truncated q n) : m = n := by
  unfold Truncated at hm hn
  rcases le_or_gt 0 q with h | h
  · have a := hm.1 h
    have b := hn.1 h
    have h1 : (m : Rat) < n + 1 := lt_of_le_of_lt a.1 b.2
    have h2 : (n : Rat) < m + 1 := lt_of_le_of_lt b.1 a.2
    have h1 : m < n + 1 := by exact_mod_cast h1
    have h2 : n < m + 1 := by exact_mod_cast h2
    omega
  · have a := hm.2 h
    have b := hn.2 h
    have h1 : (m : Rat) - 1 < n := lt_of_lt_of_le a.2 b.1
    have h2 : (n : Rat) - 1 < m := lt_of_lt_of_le b.2 a.1
    have h1 : m - 1 < n := by exact_mod_cast h1
    have h2 : n - 1 < m := by exact_mod_cast h2
    omega

example : cells (V := Unit) true (.timeSpan [some (-123 / 100), none]) = [.timedelta64ns (some (-1)), .timedelta64ns none] := by
  decide +kernel

/-! ## bitcount -/

theorem bits_zero (w : Nat) : bits w 0 = 0 := by
  unfold bits
  rw [List.countP_eq_zero]
  intro i _
  simp [bit]

theorem bits_succ (w : Nat) (x : Int) : bits (w + 1) x = (if x % 2 = 1 then 1 else 0) + bits w (x / 2) := by
  unfold bits
  rw [List.range_succ_eq_map, List.countP_cons, List.countP_map, Nat.add_comm]
  have h1 : bit x 0 = decide (x % 2 = 1) := by
    simp only [bit, pow_zero, Int.ediv_one]
    rfl
  have h2 : (bit x ∘ Nat.succ) = bit (x / 2) := by
    funext i
    simp only [Function.comp, bit]
    rw [Nat.succ_eq_add_one, pow_succ, mul_comm, Int.ediv_ediv_of_nonneg (by decide : (0:Int) ≤ 2)]
  rw [h1, h2]
  simp

theorem digits_bits (w n : Nat) (h : n < 2 ^ w) : (digits n).count '1' = bits w (n : Int) := by
  induction w generalizing n with
  | zero =>
    have : n = 0 := by simpa using h
    subst this
    simp [digits, bits]
  | succ w ih =>
    by_cases h0 : n = 0
    · subst h0
      rw [digits]
      simpa using (bits_zero (w + 1)).symm
    · rw [digits, dif_neg h0, List.count_append, ih (n / 2) (by rw [pow_succ] at h; omega), bits_succ]
      have e : ((n / 2 : Nat) : Int) = (n : Int) / 2 := by omega
      rw [e, Nat.add_comm]
      congr 1
      by_cases h1 : n % 2 = 1
      · have : (n : Int) % 2 = 1 := by omega
        simp [h1, this]
      · have : ¬ (n : Int) % 2 = 1 := by omega
        simp [h1, this]

/-- **C363** Exactly: the bits of the number without its sign. -/
theorem bin_exact (w : Nat) (a : Int) (h : a.natAbs < 2 ^ w) : (bin a).count '1' = bits w (a.natAbs : Int) := by
  unfold bin
  by_cases h0 : a = 0
  · subst h0
    simp [bits_zero]
  · rw [if_neg h0, List.count_append, digits_bits w _ h, List.count_append]
    have : List.count '1' (if a < 0 then ['-'] else []) = 0 := by
      split <;> decide
    rw [this]
    simp

/-- **C363** The number of bits of a number that is not negative is the same as in an array, whatever the size of its numbers. -/
theorem bitcount_partial (w : Nat) (a : Int) (h0 : 0 ≤ a) (h : a < 2 ^ w) :
    bitcount (.pyInt a) = some (bits w a) ∧ bitcount (.npInt a) = some (bits w a) := by
  have e : ((a.natAbs : Nat) : Int) = a := by omega
  have hn : a.natAbs < 2 ^ w := by
    have : ((a.natAbs : Nat) : Int) < ((2 ^ w : Nat) : Int) := by
      rw [e]
      push_cast
      exact h
    exact_mod_cast this
  have := bin_exact w a hn
  rw [e] at this
  simp [bitcount, this]

/-- **C363** and of bools -/
theorem bitcount_bool (b : Bool) : bitcount (.pyBool b) = some (if b then 1 else 0) := by
  cases b
  · have := bin_exact 1 0 (by decide)
    simp [bitcount, this, bits_zero]
  · have := bin_exact 1 1 (by decide)
    simp [bitcount, this, bits, bit]

/-- the bits of a negative number: those that its complement does not have -/
theorem bits_neg (w : Nat) (x : Int) : bits w x + bits w (-x - 1) = w := by
  induction w generalizing x with
  | zero => rfl
  | succ w ih =>
    rw [bits_succ, bits_succ]
    have e : (-x - 1) / 2 = -(x / 2) - 1 := by omega
    rw [e]
    have := ih (x / 2)
    by_cases h : x % 2 = 1
    · have h' : ¬ (-x - 1) % 2 = 1 := by omega
      rw [if_pos h, if_neg h']
      omega
    · have h' : (-x - 1) % 2 = 1 := by omega
      rw [if_neg h, if_pos h']
      omega

/-- **C363, violated** -1 has one bit as a number and as many as there are in an array; a bool of numpy raises although arrays of bools do not. -/
theorem bitcount_counterexample :
    bitcount (.pyInt (-1)) = some 1 ∧ bitcount (.npInt (-1)) = some 1 ∧ (∀ w, bits w (-1) = w) ∧ ∀ b, bitcount (.npBool b) = none := by
  have h := bin_exact 1 (-1) (by decide)
  have h1 : bits 1 (((-1 : Int).natAbs : Nat) : Int) = 1 := by decide +kernel
  rw [h1] at h
  refine ⟨by simp [bitcount, h], by simp [bitcount, h], ?_, fun _ => rfl⟩
  intro w
  have := bits_neg w (-1)
  rw [show (-(-1 : Int) - 1) = 0 by decide, bits_zero] at this
  omega

example : bits 32 741858 = 10 := by decide +kernel
end Verif.RecArr
