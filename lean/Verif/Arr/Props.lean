import Verif.Arr.Model
import Mathlib.Tactic.Push
import Mathlib.Algebra.BigOperators.Group.List.Basic

/-!
# C93: moving an array, differences and changes between entries
-/
namespace Verif.Arr
open Spec

variable {V W : Type}

/-! ## slices -/

theorem lo_pos (xs : List V) (m : Nat) : lo xs (m : Int) = xs.take m := by simp [lo]
theorem hi_pos (xs : List V) (m : Nat) : hi xs (m : Int) = xs.drop m := by simp [hi]

theorem lo_neg (xs : List V) (m : Nat) (hm : 0 < m) : lo xs (-(m : Int)) = xs.take (xs.length - m) := by
  have h : ¬ (0 : Int) ≤ -(m : Int) := by omega
  unfold lo
  rw [if_neg h]
  congr 1
  omega

theorem hi_neg (xs : List V) (m : Nat) (hm : 0 < m) : hi xs (-(m : Int)) = xs.drop (xs.length - m) := by
  have h : ¬ (0 : Int) ≤ -(m : Int) := by omega
  unfold hi
  rw [if_neg h]
  congr 1
  omega

theorem pos_cases (p : Int) (hp : 0 < p) : ∃ m : Nat, 0 < m ∧ p = m := ⟨p.toNat, by omega, by omega⟩
theorem neg_cases (p : Int) (hp : p < 0) : ∃ m : Nat, 0 < m ∧ p = -(m : Int) := ⟨(-p).toNat, by omega, by omega⟩

theorem getElem?_const {A B : Type} (l : List A) (v : B) (i : Nat) : (l.map fun _ => v)[i]? = if i < l.length then some v else none := by
  by_cases h : i < l.length
  · simp [h]
  · simp [h]

theorem entry_nonneg (xs : List V) (j : Int) (k : Nat) (h : j = k) : entry xs j = xs[k]? := by subst h; simp [entry]
theorem entry_neg (xs : List V) (j : Int) (h : j < 0) : entry xs j = none := by simp [entry, h]

theorem ufunc_same (f : V → V → W) (a b : List V) (h : a.length = b.length) : ufunc f a b = .ok (List.zipWith f a b) := by
  simp [ufunc, h]

/-! ## moving -/

/-- the value of `shift` in ordinary terms -/
theorem shift_value (inv : V) (p : Int) (xs junk : List V) (hj : junk.length = xs.length) :
    shift inv p xs junk = .ok (if 0 ≤ p then List.replicate (min p.toNat xs.length) inv ++ xs.take (xs.length - p.toNat)
      else xs.drop (-p).toNat ++ List.replicate (min (-p).toNat xs.length) inv) := by
  unfold shift
  by_cases h0 : p = 0
  · subst h0; simp
  rw [if_neg h0]
  by_cases hb : xs.length ≤ p.natAbs
  · rw [if_pos hb]
    congr 1
    have e : (junk.map fun _ => inv) = List.replicate xs.length inv := by rw [← hj]; simp [List.map_const']
    rw [e]
    by_cases hp : 0 ≤ p
    · rw [if_pos hp, Nat.min_eq_right (by omega), show xs.length - p.toNat = 0 by omega]; simp
    · rw [if_neg hp, Nat.min_eq_right (by omega), List.drop_eq_nil_of_le (by omega)]; simp
  rw [if_neg hb]
  by_cases hp : 0 < p
  · obtain ⟨m, hm, rfl⟩ := pos_cases p hp
    have hmx : m < xs.length := by omega
    have hl : (fillLo junk (m : Int) inv) = List.replicate m inv ++ junk.drop m := by
      simp only [fillLo, lo_pos, hi_pos, List.map_const', List.length_take]
      rw [Nat.min_eq_left (by omega)]
    rw [if_pos hp, if_pos (by omega), lo_neg xs m hm]
    unfold putHi
    rw [hl, hi_pos, lo_pos, if_pos]
    · congr 1
      simp only [Int.toNat_natCast]
      rw [Nat.min_eq_left (by omega), List.take_append_of_le_length (by simp)]
      simp
    · simp; omega
  · obtain ⟨m, hm, rfl⟩ := neg_cases p (by omega)
    have hmx : m < xs.length := by omega
    rw [if_neg hp, if_neg (by omega)]
    simp only [Int.neg_neg, hi_pos, Int.toNat_natCast, Nat.min_eq_left (Nat.le_of_lt hmx)]
    have e1 : putLo junk (-(m : Int)) (xs.drop m) = .ok (xs.drop m ++ junk.drop (junk.length - m)) := by
      unfold putLo
      rw [lo_neg junk m hm, hi_neg junk m hm, if_pos]
      simp; omega
    rw [e1]
    simp only [bind, Except.bind, pure, Except.pure, Except.ok.injEq]
    unfold fillHi
    rw [lo_neg _ m hm, hi_neg _ m hm]
    have hl : (xs.drop m ++ junk.drop (junk.length - m)).length - m = (xs.drop m).length := by simp; omega
    rw [hl, List.take_left, List.drop_left]
    congr 1
    rw [List.map_const']
    congr 1
    simp; omega

/-- **C93** `shift(periods)`: entry `i` of the result is entry `i - periods` of the array, and the invalid value where there is no
such entry, whatever the new array held before. -/
theorem shift_exact (inv : V) (p : Int) (xs junk : List V) (hj : junk.length = xs.length) :
    ∃ r, shift inv p xs junk = .ok r ∧ Moved inv p xs r := by
  refine ⟨_, shift_value inv p xs junk hj, ?_⟩
  by_cases hp : 0 ≤ p
  · rw [if_pos hp]
    refine ⟨by simp; omega, fun i hi => ?_⟩
    by_cases h : i < p.toNat
    · rw [List.getElem?_append_left (by simp; omega), entry_neg _ _ (by omega), List.getElem?_replicate, if_pos (by omega)]
      rfl
    · rw [List.getElem?_append_right (by simp; omega), entry_nonneg xs _ (i - p.toNat) (by omega)]
      simp only [List.length_replicate]
      rw [Nat.min_eq_left (by omega), List.getElem?_take, if_pos (by omega), List.getElem?_eq_getElem (by omega)]
      rfl
  · rw [if_neg hp]
    refine ⟨by simp; omega, fun i hi => ?_⟩
    rw [entry_nonneg xs _ (i + (-p).toNat) (by omega)]
    by_cases h : i + (-p).toNat < xs.length
    · rw [List.getElem?_append_left (by simp; omega), List.getElem?_drop, Nat.add_comm, List.getElem?_eq_getElem h]
      rfl
    · rw [List.getElem?_append_right (by simp; omega), List.getElem?_eq_none (by omega : xs.length ≤ i + (-p).toNat),
        List.getElem?_replicate, if_pos (by simp; omega)]
      rfl

/-- there is one array that is `xs` moved by `p` -/
theorem moved_unique {inv : V} {p : Int} {xs a b : List V} (ha : Moved inv p xs a) (hb : Moved inv p xs b) : a = b := by
  apply List.ext_getElem?
  intro i
  by_cases h : i < xs.length
  · rw [ha.2 i h, hb.2 i h]
  · rw [List.getElem?_eq_none (by rw [ha.1]; omega), List.getElem?_eq_none (by rw [hb.1]; omega)]

theorem entry_some_lt {xs : List V} {j : Int} {v : V} (h : entry xs j = some v) : 0 ≤ j ∧ j < xs.length := by
  unfold entry at h
  split at h
  · rename_i h0
    have := (List.getElem?_eq_some_iff.1 h).1
    omega
  · simp at h

theorem entry_in {xs : List V} {j : Int} (h0 : 0 ≤ j) (h1 : j < xs.length) : ∃ v, entry xs j = some v :=
  ⟨xs[j.toNat]'(by omega), by rw [entry_nonneg xs j j.toNat (by omega)]; exact List.getElem?_eq_getElem _⟩

theorem entry_out {xs : List V} {j : Int} (h : j < 0 ∨ (xs.length : Int) ≤ j) : entry xs j = none := by
  cases e : entry xs j with
  | none => rfl
  | some v => have := entry_some_lt e; omega

theorem moved_entry {inv : V} {p : Int} {xs ys : List V} (h : Moved inv p xs ys) {j : Int} (h0 : 0 ≤ j) (h1 : j < xs.length) :
    entry ys j = some ((entry xs (j - p)).getD inv) := by
  rw [entry_nonneg ys j j.toNat (by omega), h.2 j.toNat (by omega)]
  congr 3
  omega

/-- **C93** Moving twice in the same direction is moving by the sum. -/
theorem shift_shift (inv : V) (p q : Int) (xs j1 j2 j3 : List V) (h1 : j1.length = xs.length) (h2 : j2.length = xs.length)
    (h3 : j3.length = xs.length) (hs : (0 ≤ p ∧ 0 ≤ q) ∨ (p ≤ 0 ∧ q ≤ 0)) (a : List V) (ha : shift inv p xs j1 = .ok a) :
    shift inv q a j2 = shift inv (p + q) xs j3 := by
  obtain ⟨a', e1, m1⟩ := shift_exact inv p xs j1 h1
  rw [ha] at e1
  obtain rfl := Except.ok.inj e1
  obtain ⟨b, e2, m2⟩ := shift_exact inv q a j2 (by rw [h2, m1.1])
  obtain ⟨c, e3, m3⟩ := shift_exact inv (p + q) xs j3 h3
  rw [e2, e3]
  congr 1
  refine moved_unique (inv := inv) (p := p + q) (xs := xs) ⟨by rw [m2.1, m1.1], fun i hi => ?_⟩ m3
  rw [m2.2 i (by rw [m1.1]; exact hi)]
  congr 1
  by_cases hin : 0 ≤ (i : Int) - q ∧ (i : Int) - q < xs.length
  · rw [moved_entry m1 hin.1 hin.2, Option.getD_some, show (i : Int) - q - p = i - (p + q) by omega]
  · rw [entry_out (xs := a) (by rw [m1.1]; omega), entry_out (xs := xs) (by omega)]

/-- **C93** Moving there and back gives back every entry that was not pushed out. -/
theorem shift_back (inv : V) (p : Int) (xs j1 j2 a b : List V) (h1 : j1.length = xs.length) (h2 : j2.length = xs.length)
    (ha : shift inv p xs j1 = .ok a) (hb : shift inv (-p) a j2 = .ok b) (i : Nat) (hi : i < xs.length)
    (hin : 0 ≤ (i : Int) + p ∧ (i : Int) + p < xs.length) : b[i]? = xs[i]? := by
  obtain ⟨a', e1, m1⟩ := shift_exact inv p xs j1 h1
  rw [ha] at e1
  obtain rfl := Except.ok.inj e1
  obtain ⟨b', e2, m2⟩ := shift_exact inv (-p) a j2 (by rw [h2, m1.1])
  rw [hb] at e2
  obtain rfl := Except.ok.inj e2
  rw [m2.2 i (by rw [m1.1]; exact hi), moved_entry m1 (by omega) (by omega), entry_nonneg xs _ i (by omega), List.getElem?_eq_getElem hi]
  rfl

/-! ## changes -/

/-- the comparison of the entries with those `p` places before, in ordinary terms -/
theorem selfCompare_value (cmp : V → V → Bool) (p : Int) (hp : p ≠ 0) (xs : List V) (junk : List Bool) (hj : junk.length = xs.length) :
    selfCompare cmp p xs junk = .ok (if 0 < p then
      List.replicate (min p.toNat xs.length) false ++ List.zipWith cmp (xs.drop p.toNat) (xs.take (xs.length - p.toNat))
      else List.zipWith cmp (xs.take (xs.length - (-p).toNat)) (xs.drop (-p).toNat) ++ List.replicate (min (-p).toNat xs.length) false) := by
  unfold selfCompare
  rw [if_neg hp]
  by_cases h : 0 < p
  · obtain ⟨m, hm, rfl⟩ := pos_cases p h
    rw [if_pos h, if_pos h]
    simp only [hi_pos, lo_neg xs m hm, Int.toNat_natCast]
    rw [ufunc_same _ _ _ (by simp)]
    simp only [bind, Except.bind, pure, Except.pure]
    have e : putHi junk (m : Int) (List.zipWith cmp (xs.drop m) (xs.take (xs.length - m))) =
        .ok (junk.take m ++ List.zipWith cmp (xs.drop m) (xs.take (xs.length - m))) := by
      unfold putHi
      rw [hi_pos, lo_pos, if_pos]
      simp; omega
    rw [e]
    simp only [Except.ok.injEq]
    unfold fillLo
    rw [lo_pos, hi_pos]
    by_cases hmx : m ≤ xs.length
    · rw [List.take_append_of_le_length (by simp; omega), List.drop_append_of_le_length (by simp; omega)]
      simp [List.map_const', hj, List.drop_eq_nil_of_le]
    · rw [List.drop_eq_nil_of_le (as := xs) (by omega)]
      simp [List.map_const', hj, List.drop_eq_nil_of_le]
  · obtain ⟨m, hm, rfl⟩ := neg_cases p (by omega)
    rw [if_neg h, if_neg h]
    simp only [Int.neg_neg, hi_pos, lo_neg xs m hm, Int.toNat_natCast]
    rw [ufunc_same _ _ _ (by simp)]
    simp only [bind, Except.bind, pure, Except.pure]
    have e : putLo junk (-(m : Int)) (List.zipWith cmp (xs.take (xs.length - m)) (xs.drop m)) =
        .ok (List.zipWith cmp (xs.take (xs.length - m)) (xs.drop m) ++ junk.drop (junk.length - m)) := by
      unfold putLo
      rw [hi_neg _ m hm, lo_neg _ m hm, if_pos]
      simp; omega
    rw [e]
    simp only [Except.ok.injEq]
    unfold fillHi
    rw [lo_neg _ m hm, hi_neg _ m hm]
    have hl : (List.zipWith cmp (xs.take (xs.length - m)) (xs.drop m) ++ junk.drop (junk.length - m)).length - m =
        (List.zipWith cmp (xs.take (xs.length - m)) (xs.drop m)).length := by simp; omega
    rw [hl, List.take_left, List.drop_left, List.map_const']
    congr 2
    simp; omega

theorem selfCompare_related (cmp : V → V → Bool) (p : Int) (hp : p ≠ 0) (xs : List V) (junk : List Bool) (hj : junk.length = xs.length) :
    ∃ r, selfCompare cmp p xs junk = .ok r ∧ Related cmp p xs r := by
  refine ⟨_, selfCompare_value cmp p hp xs junk hj, ?_⟩
  by_cases h : 0 < p
  · rw [if_pos h]
    refine ⟨by simp; omega, fun i x hx => ?_⟩
    have hi := (List.getElem?_eq_some_iff.1 hx).1
    by_cases hin : i < p.toNat
    · refine ⟨false, by rw [List.getElem?_append_left (by simp; omega), List.getElem?_replicate, if_pos (by omega)], ?_⟩
      rw [entry_neg _ _ (by omega)]
      simp
    · have hk : i - p.toNat < xs.length := by omega
      refine ⟨cmp x xs[i - p.toNat], ?_, ?_⟩
      · rw [List.getElem?_append_right (by simp; omega)]
        simp only [List.length_replicate]
        rw [Nat.min_eq_left (by omega), List.getElem?_zipWith, List.getElem?_drop, List.getElem?_take, if_pos (by omega),
          show p.toNat + (i - p.toNat) = i by omega, hx, List.getElem?_eq_getElem hk]
      · rw [entry_nonneg xs _ (i - p.toNat) (by omega), List.getElem?_eq_getElem hk]
        simp
  · rw [if_neg h]
    refine ⟨by simp; omega, fun i x hx => ?_⟩
    have hi := (List.getElem?_eq_some_iff.1 hx).1
    rw [entry_nonneg xs _ (i + (-p).toNat) (by omega)]
    by_cases hin : i + (-p).toNat < xs.length
    · refine ⟨cmp x xs[i + (-p).toNat], ?_, ?_⟩
      · rw [List.getElem?_append_left (by simp; omega), List.getElem?_zipWith, List.getElem?_drop, List.getElem?_take,
          if_pos (by omega), hx, Nat.add_comm, List.getElem?_eq_getElem hin]
      · rw [List.getElem?_eq_getElem hin]
        simp
    · refine ⟨false, by
        rw [List.getElem?_append_right (by simp; omega), List.getElem?_replicate, if_pos (by simp; omega)], ?_⟩
      rw [List.getElem?_eq_none (by omega)]
      simp

/-- **C93** `transitions` of numbers: True exactly where the entry `periods` places before exists and is different. -/
theorem transitions_exact (ne : V → V → Bool) (p : Int) (hp : p ≠ 0) (xs : List V) (junk : List Bool) (hj : junk.length = xs.length) :
    ∃ r, transitions ne p xs junk = .ok r ∧ Related ne p xs r := selfCompare_related ne p hp xs junk hj

/-- **C93** `differs` of numbers: True exactly where the entry `periods` places before exists and is equal. -/
theorem differs_exact (eq : V → V → Bool) (p : Int) (hp : p ≠ 0) (xs : List V) (junk : List Bool) (hj : junk.length = xs.length) :
    ∃ r, differs eq p xs junk = .ok r ∧ Related eq p xs r := selfCompare_related eq p hp xs junk hj

/-- **C93** `transitions(0)` and `differs(0)` raise. -/
theorem compare_zero (cmp : V → V → Bool) (xs : List V) (junk : List Bool) :
    transitions cmp 0 xs junk = .error .value ∧ differs cmp 0 xs junk = .error .value := ⟨rfl, rfl⟩

/-- **C93** For strings, `transitions` and `differs` both compare with `''` where there is no entry `periods` places before. -/
theorem text_exact (ne : V → V → Bool) (inv : V) (p : Int) (xs junk : List V) (hj : junk.length = xs.length) :
    ∃ r, textTransitions ne inv p xs junk = .ok r ∧ textDiffers ne inv p xs junk = .ok r ∧ r.length = xs.length ∧
      ∀ (i : Nat) (x : V), xs[i]? = some x → r[i]? = some (ne x ((entry xs (i - p)).getD inv)) := by
  obtain ⟨s, e, m⟩ := shift_exact inv p xs junk hj
  refine ⟨List.zipWith ne xs s, ?_, ?_, by simp [m.1], fun i x hx => ?_⟩
  · simp [textTransitions, e, bind, Except.bind, ufunc, m.1]
  · simp [textDiffers, e, bind, Except.bind, ufunc, m.1]
  · rw [List.getElem?_zipWith, hx, m.2 i (List.getElem?_eq_some_iff.1 hx).1]

/-- **C93** For strings, `transitions` says what it says for numbers on all rows that have an entry `periods` places before. -/
theorem text_transitions_partial (ne : V → V → Bool) (inv : V) (p : Int) (xs junk : List V) (hj : junk.length = xs.length) :
    ∃ r, textTransitions ne inv p xs junk = .ok r ∧ ∀ (i : Nat) (x y : V), xs[i]? = some x → entry xs (i - p) = some y →
      r[i]? = some (ne x y) := by
  obtain ⟨r, h1, _, _, h⟩ := text_exact ne inv p xs junk hj
  exact ⟨r, h1, fun i x y hx hy => by rw [h i x hx, hy]; rfl⟩

/-- Full statement fails: the first string is called a transition although nothing is before it. -/
theorem text_transitions_counterexample : ∃ (xs junk : List String) (r : List Bool), junk.length = xs.length ∧
    textTransitions (fun a b => decide (a ≠ b)) "" 1 xs junk = .ok r ∧ ¬ Related (fun a b => decide (a ≠ b)) 1 xs r := by
  refine ⟨["a", "a"], ["", ""], [true, false], rfl, rfl, fun h => ?_⟩
  obtain ⟨b, hb, hh⟩ := h.2 0 "a" rfl
  simp only [List.getElem?_cons_zero, Option.some.injEq] at hb
  obtain ⟨y, hy, _⟩ := hh.1 hb.symm
  simp [entry] at hy

/-- Full statement fails: `differs` of strings is True where the strings are different, of numbers where they are equal. -/
theorem text_differs_counterexample : ∃ (xs junk : List String) (r : List Bool), junk.length = xs.length ∧
    textDiffers (fun a b => decide (a ≠ b)) "" 1 xs junk = .ok r ∧ ¬ Related (fun a b => decide (a = b)) 1 xs r := by
  refine ⟨["a", "a"], ["", ""], [true, false], rfl, rfl, fun h => ?_⟩
  obtain ⟨b, hb, hh⟩ := h.2 1 "a" rfl
  simp only [List.getElem?_cons_succ, List.getElem?_cons_zero, Option.some.injEq] at hb
  subst hb
  have := hh.2 ⟨"a", rfl, by decide⟩
  cases this

/-! ## differences -/

/-- **C93** `diff(periods)`, `periods` not 0: entry `i` is the entry minus the one `periods` places before it, the invalid value
where there is none. -/
theorem diff_exact (sub : V → V → V) (inv : V) (p : Int) (hp : p ≠ 0) (xs junk : List V) (hj : junk.length = xs.length) :
    ∃ r, diff sub inv p xs junk = .ok r ∧ r.length = xs.length ∧
      ∀ (i : Nat) (x : V), xs[i]? = some x → r[i]? = some ((entry xs (i - p)).elim inv (sub x)) := by
  by_cases hb : xs.length ≤ p.natAbs
  · refine ⟨junk.map fun _ => inv, by unfold diff; rw [if_pos hb], by simpa using hj, fun i x hx => ?_⟩
    have hi := (List.getElem?_eq_some_iff.1 hx).1
    rw [getElem?_const, if_pos (by omega), entry_out (by omega)]
    rfl
  by_cases h : 0 < p
  · obtain ⟨m, hm, rfl⟩ := pos_cases p h
    have hmx : m < xs.length := by omega
    have hf : fillLo junk (m : Int) inv = List.replicate m inv ++ junk.drop m := by
      simp only [fillLo, lo_pos, hi_pos, List.map_const', List.length_take]
      rw [Nat.min_eq_left (by omega)]
    refine ⟨List.replicate m inv ++ List.zipWith sub (xs.drop m) (xs.take (xs.length - m)), ?_, by simp; omega, fun i x hx => ?_⟩
    · unfold diff
      rw [if_neg hb, if_pos h, hi_pos, lo_neg xs m hm, ufunc_same _ _ _ (by simp)]
      simp only [bind, Except.bind]
      unfold putHi
      rw [hf, hi_pos, lo_pos, if_pos (by simp; omega), List.take_append_of_le_length (by simp)]
      simp
    · have hi := (List.getElem?_eq_some_iff.1 hx).1
      by_cases hin : i < m
      · rw [List.getElem?_append_left (by simp; omega), entry_neg _ _ (by omega)]
        simp [hin]
      · have hk : i - m < xs.length := by omega
        rw [List.getElem?_append_right (by simp; omega), entry_nonneg xs _ (i - m) (by omega)]
        simp only [List.length_replicate]
        rw [List.getElem?_zipWith, List.getElem?_drop, List.getElem?_take, if_pos (by omega), show m + (i - m) = i by omega, hx,
          List.getElem?_eq_getElem hk]
        rfl
  · obtain ⟨m, hm, rfl⟩ := neg_cases p (by omega)
    have hmx : m < xs.length := by omega
    have hf : fillHi junk (-(m : Int)) inv = junk.take (junk.length - m) ++ List.replicate m inv := by
      simp only [fillHi, lo_neg _ m hm, hi_neg _ m hm, List.map_const', List.length_drop]
      rw [show junk.length - (junk.length - m) = m by omega]
    refine ⟨List.zipWith sub (xs.take (xs.length - m)) (xs.drop m) ++ List.replicate m inv, ?_, by simp; omega, fun i x hx => ?_⟩
    · unfold diff
      rw [if_neg hb, if_neg h, Int.neg_neg, hi_pos, lo_neg xs m hm, ufunc_same _ _ _ (by simp)]
      simp only [bind, Except.bind]
      unfold putLo
      rw [hf, hi_neg _ m hm, lo_neg _ m hm]
      have hl : (junk.take (junk.length - m) ++ List.replicate m inv).length - m = (junk.take (junk.length - m)).length := by simp
      rw [hl, List.take_left, List.drop_left, if_pos (by simp; omega)]
    · have hi := (List.getElem?_eq_some_iff.1 hx).1
      rw [entry_nonneg xs _ (i + m) (by omega)]
      by_cases hin : i + m < xs.length
      · rw [List.getElem?_append_left (by simp; omega), List.getElem?_zipWith, List.getElem?_drop, List.getElem?_take,
          if_pos (by omega), hx, Nat.add_comm, List.getElem?_eq_getElem hin]
        rfl
      · rw [List.getElem?_append_right (by simp; omega), List.getElem?_eq_none (by omega : xs.length ≤ i + m),
          List.getElem?_replicate, if_pos (by simp; omega)]
        rfl

/-- **C93** The first entry and the differences give the array back: entry `i` is the first entry plus the differences up to `i`. -/
theorem diff_sum (inv : Int) (x : Int) (xs junk r : List Int) (hj : junk.length = xs.length + 1)
    (hr : diff (fun a b => a - b) inv 1 (x :: xs) junk = .ok r) (i : Nat) (hi : i < xs.length + 1) :
    (x :: xs)[i]? = some (x + ((r.drop 1).take i).sum) := by
  obtain ⟨r', e, hl, h⟩ := diff_exact (fun (a b : Int) => a - b) inv 1 (by decide) (x :: xs) junk (by simpa using hj)
  rw [hr] at e
  obtain rfl := Except.ok.inj e
  induction i with
  | zero => simp
  | succ i ih =>
    have hi' := ih (by omega)
    have hx : (x :: xs)[i + 1]? = some xs[i] := by rw [List.getElem?_cons_succ]; exact List.getElem?_eq_getElem (by omega)
    have hd := h (i + 1) xs[i] hx
    rw [entry_nonneg (x :: xs) _ i (by omega), hi'] at hd
    simp only [Option.elim] at hd
    have hd' : (r.drop 1)[i]? = some (xs[i] - (x + ((r.drop 1).take i).sum)) := by rw [List.getElem?_drop, Nat.add_comm]; exact hd
    rw [hx, List.take_add_one, hd']
    simp only [Option.toList_some, List.sum_append, List.sum_cons, List.sum_nil]
    congr 1
    omega

/-- Full statement fails for `periods = 0`: entries minus themselves are asked for, an exception is raised. -/
theorem diff_zero_counterexample : ∃ xs junk : List Int, junk.length = xs.length ∧
    diff (fun a b => a - b) (-1) 0 xs junk = .error .value := ⟨[3, 5], [0, 0], rfl, rfl⟩

/-- With `periods = 0` one entry gives the invalid value, more entries raise. -/
theorem diff_zero_exact (sub : V → V → V) (inv : V) (xs junk : List V) (hj : junk.length = xs.length) :
    diff sub inv 0 xs junk = if xs.length ≤ 1 then .ok (xs.map fun _ => inv) else .error .value := by
  match xs, junk, hj with
  | [], [], _ => rfl
  | [x], [y], _ => rfl
  | x :: y :: l, a :: b :: k, _ => simp [diff, lo, hi, ufunc, bind, Except.bind]

/-! ## replacing -/

/-- **C93** `replacena`: the entries that are NaN are replaced, the others kept; the array itself changes exactly if `inplace`, and
something is returned exactly if not. -/
theorem replacena_exact (isna : V → Bool) (value : V) (xs : List V) :
    (replacena isna value false xs).1 = xs ∧ (replacena isna value true xs).2 = none ∧
      (replacena isna value false xs).2 = some (replacena isna value true xs).1 ∧
      ∀ i : Nat, (replacena isna value true xs).1[i]? = (xs[i]?).map fun x => bif isna x then value else x := by
  refine ⟨rfl, rfl, rfl, fun i => ?_⟩
  simp only [replacena, if_true]
  by_cases h : xs.any isna = true
  · rw [if_pos h, List.getElem?_map]
    cases xs[i]? with
    | none => rfl
    | some x => cases hx : isna x <;> simp [hx]
  · rw [if_neg h]
    cases hx : xs[i]? with
    | none => rfl
    | some x =>
      have hn : isna x = false := by
        by_contra hc
        exact h (List.any_eq_true.2 ⟨x, List.mem_of_getElem? hx, by simpa using hc⟩)
      simp [hn]

/-- concrete cases meeting the hypotheses -/
example : shift (-1) 2 [5, 6, 7] [0, 0, 0] = .ok [-1, -1, 5] ∧ shift (-1) (-1) [5, 6, 7] [0, 0, 0] = .ok [6, 7, -1] ∧
    diff (fun a b => a - b) (-1 : Int) 1 [5, 7, 4] [0, 0, 0] = .ok [-1, 2, -3] ∧
    transitions (fun (a b : Int) => decide (a ≠ b)) 1 [5, 5, 4] [true, true, true] = .ok [false, false, true] := by decide

end Verif.Arr
