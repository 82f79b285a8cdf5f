import Verif.DateOps.Arith
import Verif.Calendar.Props

/-!
# Properties: numbers, single entries, in-place operators, disagreements (C82)
-/
namespace Verif.DateOps
open Spec

theorem applyInv_one {γ : Type} (x : Int) (m : List Bool) (r : List γ) (inv fill : γ) (m2 : Option (List Bool)) :
    applyInv [x] m r inv fill m2 = if x ≤ 0 then [inv] else r := by
  unfold applyInv
  rw [if_pos (by rfl)]
  rfl

/-- the unit of a bare number: days next to a day kind, nanoseconds next to the others -/
def unit : Kind → Int
  | .date => day
  | .dspan => day
  | .nano => 1
  | .tspan => 1

/-- **C82, numbers.** Adding or subtracting an integer moves every valid entry by that many days
(`Date`, `DateSpan`) or nanoseconds and leaves invalid entries invalid; the column has not
exactly one entry, or a positive one.  (The integer is not itself the marker of an invalid one.) -/
theorem number_partial (op : Op) (v : Val) (n : Int) (k : Kind) (hv : kindOf v = some k)
    (hone : (meaning v).length ≠ 1 ∨ k = .tspan ∨ ∃ x, 0 < x ∧ (v = .date [x] ∨ v = .dspan [x] ∨ v = .nano [x]))
    (hn32 : n ≠ -(2 ^ 31)) (hn64 : n ≠ -(2 ^ 63))
    (hr : ∀ m, some m ∈ meaning v → Holds k (op.on m (n * unit k))) :
    ∃ r, binop id op v (.num n) = .ok r ∧ kindOf r = some k ∧
      meaning r = (meaning v).map fun a => combine op a (some (n * unit k)) := by
  cases v with
  | ints _ _ => cases hv
  | num _ => cases hv
  | nan => cases hv
  | date xs =>
    cases hv
    have hcell : ∀ x ∈ xs, rDate x ≠ none → rDate (w32 (op.on x n)) = combine op (rDate x) (some (n * day)) := by
      intro x hx hne
      cases hm : rDate x with
      | none => exact absurd hm hne
      | some m =>
        have h := hr m (by simp only [meaning, List.mem_map]; exact ⟨x, hx, hm⟩)
        obtain ⟨rfl, _⟩ := rDate_some' hm
        simp only [unit, combine] at h ⊢
        rw [on_days] at h ⊢
        exact rDate_of_holds h
    refine ⟨.date (applyInv xs (xs.map (nanOrZero I32)) (xs.map fun x => w32 (op.on x n)) I32 0 none), by cases op <;> rfl, rfl, ?_⟩
    by_cases h1 : xs.length = 1
    · obtain ⟨y, rfl⟩ := one_eq h1
      rcases hone with h | h | ⟨x, hx, h | h | h⟩
      · exact absurd (by simp [meaning]) h
      · cases h
      · cases h
        rw [applyInv_one, if_neg (by omega)]
        simp only [meaning, List.map_cons, List.map_nil, hcell y (by simp) (rDate_pos y hx), unit]
      · cases h
      · cases h
    · rw [applyInv_none xs xs _ _ _ _ rfl h1]
      simp only [meaning, List.map_map]
      apply List.map_congr_left
      intro x hx
      simp only [Function.comp_apply]
      by_cases hz : nanOrZero I32 x = true
      · simp only [hz, if_true, (date_nan_iff x).1 hz, combine]; rfl
      · have hne : rDate x ≠ none := fun e => hz ((date_nan_iff x).2 e)
        rw [if_neg hz]
        exact hcell x hx hne
  | dspan xs =>
    cases hv
    have hcell : ∀ x ∈ xs, rDspan x ≠ none → rDspan (w32 (op.on x n)) = combine op (rDspan x) (some (n * day)) := by
      intro x hx hne
      cases hm : rDspan x with
      | none => exact absurd hm hne
      | some m =>
        have h := hr m (by simp only [meaning, List.mem_map]; exact ⟨x, hx, hm⟩)
        obtain ⟨rfl, _⟩ := rDspan_some hm
        simp only [unit, combine] at h ⊢
        rw [on_days] at h ⊢
        exact rDspan_of_holds h
    refine ⟨_, by simp only [binop, dspanOp]; rw [if_neg (by simpa only [I32] using hn32)], rfl, ?_⟩
    by_cases h1 : xs.length = 1
    · obtain ⟨y, rfl⟩ := one_eq h1
      rcases hone with h | h | ⟨x, hx, h | h | h⟩
      · exact absurd (by simp [meaning]) h
      · cases h
      · cases h
      · cases h
        rw [applyInv_one, if_neg (by omega)]
        simp only [meaning, List.map_cons, List.map_nil, hcell y (by simp) (rDspan_pos y hx), unit]
      · cases h
    · rw [applyInv_none xs xs (fun x => decide (x = I32)) _ _ _ rfl h1]
      simp only [meaning, List.map_map]
      apply List.map_congr_left
      intro x hx
      simp only [Function.comp_apply]
      by_cases hz : decide (x = I32) = true
      · simp only [hz, if_true, (dspan_nan_iff x).1 hz, combine]; rfl
      · have hne : rDspan x ≠ none := fun e => hz ((dspan_nan_iff x).2 e)
        rw [if_neg hz]
        exact hcell x hx hne
  | nano xs =>
    cases hv
    have hcell : ∀ x ∈ xs, rNano x ≠ none → rNano (w64 (op.on x n)) = combine op (rNano x) (some (n * 1)) := by
      intro x hx hne
      cases hm : rNano x with
      | none => exact absurd hm hne
      | some m =>
        have h := hr m (by simp only [meaning, List.mem_map]; exact ⟨x, hx, hm⟩)
        obtain ⟨rfl, _⟩ := rNano_some hm
        simp only [unit, combine, Int.mul_one] at h ⊢
        exact rNano_of_holds h
    have hq : decide (n = I64) = false := decide_eq_false (by simpa only [I64] using hn64)
    refine ⟨_, rfl, rfl, ?_⟩
    by_cases h1 : xs.length = 1
    · obtain ⟨y, rfl⟩ := one_eq h1
      rcases hone with h | h | ⟨x, hx, h | h | h⟩
      · exact absurd (by simp [meaning]) h
      · cases h
      · cases h
      · cases h
      · cases h
        rw [applyInv_one, if_neg (by omega)]
        simp only [meaning, List.map_cons, List.map_nil, hcell y (by simp) (rNano_pos y hx), unit]
    · have e : applyInv xs (xs.map (nanOrZero I64)) (xs.map fun x => w64 (op.on x n)) I64 0 (some [decide (n = I64)])
          = applyInv xs (xs.map (nanOrZero I64)) (xs.map fun x => w64 (op.on x n)) I64 0 none := by
        simp [applyInv, h1, hq]
      rw [e, applyInv_none xs xs _ _ _ _ rfl h1]
      simp only [meaning, List.map_map]
      apply List.map_congr_left
      intro x hx
      simp only [Function.comp_apply]
      by_cases hz : nanOrZero I64 x = true
      · simp only [hz, if_true, (nano_nan_iff x).1 hz, combine]; rfl
      · have hne : rNano x ≠ none := fun e => hz ((nano_nan_iff x).2 e)
        rw [if_neg hz]
        exact hcell x hx hne
  | tspan ts =>
    cases hv
    refine ⟨_, rfl, rfl, ?_⟩
    simp only [meaning, List.map_map, unit, Int.mul_one]
    apply List.map_congr_left
    intro t _
    cases t <;> rfl

/-- **C82, NaN.** Adding or subtracting the float NaN makes every entry invalid and keeps the
length (`Date`, `DateSpan`, `TimeSpan`; a `DateTimeNano` raises). -/
theorem nan_exact (op : Op) (v : Val) (k : Kind) (hv : kindOf v = some k) :
    if k = .nano then binop id op v .nan = .error .value
    else ∃ r, binop id op v .nan = .ok r ∧ kindOf r = some k ∧ meaning r = (meaning v).map fun _ => none := by
  cases v with
  | ints _ _ => cases hv
  | num _ => cases hv
  | nan => cases hv
  | nano xs => cases hv; rfl
  | date xs =>
    cases hv
    refine ⟨.date (xs.map fun _ => I32), by cases op <;> rfl, rfl, ?_⟩
    simp only [meaning, List.map_map]; apply List.map_congr_left; intro x _; rfl
  | dspan xs =>
    cases hv
    refine ⟨.dspan (xs.map fun _ => I32), by cases op <;> rfl, rfl, ?_⟩
    simp only [meaning, List.map_map]; apply List.map_congr_left; intro x _; rfl
  | tspan ts =>
    cases hv
    refine ⟨.tspan (ts.map fun _ => none), by cases op <;> rfl, rfl, ?_⟩
    simp only [meaning, List.map_map]; apply List.map_congr_left; intro x _; rfl

/-! ## A column of one entry -/

/-- **C82, one entry, exactly.** A `Date` of one entry plus or minus a `DateSpan`: an entry ≤ 0
gives a single invalid entry, however long the `DateSpan` is; otherwise the days are added as
they are, the invalid markers in the `DateSpan` included. -/
theorem date_one_exact (op : Op) (x : Int) (ys : List Int) :
    binop id op (.date [x]) (.dspan ys) = .ok (.date (if x ≤ 0 then [-(2 ^ 31)] else ys.map fun y => w32 (op.on x y))) := by
  have h : bcast (fun x y => w32 (op.on x y)) [x] ys = .ok (ys.map fun y => w32 (op.on x y)) := by
    unfold bcast
    split
    · rename_i h
      obtain ⟨y, rfl⟩ := one_eq h.symm
      rfl
    · simp
  cases op <;> simp only [binop, dateOp, dateFunnel, h, bind, Except.bind, pure, Except.pure, applyInv_one, I32]

/-- **C82, one entry, exactly.** The same for a `DateSpan` of one entry: no or negative days
plus anything is invalid. -/
theorem dspan_one_exact (op : Op) (x : Int) (ys : List Int) :
    binop id op (.dspan [x]) (.dspan ys) = .ok (.dspan (if x ≤ 0 then [-(2 ^ 31)] else ys.map fun y => w32 (op.on x y))) := by
  have h : bcast (fun x y => w32 (op.on x y)) [x] ys = .ok (ys.map fun y => w32 (op.on x y)) := by
    unfold bcast
    split
    · rename_i h
      obtain ⟨y, rfl⟩ := one_eq h.symm
      rfl
    · simp
  cases op <;> simp only [binop, dspanOp, h, bind, Except.bind, pure, Except.pure, applyInv_one, I32]

/-! ## Round trips -/

/-- **C82, round trip.** The difference of two `Date` columns, added to the second one, is the
first one wherever both are valid, and invalid elsewhere. -/
theorem sub_add_round_trip (xs ys : List Int) (hl : xs.length = ys.length) (h1 : ys.length ≠ 1)
    (hx : ∀ x ∈ xs, -(2 ^ 31) ≤ x ∧ x < 2 ^ 31)
    (hd : ∀ x ∈ xs, ∀ y ∈ ys, -(2 ^ 31) < x - y ∧ x - y < 2 ^ 31) :
    ∃ s r, binop id .sub (.date xs) (.date ys) = .ok s ∧ binop id .add (.date ys) s = .ok (.date r) ∧
      r.length = xs.length ∧
      ∀ (i : Nat) (x y : Int), xs[i]? = some x → ys[i]? = some y →
        r[i]? = some (if rDate x = none ∨ rDate y = none then 0 else x) := by
  obtain ⟨s, hs, hsl, hse⟩ := bcast_entry subDays (Or.inl hl : Fit xs ys)
  have hout : outLen xs ys = xs.length := by unfold outLen; split <;> omega
  have hf : Fit ys s := Or.inl (by rw [hsl, hout, hl])
  obtain ⟨r, hr, hrl, hre⟩ := bcast_entry (fun x y => w32 (Op.add.on x y)) hf
  have hout' : outLen ys s = ys.length := by unfold outLen; split <;> omega
  obtain ⟨hl', hr'⟩ := applyInv_entry ys ys (nanOrZero I32) s (fun y => decide (y = I32)) r I32 0 rfl h1 hf hrl
  refine ⟨.dspan s, applyInv ys (ys.map (nanOrZero I32)) r I32 0 (some (s.map fun y => decide (y = I32))), by simp only [binop, dateOp, hs, bind, Except.bind, pure, Except.pure],
    by simp only [binop, dateOp, dateFunnel, hr, bind, Except.bind, pure, Except.pure], by rw [hl', hout', hl], ?_⟩
  intro i x y hxi hyi
  have hil : i < xs.length := by
    by_contra hge
    rw [List.getElem?_eq_none (by omega)] at hxi; cases hxi
  have hxm : x ∈ xs := List.mem_of_getElem? hxi
  have hym : y ∈ ys := List.mem_of_getElem? hyi
  have hxe : entry xs i = some x := by simp only [entry]; rw [if_neg (by omega)]; exact hxi
  have hye : entry ys i = some y := by simp only [entry]; rw [if_neg h1]; exact hyi
  have hsi : s[i]? = some (subDays x y) := hse i x y (by omega) hxe hye
  have hse' : entry s i = some (subDays x y) := by simp only [entry]; rw [if_neg (by omega)]; exact hsi
  rw [hr' i y (subDays x y) _ (by omega) hye hse' (hre i y (subDays x y) (by omega) hye hse')]
  congr 1
  have hxr := hx x hxm
  have hdr := hd x hxm y hym
  by_cases hn : rDate x = none ∨ rDate y = none
  · rw [if_pos hn]
    have : subDays x y = I32 := by
      unfold subDays
      rw [if_pos]
      rcases hn with h | h
      · exact Or.inl ((date_nan_iff x).2 h)
      · exact Or.inr ((date_nan_iff y).2 h)
    simp [this]
  · rw [if_neg hn]
    push Not at hn
    have hx' : ¬ nanOrZero I32 x = true := fun e => hn.1 ((date_nan_iff x).1 e)
    have hy' : ¬ nanOrZero I32 y = true := fun e => hn.2 ((date_nan_iff y).1 e)
    have hsub : subDays x y = x - y := by
      unfold subDays
      rw [if_neg (by rintro (e | e); exact hx' e; exact hy' e)]
      exact w32_eq (by omega) hdr.2
    have hne : decide (subDays x y = I32) = false := decide_eq_false (by rw [hsub]; simp only [I32]; omega)
    rw [hne, hsub]
    simp only [Bool.not_eq_true] at hy'
    rw [hy']
    simp only [Bool.or_self, Op.on]
    have : y + (x - y) = x := by omega
    rw [this]
    exact w32_eq hxr.1 hxr.2

/-! ## In place -/

/-- **C82, in place.** For a column which has not one entry, `d += v` and `d -= v` with a
`DateSpan` that fits gives what `d + v` gives, and `d` holds it. -/
theorem inplace_partial (op : Op) (xs ys : List Int) (h1 : xs.length ≠ 1) (hl : ys.length = xs.length ∨ ys.length = 1) :
    ∃ r, binop id op (.date xs) (.dspan ys) = .ok (.date r) ∧
      dateInplace op xs (.dspan ys) = (r, .ok (.date r)) := by
  have hf : Fit xs ys := by unfold Fit; omega
  have hraw : ∃ self', rawInplace (fun x y => w32 (op.on x y)) xs ys = .ok self' ∧ self'.length = xs.length := by
    unfold rawInplace
    by_cases h : ys.length = xs.length
    · rw [if_pos h]; exact ⟨_, rfl, by simp [h]⟩
    · rw [if_neg h, if_pos (by omega)]
      obtain ⟨y, rfl⟩ := one_eq (by omega : ys.length = 1)
      exact ⟨_, rfl, by simp⟩
  obtain ⟨self', hs, hsl⟩ := hraw
  have hsame : applyInv self' (xs.map (nanOrZero I32)) (bval (fun x y => w32 (op.on x y)) xs ys) I32 0 (some (ys.map fun y => decide (y = I32)))
      = applyInv xs (xs.map (nanOrZero I32)) (bval (fun x y => w32 (op.on x y)) xs ys) I32 0 (some (ys.map fun y => decide (y = I32))) := by
    unfold applyInv
    rw [if_neg (by omega), if_neg h1]
  refine ⟨applyInv xs (xs.map (nanOrZero I32)) (bval (fun x y => w32 (op.on x y)) xs ys) I32 0 (some (ys.map fun y => decide (y = I32))), ?_, ?_⟩
  · cases op <;> simp only [binop, dateOp, dateFunnel, bcast_ok _ hf, bind, Except.bind, pure, Except.pure]
  · simp only [dateInplace, hs, dateFunnel, bcast_ok _ hf, bind, Except.bind, pure, Except.pure, if_neg h1, hsame]

/-! ## Disagreements -/

/-- An invalid `DateSpan` plus a `TimeSpan`, and a `DateSpan` plus an invalid `TimeSpan`, is not
invalid but −2.147483648 seconds. -/
theorem dspan_tspan_counterexample :
    binop id .add (.dspan [-(2 ^ 31), 1]) (.tspan [some 5, none]) = .ok (.tspan [some (-2147483648), some (-2147483648)]) := by
  decide +kernel

/-- An invalid `DateSpan` plus a `DateTimeNano` is a time in 1969, not an invalid one. -/
theorem dspan_nano_counterexample :
    binop id .add (.dspan [-(2 ^ 31), 1]) (.nano [1577836800000000000, 0]) = .ok (.nano [-2147483648, -2147483648]) ∧
    rNano (-2147483648) ≠ none := by
  decide +kernel

/-- A `TimeSpan` minus a `DateSpan` of one day is one nanosecond less, not one day. -/
theorem tspan_sub_dspan_counterexample :
    binop id .sub (.tspan [some 86400000000000, some 0]) (.dspan [1, 2]) = .ok (.tspan [some 86399999999999, some (-2)]) := by
  decide +kernel

/-- A `TimeSpan` plus an invalid `DateSpan` of one entry is not invalid. -/
theorem tspan_dspan_one_counterexample :
    binop id .add (.tspan [some 0, some 1]) (.dspan [-(2 ^ 31)]) ≠ .ok (.tspan [none, none]) := by
  decide +kernel

/-- A `Date` of one entry plus an invalid `DateSpan` is a date; minus one day plus a number of
days is invalid for a `DateSpan` of one entry; an invalid `Date` of one entry plus three days
has one entry. -/
theorem one_entry_counterexample :
    binop id .add (.date [18262]) (.dspan [-(2 ^ 31)]) = .ok (.date [-2147465386]) ∧ rDate (-2147465386) ≠ none ∧
    binop id .add (.dspan [-1]) (.num 5) = .ok (.dspan [-(2 ^ 31)]) ∧
    binop id .add (.date [0]) (.dspan [1, 2, 3]) = .ok (.date [-(2 ^ 31)]) := by
  decide +kernel

/-- In place, an invalid `Date` of one entry becomes a valid one. -/
theorem inplace_one_counterexample : dateInplace .add [0] (.num 5) = ([5], .ok (.date [5])) := by decide +kernel

/-- An in-place addition of two `Date` columns raises, but the first one has been changed. -/
theorem inplace_raises_counterexample :
    dateInplace .add [18262, 18263] (.date [1, 1]) = ([18263, 18264], .error .type) := by decide +kernel

/-- `Date - DateTimeNano` takes the midnight of the zone of the `DateTimeNano`,
`DateTimeNano - Date` the midnight of GMT: for a time five hours behind they do not cancel. -/
theorem zone_counterexample :
    binop (fun x => x + 5 * 3600000000000) .sub (.date [18262, 18262]) (.nano [1577836800000000000, 1577836800000000000])
      = .ok (.tspan [some (5 * 3600000000000), some (5 * 3600000000000)]) ∧
    binop (fun x => x + 5 * 3600000000000) .sub (.nano [1577836800000000000, 1577836800000000000]) (.date [18262, 18262])
      = .ok (.tspan [some 0, some 0]) := by
  decide +kernel

/-- The second marker of an invalid `Date` (the `int32` minimum, which e.g. `Date + nan` leaves)
minus a `DateTimeNano` is not invalid. -/
theorem date_nano_marker_counterexample :
    binop id .sub (.date [-(2 ^ 31), 18262]) (.nano [1577836800000000000, 1577836800000000000]) ≠ .ok (.tspan [none, some 0]) := by
  decide +kernel

/-! ## The hypotheses can be met -/

example : Sound .add (.date [18262, 0]) (.dspan [3, -(2 ^ 31)]) ∧ FitV (.date [18262, 0]) (.dspan [3, -(2 ^ 31)]) :=
  ⟨Or.inl (by decide), Or.inl rfl⟩

example : Room .add .date (.date [18262, 0]) (.dspan [3, -(2 ^ 31)]) := by
  intro m n hm hn
  simp [meaning, rDate, rDspan] at hm hn
  subst hm; subst hn
  exact ⟨18265, by decide, by decide, by decide, by decide⟩

example : Sound .add (.date [18262]) (.tspan [some 1, some 2]) :=
  Or.inr ⟨by decide, by decide⟩

example : Sound .sub (.nano [1577836800000000000, 0]) (.date [18262, 0]) := by
  intro y hy _
  simp at hy
  rcases hy with rfl | rfl <;> decide

example : binop id .add (.date [18262, 0]) (.dspan [3, -(2 ^ 31)]) = .ok (.date [18265, 0]) := by decide +kernel

example : ∀ x ∈ [18262, (0 : Int)], ∀ y ∈ [18000, (3 : Int)], -(2 ^ 31) < x - y ∧ x - y < 2 ^ 31 := by decide

end Verif.DateOps
