import Verif.DateOps.More

/-!
# Properties: plain integer arrays next to dates, times and spans (C82)
-/
namespace Verif.DateOps
open Spec

/-- an entry of a plain integer array whose invalid marker is `s`, counting units of `u` -/
def rInt (s u y : Int) : Option Int := if y = s then none else some (y * u)

theorem rInt_none_iff (s u y : Int) : decide (y = s) = true ↔ rInt s u y = none := by
  unfold rInt
  by_cases h : y = s <;> simp [h]

theorem rInt_some {s u y n : Int} (h : rInt s u y = some n) : n = y * u ∧ y ≠ s := by
  unfold rInt at h
  split at h
  · cases h
  · cases h; exact ⟨rfl, by assumption⟩

theorem bcast_map_right {α β δ γ : Type} (f : α → δ → γ) (g : β → δ) (xs : List α) (ys : List β) :
    bcast f xs (ys.map g) = bcast (fun x y => f x (g y)) xs ys := by
  unfold bcast
  simp only [List.length_map, List.zipWith_map_right, List.map_map, List.flatMap_map]
  rfl

theorem tspan_ints_eq (op : Op) (s : Int) (ts : List (Option Int)) (ys : List Int) :
    tspanOp op ts (.ints s ys) = tspanOp op ts (.tspan (ys.map (toFloat s))) := by
  have hm : (ys.map (toFloat s)).map Option.isNone = ys.map fun y => decide (y = s) := by
    rw [List.map_map]
    apply List.map_congr_left
    intro y _
    simp only [Function.comp_apply, toFloat]
    by_cases h : y = s <;> simp [h]
  cases op with
  | add => simp only [tspanOp, bcast_map_right, hm]
  | sub => simp only [tspanOp, bcast_map_right]

theorem rDate_narrow {s z : Int} (hs : s = -(2 ^ 31) ∨ s = -(2 ^ 63)) (h : Holds .date (z * day)) :
    rDate (narrow s z) = some (z * day) := by
  have h' := h
  obtain ⟨d, e, h0, h1, h2⟩ := h'
  cases day_inj e
  unfold narrow
  rw [if_neg (by omega)]
  exact rDate_of_holds h

theorem rDspan_narrow {s z : Int} (hs : s = -(2 ^ 31) ∨ s = -(2 ^ 63)) (h : Holds .dspan (z * day)) :
    rDspan (narrow s z) = some (z * day) := by
  have h' := h
  obtain ⟨d, e, h1, h2⟩ := h'
  cases day_inj e
  unfold narrow
  rw [if_neg (by omega)]
  exact rDspan_of_holds h

/-- **C82, plain integer arrays.** Adding or subtracting an `int32` or `int64` array moves every
valid entry by that many days (`Date`, `DateSpan`) or nanoseconds (`DateTimeNano`, `TimeSpan`);
the result keeps the kind and is invalid exactly where one of the two entries is (the `int32` or
`int64` minimum in the array).  The column has not exactly one entry. -/
theorem int_array_partial (op : Op) (v : Val) (s : Int) (ys : List Int) (k : Kind) (hv : kindOf v = some k)
    (hs : s = -(2 ^ 31) ∨ s = -(2 ^ 63)) (hy : ∀ y ∈ ys, s ≤ y)
    (hone : (meaning v).length ≠ 1 ∨ k = .tspan) (hf : Fit (meaning v) ys)
    (hr : ∀ m, some m ∈ meaning v → ∀ y ∈ ys, y ≠ s → Holds k (op.on m (y * unit k))) :
    ∃ r, binop id op v (.ints s ys) = .ok r ∧ kindOf r = some k ∧
      Pointwise (combine op) (meaning v) (ys.map (rInt s (unit k))) (meaning r) := by
  have hn0 : narrow s 0 = 0 := by rcases hs with rfl | rfl <;> decide +kernel
  have hnI : narrow s I32 = I32 := by rcases hs with rfl | rfl <;> decide +kernel
  cases v with
  | ints _ _ => cases hv
  | num _ => cases hv
  | nan => cases hv
  | date xs =>
    cases hv
    have hf' : Fit xs ys := by simpa [Fit, meaning] using hf
    have h1 : Masked xs (ys.map (rInt s day)) := by
      rcases hone with h | h
      · exact Or.inl (by simpa [meaning] using h)
      · cases h
    obtain ⟨r0, h0, hp⟩ := masked_pointwise op rDate (rInt s day) (fun z => rDate (narrow s z)) (nanOrZero I32)
      (fun y => decide (y = s)) s 0 (fun x y => op.on x y) xs ys hf' h1 rDate_pos (fun a _ => date_nan_iff a)
      (fun b _ => rInt_none_iff s day b) (fun _ => by simp only [hn0]; simp [rDate])
      (by
        intro a ha b hb m n hm hn
        obtain ⟨rfl, hb'⟩ := rInt_some hn
        have h := hr m (by simp only [meaning, List.mem_map]; exact ⟨a, ha, hm⟩) b hb hb'
        obtain ⟨rfl, _⟩ := rDate_some' hm
        simp only [unit] at h
        rw [on_days] at h ⊢
        exact rDate_narrow hs h)
    refine ⟨.date ((applyInv xs (xs.map (nanOrZero I32)) r0 s 0 (some (ys.map fun y => decide (y = s)))).map (narrow s)), ?_, rfl, ?_⟩
    · cases op <;> simp only [binop, dateOp, dateFunnel, h0, bind, Except.bind, pure, Except.pure]
    · simp only [meaning, List.map_map]; exact hp
  | dspan xs =>
    cases hv
    have hf' : Fit xs ys := by simpa [Fit, meaning] using hf
    have h1 : Masked xs (ys.map (rInt s day)) := by
      rcases hone with h | h
      · exact Or.inl (by simpa [meaning] using h)
      · cases h
    obtain ⟨r0, h0, hp⟩ := masked_pointwise op rDspan (rInt s day) (fun z => rDspan (narrow s z)) (fun x => decide (x = I32))
      (fun y => decide (y = s)) s I32 (fun x y => op.on x y) xs ys hf' h1 rDspan_pos (fun a _ => dspan_nan_iff a)
      (fun b _ => rInt_none_iff s day b) (fun _ => by simp only [hnI]; simp [rDspan, I32])
      (by
        intro a ha b hb m n hm hn
        obtain ⟨rfl, hb'⟩ := rInt_some hn
        have h := hr m (by simp only [meaning, List.mem_map]; exact ⟨a, ha, hm⟩) b hb hb'
        obtain ⟨rfl, _⟩ := rDspan_some hm
        simp only [unit] at h
        rw [on_days] at h ⊢
        exact rDspan_narrow hs h)
    refine ⟨.dspan ((applyInv xs (xs.map fun x => decide (x = I32)) r0 s I32 (some (ys.map fun y => decide (y = s)))).map (narrow s)), ?_, rfl, ?_⟩
    · cases op <;> simp only [binop, dspanOp, h0, bind, Except.bind, pure, Except.pure]
    · simp only [meaning, List.map_map]; exact hp
  | nano xs =>
    cases hv
    have hf' : Fit xs ys := by simpa [Fit, meaning] using hf
    have h1 : Masked xs (ys.map (rInt s 1)) := by
      rcases hone with h | h
      · exact Or.inl (by simpa [meaning] using h)
      · cases h
    have hq : ∀ b ∈ ys, (decide (widen s b = I64) = true ↔ rInt s 1 b = none) := by
      intro b hb
      have hsb := hy b hb
      rw [← rInt_none_iff]
      rw [decide_eq_true_eq, decide_eq_true_eq]
      by_cases h : b = s
      · simp [h, widen]
      · simp only [widen, if_neg h, I64]
        constructor
        · intro e; omega
        · intro e; exact absurd e h
    obtain ⟨r0, h0, hp⟩ := masked_pointwise op rNano (rInt s 1) rNano (nanOrZero I64)
      (fun y => decide (widen s y = I64)) I64 0 (fun x y => w64 (op.on x (widen s y))) xs ys hf' h1 rNano_pos (fun a _ => nano_nan_iff a)
      hq (fun _ => by simp [rNano])
      (by
        intro a ha b hb m n hm hn
        obtain ⟨rfl, hb'⟩ := rInt_some hn
        have h := hr m (by simp only [meaning, List.mem_map]; exact ⟨a, ha, hm⟩) b hb hb'
        obtain ⟨rfl, _⟩ := rNano_some hm
        simp only [unit, Int.mul_one, widen] at h ⊢
        rw [if_neg hb']
        exact rNano_of_holds h)
    exact ⟨.nano (applyInv xs (xs.map (nanOrZero I64)) r0 I64 0 (some (ys.map fun y => decide (widen s y = I64)))),
      by simp only [binop, nanoOp, h0, bind, Except.bind, pure, Except.pure], rfl, hp⟩
  | tspan ts =>
    cases hv
    have hf' : Fit ts (ys.map (toFloat s)) := by simpa [Fit, meaning] using hf
    obtain ⟨r, h, hp⟩ := tspan_tspan op ts (ys.map (toFloat s)) hf'
    refine ⟨.tspan r, by simp only [binop]; rw [tspan_ints_eq]; exact h, rfl, ?_⟩
    have e : ys.map (rInt s (unit .tspan)) = (ys.map (toFloat s)).map id := by
      rw [List.map_map]
      apply List.map_congr_left
      intro y _
      simp only [rInt, toFloat, unit, Int.mul_one, Function.comp_apply, id]
    rw [e]
    exact hp

/-- A `DateSpan` of minus one day, alone, plus five days is invalid. -/
theorem int_array_one_counterexample :
    binop id .add (.dspan [-1]) (.ints (-(2 ^ 63)) [5]) = .ok (.dspan [-(2 ^ 31)]) := by decide +kernel

/-- **C82, in place, numbers.** For a column which has not one entry, `d += n` and `d -= n` give
what `d + n` gives, and `d` holds it. -/
theorem inplace_number (op : Op) (xs : List Int) (n : Int) (h1 : xs.length ≠ 1) :
    ∃ r, binop id op (.date xs) (.num n) = .ok (.date r) ∧ dateInplace op xs (.num n) = (r, .ok (.date r)) := by
  refine ⟨applyInv xs (xs.map (nanOrZero I32)) (xs.map fun x => w32 (op.on x n)) I32 0 none, by cases op <;> rfl, ?_⟩
  have e : ∀ m r, applyInv (xs.map fun x => w32 (op.on x n)) m r I32 0 none = applyInv xs m r I32 0 none := by
    intro m r; unfold applyInv; rw [if_neg (by simpa using h1), if_neg h1]
  simp only [dateInplace, dateFunnel, if_neg h1, e]

/-- **C82, in place, exactly what is left behind.** An in-place addition or subtraction that
raises leaves the column as it was, unless the other operand is a `Date` that fits: then the raw
days have already been combined. -/
theorem inplace_raises_exact (op : Op) (xs : List Int) (v : Val) (e : Err) (h : (dateInplace op xs v).2 = .error e) :
    (dateInplace op xs v).1 = xs ∨
    ∃ ys self', v = .date ys ∧ rawInplace (fun x y => w32 (op.on x y)) xs ys = .ok self' ∧ (dateInplace op xs v).1 = self' ∧ e = .type := by
  cases v with
  | dspan ys =>
    left
    simp only [dateInplace] at h ⊢
    cases hr : rawInplace (fun x y => w32 (op.on x y)) xs ys with
    | error e' => rfl
    | ok self' =>
      have hf : Fit xs ys := by
        unfold rawInplace at hr
        unfold Fit
        split at hr
        · omega
        · split at hr
          · omega
          · cases hr
      simp only [hr, dateFunnel, bcast_ok _ hf, bind, Except.bind, pure, Except.pure] at h
      cases h
  | num n => simp only [dateInplace, dateFunnel] at h; cases h
  | date ys =>
    simp only [dateInplace] at h ⊢
    cases hr : rawInplace (fun x y => w32 (op.on x y)) xs ys with
    | error e' => exact Or.inl rfl
    | ok self' =>
      rw [hr] at h
      cases h
      exact Or.inr ⟨ys, self', rfl, hr, rfl, rfl⟩
  | nano _ => exact Or.inl rfl
  | tspan _ => exact Or.inl rfl
  | ints _ _ => exact Or.inl rfl
  | nan => exact Or.inl rfl

/-! ## The hypotheses can be met -/

example : binop id .add (.date [18262, 0]) (.ints (-(2 ^ 63)) [3, 5]) = .ok (.date [18265, 0]) ∧
    binop id .sub (.nano [1577836800000000000, 7]) (.ints (-(2 ^ 31)) [3, -(2 ^ 31)]) = .ok (.nano [1577836799999999997, 0]) := by
  decide +kernel

example : (meaning (.dspan [1, -(2 ^ 31)])).length ≠ 1 ∧ Fit (meaning (.dspan [1, -(2 ^ 31)])) [(4 : Int), 5] := ⟨by decide, Or.inl rfl⟩

end Verif.DateOps
