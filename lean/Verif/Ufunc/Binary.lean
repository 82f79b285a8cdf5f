import Verif.Ufunc.Model
import Verif.NpOps.Where
/-! # Functions of two arrays (C237, C238, C239, C240) -/
namespace Verif.Ufunc
open Verif.NpOps

/-- conversions keep what the type can hold, and give what the type can hold -/
structure Safe (cv : Conv) : Prop where
  keeps : ∀ s t q, Valid s q → Holds t q → cv s t q = q
  holds : ∀ s t q, Holds t (cv s t q)

/-- results that fit are stored unchanged, and what is stored is a value of the type -/
structure Stores (fit : Ty → Rat → Rat) : Prop where
  keeps : ∀ t q, Holds t q → fit t q = q
  holds : ∀ t q, Holds t (fit t q)

theorem toTy_keeps {cv : Conv} (hc : Safe cv) {s t : Ty} {xs : List Rat} (hv : ∀ q ∈ xs, Valid s q) (ht : ∀ q ∈ xs, Holds t q) : toTy cv s t xs = xs := by
  unfold toTy
  split_ifs with h
  · rfl
  · rw [List.map_congr_left (g := id) (fun q hq => hc.keeps s t q (hv q hq) (ht q hq)), List.map_id]

theorem zip_rows {A B R : Type} (f g : A → B → R) {xs : List A} {ys : List B} (hl : ys.length = xs.length)
    (h : ∀ (i : Nat) (x : A) (y : B), xs[i]? = some x → ys[i]? = some y → f x y = g x y) : EachRow g xs ys (List.zipWith f xs ys) := by
  refine ⟨by simp [hl], fun i x y hx hy => ?_⟩
  rw [List.getElem?_zipWith, hx, hy]
  simp [h i x y hx hy]

/-- two integer types can both be held by an integer type, unless signed and unsigned 64-bit integers are mixed -/
theorem finalTy_ints (s1 : Bool) (w1 : Fin 4) (s2 : Bool) (w2 : Fin 4) (h : ¬ (s1 ≠ s2 ∧ (if s1 then w2 else w1) = 3)) :
    ∃ s w, finalTy (.int s1 w1) (.int s2 w2) = .int s w ∧ (∀ q, Holds (.int s1 w1) q → Holds (.int s w) q) ∧ ∀ q, Holds (.int s2 w2) q → Holds (.int s w) q := by
  have hex : ∃ s w, finalTy (.int s1 w1) (.int s2 w2) = .int s w := by
    revert h
    revert s1 w1 s2 w2
    decide +kernel
  obtain ⟨s, w, hsw⟩ := hex
  refine ⟨s, w, hsw, ?_⟩
  unfold finalTy at hsw
  split_ifs at hsw with he
  · rw [← hsw, ← he]
    exact ⟨fun q hq => hq, fun q hq => hq⟩
  · obtain ⟨a, b, c, d⟩ := promoteInt_range s1 w1 s2 w2 s w hsw
    refine ⟨?_, ?_⟩
    · rintro q ⟨z, rfl, h1, h2⟩; exact ⟨z, rfl, by omega, by omega⟩
    · rintro q ⟨z, rfl, h1, h2⟩; exact ⟨z, rfl, by omega, by omega⟩

/-- **C237** Adding, subtracting, multiplying and comparing the size of two integer arrays is exact wherever the result fits into the type of the
result, for any two integer types but a signed one with uint64. -/
theorem binary_ints_partial {cv : Conv} (hc : Safe cv) {fit : Ty → Rat → Rat} (hf : Stores fit) (op : Op) (s1 : Bool) (w1 : Fin 4) (s2 : Bool) (w2 : Fin 4)
    (h64 : ¬ (s1 ≠ s2 ∧ (if s1 then w2 else w1) = 3)) {xs ys : List Rat} (hl : ys.length = xs.length)
    (hx : ∀ q ∈ xs, Valid (.int s1 w1) q) (hy : ∀ q ∈ ys, Valid (.int s2 w2) q) :
    ∃ s w r, npBinary cv fit op (.int s1 w1) xs (.int s2 w2) ys = (.int s w, r) ∧
      ((∀ (i : Nat) (x y : Rat), xs[i]? = some x → ys[i]? = some y → Holds (.int s w) (op.exact x y)) → EachRow op.exact xs ys r) ∧
      (op = .min ∨ op = .max → EachRow op.exact xs ys r) := by
  obtain ⟨s, w, hsw, h1, h2⟩ := finalTy_ints s1 w1 s2 w2 h64
  have e : npBinary cv fit op (.int s1 w1) xs (.int s2 w2) ys = (.int s w, List.zipWith (fun (x y : Rat) => fit (.int s w) (op.exact x y)) xs ys) := by
    unfold npBinary
    dsimp only
    rw [hsw, toTy_keeps hc hx (fun q hq => h1 q (hx q hq).1), toTy_keeps hc hy (fun q hq => h2 q (hy q hq).1)]
  refine ⟨s, w, _, e, fun hr => ?_, fun ho => ?_⟩
  · exact zip_rows _ _ hl fun i x y ex ey => hf.keeps _ _ (hr i x y ex ey)
  · refine zip_rows _ _ hl fun i x y ex ey => hf.keeps _ _ ?_
    have hx' := h1 x (hx x (List.mem_of_getElem? ex)).1
    have hy' := h2 y (hy y (List.mem_of_getElem? ey)).1
    rcases ho with rfl | rfl
    · simp only [Op.exact]; split_ifs <;> assumption
    · simp only [Op.exact]; split_ifs <;> assumption

/-- **C238** Comparisons of two integer arrays are true or false as the numbers are, for any two integer types but a signed one with uint64. -/
theorem compare_ints_partial {cv : Conv} (hc : Safe cv) (c : Cmp) (s1 : Bool) (w1 : Fin 4) (s2 : Bool) (w2 : Fin 4)
    (h64 : ¬ (s1 ≠ s2 ∧ (if s1 then w2 else w1) = 3)) {xs ys : List Rat} (hl : ys.length = xs.length)
    (hx : ∀ q ∈ xs, Valid (.int s1 w1) q) (hy : ∀ q ∈ ys, Valid (.int s2 w2) q) :
    EachRow c.truth xs ys (npCompare cv c (.int s1 w1) xs (.int s2 w2) ys) := by
  obtain ⟨s, w, hsw, h1, h2⟩ := finalTy_ints s1 w1 s2 w2 h64
  unfold npCompare
  dsimp only
  rw [hsw, toTy_keeps hc hx (fun q hq => h1 q (hx q hq).1), toTy_keeps hc hy (fun q hq => h2 q (hy q hq).1)]
  exact zip_rows _ _ hl fun _ _ _ _ _ => rfl

/-- Two arrays of the same type are compared as they are. -/
theorem compare_same (cv : Conv) (c : Cmp) (t : Ty) {xs ys : List Rat} (hl : ys.length = xs.length) : EachRow c.truth xs ys (npCompare cv c t xs t ys) := by
  unfold npCompare finalTy toTy
  simp only [if_true]
  exact zip_rows _ _ hl fun _ _ _ _ _ => rfl

/-! ## 64 bits -/

/-- no float64 number lies strictly between 2^53 and 2^53 + 2 -/
theorem gap53 {q : Rat} (h : Holds .f64 q) : ¬ (2 ^ 53 < q ∧ q < 2 ^ 53 + 2) := by
  rintro ⟨h1, h2⟩
  obtain ⟨m, e, hm, he1, he2, rfl⟩ := h
  have hm' : (m : Rat) < 2 ^ 53 := by
    have : m < 2 ^ 53 := lt_of_le_of_lt (le_abs_self m) hm
    exact_mod_cast this
  rcases lt_or_ge e 1 with h0 | h0
  · have hz : (2 : Rat) ^ e ≤ 1 := zpow_le_one_of_nonpos₀ (by norm_num) (by omega)
    have hp : (0 : Rat) < (2 : Rat) ^ e := zpow_pos (by norm_num) e
    rcases le_or_gt 0 (m : Rat) with hm0 | hm0
    · have := mul_le_mul_of_nonneg_left hz hm0
      linarith
    · have := mul_neg_of_neg_of_pos hm0 hp
      have : (0 : Rat) < 2 ^ 53 := by norm_num
      linarith
  · obtain ⟨n, rfl⟩ : ∃ n : Nat, e = (n : Int) + 1 := ⟨(e - 1).toNat, by omega⟩
    have hz : (m : Rat) * (2 : Rat) ^ ((n : Int) + 1) = ((m * 2 ^ n * 2 : Int) : Rat) := by
      rw [zpow_add₀ (by norm_num), zpow_natCast, zpow_one]
      push_cast
      ring
    rw [hz] at h1 h2
    have a1 : (2 : Int) ^ 53 < m * 2 ^ n * 2 := by exact_mod_cast h1
    have a2 : m * 2 ^ n * 2 < (2 : Int) ^ 53 + 2 := by exact_mod_cast h2
    generalize m * 2 ^ n = k at a1 a2
    omega

theorem f64_even {z : Int} (k : Nat) (h1 : |z| < 2 ^ 53) (hk : k ≤ 971) : Holds .f64 ((z * 2 ^ k : Int) : Rat) :=
  ⟨z, k, h1, by omega, by omega, by push_cast; rw [zpow_natCast]⟩

theorem f64_2p53 : Holds .f64 (2 ^ 53) := by
  have := f64_even (z := 1) 53 (by norm_num) (by norm_num)
  have e : ((1 * 2 ^ 53 : Int) : Rat) = 2 ^ 53 := by norm_num
  rwa [e] at this

theorem f64_2p53_2 : Holds .f64 (2 ^ 53 + 2) := by
  have := f64_even (z := 2 ^ 52 + 1) 1 (by norm_num [abs_of_pos]) (by norm_num)
  have e : (((2 ^ 52 + 1) * 2 ^ 1 : Int) : Rat) = 2 ^ 53 + 2 := by norm_num
  rwa [e] at this

theorem valid_int {s : Bool} {w : Fin 4} {z : Int} (h1 : least s w ≤ z) (h2 : z ≤ greatest s w) (h3 : z ≠ missing s w) : Valid (.int s w) (z : Rat) :=
  ⟨(holds_int s w z).2 ⟨h1, h2⟩, fun h => h3 (by have h' : (z : Rat) = (missing s w : Int) := h; exact_mod_cast h')⟩

/-- **C237** violated: an int64 array and a uint64 array are added as float64, so adding 0 changes the number 2^53 + 1. -/
theorem binary_counterexample (cv : Conv) {fit : Ty → Rat → Rat} (hf : Stores fit) :
    ∃ r, npBinary cv fit .add (.int false 3) [2 ^ 53 + 1] (.int true 3) [0] = (.f64, r) ∧ r ≠ [2 ^ 53 + 1] := by
  have ht : finalTy (.int false 3) (.int true 3) = .f64 := by decide +kernel
  refine ⟨[fit .f64 (cv (.int false 3) .f64 (2 ^ 53 + 1) + cv (.int true 3) .f64 0)], ?_, ?_⟩
  · unfold npBinary
    dsimp only
    rw [ht]
    rfl
  · intro he
    have he' : fit .f64 (cv (.int false 3) .f64 (2 ^ 53 + 1) + cv (.int true 3) .f64 0) = 2 ^ 53 + 1 := by simpa using he
    have := hf.holds .f64 (cv (.int false 3) .f64 (2 ^ 53 + 1) + cv (.int true 3) .f64 0)
    rw [he'] at this
    exact gap53 this ⟨by norm_num, by norm_num⟩

/-- **C238** violated: of a uint64 array with 2^53 + 1, either it is not greater than 2^53 or not less than 2^53 + 2 (int64 arrays). -/
theorem compare_counterexample {cv : Conv} (hc : Safe cv) :
    npCompare cv .gt (.int false 3) [2 ^ 53 + 1] (.int true 3) [2 ^ 53] ≠ [true] ∨
    npCompare cv .lt (.int false 3) [2 ^ 53 + 1] (.int true 3) [2 ^ 53 + 2] ≠ [true] := by
  have ht : finalTy (.int false 3) (.int true 3) = .f64 := by decide +kernel
  have v1 : Valid (.int true 3) (2 ^ 53) := by
    have := valid_int (s := true) (w := 3) (z := 2 ^ 53) (by decide +kernel) (by decide +kernel) (by decide +kernel)
    have e : (((2 : Int) ^ 53 : Int) : Rat) = 2 ^ 53 := by norm_num
    rwa [e] at this
  have v2 : Valid (.int true 3) (2 ^ 53 + 2) := by
    have := valid_int (s := true) (w := 3) (z := 2 ^ 53 + 2) (by decide +kernel) (by decide +kernel) (by decide +kernel)
    have e : (((2 : Int) ^ 53 + 2 : Int) : Rat) = 2 ^ 53 + 2 := by norm_num
    rwa [e] at this
  by_contra hn
  push Not at hn
  obtain ⟨h1, h2⟩ := hn
  unfold npCompare at h1 h2
  dsimp only at h1 h2
  rw [ht] at h1 h2
  have e1 : toTy cv (.int true 3) .f64 [2 ^ 53] = [2 ^ 53] := toTy_keeps hc (by simpa using v1) (by simpa using f64_2p53)
  have e2 : toTy cv (.int true 3) .f64 [2 ^ 53 + 2] = [2 ^ 53 + 2] := toTy_keeps hc (by simpa using v2) (by simpa using f64_2p53_2)
  rw [e1] at h1
  rw [e2] at h2
  have e0 : toTy cv (.int false 3) .f64 [2 ^ 53 + 1] = [cv (.int false 3) .f64 (2 ^ 53 + 1)] := rfl
  rw [e0] at h1 h2
  simp only [List.zipWith_cons_cons, List.zipWith_nil_left, List.cons.injEq, and_true, Cmp.truth, decide_eq_true_eq] at h1 h2
  exact gap53 (hc.holds (.int false 3) .f64 (2 ^ 53 + 1)) ⟨h1, h2⟩

/-! ## a Python integer -/

/-- a Python integer is converted to a type that can hold it without change, and always to a value of the type -/
structure FromPy (pyTo : Ty → Int → Rat) : Prop where
  keeps : ∀ t (k : Int), Holds t k → pyTo t k = k
  holds : ∀ t k, Holds t (pyTo t k)

/-- **C239** Comparisons of an integer array with a Python integer are true or false as the numbers are, if the integer fits into 64 bits with the
sign of the array. -/
theorem compareInt_partial {cv : Conv} (hc : Safe cv) {pyTo : Ty → Int → Rat} (hp : FromPy pyTo) (c : Cmp) (s : Bool) (w : Fin 4) {xs : List Rat}
    (hx : ∀ q ∈ xs, Valid (.int s w) q) (k : Int) (hk : if s then least true 3 ≤ k ∧ k ≤ greatest true 3 else 0 ≤ k ∧ k ≤ greatest false 3) :
    npCompareInt cv pyTo c s w xs k = xs.map fun x => c.truth x k := by
  obtain ⟨h1, h2⟩ := logicalCommon_holds_partial s w k hk
  unfold npCompareInt
  dsimp only
  rw [toTy_keeps hc hx (fun q hq => h2 q (hx q hq).1), hp.keeps _ _ h1]

/-- **C239** violated: 0 in a uint8 array is not greater than -1. -/
theorem compareInt_negative_counterexample {pyTo : Ty → Int → Rat} (hp : FromPy pyTo) (cv : Conv) : npCompareInt cv pyTo .gt false 0 [0] (-1) = [false] := by
  have ht : logicalCommon false 0 (-1) = .int false 0 := by decide +kernel
  unfold npCompareInt
  dsimp only
  rw [ht]
  obtain ⟨z, hz, h1, _⟩ := hp.holds (.int false 0) (-1)
  rw [hz]
  have h0 : (0 : Int) ≤ z := h1
  have : ¬ ((z : Rat) < 0) := by
    have : (0 : Rat) ≤ z := by exact_mod_cast h0
    linarith
  show [decide ((z : Rat) < 0)] = [false]
  rw [decide_eq_false this]

/-- **C239** violated: 2^63 - 1 in an int64 array equals 2^63, as numbers that large are rounded to the nearest float64. -/
theorem compareInt_large_counterexample {pyTo : Ty → Int → Rat} (hp : FromPy pyTo) {cv : Conv} (hr : cv (.int true 3) .f64 (2 ^ 63 - 1) = 2 ^ 63) :
    npCompareInt cv pyTo .eq true 3 [2 ^ 63 - 1] (2 ^ 63) = [true] := by
  have ht : logicalCommon true 3 (2 ^ 63) = .f64 := by decide +kernel
  have h63 : Holds .f64 (((2 : Int) ^ 63 : Int) : Rat) := by
    have := f64_even (z := 1) 63 (by norm_num) (by norm_num)
    simpa using this
  unfold npCompareInt
  dsimp only
  rw [ht, hp.keeps _ _ h63]
  have e : toTy cv (.int true 3) .f64 [2 ^ 63 - 1] = [cv (.int true 3) .f64 (2 ^ 63 - 1)] := rfl
  rw [e, hr]
  show [decide ((2 : Rat) ^ 63 = (((2 : Int) ^ 63 : Int) : Rat))] = [true]
  rw [decide_eq_true (by norm_num)]

/-! ## out -/

/-- **C240** `np.add(a, b, out=c)` writes the exact results into `c`, if its type can hold the numbers of `a` and `b` and the results. -/
theorem out_partial {cv : Conv} (hc : Safe cv) {fit : Ty → Rat → Rat} (hf : Stores fit) (op : Op) {ta tb tc : Ty} (hne : ta = tb → ta = tc)
    {xs ys : List Rat} (hl : ys.length = xs.length) (hx : ∀ q ∈ xs, Valid ta q ∧ Holds tc q) (hy : ∀ q ∈ ys, Valid tb q ∧ Holds tc q)
    (hr : ∀ (i : Nat) (x y : Rat), xs[i]? = some x → ys[i]? = some y → Holds tc (op.exact x y)) :
    ∃ r, npOut cv fit op ta xs tb ys tc = some r ∧ EachRow op.exact xs ys r := by
  have hz := zip_rows (fun (x y : Rat) => fit tc (op.exact x y)) op.exact hl fun i x y ex ey => hf.keeps _ _ (hr i x y ex ey)
  refine ⟨_, ?_, hz⟩
  unfold npOut
  by_cases h : ta = tb
  · rw [if_pos h, if_pos (hne h)]
  · rw [if_neg h, toTy_keeps hc (fun q hq => (hx q hq).1) (fun q hq => (hx q hq).2), toTy_keeps hc (fun q hq => (hy q hq).1) (fun q hq => (hy q hq).2)]

/-- **C240** violated: `np.multiply([4], [0.5], out=c)` with an integer array `c` does not give 2: 0.5 is converted to an integer before multiplying.
The conversion may be any that moves 0.5 by no more than 1. -/
theorem out_counterexample {cv : Conv} (hc : Safe cv) {fit : Ty → Rat → Rat} (hf : Stores fit)
    (h1 : -1 ≤ cv .f64 (.int true 3) (1 / 2) ∧ cv .f64 (.int true 3) (1 / 2) ≤ 1) :
    ∃ r, npOut cv fit .mul (.int true 3) [4] .f64 [1 / 2] (.int true 3) = some r ∧ r ≠ [2] ∧ Op.mul.exact 4 (1 / 2) = 2 := by
  refine ⟨[fit (.int true 3) (4 * cv .f64 (.int true 3) (1 / 2))], rfl, ?_, by norm_num [Op.exact]⟩
  obtain ⟨z, hz, _, _⟩ := hc.holds .f64 (.int true 3) (1 / 2)
  rw [hz] at h1 ⊢
  have a1 : -1 ≤ z := by exact_mod_cast h1.1
  have a2 : z ≤ 1 := by exact_mod_cast h1.2
  have hh : Holds (.int true 3) (4 * (z : Rat)) := by
    refine ⟨4 * z, by push_cast; rfl, ?_, ?_⟩
    · show (-9223372036854775808 : Int) ≤ _; omega
    · show _ ≤ (9223372036854775807 : Int); omega
  rw [hf.keeps _ _ hh]
  intro he
  have : 4 * (z : Rat) = 2 := by simpa using he
  have : 4 * z = 2 := by exact_mod_cast this
  omega

/-! ## examples: an int8 and a uint16 array -/

example : ¬ (true ≠ false ∧ (if true then (1 : Fin 4) else 0) = 3) := by decide

example : Valid (.int true 0) ((-5 : Int) : Rat) ∧ Valid (.int false 1) ((60000 : Int) : Rat) ∧ finalTy (.int true 0) (.int false 1) = .int true 2 :=
  ⟨valid_int (by decide +kernel) (by decide +kernel) (by decide +kernel), valid_int (by decide +kernel) (by decide +kernel) (by decide +kernel), by decide +kernel⟩

/-- there are such conversions: numbers that do not fit become 0 -/
theorem safe_exists : ∃ cv : Conv, Safe cv := by
  classical
  have h0 : ∀ t, Holds t 0 := by
    intro t
    have hf : ∀ p (a b : Int), a ≤ 0 → 0 ≤ b → IsFloat p a b 0 := fun p a b ha hb => ⟨0, 0, by simp, ha, hb, by simp⟩
    cases t with
    | int s w =>
      have := (holds_int s w 0).2 (by revert s w; decide +kernel)
      simpa using this
    | f16 => exact hf _ _ _ (by norm_num) (by norm_num)
    | f32 => exact hf _ _ _ (by norm_num) (by norm_num)
    | f64 => exact hf _ _ _ (by norm_num) (by norm_num)
    | obj => trivial
  refine ⟨fun _ t q => if Holds t q then q else 0, ⟨fun s t q _ h => by simp [h], fun s t q => ?_⟩⟩
  split_ifs with h
  · exact h
  · exact h0 t

end Verif.Ufunc
