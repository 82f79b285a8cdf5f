import Verif.NpOps.Types
/-! # where (C169, C170, C171) -/
namespace Verif.NpOps

/-- row `i` of an argument: its number, or the item of the array -/
def Arg.row : Arg → Nat → Option Rat
  | .pyInt z, _ => some z
  | .pyFloat q, _ => some q
  | .arr _ vs, i => vs[i]?

/-- an array has one item per row -/
def Arg.Fits (n : Nat) : Arg → Prop
  | .arr _ vs => vs.length = n
  | _ => True

theorem choose_chosen {V : Type} : ∀ (cond : List Int) (xs ys : List V), xs.length = cond.length → ys.length = cond.length →
    Chosen cond (fun i => xs[i]?) (fun i => ys[i]?) (choose cond xs ys) := by
  intro cond
  induction cond with
  | nil => intro xs ys _ _; exact ⟨rfl, fun i c h => by simp at h⟩
  | cons c cs ih =>
    intro xs ys hx hy
    match xs, ys, hx, hy with
    | x :: xs, y :: ys, hx, hy =>
      obtain ⟨h1, h2⟩ := ih xs ys (by simpa using hx) (by simpa using hy)
      refine ⟨by simp [choose, h1], ?_⟩
      intro i b hb
      cases i with
      | zero =>
        simp only [List.getElem?_cons_zero, Option.some.injEq] at hb
        subst hb
        unfold choose
        split_ifs <;> simp
      | succ i =>
        unfold choose
        simpa using h2 i b (by simpa using hb)

theorem stretch_ok (f : Rat → Rat) (a : Arg) (n : Nat) (h : a.Fits n) :
    ∃ l, stretch n (a.map f) = .ok l ∧ l.length = n ∧ ∀ i < n, l[i]? = (a.row i).map f := by
  match a, h with
  | .pyInt z, _ => exact ⟨_, rfl, by simp, fun i hi => by simp [hi, Arg.row]⟩
  | .pyFloat z, _ => exact ⟨_, rfl, by simp, fun i hi => by simp [hi, Arg.row]⟩
  | .arr t [], h => 
    refine ⟨[], ?_, by simpa [Arg.Fits] using h, fun i hi => ?_⟩
    · have : n = 0 := by simpa [Arg.Fits] using h.symm
      subst this; rfl
    · have : n = 0 := by simpa [Arg.Fits] using h.symm
      omega
  | .arr t [v], h =>
    have : n = 1 := by simpa [Arg.Fits] using h.symm
    subst this
    refine ⟨[f v], rfl, rfl, fun i hi => ?_⟩
    have : i = 0 := by omega
    subst this; rfl
  | .arr t (v :: w :: vs), h =>
    have hn : ((v :: w :: vs).map f).length = n := by rw [List.length_map]; exact h
    refine ⟨(v :: w :: vs).map f, ?_, hn, fun i hi => by rw [List.getElem?_map]; rfl⟩
    show (if ((v :: w :: vs).map f).length = n then _ else _) = _
    rw [if_pos hn]

theorem size_fits {a : Arg} {n : Nat} (h : a.Fits n) (hn : n ≠ 0) : a.size ≠ some 0 ∧ a.size.getD 1 ≤ n := by
  cases a with
  | pyInt z => exact ⟨by simp [Arg.size], by simp [Arg.size]; omega⟩
  | pyFloat q => exact ⟨by simp [Arg.size], by simp [Arg.size]; omega⟩
  | arr t vs =>
    have : vs.length = n := h
    exact ⟨by simp only [Arg.size, ne_eq, Option.some.injEq]; omega, by simp only [Arg.size, Option.getD_some]; omega⟩

theorem npWhere_ok (f : Rat → Rat) (cond : List Int) (x y : Arg) (hn : cond.length ≠ 0) (hx : x.Fits cond.length) (hy : y.Fits cond.length) :
    ∃ r, npWhere f cond x y = .ok r ∧ Chosen cond (fun i => (x.row i).map f) (fun i => (y.row i).map f) r := by
  obtain ⟨x1, x2⟩ := size_fits hx hn
  obtain ⟨y1, y2⟩ := size_fits hy hn
  have hmax : max cond.length (max (x.size.getD 1) (y.size.getD 1)) = cond.length := by omega
  obtain ⟨xs, ex, lx, gx⟩ := stretch_ok f x cond.length hx
  obtain ⟨ys, ey, ly, gy⟩ := stretch_ok f y cond.length hy
  refine ⟨choose cond xs ys, ?_, ?_⟩
  · unfold npWhere
    rw [if_neg (by rintro (h | h); exacts [x1 h, y1 h])]
    dsimp only
    rw [hmax, if_neg (by simp), ex, ey]
    simp only [if_true]
    rfl
  · obtain ⟨c1, c2⟩ := choose_chosen cond xs ys lx ly
    refine ⟨c1, fun i c hc => ?_⟩
    have hi := (List.getElem?_eq_some_iff.1 hc).1
    rw [c2 i c hc]
    dsimp only
    rw [gx i hi, gy i hi]

/-- **C169** `where` takes every row from `x` or `y`, as the condition says, converted to the common type (not converted when numpy is
asked to do it). -/
theorem where_rows (rnd : Ty → Rat → Rat) (cond : List Int) (x y : Arg) (hx : x.Fits cond.length) (hy : y.Fits cond.length) :
    ∃ r f, whereNum rnd cond x y = .ok r ∧ (f = id ∨ f = rnd (commonType x y)) ∧
      Chosen cond (fun i => (x.row i).map f) (fun i => (y.row i).map f) r := by
  unfold whereNum
  dsimp only
  by_cases h1 : cond.length = 1
  · rw [if_pos h1]
    obtain ⟨r, hr, hc⟩ := npWhere_ok (if commonType x y = .f16 ∨ commonType x y = .obj then id else rnd (commonType x y)) cond x y (by omega) hx hy
    refine ⟨r, _, hr, ?_, hc⟩
    split_ifs
    · exact Or.inl rfl
    · exact Or.inr rfl
  · rw [if_neg h1]
    by_cases h0 : cond.length = 0
    · rw [if_pos h0]
      have : cond = [] := List.length_eq_zero_iff.1 h0
      subst this
      exact ⟨[], id, rfl, Or.inl rfl, rfl, fun i c h => by simp at h⟩
    · rw [if_neg h0]
      by_cases ht : commonType x y = .f16 ∨ commonType x y = .obj
      · rw [if_pos ht]
        obtain ⟨r, hr, hc⟩ := npWhere_ok id cond x y h0 hx hy
        exact ⟨r, id, hr, Or.inl rfl, hc⟩
      · rw [if_neg ht]
        obtain ⟨xs, ex, lx, gx⟩ := stretch_ok (rnd (commonType x y)) x cond.length hx
        obtain ⟨ys, ey, ly, gy⟩ := stretch_ok (rnd (commonType x y)) y cond.length hy
        rw [ex, ey]
        dsimp only
        refine ⟨_, rnd (commonType x y), rfl, Or.inr rfl, ?_⟩
        obtain ⟨c1, c2⟩ := choose_chosen cond xs ys lx ly
        refine ⟨c1, fun i c hc => ?_⟩
        have hi := (List.getElem?_eq_some_iff.1 hc).1
        rw [c2 i c hc]
        dsimp only
        rw [gx i hi, gy i hi]

/-- a conversion that leaves alone what the type can hold, and gives what the type can hold -/
structure Rounds (rnd : Ty → Rat → Rat) : Prop where
  keeps : ∀ t q, Holds t q → rnd t q = q
  holds : ∀ t q, Holds t (rnd t q)

/-- **C169** The numbers are unchanged if the common type can hold them. -/
theorem where_exact {rnd : Ty → Rat → Rat} (hr : Rounds rnd) (cond : List Int) (x y : Arg) (hx : x.Fits cond.length) (hy : y.Fits cond.length)
    (vx : ∀ i q, x.row i = some q → Holds (commonType x y) q) (vy : ∀ i q, y.row i = some q → Holds (commonType x y) q) :
    ∃ r, whereNum rnd cond x y = .ok r ∧ Chosen cond x.row y.row r := by
  obtain ⟨r, f, h1, h2, h3, h4⟩ := where_rows rnd cond x y hx hy
  refine ⟨r, h1, h3, fun i c hc => ?_⟩
  rw [h4 i c hc]
  dsimp only
  have hkeep : ∀ a : Arg, (∀ i q, a.row i = some q → Holds (commonType x y) q) → (a.row i).map f = a.row i := by
    intro a ha
    cases hq : a.row i with
    | none => rfl
    | some q =>
      rcases h2 with rfl | rfl
      · rfl
      · rw [Option.map_some, hr.keeps _ _ (ha i q hq)]
  rw [hkeep x vx, hkeep y vy]

/-! ## integers -/

theorem promoteInt_range : ∀ (s1 : Bool) (w1 : Fin 4) (s2 : Bool) (w2 : Fin 4) (s : Bool) (w : Fin 4), promoteInt s1 w1 s2 w2 = .int s w →
    least s w ≤ least s1 w1 ∧ greatest s1 w1 ≤ greatest s w ∧ least s w ≤ least s2 w2 ∧ greatest s2 w2 ≤ greatest s w := by
  decide +kernel

theorem promoteInt_cases : ∀ (s1 : Bool) (w1 : Fin 4) (s2 : Bool) (w2 : Fin 4), promoteInt s1 w1 s2 w2 = .f64 ∨ ∃ s w, promoteInt s1 w1 s2 w2 = .int s w := by
  decide +kernel

/-- an integer, or an array of integers -/
def Arg.Integers : Arg → Prop
  | .pyInt z => least true 3 ≤ z ∧ z ≤ greatest false 3
  | .arr (.int s w) vs => ∀ q ∈ vs, Holds (.int s w) q
  | _ => False

theorem integers_ty {a : Arg} (h : a.Integers) : ∃ s w, a.ty = .int s w ∧ ∀ i q, a.row i = some q → Holds (.int s w) q := by
  match a, h with
  | .pyInt z, h =>
    have hty : ∃ s w, minScalarType z false false = .int s w := by
      cases ht : minScalarType z false false with
      | int s w => exact ⟨s, w, rfl⟩
      | obj =>
        exfalso
        refine minScalarType_none z false false ht 3 ?_
        obtain ⟨h1, h2⟩ := h
        refine ⟨?_, ?_, by simp⟩
        · by_cases hz : z < 0
          · simpa [hz] using h1
          · simp only [hz, decide_false, Bool.or_self]
            show (0 : Int) ≤ z
            omega
        · by_cases hz : z < 0
          · simp only [hz, decide_true, Bool.or_false]
            show z ≤ 9223372036854775807
            omega
          · simpa [hz] using h2
      | f16 => unfold minScalarType npMinInt at ht; dsimp only at ht; split_ifs at ht <;> split at ht <;> cases ht
      | f32 => unfold minScalarType npMinInt at ht; dsimp only at ht; split_ifs at ht <;> split at ht <;> cases ht
      | f64 => unfold minScalarType npMinInt at ht; dsimp only at ht; split_ifs at ht <;> split at ht <;> cases ht
    obtain ⟨s, w, ht⟩ := hty
    refine ⟨s, w, ht, fun i q hq => ?_⟩
    have : q = z := by simpa [Arg.row] using hq.symm
    subst this
    obtain ⟨h1, _⟩ := minScalarType_holds_partial z false false (by simp) s w ht
    exact (holds_int _ _ _).2 ⟨h1.1, h1.2.1⟩
  | .arr (.int s w) vs, h => exact ⟨s, w, rfl, fun i q hq => h q (List.mem_of_getElem? hq)⟩

/-- **C169** Integers are unchanged, unless signed and unsigned 64-bit integers are mixed (then the common type is float64). -/
theorem where_integers {rnd : Ty → Rat → Rat} (hr : Rounds rnd) (cond : List Int) (x y : Arg) (hx : x.Fits cond.length) (hy : y.Fits cond.length)
    (ix : x.Integers) (iy : y.Integers) (ht : commonType x y ≠ .f64) : ∃ r, whereNum rnd cond x y = .ok r ∧ Chosen cond x.row y.row r := by
  obtain ⟨s1, w1, t1, r1⟩ := integers_ty ix
  obtain ⟨s2, w2, t2, r2⟩ := integers_ty iy
  have hc : ∃ s w, commonType x y = .int s w ∧ least s w ≤ least s1 w1 ∧ greatest s1 w1 ≤ greatest s w ∧ least s w ≤ least s2 w2 ∧ greatest s2 w2 ≤ greatest s w := by
    have : commonType x y = promoteInt s1 w1 s2 w2 ∨ (s1 = s2 ∧ w1 = w2 ∧ commonType x y = .int s1 w1) := by
      unfold commonType
      rw [t1, t2]
      split_ifs with hne
      · exact Or.inl rfl
      · have he : Ty.int s1 w1 = Ty.int s2 w2 := not_not.1 hne
        injection he with e1 e2
        exact Or.inr ⟨e1, e2, rfl⟩
    rcases this with h | ⟨rfl, rfl, h⟩
    · rcases promoteInt_cases s1 w1 s2 w2 with hf | ⟨s, w, hi⟩
      · exact absurd (h.trans hf) ht
      · exact ⟨s, w, h.trans hi, promoteInt_range _ _ _ _ _ _ hi⟩
    · exact ⟨s1, w1, h, le_refl _, le_refl _, le_refl _, le_refl _⟩
  obtain ⟨s, w, hc, a1, a2, a3, a4⟩ := hc
  refine where_exact hr cond x y hx hy (fun i q hq => ?_) (fun i q hq => ?_)
  · obtain ⟨z, rfl, b1, b2⟩ := r1 i q hq
    rw [hc]
    exact (holds_int _ _ _).2 ⟨by omega, by omega⟩
  · obtain ⟨z, rfl, b1, b2⟩ := r2 i q hq
    rw [hc]
    exact (holds_int _ _ _).2 ⟨by omega, by omega⟩

/-! ## what is wrong -/

/-- a number that float64 holds and float32 does not -/
def fine : Rat := 1 + 1 / 2 ^ 30

theorem fine_f64 : Holds .f64 fine := ⟨2 ^ 30 + 1, -30, by decide +kernel, by omega, by omega, by unfold fine; norm_num⟩

theorem fine_not_f32 : ¬ Holds .f32 fine := by
  rintro ⟨m, e, hm, he1, he2, h⟩
  have hf : fine = ((2 ^ 30 + 1 : Int) : Rat) * 2 ^ (-30 : Int) := by unfold fine; norm_num
  rw [hf] at h
  have h2 : (2 : Rat) ≠ 0 := by norm_num
  rcases le_or_gt (-30) e with hle | hlt
  · obtain ⟨k, hk⟩ := Int.eq_ofNat_of_zero_le (show 0 ≤ e + 30 by omega)
    have he : e = (k : Int) + (-30) := by omega
    rw [he, zpow_add₀ h2, ← mul_assoc] at h
    have h3 := mul_right_cancel₀ (zpow_ne_zero _ h2) h
    rw [zpow_natCast] at h3
    have h4 : (2 ^ 30 + 1 : Int) = m * 2 ^ k := by exact_mod_cast h3
    cases k with
    | zero =>
      rw [pow_zero, mul_one] at h4
      rw [← h4] at hm
      revert hm; decide +kernel
    | succ k =>
      have : (2 ^ 30 + 1 : Int) = 2 * (m * 2 ^ k) := by rw [h4]; ring
      omega
  · obtain ⟨k, hk⟩ := Int.eq_ofNat_of_zero_le (show 0 ≤ -30 - e by omega)
    have he : (-30 : Int) = (k : Int) + e := by omega
    rw [he, zpow_add₀ h2, ← mul_assoc] at h
    have h3 := mul_right_cancel₀ (zpow_ne_zero _ h2) h
    rw [zpow_natCast] at h3
    have h4 : (2 ^ 30 + 1 : Int) * 2 ^ k = m := by exact_mod_cast h3
    have hp : (1 : Int) ≤ 2 ^ k := by exact_mod_cast Nat.one_le_two_pow
    have : (2 ^ 30 + 1 : Int) ≤ m := by rw [← h4]; nlinarith
    have h5 := abs_lt.1 hm
    omega

/-- **C170** violated: a Python float (a 64-bit number) and an array of 16-bit integers are combined as float32: the float is changed. -/
theorem where_float_counterexample (rnd : Ty → Rat → Rat) (hr : Rounds rnd) :
    ∃ r : List Rat, whereNum rnd [1, 0] (.arr (.int true 1) [3, 4]) (.pyFloat fine) = .ok r ∧ r[1]? ≠ some fine := by
  have ht : commonType (.arr (.int true 1) [3, 4]) (.pyFloat fine) = .f32 := by decide +kernel
  refine ⟨[rnd .f32 3, rnd .f32 fine], ?_, ?_⟩
  · unfold whereNum
    dsimp only
    rw [ht]
    rfl
  · simp only [List.getElem?_cons_succ, List.getElem?_cons_zero, ne_eq, Option.some.injEq]
    intro he
    have := hr.holds .f32 fine
    rw [he] at this
    exact fine_not_f32 this

/-- **C170** violated: two Python floats are combined as float32 when one is greater than 65000 and neither than 3.4e38. -/
theorem where_floats_counterexample (rnd : Ty → Rat → Rat) (hr : Rounds rnd) :
    ∃ r : List Rat, whereNum rnd [1, 0] (.pyFloat 70000) (.pyFloat fine) = .ok r ∧ r[1]? ≠ some fine := by
  have ht : commonType (.pyFloat 70000) (.pyFloat fine) = .f32 := by decide +kernel
  refine ⟨[rnd .f32 70000, rnd .f32 fine], ?_, ?_⟩
  · unfold whereNum
    dsimp only
    rw [ht]
    rfl
  · simp only [List.getElem?_cons_succ, List.getElem?_cons_zero, ne_eq, Option.some.injEq]
    intro he
    have := hr.holds .f32 fine
    rw [he] at this
    exact fine_not_f32 this

theorem stretch_refused (f : Rat → Rat) {t : Ty} {vs : List Rat} {n : Nat} (h1 : vs.length ≠ 1) (hn : vs.length ≠ n) :
    stretch n ((Arg.arr t vs).map f) = .error .valueError := by
  match vs, h1, hn with
  | [], _, hn =>
    show (if ([] : List Rat).length = n then _ else _) = _
    rw [if_neg hn]
  | v :: w :: vs, _, hn =>
    show (if ((v :: w :: vs).map f).length = n then _ else _) = _
    rw [if_neg (by rw [List.length_map]; exact hn)]

theorem stretch_error {n : Nat} {a : Sum Rat (List Rat)} {e : Err} (h : stretch n a = .error e) : e = .valueError := by
  cases a with
  | inl v => cases h
  | inr v =>
    simp only [stretch] at h
    split_ifs at h
    cases h
    rfl

/-- an argument that has neither one row nor as many as the condition -/
def Arg.Misfit (n : Nat) : Arg → Prop
  | .arr _ vs => vs.length ≠ 1 ∧ vs.length ≠ n
  | _ => False

theorem npWhere_refused (f : Rat → Rat) {cond : List Int} (hc : 2 ≤ cond.length) {x y : Arg} (h : x.Misfit cond.length ∨ y.Misfit cond.length) :
    npWhere f cond x y = .error .valueError := by
  unfold npWhere
  by_cases h0 : x.size = some 0 ∨ y.size = some 0
  · rw [if_pos h0]
  · rw [if_neg h0]
    dsimp only
    by_cases hn : cond.length ≠ 1 ∧ cond.length ≠ max cond.length (max (x.size.getD 1) (y.size.getD 1))
    · rw [if_pos hn]
    · rw [if_neg hn]
      have hm : max cond.length (max (x.size.getD 1) (y.size.getD 1)) = cond.length := by
        by_contra hne
        exact hn ⟨by omega, fun he => hne he.symm⟩
      rw [hm]
      have key : ∀ {a : Arg}, a.Misfit cond.length → stretch cond.length (a.map f) = .error .valueError := by
        intro a ha
        match a, ha with
        | .arr t vs, ha => exact stretch_refused f ha.1 ha.2
      rcases h with h | h
      · rw [key h]; rfl
      · rw [key h]
        cases hx : stretch cond.length (x.map f) with
        | ok v => rfl
        | error e => rw [stretch_error hx]; rfl

/-- **C170** With a condition of two rows or more, arrays of other lengths (and not of one row) are refused. -/
theorem where_refused (rnd : Ty → Rat → Rat) {cond : List Int} (hc : 2 ≤ cond.length) {x y : Arg} (h : x.Misfit cond.length ∨ y.Misfit cond.length) :
    whereNum rnd cond x y = .error .valueError := by
  unfold whereNum
  dsimp only
  rw [if_neg (by omega), if_neg (by omega)]
  by_cases ht : commonType x y = .f16 ∨ commonType x y = .obj
  · rw [if_pos ht]; exact npWhere_refused id hc h
  · rw [if_neg ht]
    have key : ∀ {a : Arg}, a.Misfit cond.length → stretch cond.length (a.map (rnd (commonType x y))) = .error .valueError := by
      intro a ha
      match a, ha with
      | .arr t vs, ha => exact stretch_refused _ ha.1 ha.2
    rcases h with h | h
    · rw [key h]
      exact npWhere_refused _ hc (Or.inl h)
    · rw [key h]
      cases hx : stretch cond.length (x.map (rnd (commonType x y))) <;> exact npWhere_refused _ hc (Or.inr h)

example : (Arg.arr (.int true 3) [5, 6, 7]).Misfit 2 := ⟨by decide, by decide⟩

/-- **C170** violated: a condition of one row and an array of two give two rows; an empty condition accepts any array. -/
theorem where_length_counterexample (rnd : Ty → Rat → Rat) (hr : Rounds rnd) :
    whereNum rnd [1] (.arr (.int true 3) [5, 6]) (.pyInt 0) = .ok [5, 6] ∧ whereNum rnd [] (.arr (.int true 3) [5, 6, 7]) (.pyInt 0) = .ok [] := by
  refine ⟨?_, rfl⟩
  have ht : commonType (.arr (.int true 3) [5, 6]) (.pyInt 0) = .int true 3 := by decide +kernel
  have h5 : rnd (.int true 3) 5 = 5 := hr.keeps _ _ ((holds_int true 3 5).2 (by decide +kernel))
  have h6 : rnd (.int true 3) 6 = 6 := hr.keeps _ _ ((holds_int true 3 6).2 (by decide +kernel))
  unfold whereNum
  dsimp only
  rw [ht]
  show Except.ok [rnd (.int true 3) 5, rnd (.int true 3) 6] = _
  rw [h5, h6]

/-- a conversion as required exists -/
theorem rounds_exists : ∃ rnd, Rounds rnd := by
  classical
  have h0 : ∀ t, Holds t 0 := by
    intro t
    cases t with
    | int s w => exact ⟨0, by simp, by revert s w; decide +kernel, by revert s w; decide +kernel⟩
    | f16 => exact ⟨0, 0, by norm_num, by omega, by omega, by simp⟩
    | f32 => exact ⟨0, 0, by norm_num, by omega, by omega, by simp⟩
    | f64 => exact ⟨0, 0, by norm_num, by omega, by omega, by simp⟩
    | obj => trivial
  refine ⟨fun t q => if Holds t q then q else 0, fun t q h => if_pos h, fun t q => ?_⟩
  show Holds t (if Holds t q then q else 0)
  split_ifs with h
  · exact h
  · exact h0 t

/-! ## Categoricals -/

open Verif.Cat in
/-- **C171** `where` of two Categoricals of base index 1 shows in every row the label of the chosen row (or that it is filtered). -/
theorem where_categorical {L : Type} [DecidableEq L] (crc : List L → Nat) (hcrc : ∀ a b, a.length = b.length → crc a = crc b → a = b)
    (g : List L → Grp) (hg : GroupOK g) (x y : Cat.Part L) (hx : x.WF 1) (hy : y.WF 1)
    (cond : List Int) (lx : x.codes.length = cond.length) (ly : y.codes.length = cond.length) (buf : List Int) (hbuf : buf.length = x.codes.length + y.codes.length) :
    ∃ codes labels, whereCat crc g 1 cond x y buf = some (codes, labels) ∧
      Chosen cond (fun i => (x.rows 1)[i]?) (fun i => (y.rows 1)[i]?) (codes.map (label? 1 labels)) ∧
      labels.Nodup ∧ ∀ k ∈ codes, 0 ≤ k ∧ k ≤ labels.length := by
  obtain ⟨codes, labels, h1, h2, h3, h4⟩ := hstack_rows crc hcrc g hg (Nat.le_refl 1) [x, y] (by simp)
    (by intro c hc; simp at hc; rcases hc with rfl | rfl <;> assumption) buf (by simpa using hbuf)
  refine ⟨chooseHalves cond x.codes.length codes, labels, by unfold whereCat; rw [h1]; rfl, ?_, h3, ?_⟩
  · have h2' : codes.map (label? 1 labels) = x.rows 1 ++ y.rows 1 := by simpa using h2
    have lr : (x.rows 1).length = x.codes.length := by simp [Cat.Part.rows]
    have lr2 : (y.rows 1).length = y.codes.length := by simp [Cat.Part.rows]
    have hlen : codes.length = x.codes.length + y.codes.length := by
      have := congrArg List.length h2'
      rw [List.length_map, List.length_append, lr, lr2] at this
      exact this
    have hmap : ∀ (c : List Int) (a b : List Int), (choose c a b).map (label? 1 labels) = choose c (a.map (label? 1 labels)) (b.map (label? 1 labels)) := by
      intro c
      induction c with
      | nil => intro a b; cases a <;> cases b <;> rfl
      | cons c cs ih =>
        intro a b
        cases a with
        | nil => rfl
        | cons a as =>
          cases b with
          | nil => rfl
          | cons b bs =>
            simp only [choose, List.map_cons, ih]
            split_ifs <;> rfl
    unfold chooseHalves
    rw [hmap, List.map_take, List.map_drop, h2', ← lr, List.take_left', List.drop_left']
    · exact choose_chosen cond _ _ (by rw [lr]; exact lx) (by rw [lr2]; exact ly)
    · rfl
    · rfl
  · intro k hk
    have hsub : ∀ (c : List Int) (a b : List Int), ∀ k ∈ choose c a b, k ∈ a ∨ k ∈ b := by
      intro c
      induction c with
      | nil => intro a b k hk; cases a <;> cases b <;> simp [choose] at hk
      | cons c cs ih =>
        intro a b k hk
        cases a with
        | nil => simp [choose] at hk
        | cons a as =>
          cases b with
          | nil => simp [choose] at hk
          | cons b bs =>
            rw [choose, List.mem_cons] at hk
            rcases hk with rfl | hk
            · split_ifs <;> simp
            · rcases ih as bs k hk with h | h
              · exact Or.inl (List.mem_cons_of_mem _ h)
              · exact Or.inr (List.mem_cons_of_mem _ h)
    have hk' : k ∈ codes := by
      rcases hsub _ _ _ k hk with h | h
      · exact List.mem_of_mem_take h
      · exact List.mem_of_mem_drop h
    have := h4 k hk'
    omega

/-- **C171** violated for base index 0: the codes are read with base index 1, the chosen label is lost. -/
theorem where_base0_counterexample : ∃ x y : Verif.Cat.Part Nat, x.WF 0 ∧ y.WF 0 ∧ x.rows 0 = [some 5, some 6] ∧ y.rows 0 = [some 7, some 7] ∧
    (whereCat Verif.Cat.exCrc Verif.Cat.refGroup 0 [1, 1] x y [0, 0, 0, 0]).map (fun z => z.1.map (Verif.Cat.label? 1 z.2)) = some [none, some 5] :=
  ⟨⟨[0, 1], [5, 6]⟩, ⟨[0, 0], [7]⟩, ⟨by decide, by decide, by decide⟩, ⟨by decide, by decide, by decide⟩, by decide, by decide, by decide⟩

/-- **C171** violated for Categoricals with a mapping: their codes are taken for positions in the list of labels. Rows of code 1 (label 20) show label 10. -/
theorem where_mapping_counterexample :
    let mapping : List (Int × Nat) := [(2, 10), (1, 20)]
    let z := whereEnum [1, 0] mapping [1, 1] [2, 2]
    z.1 = [1, 2] ∧ z.1.map (fun k => mapping.lookup k) = [some 20, some 10] ∧ z.1.map (Verif.Cat.label? 1 z.2) = [some 10, some 20] := by decide

example : ∃ x y : Verif.Cat.Part Nat, x.WF 1 ∧ y.WF 1 ∧ x.rows 1 = [some 5, none] ∧ y.rows 1 = [some 7, some 7] ∧
    (whereCat Verif.Cat.exCrc Verif.Cat.refGroup 1 [1, 0] x y [0, 0, 0, 0]).map (fun z => z.1.map (Verif.Cat.label? 1 z.2)) = some [some 5, some 7] :=
  ⟨⟨[1, 0], [5, 6]⟩, ⟨[1, 1], [7]⟩, ⟨by decide, by decide, by decide⟩, ⟨by decide, by decide, by decide⟩, by decide, by decide, by decide⟩

example : (Arg.arr (.int true 3) [100, 101]).Fits 2 ∧ (Arg.arr (.int true 3) [100, 101]).Integers ∧ (Arg.pyInt 200).Integers ∧
    commonType (Arg.arr (.int true 3) [100, 101]) (.pyInt 200) = .int true 3 := by
  refine ⟨rfl, ?_, ⟨by decide +kernel, by decide +kernel⟩, by decide +kernel⟩
  intro q hq
  simp at hq
  rcases hq with rfl | rfl
  · exact (holds_int true 3 100).2 (by decide +kernel)
  · exact (holds_int true 3 101).2 (by decide +kernel)

end Verif.NpOps
