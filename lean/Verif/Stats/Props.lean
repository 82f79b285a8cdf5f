import Verif.Stats.Spec
import Mathlib.Algebra.Order.BigOperators.Ring.Finset
import Mathlib.Algebra.Order.Chebyshev
import Mathlib.Algebra.Order.BigOperators.Ring.List
import Mathlib.Tactic.Linarith
import Mathlib.Tactic.Ring
import Mathlib.Tactic.FieldSimp
import Mathlib.Tactic.NormNum
import Mathlib.Tactic.Positivity
/-! # `rt_stats.py` (C374 - C381) -/
namespace Verif.Stats

/-! ## winsorize -/

/-- C376 -/
theorem winsorize_correct (y : List (Option ℚ)) (lb ub : ℚ) (h : lb ≤ ub) :
    (winsorize y lb ub).length = y.length ∧
    ∀ i (hi : i < y.length), (y[i] = none → (winsorize y lb ub)[i]? = some none) ∧
      ∀ v, y[i] = some v → ∃ w, (winsorize y lb ub)[i]? = some (some w) ∧ lb ≤ w ∧ w ≤ ub ∧
        (lb ≤ v → v ≤ ub → w = v) ∧ (v < lb → w = lb) ∧ (ub < v → w = ub) := by
  refine ⟨by simp [winsorize], fun i hi => ⟨fun hn => ?_, fun v hv => ?_⟩⟩
  · simp [winsorize, hi, hn]
  · refine ⟨max (min v ub) lb, by simp [winsorize, hi, hv], le_max_right _ _, max_le (min_le_right _ _) h, ?_, ?_, ?_⟩
    · intro h1 h2; rw [min_eq_left h2, max_eq_left h1]
    · intro h1; rw [min_eq_left (le_trans h1.le h), max_eq_right h1.le]
    · intro h1; rw [min_eq_right h1.le, max_eq_left h]

/-! ## r2 -/

theorem cauchy (l : List (ℚ × ℚ)) :
    (l.map fun p => p.1 * p.2).sum ^ 2 ≤ (l.map fun p => p.1 * p.1).sum * (l.map fun p => p.2 * p.2).sum := by
  rw [← Fin.sum_univ_fun_getElem l (fun p => p.1 * p.2), ← Fin.sum_univ_fun_getElem l (fun p => p.1 * p.1),
    ← Fin.sum_univ_fun_getElem l (fun p => p.2 * p.2)]
  have := Finset.sum_mul_sq_le_sq_mul_sq (Finset.univ : Finset (Fin l.length)) (fun i => l[i.1].1) (fun i => l[i.1].2)
  simpa only [pow_two] using this

theorem sum_sq_nonneg (l : List ℚ) (f : ℚ → ℚ) : 0 ≤ (l.map fun x => f x * f x).sum := by
  induction l with
  | nil => simp
  | cons a l ih =>
    rw [List.map_cons, List.sum_cons]
    have := mul_self_nonneg (f a)
    linarith

theorem sum_sq_zero (l : List ℚ) (f : ℚ → ℚ) (h : (l.map fun x => f x * f x).sum = 0) : ∀ x ∈ l, f x = 0 := by
  induction l with
  | nil => intro x hx; cases hx
  | cons a l ih =>
    rw [List.map_cons, List.sum_cons] at h
    have h1 := mul_self_nonneg (f a)
    have h2 := sum_sq_nonneg l f
    intro x hx
    rcases List.mem_cons.mp hx with rfl | hx
    · exact mul_self_eq_zero.mp (by linarith)
    · exact ih (by linarith) x hx

theorem varOf_pos (l : List ℚ) (h : Varies l) : 0 < varOf l := by
  obtain ⟨a, ha, b, hb, hab⟩ := h
  have hl : (0 : ℚ) < l.length := by
    have := List.length_pos_of_mem ha
    exact_mod_cast this
  unfold varOf
  rw [meanOf, List.length_map]
  refine div_pos ?_ hl
  rcases (sum_sq_nonneg l (fun x => x - meanOf l)).lt_or_eq with h | h
  · exact h
  · have hz := sum_sq_zero l (fun x => x - meanOf l) h.symm
    have e1 := hz a ha
    have e2 := hz b hb
    exact absurd (by linarith) hab

/-- C375: between 0 and 1 -/
theorem r2_range (l : List (ℚ × ℚ)) (hx : Varies (l.map Prod.fst)) (hy : Varies (l.map Prod.snd)) :
    ∃ r, r2 l = some r ∧ 0 ≤ r ∧ r ≤ 1 := by
  have h1 := varOf_pos _ hx
  have h2 := varOf_pos _ hy
  have hp := mul_pos h1 h2
  refine ⟨_, by unfold r2; dsimp only; rw [if_neg hp.ne'], div_nonneg (mul_self_nonneg _) hp.le, ?_⟩
  rw [div_le_one hp]
  have hc := cauchy (l.map fun p => (p.1 - meanOf (l.map Prod.fst), p.2 - meanOf (l.map Prod.snd)))
  rw [List.map_map, List.map_map, List.map_map] at hc
  simp only [meanOf, varOf, List.length_map, List.map_map] at hc ⊢
  have hn : (0 : ℚ) < l.length := by
    obtain ⟨a, ha, _⟩ := hx
    have := List.length_pos_of_mem ha
    rw [List.length_map] at this
    exact_mod_cast this
  rw [div_mul_div_comm, div_mul_div_comm]
  refine div_le_div_of_nonneg_right ?_ (mul_pos hn hn).le
  rw [← pow_two]
  exact hc

/-- C375: X and Y may be exchanged -/
theorem r2_symm (l : List (ℚ × ℚ)) : r2 (l.map Prod.swap) = r2 l := by
  unfold r2
  dsimp only
  have e1 : (l.map Prod.swap).map Prod.fst = l.map Prod.snd := by rw [List.map_map]; rfl
  have e2 : (l.map Prod.swap).map Prod.snd = l.map Prod.fst := by rw [List.map_map]; rfl
  rw [e1, e2, List.map_map, mul_comm (varOf (l.map Prod.snd))]
  have : ((fun p : ℚ × ℚ => (p.1 - meanOf (l.map Prod.snd)) * (p.2 - meanOf (l.map Prod.fst))) ∘ Prod.swap) =
      fun p : ℚ × ℚ => (p.1 - meanOf (l.map Prod.fst)) * (p.2 - meanOf (l.map Prod.snd)) := by
    funext p
    simp only [Function.comp, Prod.swap]
    ring
  rw [this]

theorem sum_affine (l : List ℚ) (a b : ℚ) : (l.map fun x => a * x + b).sum = a * l.sum + l.length * b := by
  induction l with
  | nil => simp
  | cons x l ih => simp only [List.map_cons, List.sum_cons, ih, List.length_cons]; push_cast; ring

theorem meanOf_affine (l : List ℚ) (a b : ℚ) (h : l ≠ []) : meanOf (l.map fun x => a * x + b) = a * meanOf l + b := by
  unfold meanOf
  rw [sum_affine, List.length_map]
  have : (l.length : ℚ) ≠ 0 := by
    have := List.length_pos_iff.mpr h
    exact_mod_cast this.ne'
  field_simp

theorem meanOf_scale (l : List ℚ) (a : ℚ) : meanOf (l.map fun x => a * x) = a * meanOf l := by
  unfold meanOf
  rw [List.length_map, List.sum_map_mul_left, List.map_id']
  ring

theorem varOf_affine (l : List ℚ) (a b : ℚ) (h : l ≠ []) : varOf (l.map fun x => a * x + b) = a * a * varOf l := by
  unfold varOf
  rw [meanOf_affine l a b h, ← meanOf_scale (l.map fun x => (x - meanOf l) * (x - meanOf l)), List.map_map, List.map_map]
  congr 1
  refine List.map_congr_left fun x _ => ?_
  simp only [Function.comp]
  ring

/-- C375: the units and the zero of X do not matter -/
theorem r2_affine (l : List (ℚ × ℚ)) (a b : ℚ) (ha : a ≠ 0) : r2 (l.map fun p => (a * p.1 + b, p.2)) = r2 l := by
  cases l with
  | nil => rfl
  | cons q l =>
    generalize hL : q :: l = L
    have hne : L.map Prod.fst ≠ [] := by rw [← hL]; simp
    have e1 : (L.map fun p : ℚ × ℚ => (a * p.1 + b, p.2)).map Prod.fst = (L.map Prod.fst).map fun x => a * x + b := by
      rw [List.map_map, List.map_map]; rfl
    have e2 : (L.map fun p : ℚ × ℚ => (a * p.1 + b, p.2)).map Prod.snd = L.map Prod.snd := by rw [List.map_map]; rfl
    unfold r2
    dsimp only
    rw [e1, e2, meanOf_affine _ a b hne, varOf_affine _ a b hne, List.map_map]
    have e3 : ((fun p : ℚ × ℚ => (p.1 - (a * meanOf (L.map Prod.fst) + b)) * (p.2 - meanOf (L.map Prod.snd))) ∘
        fun p : ℚ × ℚ => (a * p.1 + b, p.2)) = fun p => a * ((p.1 - meanOf (L.map Prod.fst)) * (p.2 - meanOf (L.map Prod.snd))) := by
      funext p
      simp only [Function.comp]
      ring
    rw [e3]
    have e4 : meanOf (L.map fun p : ℚ × ℚ => a * ((p.1 - meanOf (L.map Prod.fst)) * (p.2 - meanOf (L.map Prod.snd)))) =
        a * meanOf (L.map fun p : ℚ × ℚ => (p.1 - meanOf (L.map Prod.fst)) * (p.2 - meanOf (L.map Prod.snd))) := by
      rw [← meanOf_scale, List.map_map]
      rfl
    rw [e4]
    generalize meanOf (L.map fun p : ℚ × ℚ => (p.1 - meanOf (L.map Prod.fst)) * (p.2 - meanOf (L.map Prod.snd))) = c
    generalize varOf (L.map Prod.fst) = vx
    generalize varOf (L.map Prod.snd) = vy
    by_cases hz : vx * vy = 0
    · rw [if_pos hz, if_pos (by rw [mul_assoc, hz, mul_zero])]
    · have : a * a * vx * vy ≠ 0 := by rw [mul_assoc]; exact mul_ne_zero (mul_ne_zero ha ha) hz
      rw [if_neg hz, if_neg this]
      congr 1
      have h1 : vx ≠ 0 := left_ne_zero_of_mul hz
      have h2 : vy ≠ 0 := right_ne_zero_of_mul hz
      field_simp

/-! ## mae -/

/-- C377: the mean of the distances in the rows without NaN -/
theorem mae_correct (l : List (Option ℚ × Option ℚ)) (c : List (ℚ × ℚ))
    (hc : c = l.filterMap fun p => match p with | (some x, some y) => some (x, y) | _ => none) :
    (c = [] → mae l = none) ∧ (c ≠ [] → ∃ m, mae l = some m ∧ m * c.length = (c.map fun p => |p.1 - p.2|).sum ∧ 0 ≤ m ∧
      (m = 0 ↔ ∀ p ∈ c, p.1 = p.2)) := by
  have he : (l.filterMap sub?).map (fun d => |d|) = c.map fun p => |p.1 - p.2| := by
    rw [hc]
    clear hc
    induction l with
    | nil => rfl
    | cons p l ih =>
      obtain ⟨x, y⟩ := p
      cases x <;> cases y <;> simp only [List.filterMap_cons, sub?, List.map_cons, ih]
  have hnn : ∀ c : List (ℚ × ℚ), 0 ≤ (c.map fun p => |p.1 - p.2|).sum := by
    intro c
    refine List.sum_nonneg fun x hx => ?_
    obtain ⟨p, _, rfl⟩ := List.mem_map.mp hx
    exact abs_nonneg _
  have hzero : ∀ c : List (ℚ × ℚ), (c.map fun p => |p.1 - p.2|).sum = 0 ↔ ∀ p ∈ c, p.1 = p.2 := by
    intro c
    induction c with
    | nil => simp
    | cons p c ih =>
      rw [List.map_cons, List.sum_cons]
      have h1 := abs_nonneg (p.1 - p.2)
      have h2 := hnn c
      constructor
      · intro h q hq
        rcases List.mem_cons.mp hq with rfl | hq
        · exact sub_eq_zero.mp (abs_eq_zero.mp (by linarith))
        · exact ih.mp (by linarith) q hq
      · intro h
        rw [ih.mpr fun q hq => h q (List.mem_cons_of_mem _ hq), h p (List.mem_cons_self ..)]
        simp
  unfold mae mean
  rw [he, List.length_map]
  refine ⟨fun h => by rw [h]; rfl, fun h => ?_⟩
  have hl : c.length ≠ 0 := fun h' => h (List.eq_nil_of_length_eq_zero h')
  have hq : (c.length : ℚ) ≠ 0 := by exact_mod_cast hl
  refine ⟨_, if_neg hl, div_mul_cancel₀ _ hq, div_nonneg (hnn c) (Nat.cast_nonneg _), ?_⟩
  rw [div_eq_zero_iff, or_iff_left hq]
  exact hzero c

/-! ## class_error -/

/-- C378: for labels that differ by at most one -/
theorem class_error_partial (l : List (ℚ × ℚ)) (hl : l ≠ []) (h : ∀ p ∈ l, |roundEven p.1 - roundEven p.2| ≤ 1) :
    classError l = some (errorRate (l.map fun p => (roundEven p.1, roundEven p.2))) := by
  have he : (l.map fun p => |(roundEven p.1 : ℚ) - roundEven p.2|).sum =
      (((l.map fun p => (roundEven p.1, roundEven p.2)).filter fun p => p.1 ≠ p.2).length : ℚ) := by
    clear hl
    induction l with
    | nil => simp
    | cons p l ih =>
      rw [List.map_cons, List.sum_cons, ih fun q hq => h q (List.mem_cons_of_mem _ hq), List.map_cons, List.filter_cons]
      have hp := h p (List.mem_cons_self ..)
      by_cases hx : roundEven p.1 = roundEven p.2
      · rw [if_neg (by simpa using hx), hx]; simp
      · rw [if_pos (by simpa using hx), List.length_cons]
        have h1 : |roundEven p.1 - roundEven p.2| = 1 := by
          have : 0 < |roundEven p.1 - roundEven p.2| := abs_pos.mpr (sub_ne_zero.mpr hx)
          omega
        have h2 : |(roundEven p.1 : ℚ) - roundEven p.2| = 1 := by exact_mod_cast h1
        rw [h2]; push_cast; ring
  have hn : l.length ≠ 0 := fun h' => hl (List.eq_nil_of_length_eq_zero h')
  unfold classError mean errorRate
  rw [he, List.length_map, List.length_map, if_neg hn]

/-- what it is: the mean distance of the labels -/
theorem class_error_exact (l : List (ℚ × ℚ)) (hl : l ≠ []) : ∃ m, classError l = some m ∧
    m * l.length = (l.map fun p => |(roundEven p.1 : ℚ) - roundEven p.2|).sum := by
  have hn : l.length ≠ 0 := fun h' => hl (List.eq_nil_of_length_eq_zero h')
  have hq : (l.length : ℚ) ≠ 0 := by exact_mod_cast hn
  unfold classError mean
  rw [List.length_map]
  exact ⟨_, if_neg hn, div_mul_cancel₀ _ hq⟩

/-- Labels 0 and 2: an error of 200%. -/
theorem class_error_counterexample : classError [(0, 2)] = some 2 ∧ errorRate [(0, 2)] = 1 := by
  constructor <;> decide +kernel

/-! ## lm -/

/-- the prediction with coefficients `b` -/
def dot {p : Nat} (b x : Fin p → ℚ) : ℚ := ∑ i, b i * x i

theorem sum_swap {α : Type} {p : Nat} (l : List α) (f : Fin p → α → ℚ) : (l.map fun o => ∑ i, f i o).sum = ∑ i, (l.map (f i)).sum := by
  induction l with
  | nil => simp
  | cons a l ih => simp only [List.map_cons, List.sum_cons, ih, Finset.sum_add_distrib]

theorem sum_map_sub' {α : Type} (l : List α) (f g : α → ℚ) : (l.map fun o => f o - g o).sum = (l.map f).sum - (l.map g).sum := by
  induction l with
  | nil => simp
  | cons a l ih => simp only [List.map_cons, List.sum_cons, ih]; ring

/-- normal equations: the residuals are orthogonal to all features -/
theorem normal {p : Nat} (l : List (Obs p)) (b : Fin p → ℚ) (h : ∀ i, ∑ j, vxx l i j * b j = vxy l i) (d : Fin p → ℚ) :
    (l.map fun o => (o.y - dot b o.x) * dot d o.x).sum = 0 := by
  have h1 : ∀ i, (l.map fun o => (o.y - dot b o.x) * o.x i).sum = 0 := by
    intro i
    have e : (l.map fun o => o.x i * dot b o.x).sum = (l.map fun o => o.x i * o.y).sum := by
      rw [show (l.map fun o => o.x i * o.y).sum = vxy l i from rfl, ← h i]
      rw [show (fun o : Obs p => o.x i * dot b o.x) = fun o => ∑ j, o.x i * o.x j * b j from by
        funext o; unfold dot; rw [Finset.mul_sum]; exact Finset.sum_congr rfl fun j _ => by ring]
      rw [sum_swap l (fun j o => o.x i * o.x j * b j)]
      refine Finset.sum_congr rfl fun j _ => ?_
      rw [vxx, List.sum_map_mul_right]
    have e2 : (fun o : Obs p => (o.y - dot b o.x) * o.x i) = fun o => o.x i * o.y - o.x i * dot b o.x := by funext o; ring
    rw [e2, sum_map_sub', e, sub_self]
  rw [show (fun o : Obs p => (o.y - dot b o.x) * dot d o.x) = fun o => ∑ i, d i * ((o.y - dot b o.x) * o.x i) from by
    funext o; generalize o.y - dot b o.x = e; unfold dot; rw [Finset.mul_sum]; exact Finset.sum_congr rfl fun j _ => by ring]
  rw [sum_swap l (fun i o => d i * ((o.y - dot b o.x) * o.x i))]
  refine Finset.sum_eq_zero fun i _ => ?_
  rw [List.sum_map_mul_left, h1 i, mul_zero]

theorem least_squares {p : Nat} (l : List (Obs p)) (b : Fin p → ℚ) (h : ∀ i, ∑ j, vxx l i j * b j = vxy l i) (b' : Fin p → ℚ) :
    (l.map fun o => (o.y - dot b o.x) ^ 2).sum ≤ (l.map fun o => (o.y - dot b' o.x) ^ 2).sum := by
  have hd := normal l b h (fun i => b i - b' i)
  have e : ∀ o : Obs p, (o.y - dot b' o.x) ^ 2 =
      (o.y - dot b o.x) ^ 2 + (2 * ((o.y - dot b o.x) * dot (fun i => b i - b' i) o.x) + (dot (fun i => b i - b' i) o.x) ^ 2) := by
    intro o
    have : dot b' o.x = dot b o.x - dot (fun i => b i - b' i) o.x := by
      unfold dot; rw [← Finset.sum_sub_distrib]; exact Finset.sum_congr rfl fun i _ => by ring
    rw [this]; ring
  rw [List.map_congr_left (fun o _ => e o), List.sum_map_add, List.sum_map_add, List.sum_map_mul_left, hd]
  have : 0 ≤ (l.map fun o => (dot (fun i => b i - b' i) o.x) ^ 2).sum := by
    refine List.sum_nonneg fun x hx => ?_
    obtain ⟨o, _, rfl⟩ := List.mem_map.mp hx
    positivity
  linarith

theorem good_iff {p : Nat} (r : Raw p) : r.good = true ↔ (∀ i, (r.x i).isSome) ∧ r.y.isSome := by
  simp [Raw.good]

theorem totalError_eq {p : Nat} (predict : (Fin p → ℚ) → ℚ) (l : List (Raw p)) (s : ℚ) (h : TotalError predict l s) :
    s = (((l.filter Raw.good).map Raw.obs).map fun o => (o.y - predict o.x) ^ 2).sum := by
  induction h with
  | nil => rfl
  | @cons r l e s h _ ih =>
    rw [List.filter_cons]
    rcases h with ⟨x, y, hx, hy, rfl⟩ | ⟨hn, rfl⟩
    · have : r.good = true := by
        rw [good_iff]; exact ⟨fun i => by rw [hx i]; rfl, by rw [hy]; rfl⟩
      rw [if_pos this, List.map_cons, List.map_cons, List.sum_cons, ← ih]
      have e1 : r.obs.x = x := by funext i; simp [Raw.obs, hx i]
      have e2 : r.obs.y = y := by simp [Raw.obs, hy]
      rw [e1, e2]
    · have : ¬ r.good = true := by
        rw [good_iff]
        rintro ⟨h1, h2⟩
        rcases hn with ⟨i, hi⟩ | hn
        · have := h1 i; rw [hi] at this; cases this
        · rw [hn] at h2; cases h2
      rw [if_neg this, ← ih, zero_add]

theorem totalError_exists {p : Nat} (predict : (Fin p → ℚ) → ℚ) (l : List (Raw p)) : ∃ s, TotalError predict l s := by
  induction l with
  | nil => exact ⟨0, .nil⟩
  | cons r l ih =>
    obtain ⟨s, hs⟩ := ih
    by_cases hg : r.good = true
    · rw [good_iff] at hg
      refine ⟨_, .cons (Or.inl ⟨fun i => (r.x i).get (hg.1 i), r.y.get hg.2, fun i => by simp, by simp, rfl⟩) hs⟩
    · rw [good_iff, not_and_or] at hg
      refine ⟨_, .cons (Or.inr ⟨?_, rfl⟩) hs⟩
      rcases hg with hg | hg
      · rw [not_forall] at hg
        obtain ⟨i, hi⟩ := hg
        exact Or.inl ⟨i, by simpa using hi⟩
      · exact Or.inr (by simpa using hg)

/-- C374: no other coefficients have smaller squared errors in the rows without NaN -/
theorem lm_plain_least {p : Nat} (solve : (Fin p → Fin p → ℚ) → (Fin p → ℚ) → Option (Fin p → ℚ)) (hs : Solves solve) (l : List (Raw p))
    (b : Fin p → ℚ) (h : lmPlain solve l = some b) (b' : Fin p → ℚ) (s s' : ℚ)
    (he : TotalError (fun x => ∑ i, b i * x i) l s) (he' : TotalError (fun x => ∑ i, b' i * x i) l s') : s ≤ s' := by
  rw [totalError_eq _ l s he, totalError_eq _ l s' he']
  exact least_squares _ b (hs _ _ _ h) b'

theorem addOnes_error {p : Nat} (b : Fin (p + 1) → ℚ) (l : List (Raw p)) (s : ℚ)
    (h : TotalError (fun x => b 0 + ∑ i : Fin p, b i.succ * x i) l s) : TotalError (fun x => ∑ i, b i * x i) (l.map addOnes) s := by
  induction h with
  | nil => exact .nil
  | @cons r l e s h _ ih =>
    refine .cons ?_ ih
    rcases h with ⟨x, y, hx, hy, rfl⟩ | ⟨hn, rfl⟩
    · refine Or.inl ⟨Fin.cons 1 x, y, ?_, hy, ?_⟩
      · intro i
        refine Fin.cases rfl (fun j => ?_) i
        simp only [addOnes, Fin.cons_succ]
        exact hx j
      · dsimp only
        rw [Fin.sum_univ_succ]
        simp only [Fin.cons_zero, Fin.cons_succ, mul_one]
    · refine Or.inr ⟨?_, rfl⟩
      rcases hn with ⟨i, hi⟩ | hn
      · exact Or.inl ⟨i.succ, by simpa only [addOnes, Fin.cons_succ] using hi⟩
      · exact Or.inr hn

/-- C374, with an intercept -/
theorem lm_least {p : Nat} (solve : (Fin (p + 1) → Fin (p + 1) → ℚ) → (Fin (p + 1) → ℚ) → Option (Fin (p + 1) → ℚ)) (hs : Solves solve)
    (l : List (Raw p)) (b : Fin (p + 1) → ℚ) (h : lm solve l = some b) (b' : Fin (p + 1) → ℚ) (s s' : ℚ)
    (he : TotalError (fun x => b 0 + ∑ i : Fin p, b i.succ * x i) l s)
    (he' : TotalError (fun x => b' 0 + ∑ i : Fin p, b' i.succ * x i) l s') : s ≤ s' := by
  exact lm_plain_least solve hs (l.map addOnes) b h b' s s' (addOnes_error b l s he) (addOnes_error b' l s' he')

/-! ## R2 as printed -/

/-- C379: if the mean of the values is 0 -/
theorem printed_r2_partial (l : List (ℚ × ℚ)) (h : meanOf (l.map Prod.snd) = 0) (h' : meanOf (l.map Prod.fst) = 0) : printedR2 l = r2 l := by
  unfold printedR2 r2
  dsimp only
  rw [h, h']
  simp only [sub_zero]

/-- A perfect fit of 1, 2 and 3 has R2 1 and prints 49. -/
theorem printed_r2_counterexample : r2 [(1, 1), (2, 2), (3, 3)] = some 1 ∧ printedR2 [(1, 1), (2, 2), (3, 3)] = some 49 := by
  constructor <;> decide +kernel

/-! ## statx -/

theorem finite_val (x : List V) : ((x.filter V.finite).filterMap V.val?) = x.filterMap V.val? := by
  induction x with
  | nil => rfl
  | cons a x ih =>
    cases a with
    | num q => exact congrArg (q :: ·) ih
    | nan => exact ih
    | inf b => exact ih

theorem foldl_least (l : List ℚ) : ∀ a : ℚ, let m := l.foldl (fun m x => if x < m then x else m) a
    m ∈ a :: l ∧ ∀ x ∈ a :: l, m ≤ x := by
  induction l with
  | nil => intro a; simp
  | cons b l ih =>
    intro a
    obtain ⟨h1, h2⟩ := ih (if b < a then b else a)
    refine ⟨?_, ?_⟩
    · simp only [List.foldl_cons]
      rcases List.mem_cons.mp h1 with h | h
      · rw [h]; split <;> simp
      · simp [h]
    · intro x hx
      simp only [List.foldl_cons]
      have h0 := h2 _ (List.mem_cons_self ..)
      have hab : (if b < a then b else a) ≤ a ∧ (if b < a then b else a) ≤ b := by
        split
        · rename_i h; exact ⟨h.le, le_refl _⟩
        · rename_i h; exact ⟨le_refl _, not_lt.mp h⟩
      rcases List.mem_cons.mp hx with rfl | hx
      · exact le_trans h0 hab.1
      · rcases List.mem_cons.mp hx with rfl | hx
        · exact le_trans h0 hab.2
        · exact h2 x (List.mem_cons_of_mem _ hx)

theorem foldl_largest (l : List ℚ) : ∀ a : ℚ, let m := l.foldl (fun m x => if m < x then x else m) a
    m ∈ a :: l ∧ ∀ x ∈ a :: l, x ≤ m := by
  induction l with
  | nil => intro a; simp
  | cons b l ih =>
    intro a
    obtain ⟨h1, h2⟩ := ih (if a < b then b else a)
    refine ⟨?_, ?_⟩
    · simp only [List.foldl_cons]
      rcases List.mem_cons.mp h1 with h | h
      · rw [h]; split <;> simp
      · simp [h]
    · intro x hx
      simp only [List.foldl_cons]
      have h0 := h2 _ (List.mem_cons_self ..)
      have hab : a ≤ (if a < b then b else a) ∧ b ≤ (if a < b then b else a) := by
        split
        · rename_i h; exact ⟨h.le, le_refl _⟩
        · rename_i h; exact ⟨le_refl _, not_lt.mp h⟩
      rcases List.mem_cons.mp hx with rfl | hx
      · exact le_trans hab.1 h0
      · rcases List.mem_cons.mp hx with rfl | hx
        · exact le_trans hab.2 h0
        · exact h2 x (List.mem_cons_of_mem _ hx)

theorem mean_cons (a : ℚ) (l : List ℚ) : mean (a :: l) = some ((a :: l).sum / (a :: l).length) := by
  unfold mean
  rw [if_neg (by simp)]

/-- C380: least, largest and mean of the finite numbers -/
theorem statx_values (x : List V) (c : List ℚ) (hc : c = x.filterMap fun v => match v with | .num q => some q | _ => none) : ((∀ q, V.num q ∉ x) → (statx x).min = none ∧ (statx x).max = none ∧ (statx x).mean = none) ∧
    ((∃ q, V.num q ∈ x) → ∃ lo hi m, (statx x).min = some lo ∧ (statx x).max = some hi ∧ (statx x).mean = some m ∧
      V.num lo ∈ x ∧ V.num hi ∈ x ∧ (∀ q, V.num q ∈ x → lo ≤ q ∧ q ≤ hi) ∧
      m * (c.length : ℚ) = c.sum) := by
  have hc' : x.filterMap V.val? = c := by
    rw [hc]
    refine List.filterMap_congr fun v _ => ?_
    cases v <;> rfl
  have hmem : ∀ q, q ∈ x.filterMap V.val? ↔ V.num q ∈ x := by
    intro q
    rw [List.mem_filterMap]
    constructor
    · rintro ⟨v, hv, he⟩
      cases v with
      | num q' => simp only [V.val?, Option.some.injEq] at he; exact he ▸ hv
      | nan => cases he
      | inf b => cases he
    · intro h; exact ⟨_, h, rfl⟩
  unfold statx
  dsimp only
  rw [finite_val]
  rw [hc'] at hmem ⊢
  clear hc hc'
  cases hs : c with
  | nil =>
    refine ⟨fun _ => ⟨rfl, rfl, rfl⟩, ?_⟩
    rintro ⟨q, hq⟩
    rw [← hmem, hs] at hq
    cases hq
  | cons a l =>
    refine ⟨fun h => ?_, fun _ => ?_⟩
    · exact absurd ((hmem a).mp (by rw [hs]; exact List.mem_cons_self ..)) (h a)
    · rw [if_pos (by simp)]
      obtain ⟨l1, l2⟩ := foldl_least l a
      obtain ⟨g1, g2⟩ := foldl_largest l a
      have hq : ((a :: l).length : ℚ) ≠ 0 := by exact_mod_cast (by simp : (a :: l).length ≠ 0)
      refine ⟨_, _, _, rfl, rfl, mean_cons a l, (hmem _).mp (by rw [hs]; exact l1), (hmem _).mp (by rw [hs]; exact g1), ?_, div_mul_cancel₀ _ hq⟩
      intro q hq
      rw [← hmem, hs] at hq
      exact ⟨l2 q hq, g2 q hq⟩

/-- C381: Count is the number of all elements and NaN_Count that of NaN -/
theorem statx_counts (x : List V) : (statx x).count = x.length ∧ (statx x).nanCount = x.count .nan := by
  have : (x.filter V.isNan).length = x.count .nan := by
    rw [List.count, List.countP_eq_length_filter]
    congr 1
    refine List.filter_congr fun v _ => ?_
    cases v <;> rfl
  unfold statx
  dsimp only
  split <;> exact ⟨rfl, this⟩

/-- C381: without infinities Count less NaN_Count is the number of values described -/
theorem statx_used_partial (x : List V) (h : ∀ b, V.inf b ∉ x) :
    (statx x).count = (statx x).nanCount + x.countP (fun v => match v with | .num _ => true | _ => false) := by
  rw [(statx_counts x).1, (statx_counts x).2]
  induction x with
  | nil => rfl
  | cons a x ih =>
    have := ih fun b hb => h b (List.mem_cons_of_mem _ hb)
    cases a with
    | num q => simp [this]; omega
    | nan => simp [this]; omega
    | inf b => exact absurd (List.mem_cons_self ..) (h b)

/-- An infinity is counted and not described. -/
theorem statx_counterexample : (statx [.num 1, .inf false]).count = 2 ∧ (statx [.num 1, .inf false]).nanCount = 0 ∧
    (statx [.num 1, .inf false]).max = some 1 := by
  refine ⟨?_, ?_, ?_⟩ <;> decide +kernel

/-! ## Concrete cases -/

example : winsorize [some (-5), none, some 3, some 9] 0 5 = [some 0, none, some 3, some 5] := by decide +kernel
example : Varies [(1 : ℚ), 2] := ⟨1, by simp, 2, by simp, by norm_num⟩
example : r2 [(1, 2), (2, 1), (3, 3)] = some (1 / 4) := by decide +kernel
example : mae [(some 1, some 3), (none, some 2), (some 2, some 2)] = some 1 := by decide +kernel
example : classError [(0, 1), (1, 1)] = some (1 / 2) := by decide +kernel
example : roundEven (1 / 2) = 0 ∧ roundEven (3 / 2) = 2 ∧ roundEven (-3 / 4) = -1 := by decide +kernel

/-- `solve` for one unknown -/
def solve1 (A : Fin 1 → Fin 1 → ℚ) (c : Fin 1 → ℚ) : Option (Fin 1 → ℚ) := if A 0 0 = 0 then none else some fun _ => c 0 / A 0 0

theorem solve1_solves : Solves solve1 := by
  intro A c b h i
  unfold solve1 at h
  split at h
  · cases h
  · rename_i h0
    rw [← Option.some.inj h, Fin.sum_univ_one, Subsingleton.elim i 0]
    exact mul_div_cancel₀ _ h0

example : (lmPlain solve1 [⟨fun _ => some 1, some 2⟩, ⟨fun _ => some 2, some 5⟩, ⟨fun _ => none, some 7⟩]).map (fun b => b 0) = some (12 / 5) := by
  decide +kernel
example {p : Nat} (l : List (Raw p)) (b : Fin p → ℚ) : ∃ s, TotalError (fun x => ∑ i, b i * x i) l s := totalError_exists _ l

end Verif.Stats
