import Verif.Ufunc.Binary
import Mathlib.Algebra.BigOperators.Group.List.Lemmas
import Mathlib.Algebra.Order.BigOperators.Group.List
import Mathlib.Tactic.Ring
import Mathlib.Tactic.FieldSimp
import Mathlib.Tactic.NormNum
import Mathlib.Tactic.Linarith
/-! # Reductions (C241, C242, C243, C244, C245) -/
namespace Verif.Ufunc
open Verif.NpOps

/-! ## sums in chunks -/

theorem wrap_left (a b : Int) : wrap64 (wrap64 a + b) = wrap64 (a + b) := by unfold wrap64; omega
theorem wrap_right (a b : Int) : wrap64 (a + wrap64 b) = wrap64 (a + b) := by unfold wrap64; omega
theorem wrap_self {a : Int} (h1 : -2 ^ 63 ≤ a) (h2 : a < 2 ^ 63) : wrap64 a = a := by unfold wrap64; omega

/-- the rows that take part -/
def taken {A : Type} (skip : A → Bool) (rows : List (A × Bool)) : List A := (rows.filter fun r => r.2 && !skip r.1).map (·.1)

theorem taken_cons {A : Type} (skip : A → Bool) (r : A × Bool) (rows : List (A × Bool)) :
    taken skip (r :: rows) = if r.2 && !skip r.1 then r.1 :: taken skip rows else taken skip rows := by
  unfold taken
  rw [List.filter_cons]
  split_ifs <;> rfl

theorem chunk_fold (skip : Int → Bool) : ∀ (rows : List (Int × Bool)) (a : Int) (n : Nat),
    rows.foldl (sumStep skip) (wrap64 a, n) = (wrap64 (a + (taken skip rows).sum), n + (taken skip rows).length) := by
  intro rows
  induction rows with
  | nil => intro a n; simp [taken]
  | cons r rows ih =>
    intro a n
    rw [List.foldl_cons, taken_cons]
    unfold sumStep
    split_ifs with h
    · dsimp only
      rw [wrap_left, show (fun (a : Int × Nat) (row : Int × Bool) => if row.2 && !skip row.1 then (wrap64 (a.1 + row.1), a.2 + 1) else a) = sumStep skip from rfl,
        ih, List.sum_cons, List.length_cons]
      congr 1
      · congr 1; ring
      · omega
    · exact ih a n

theorem chunkSum_eq (skip : Int → Bool) (rows : List (Int × Bool)) : chunkSum skip rows = (wrap64 (taken skip rows).sum, (taken skip rows).length) := by
  have h0 : wrap64 0 = 0 := by decide +kernel
  have := chunk_fold skip rows 0 0
  rw [h0] at this
  unfold chunkSum
  rw [this]
  simp

theorem taken_append {A : Type} (skip : A → Bool) (l m : List (A × Bool)) : taken skip (l ++ m) = taken skip l ++ taken skip m := by
  unfold taken; rw [List.filter_append, List.map_append]

theorem par_fold (skip : Int → Bool) : ∀ (chunks : List (List (Int × Bool))) (a : Int) (n : Nat),
    chunks.foldl (fun (a : Int × Nat) (c : List (Int × Bool)) => (wrap64 (a.1 + (chunkSum skip c).1), a.2 + (chunkSum skip c).2)) (wrap64 a, n) =
      (wrap64 (a + (taken skip chunks.flatten).sum), n + (taken skip chunks.flatten).length) := by
  intro chunks
  induction chunks with
  | nil => intro a n; simp [taken]
  | cons c chunks ih =>
    intro a n
    rw [List.foldl_cons, chunkSum_eq]
    dsimp only
    rw [wrap_left, wrap_right, ih, List.flatten_cons, taken_append, List.sum_append, List.length_append]
    congr 1
    · congr 1; ring
    · omega

theorem parSum_eq (skip : Int → Bool) (chunks : List (List (Int × Bool))) :
    parSum skip chunks = (wrap64 (taken skip chunks.flatten).sum, (taken skip chunks.flatten).length) := by
  have h0 : wrap64 0 = 0 := by decide +kernel
  have := par_fold skip chunks 0 0
  rw [h0] at this
  unfold parSum
  rw [this]
  simp

/-- the rows are cut into chunks, and the chunks run in any order -/
def Schedule {A : Type} (sched : List A → List (List A)) : Prop := ∀ rows, (sched rows).flatten.Perm rows

theorem taken_perm {A : Type} (skip : A → Bool) {l m : List (A × Bool)} (h : l.Perm m) : (taken skip l).Perm (taken skip m) := (h.filter _).map _

theorem taken_zip {A : Type} (skip : A → Bool) : ∀ (xs : List A) (m : List Bool), taken skip (xs.zip m) = (passing xs m).filter fun x => !skip x := by
  intro xs
  induction xs with
  | nil => intro m; rfl
  | cons x xs ih =>
    intro m
    cases m with
    | nil => rfl
    | cons b m =>
      rw [List.zip_cons_cons, taken_cons, ih]
      unfold passing
      rw [List.zip_cons_cons, List.filter_cons]
      cases b
      · simp
      · simp only [Bool.true_and, if_true, List.map_cons]
        rw [List.filter_cons]

theorem parSum_rows {sched : List (Int × Bool) → List (List (Int × Bool))} (hs : Schedule sched) (skip : Int → Bool) (xs : List Int) (m : List Bool) :
    parSum skip (sched (xs.zip m)) = (wrap64 ((passing xs m).filter fun x => !skip x).sum, ((passing xs m).filter fun x => !skip x).length) := by
  rw [parSum_eq, (taken_perm skip (hs _)).sum_eq, (taken_perm skip (hs _)).length_eq, taken_zip]

theorem present_eq (s : Bool) (w : Fin 4) (l : List Int) : (l.filter fun x => !isnan s w x) = present (missing s w) l := by
  unfold present isnan
  congr 1
  funext x
  simp

/-- the mask that a filter stands for: `True` is every row -/
def Filter.mask? (n : Nat) : Filter → List Bool
  | .whole b => List.replicate n b
  | .mask m => m

theorem rows_ok {f : Filter} {n : Nat} (h : (f.mask? n).length = n) : f.rows n = .ok (f.mask? n) := by
  cases f with
  | whole b => rfl
  | mask m =>
    unfold Filter.rows
    dsimp only
    rw [if_neg (fun hn => hn h)]
    rfl

/-- **C241** `x.nansum(filter=f)` is the sum of the present values in the rows that pass, for every way to share the rows among the threads; it wraps
around only if that sum does not fit into 64 bits, whatever the partial sums. -/
theorem nansum_filter {sched : List (Int × Bool) → List (List (Int × Bool))} (hs : Schedule sched) (s : Bool) (w : Fin 4) (xs : List Int) (f : Filter)
    (hf : (f.mask? xs.length).length = xs.length) (h1 : -2 ^ 63 ≤ (present (missing s w) (passing xs (f.mask? xs.length))).sum)
    (h2 : (present (missing s w) (passing xs (f.mask? xs.length))).sum < 2 ^ 63) :
    nansumF sched s w xs f = .ok (present (missing s w) (passing xs (f.mask? xs.length))).sum := by
  unfold nansumF
  rw [rows_ok hf]
  show Except.ok (parSum (isnan s w) (sched (xs.zip (f.mask? xs.length)))).1 = _
  rw [parSum_rows hs, present_eq]
  dsimp only
  rw [wrap_self h1 h2]

/-- **C241** Filters of other lengths are refused by the filtered reductions. -/
theorem filter_length (sched : List (Int × Bool) → List (List (Int × Bool))) (sc1 sc2 : List (Rat × Bool) → List (List (Rat × Bool))) (skip : Rat → Bool) (s : Bool)
    (w : Fin 4) (xs : List Int) (ys : List Rat) (m : List Bool) :
    (m.length ≠ xs.length → nansumF sched s w xs (.mask m) = .error .valueError ∧ nanmeanF sched s w xs (.mask m) = .error .valueError ∧
      meanF sched xs (.mask m) = .error .valueError) ∧ (m.length ≠ ys.length → varF sc1 sc2 skip ys (.mask m) = .error .valueError) := by
  refine ⟨fun h => ?_, fun h => ?_⟩
  · have e : (Filter.mask m).rows xs.length = .error .valueError := by simp [Filter.rows, h]
    unfold nansumF nanmeanF meanF
    rw [e]
    exact ⟨rfl, rfl, rfl⟩
  · have e : (Filter.mask m).rows ys.length = .error .valueError := by simp [Filter.rows, h]
    unfold varF
    rw [e]
    rfl

/-- rounding to float64 keeps whole numbers up to 2^53 and gives float64 numbers -/
structure Rounds64 (rnd : Rat → Rat) : Prop where
  keeps : ∀ z : Int, 0 ≤ z → z ≤ 2 ^ 53 → rnd z = z
  holds : ∀ q, Holds .f64 (rnd q)

theorem taken_nonneg {l : List (Int × Bool)} (hl : ∀ r ∈ l, 0 ≤ r.1) : 0 ≤ (taken (isnan false 3) l).sum := by
  refine List.sum_nonneg fun x hx => ?_
  unfold taken at hx
  obtain ⟨y, hy, rfl⟩ := List.mem_map.1 hx
  exact hl y (List.mem_filter.1 hy).1

theorem stepU_fold {rnd : Rat → Rat} (hr : Rounds64 rnd) : ∀ (rows : List (Int × Bool)) (a : Int), 0 ≤ a → (∀ r ∈ rows, 0 ≤ r.1) →
    a + (taken (isnan false 3) rows).sum ≤ 2 ^ 53 → rows.foldl (sumStepU rnd) (a : Rat) = ((a + (taken (isnan false 3) rows).sum : Int) : Rat) := by
  intro rows
  induction rows with
  | nil => intro a _ _ _; simp [taken]
  | cons r rows ih =>
    intro a ha hp hs
    have hr0 := taken_nonneg (l := rows) fun r hr => hp r (List.mem_cons_of_mem _ hr)
    have hr1 := hp r List.mem_cons_self
    rw [List.foldl_cons, taken_cons]
    rw [taken_cons] at hs
    unfold sumStepU
    split_ifs at hs ⊢ with h
    · rw [List.sum_cons] at hs ⊢
      rw [hr.keeps r.1 hr1 (by omega)]
      have e : rnd ((a : Rat) + (r.1 : Rat)) = ((a + r.1 : Int) : Rat) := by
        have := hr.keeps (a + r.1) (by omega) (by omega)
        push_cast at this ⊢
        exact this
      rw [e]
      have := ih (a + r.1) (by omega) (fun r hr => hp r (List.mem_cons_of_mem _ hr)) (by omega)
      rw [show a + (r.1 + (taken (isnan false 3) rows).sum) = a + r.1 + (taken (isnan false 3) rows).sum by ring]
      exact this
    · exact ih a ha (fun r hr => hp r (List.mem_cons_of_mem _ hr)) hs

theorem chunksU_fold {rnd : Rat → Rat} (hr : Rounds64 rnd) : ∀ (chunks : List (List (Int × Bool))) (a : Int), 0 ≤ a → (∀ r ∈ chunks.flatten, 0 ≤ r.1) →
    a + (taken (isnan false 3) chunks.flatten).sum ≤ 2 ^ 53 →
    chunks.foldl (fun (a : Rat) (c : List (Int × Bool)) => rnd (a + c.foldl (sumStepU rnd) 0)) (a : Rat) =
      ((a + (taken (isnan false 3) chunks.flatten).sum : Int) : Rat) := by
  intro chunks
  induction chunks with
  | nil => intro a _ _ _; simp [taken]
  | cons c chunks ih =>
    intro a ha hp hs
    rw [List.flatten_cons] at hp hs
    rw [taken_append, List.sum_append] at hs
    have p1 : ∀ r ∈ c, 0 ≤ r.1 := fun r h => hp r (List.mem_append_left _ h)
    have p2 : ∀ r ∈ chunks.flatten, 0 ≤ r.1 := fun r h => hp r (List.mem_append_right _ h)
    have n1 := taken_nonneg p1
    have n2 := taken_nonneg p2
    have hc := stepU_fold hr c 0 (le_refl _) p1 (by omega)
    rw [Int.cast_zero] at hc
    rw [List.foldl_cons, hc, List.flatten_cons, taken_append, List.sum_append, zero_add]
    have e : rnd ((a : Rat) + ((taken (isnan false 3) c).sum : Int)) = ((a + (taken (isnan false 3) c).sum : Int) : Rat) := by
      have := hr.keeps (a + (taken (isnan false 3) c).sum) (by omega) (by omega)
      rw [Int.cast_add] at this ⊢
      exact this
    rw [e, ih (a + (taken (isnan false 3) c).sum) (by omega) p2 (by omega)]
    congr 1
    ring

/-- **C246** `x.nansum(filter=f)` of a uint64 array is the sum of the present values in the rows that pass, if that is at most 2^53. -/
theorem nansum_uint64_partial {rnd : Rat → Rat} (hr : Rounds64 rnd) {sched : List (Int × Bool) → List (List (Int × Bool))} (hs : Schedule sched) (xs : List Int)
    (hx : ∀ x ∈ xs, 0 ≤ x) (f : Filter) (hf : (f.mask? xs.length).length = xs.length)
    (h : (present (missing false 3) (passing xs (f.mask? xs.length))).sum ≤ 2 ^ 53) :
    nansumU rnd sched xs f = .ok ((present (missing false 3) (passing xs (f.mask? xs.length))).sum : Int) := by
  unfold nansumU
  rw [rows_ok hf]
  show Except.ok _ = _
  have hp : ∀ r ∈ (sched (xs.zip (f.mask? xs.length))).flatten, 0 ≤ r.1 := by
    intro r hr'
    have : r ∈ xs.zip (f.mask? xs.length) := (hs _).mem_iff.1 hr'
    exact hx _ (List.of_mem_zip this).1
  have e : (taken (isnan false 3) (sched (xs.zip (f.mask? xs.length))).flatten).sum = (present (missing false 3) (passing xs (f.mask? xs.length))).sum := by
    rw [(taken_perm _ (hs _)).sum_eq, taken_zip, present_eq]
  have := chunksU_fold hr (sched (xs.zip (f.mask? xs.length))) 0 (le_refl _) hp (by rw [e]; omega)
  rw [Int.cast_zero] at this
  rw [this, e, zero_add]

/-- **C246** violated: the sum of the single value 2^53 + 1 is another number. -/
theorem nansum_uint64_counterexample {rnd : Rat → Rat} (hr : Rounds64 rnd) : nansumU rnd (fun l => [l]) [2 ^ 53 + 1] (.whole true) ≠ .ok (2 ^ 53 + 1) := by
  intro h
  have h' : (Except.ok (rnd (0 + rnd (0 + rnd ((2 ^ 53 + 1 : Int) : Rat)))) : Except Err Rat) = .ok (2 ^ 53 + 1) := h
  have h'' : rnd (0 + rnd (0 + rnd ((2 ^ 53 + 1 : Int) : Rat))) = 2 ^ 53 + 1 := by injection h'
  have := hr.holds (0 + rnd (0 + rnd ((2 ^ 53 + 1 : Int) : Rat)))
  rw [h''] at this
  exact gap53 this ⟨by norm_num, by norm_num⟩

theorem quot_ok (l : List Int) (hl : l ≠ []) : quot l.sum l.length = .ok (average (l.map fun (x : Int) => (x : Rat))) := by
  have hn : l.length ≠ 0 := fun h => hl (List.length_eq_zero_iff.1 h)
  unfold quot average
  rw [if_neg hn, List.length_map]
  congr 2
  induction l with
  | nil => rfl
  | cons x l ih =>
    rw [List.sum_cons, List.map_cons, List.sum_cons]
    by_cases h : l = []
    · subst h; simp
    · push_cast
      rw [ih h (fun h' => h (List.length_eq_zero_iff.1 h'))]

/-- **C242** `x.nanmean(filter=f)` is the average of the present values in the rows that pass, `x.mean(filter=f)` that of all values in them; with no
such row both raise ZeroDivisionError. -/
theorem mean_filter {sched : List (Int × Bool) → List (List (Int × Bool))} (hs : Schedule sched) (s : Bool) (w : Fin 4) (xs : List Int) (f : Filter)
    (hf : (f.mask? xs.length).length = xs.length) :
    (∀ l, present (missing s w) (passing xs (f.mask? xs.length)) = l → -2 ^ 63 ≤ l.sum → l.sum < 2 ^ 63 →
      nanmeanF sched s w xs f = if l = [] then .error .zeroDivision else .ok (average (l.map fun (x : Int) => (x : Rat)))) ∧
    (∀ l, passing xs (f.mask? xs.length) = l → -2 ^ 63 ≤ l.sum → l.sum < 2 ^ 63 →
      meanF sched xs f = if l = [] then .error .zeroDivision else .ok (average (l.map fun (x : Int) => (x : Rat)))) := by
  refine ⟨fun l hl h1 h2 => ?_, fun l hl h1 h2 => ?_⟩
  · unfold nanmeanF
    rw [rows_ok hf]
    show quot (parSum (isnan s w) (sched (xs.zip (f.mask? xs.length)))).1 (parSum (isnan s w) (sched (xs.zip (f.mask? xs.length)))).2 = _
    rw [parSum_rows hs, present_eq, hl]
    dsimp only
    rw [wrap_self h1 h2]
    split_ifs with h
    · subst h; rfl
    · exact quot_ok l h
  · unfold meanF
    rw [rows_ok hf]
    show quot (parSum (fun _ => false) (sched (xs.zip (f.mask? xs.length)))).1 (parSum (fun _ => false) (sched (xs.zip (f.mask? xs.length)))).2 = _
    have he : ((passing xs (f.mask? xs.length)).filter fun _ => !false) = passing xs (f.mask? xs.length) := by simp
    rw [parSum_rows hs, he, hl]
    dsimp only
    rw [wrap_self h1 h2]
    split_ifs with h
    · subst h; rfl
    · exact quot_ok l h

/-! ## variance -/

theorem add_rows (g : Rat → Rat) (skip : Rat → Bool) : ∀ (rows : List (Rat × Bool)) (a : Rat) (n : Nat),
    rows.foldl (fun (b : Rat × Nat) (row : Rat × Bool) => if row.2 && !skip row.1 then (b.1 + g row.1, b.2 + 1) else b) (a, n) =
      (a + ((taken skip rows).map g).sum, n + (taken skip rows).length) := by
  intro rows
  induction rows with
  | nil => intro a n; simp [taken]
  | cons r rows ih =>
    intro a n
    rw [List.foldl_cons, taken_cons]
    split_ifs with h
    · dsimp only
      rw [ih, List.map_cons, List.sum_cons, List.length_cons]
      congr 1
      · ring
      · omega
    · exact ih a n

theorem add_chunks (g : Rat → Rat) (skip : Rat → Bool) : ∀ (chunks : List (List (Rat × Bool))) (a : Rat) (n : Nat),
    chunks.foldl (fun (a : Rat × Nat) (c : List (Rat × Bool)) =>
      c.foldl (fun (b : Rat × Nat) (row : Rat × Bool) => if row.2 && !skip row.1 then (b.1 + g row.1, b.2 + 1) else b) a) (a, n) =
      (a + ((taken skip chunks.flatten).map g).sum, n + (taken skip chunks.flatten).length) := by
  intro chunks
  induction chunks with
  | nil => intro a n; simp [taken]
  | cons c chunks ih =>
    intro a n
    rw [List.foldl_cons, add_rows, ih, List.flatten_cons, taken_append, List.map_append, List.sum_append, List.length_append]
    congr 1
    · ring
    · omega

theorem parAdd_rows {sched : List (Rat × Bool) → List (List (Rat × Bool))} (hs : Schedule sched) (g : Rat → Rat) (skip : Rat → Bool) (xs : List Rat) (m : List Bool) :
    parAdd g skip (sched (xs.zip m)) = ((((passing xs m).filter fun x => !skip x).map g).sum, ((passing xs m).filter fun x => !skip x).length) := by
  unfold parAdd
  rw [add_chunks, ((taken_perm skip (hs _)).map g).sum_eq, (taken_perm skip (hs _)).length_eq, taken_zip]
  simp

/-- **C243** `x.var(filter=f)` and `x.nanvar(filter=f)` are the variance with ddof = 1 of the values that take part (`skip`: the missing ones for
`nanvar`), NaN for one value and ZeroDivisionError for none, for every way to share the rows among the threads. -/
theorem var_filter {sc1 sc2 : List (Rat × Bool) → List (List (Rat × Bool))} (h1 : Schedule sc1) (h2 : Schedule sc2) (skip : Rat → Bool) (xs : List Rat) (f : Filter)
    (hf : (f.mask? xs.length).length = xs.length) :
    ∀ l, ((passing xs (f.mask? xs.length)).filter fun x => !skip x) = l →
      (l.length = 0 → varF sc1 sc2 skip xs f = .error .zeroDivision) ∧ (l.length = 1 → varF sc1 sc2 skip xs f = .ok none) ∧
      (2 ≤ l.length → ∃ v, varF sc1 sc2 skip xs f = .ok (some v) ∧ IsVariance 1 l v) := by
  intro l hl
  have e : varF sc1 sc2 skip xs f = varRows skip (sc1 (xs.zip (f.mask? xs.length))) (sc2 (xs.zip (f.mask? xs.length))) := by
    unfold varF
    rw [rows_ok hf]
    rfl
  rw [e]
  unfold varRows
  dsimp only
  rw [parAdd_rows h1, parAdd_rows h2, hl]
  dsimp only
  refine ⟨fun h => ?_, fun h => ?_, fun h => ?_⟩
  · rw [if_pos h]
  · rw [if_neg (by omega), if_neg (by omega)]
  · rw [if_neg (by omega), if_pos (by omega)]
    refine ⟨_, rfl, ?_⟩
    unfold IsVariance average
    rw [List.map_id]
    have hn : ((l.length : Rat) - ((1 : Int) : Rat)) ≠ 0 := by
      have : (2 : Rat) ≤ (l.length : Rat) := by exact_mod_cast h
      intro h0
      push_cast at h0
      linarith
    push_cast at hn ⊢
    rw [div_mul_cancel₀ _ hn]

/-! ## without filter -/

theorem npVar_ok {ddof : Int} {l : List Rat} (h : ddof < l.length) : ∃ v, npVar ddof l = some v ∧ IsVariance ddof l v := by
  unfold npVar
  rw [if_neg (by omega)]
  refine ⟨_, rfl, ?_⟩
  have hn : ((l.length : Rat) - (ddof : Rat)) ≠ 0 := by
    intro h0
    have : (l.length : Rat) = (ddof : Rat) := by linarith
    have : (l.length : Int) = ddof := by exact_mod_cast this
    omega
  unfold IsVariance average
  rw [div_mul_cancel₀ _ hn]

/-- **C244** `x.nanvar(ddof=d)` of integers is the variance of the present values, if `d` is 1 or no value is missing. -/
theorem nanvar_ddof_partial (s : Bool) (w : Fin 4) (ddof : Option Int) (xs : List Int) (h : ddof.getD 1 = 1 ∨ missing s w ∉ xs)
    (hn : ddof.getD 1 < (present (missing s w) xs).length) :
    ∃ v, nanvarInt s w ddof xs = some v ∧ IsVariance (ddof.getD 1) ((present (missing s w) xs).map fun (x : Int) => (x : Rat)) v := by
  have hl : ((present (missing s w) xs).map fun (x : Int) => (x : Rat)).length = (present (missing s w) xs).length := List.length_map _
  unfold nanvarInt
  cases ddof with
  | none =>
    dsimp only
    rw [present_eq]
    exact npVar_ok (by rw [hl]; exact hn)
  | some d =>
    dsimp only
    by_cases hd : d = 1
    · rw [if_neg (by simpa using hd), present_eq]
      subst hd
      exact npVar_ok (by rw [hl]; exact hn)
    · rw [if_pos hd]
      have hm : missing s w ∉ xs := by
        rcases h with h | h
        · exact absurd h hd
        · exact h
      have hp : present (missing s w) xs = xs := by
        unfold present
        rw [List.filter_eq_self]
        intro x hx
        simpa using fun he : x = missing s w => hm (he ▸ hx)
      rw [hp] at hn hl ⊢
      exact npVar_ok (by rw [hl]; exact hn)

/-- **C244** violated: with `ddof=0` the missing value of an int8 array (-128) counts as a number, and the result is not the variance of 1 and 3. -/
theorem nanvar_ddof_counterexample : ∃ v, nanvarInt true 0 (some 0) [1, -128, 3] = some v ∧ present (missing true 0) [1, -128, 3] = [1, 3] ∧
    ¬ IsVariance 0 [1, 3] v ∧ IsVariance 0 [1, 3] 1 := by
  refine ⟨33806 / 9, by simp [nanvarInt, npVar]; norm_num, by decide +kernel, ?_, ?_⟩
  · unfold IsVariance average; norm_num
  · unfold IsVariance average; norm_num

/-! ## axes -/

/-- the sums of the columns -/
def ColumnSums (cols : Nat) (m : List (List Int)) (v : List Int) : Prop :=
  v.length = cols ∧ ∀ j < cols, v[j]? = some (m.map fun r => r.getD j 0).sum

/-- the sums of the rows -/
def RowSums (m : List (List Int)) (v : List Int) : Prop := v.length = m.length ∧ ∀ (i : Nat) (r : List Int), m[i]? = some r → v[i]? = some r.sum

/-- **C245** Sums of a matrix of integers without missing values: of everything without axis, of the rows with axis 1 or -1, of the columns with
axis -2. -/
theorem nansum_axis_partial (cols : Nat) (m : List (List Int)) :
    nansum2 cols m none = .ok (.one m.flatten.sum) ∧ (∀ a : Int, a = 1 ∨ a = -1 → ∃ v, nansum2 cols m (some a) = .ok (.vec v) ∧ RowSums m v) ∧
    (∃ v, nansum2 cols m (some (-2)) = .ok (.vec v) ∧ ColumnSums cols m v) := by
  refine ⟨?_, ?_, ?_⟩
  · show Except.ok (Res.one (m.map List.sum).sum) = _
    rw [List.sum_flatten]
  · rintro a ha
    refine ⟨m.map List.sum, ?_, by simp, fun i r h => by rw [List.getElem?_map, h]; rfl⟩
    rcases ha with rfl | rfl <;> rfl
  · refine ⟨_, rfl, by simp, fun j hj => ?_⟩
    rw [List.getElem?_map, List.getElem?_range hj]
    rfl

/-- **C245** violated: with axis 0 the sum of everything is returned instead of those of the columns; and missing values count as numbers. -/
theorem nansum_axis_counterexample :
    nansum2 2 [[1, 2], [3, 4]] (some 0) = .ok (.one 10) ∧ ColumnSums 2 [[1, 2], [3, 4]] [4, 6] ∧
    nansum2 2 [[1, missing true 0], [3, 4]] none = .ok (.one (-120)) ∧ (present (missing true 0) [1, missing true 0, 3, 4]).sum = 8 := by
  refine ⟨rfl, ⟨rfl, ?_⟩, by decide +kernel, by decide +kernel⟩
  decide

/-! ## examples -/

/-- two chunks, the second first -/
def halves {A : Type} (l : List A) : List (List A) := [l.drop (l.length / 2), l.take (l.length / 2)]

theorem halves_schedule {A : Type} : Schedule (halves (A := A)) := by
  intro rows
  unfold halves
  simp only [List.flatten_cons, List.flatten_nil, List.append_nil]
  exact List.perm_append_comm.trans (by rw [List.take_append_drop])

example : nansumF halves true 0 [5, -128, 7, 9] (.mask [true, true, false, true]) = .ok 14 := by decide +kernel
example : varF halves halves (fun _ => false) [1, 2, 6] (.whole true) = .ok (some 7) := by decide +kernel
example : (Filter.mask? 4 (.mask [true, true, false, true])).length = 4 ∧ passing [5, -128, 7, 9] [true, true, false, true] = [5, -128, (9 : Int)] := by decide +kernel
example : (some (0 : Int)).getD 1 < ((present (missing true 0) [1, 3, 9]).length : Int) ∧ missing true 0 ∉ [1, 3, (9 : Int)] := by decide +kernel

end Verif.Ufunc
