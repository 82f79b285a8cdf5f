import Verif.OldAsof.Props
import Mathlib.Data.List.Sort
/-! # A world that meets the contract, examples and counterexamples -/
namespace Verif.OldAsof
open Verif.Merge Verif.Merge2 Verif.Asof Verif.Items Verif.AsofDs

section
variable {V α : Type}

theorem getLast_iff {l : List Nat} (h : l.Pairwise (· < ·)) (j : Nat) : l.getLast? = some j ↔ j ∈ l ∧ ∀ k ∈ l, k ≤ j := by
  induction l with
  | nil => simp
  | cons a l ih =>
    rw [List.pairwise_cons] at h
    cases l with
    | nil => simp; omega
    | cons b l =>
      rw [List.getLast?_cons_cons, ih h.2]
      have hab := h.1 b (by simp)
      constructor
      · rintro ⟨h1, h2⟩
        refine ⟨List.mem_cons_of_mem _ h1, fun k hk => ?_⟩
        rcases List.mem_cons.1 hk with rfl | hk
        · exact le_trans (le_of_lt hab) (h2 b (by simp))
        · exact h2 k hk
      · rintro ⟨h1, h2⟩
        have hb := h2 b (by simp)
        rcases List.mem_cons.1 h1 with rfl | h1
        · omega
        · exact ⟨h1, fun k hk => h2 k (List.mem_cons_of_mem _ hk)⟩

theorem head_iff {l : List Nat} (h : l.Pairwise (· < ·)) (j : Nat) : l.head? = some j ↔ j ∈ l ∧ ∀ k ∈ l, j ≤ k := by
  cases l with
  | nil => simp
  | cons a l =>
    rw [List.pairwise_cons] at h
    rw [List.head?_cons, Option.some.injEq]
    constructor
    · rintro rfl
      refine ⟨by simp, fun k hk => ?_⟩
      rcases List.mem_cons.1 hk with rfl | hk
      · exact le_refl _
      · exact le_of_lt (h.1 k hk)
    · rintro ⟨h1, h2⟩
      rcases List.mem_cons.1 h1 with rfl | h1
      · rfl
      · have := h.1 j h1
        have := h2 a (by simp)
        omega

variable [LinearOrder α] [DecidableEq V]

/-- row `j` of the right has the key of row `i` of the left and lies on the right side of `x` -/
def fits (lk rk : List (Option (List V))) (rt : List α) (fwd exact : Bool) (i : Nat) (x : α) (j : Nat) : Bool :=
  match lk[i]?, rk[j]?, rt[j]? with
  | some (some k), some (some k'), some y =>
    decide (k = k') && (if fwd then (if exact then decide (x ≤ y) else decide (x < y)) else (if exact then decide (y ≤ x) else decide (y < x)))
  | _, _, _ => false

theorem fits_back (lk rk : List (Option (List V))) (rt : List α) (exact : Bool) (i : Nat) (x : α) (j : Nat) :
    fits lk rk rt false exact i x j = true ↔ ∃ y, sameKey lk rk rt i j y ∧ Before exact y x := by
  unfold fits sameKey Before
  constructor
  · intro h
    split at h
    · rename_i k k' y h1 h2 h3
      rw [Bool.and_eq_true, decide_eq_true_eq] at h
      obtain ⟨rfl, h⟩ := h
      refine ⟨y, ⟨k, h1, h2, h3⟩, ?_⟩
      cases exact <;> simpa using h
    · cases h
  · rintro ⟨y, ⟨k, h1, h2, h3⟩, b⟩
    rw [h1, h2, h3]
    cases exact <;> simpa using b

theorem fits_fwd (lk rk : List (Option (List V))) (rt : List α) (exact : Bool) (i : Nat) (x : α) (j : Nat) :
    fits lk rk rt true exact i x j = true ↔ ∃ y, sameKey lk rk rt i j y ∧ Before exact x y := by
  unfold fits sameKey Before
  constructor
  · intro h
    split at h
    · rename_i k k' y h1 h2 h3
      rw [Bool.and_eq_true, decide_eq_true_eq] at h
      obtain ⟨rfl, h⟩ := h
      refine ⟨y, ⟨k, h1, h2, h3⟩, ?_⟩
      cases exact <;> simpa using h
    · cases h
  · rintro ⟨y, ⟨k, h1, h2, h3⟩, b⟩
    rw [h1, h2, h3]
    cases exact <;> simpa using b

/-- an `align` that keeps the contract -/
def alignRef (lk rk : List (Option (List V))) (lt rt : List α) (fwd exact : Bool) : List (Option Nat) :=
  lt.zipIdx.map fun e =>
    if fwd then ((List.range rt.length).filter (fits lk rk rt fwd exact e.2 e.1)).head?
    else ((List.range rt.length).filter (fits lk rk rt fwd exact e.2 e.1)).getLast?

theorem alignRef_ok [AddCommGroup α] (lk rk : List (Option (List V))) (lt rt : List α) (fwd exact : Bool) :
    (alignRef lk rk lt rt fwd exact).length = lt.length ∧
    ∀ (i : Nat) (y : α), lt[i]? = some y → ∃ r, (alignRef lk rk lt rt fwd exact)[i]? = some r ∧
      if fwd then IsForward exact none (sameKey lk rk rt i) y r else IsBackward exact none (sameKey lk rk rt i) y r := by
  refine ⟨by simp [alignRef], fun i y hy => ?_⟩
  have hp : ∀ p : Nat → Bool, ((List.range rt.length).filter p).Pairwise (· < ·) := fun p => List.Pairwise.filter p List.pairwise_lt_range
  have hmem : ∀ {fwd : Bool} {j : Nat}, j ∈ (List.range rt.length).filter (fits lk rk rt fwd exact i y) ↔ fits lk rk rt fwd exact i y j = true := by
    intro fwd j
    rw [List.mem_filter, List.mem_range]
    refine ⟨fun h => h.2, fun h => ⟨?_, h⟩⟩
    unfold fits at h
    split at h
    · rename_i h3; exact (List.getElem?_eq_some_iff.1 h3).1
    · cases h
  refine ⟨_, by unfold alignRef; rw [List.getElem?_map, List.getElem?_zipIdx, hy]; rfl, ?_⟩
  have hfun : ∀ {j : Nat} {z z' : α}, sameKey lk rk rt i j z → sameKey lk rk rt i j z' → z = z' := by
    rintro j z z' ⟨_, _, _, h⟩ ⟨_, _, _, h'⟩
    exact Option.some.inj (h.symm.trans h')
  cases fwd with
  | true =>
    simp only [if_true, Nat.zero_add]
    intro j
    rw [head_iff (hp _), hmem, fits_fwd]
    constructor
    · rintro ⟨⟨z, c, b⟩, m⟩
      exact ⟨z, c, b, (fun t ht => by cases ht), fun j' y' c' b' => m j' (hmem.2 ((fits_fwd ..).2 ⟨y', c', b'⟩))⟩
    · rintro ⟨z, c, b, -, m⟩
      refine ⟨⟨z, c, b⟩, fun k hk => ?_⟩
      obtain ⟨y', c', b'⟩ := (fits_fwd ..).1 (hmem.1 hk)
      exact m k y' c' b'
  | false =>
    simp only [Bool.false_eq_true, if_false, Nat.zero_add]
    intro j
    rw [getLast_iff (hp _), hmem, fits_back]
    constructor
    · rintro ⟨⟨z, c, b⟩, m⟩
      exact ⟨z, c, b, (fun t ht => by cases ht), fun j' y' c' b' => m j' (hmem.2 ((fits_back ..).2 ⟨y', c', b'⟩))⟩
    · rintro ⟨z, c, b, -, m⟩
      refine ⟨⟨z, c, b⟩, fun k hk => ?_⟩
      obtain ⟨y', c', b'⟩ := (fits_back ..).1 (hmem.1 hk)
      exact m k y' c' b'

/-- position `i` is at or before position `j` in a stable sort -/
def lexLe (l : List α) (i j : Nat) : Prop :=
  match l[i]?, l[j]? with
  | some p, some q => p < q ∨ (p = q ∧ i ≤ j)
  | none, none => i ≤ j
  | some _, none => True
  | none, some _ => False

instance (l : List α) : DecidableRel (lexLe l) := fun i j => by
  unfold lexLe; split <;> infer_instance

omit [DecidableEq V] in
theorem lexLe_total (l : List α) (i j : Nat) : lexLe l i j ∨ lexLe l j i := by
  unfold lexLe
  cases l[i]? <;> cases l[j]? <;> simp
  · omega
  · rename_i p q
    rcases lt_trichotomy p q with h | h | h
    · exact Or.inl (Or.inl h)
    · subst h
      rcases Nat.le_total i j with h | h
      · exact Or.inl (Or.inr ⟨rfl, h⟩)
      · exact Or.inr (Or.inr ⟨rfl, h⟩)
    · exact Or.inr (Or.inl h)

omit [DecidableEq V] in
theorem lexLe_trans (l : List α) (i j k : Nat) (h1 : lexLe l i j) (h2 : lexLe l j k) : lexLe l i k := by
  unfold lexLe at *
  cases hi : l[i]? <;> cases hj : l[j]? <;> cases hk : l[k]? <;> simp only [hi, hj, hk] at h1 h2 ⊢
  · omega
  · rcases h1 with h1 | ⟨h1, h1'⟩ <;> rcases h2 with h2 | ⟨h2, h2'⟩
    · exact Or.inl (lt_trans h1 h2)
    · exact Or.inl (h2 ▸ h1)
    · exact Or.inl (h1 ▸ h2)
    · exact Or.inr ⟨h1.trans h2, by omega⟩

/-- a stable sort -/
def argsortRef (l : List α) : List Nat := (List.range l.length).insertionSort (lexLe l)

omit [DecidableEq V] in
theorem argsortRef_ok (l : List α) : Orders l (some (argsortRef l)) := by
  have hp : (argsortRef l).Perm (List.range l.length) := List.perm_insertionSort _ _
  refine ⟨hp, ?_⟩
  haveI : Std.Total (lexLe l) := ⟨lexLe_total l⟩
  haveI : IsTrans Nat (lexLe l) := ⟨lexLe_trans l⟩
  have hs : (argsortRef l).Pairwise (lexLe l) := List.pairwise_insertionSort _ _
  intro k k' i i' p q hk h1 h2 e1 e2
  have h1 : (argsortRef l)[k]? = some i := h1
  have h2 : (argsortRef l)[k']? = some i' := h2
  obtain ⟨a1, b1⟩ := List.getElem?_eq_some_iff.1 h1
  obtain ⟨a2, b2⟩ := List.getElem?_eq_some_iff.1 h2
  have := List.pairwise_iff_getElem.1 hs k k' a1 a2 hk
  rw [b1, b2] at this
  unfold lexLe at this
  rw [e1, e2] at this
  rcases this with h | ⟨h, h'⟩
  · exact Or.inl h
  · refine Or.inr ⟨h, lt_of_le_of_ne h' ?_⟩
    intro he
    have := (List.Nodup.getElem_inj_iff (hp.nodup_iff.2 List.nodup_range) (hi := a1) (hj := a2)).1 (by rw [b1, b2, he])
    omega

end

/-! ## Examples -/

/-- values: integers, `0` is missing and null -/
def exW : OWorld Int Int Int :=
  { ord := id, inv := 0, isnull := fun v => v == 0, key := id
    issorted := fun l => decide (l.Pairwise (· ≤ ·)), argsort := argsortRef, align := alignRef, dist := fun a b => |a - b| }

theorem exW_ok : exW.OK :=
  ⟨fun _ => List.Perm.refl _, fun _ => by simp [exW], argsortRef_ok, fun lk rk lt rt fwd exact _ _ _ _ => alignRef_ok lk rk lt rt fwd exact⟩

/-- both `on` columns out of order, one null key -/
def exA : AArgs Int Int :=
  { left := ⟨4, [(['t'], [5, 1, 9, 6]), (['k'], [2, 1, 0, 1]), (['v'], [20, 10, 40, 30])]⟩
    right := ⟨5, [(['t'], [8, 4, 1, 5, 4]), (['k'], [0, 1, 1, 2, 1]), (['v'], [6, 8, 7, 9, 5])]⟩
    leftOn := ['t'], rightOn := ['t'], leftBy := [['k']], rightBy := [['k']], dir := .backward
    suffixes := some (some ['_', 'x'], some ['_', 'y']), matched := .named ['m'] }

example : mergeAsof exW .sort exA =
    .ok ⟨4, [(['t'], [5, 1, 9, 6]), (['k'], [2, 1, 0, 1]), (['v', '_', 'x'], [20, 10, 40, 30]),
      (['v', '_', 'y'], [9, 7, 0, 5]), (['m'], [5, 1, 0, 4])]⟩ := by decide +kernel

example : mergeAsof exW .raise exA = .error "ValueError: the column is not sorted" := by decide +kernel

example : mergeAsof exW .sort { exA with dir := .forward } =
    .ok ⟨4, [(['t'], [5, 1, 9, 6]), (['k'], [2, 1, 0, 1]), (['v', '_', 'x'], [20, 10, 40, 30]),
      (['v', '_', 'y'], [9, 7, 0, 0]), (['m'], [5, 1, 0, 0])]⟩ := by decide +kernel

/-- the hypotheses of `mergeAsof_backward` hold for the example -/
theorem exA_named : Named exA ∧ exA.left.WF ∧ exA.right.WF ∧ MatchedFree exA ∧ ∃ m, colnameMapping exW.ord exA.keysL exA.keysR exA.suffixes exA.selL exA.selR = .ok m := by
  refine ⟨⟨by decide, by decide, by decide, by decide, by decide, by decide⟩, ⟨by decide, by decide⟩,
    ⟨by decide, by decide⟩, ?_, ⟨_, rfl⟩⟩
  intro n hn
  have : n = ['m'] := by simpa [exA, matchedName] using hn.symm
  subst this
  exact ⟨by decide, by decide, by decide⟩

example : ∃ ds f, mergeAsof exW .sort exA = .ok ds ∧ IsAsof exW.inv exA f ds ∧ ∀ (i : Nat) (y : Int), (leftKeys exW exA)[i]? = some y →
      IsMatch .backward exA.exact (Candidate exW.inv exW.isnull exA (rightKeys exW exA) i) y (f i) := by
  obtain ⟨h1, h2, h3, h4, m, h5⟩ := exA_named
  exact mergeAsof_backward exW_ok h2 h3 h1 h4 rfl h5 (Or.inl rfl) rfl

/-- one left row and rows before and after, without `by` -/
def exN : AArgs Int Int :=
  { left := ⟨2, [(['t'], [10, 3])]⟩, right := ⟨4, [(['s'], [12, 3, 8, 3]), (['v'], [1, 2, 3, 4])]⟩
    leftOn := ['t'], rightOn := ['s'], leftBy := [], rightBy := [], dir := .nearest }

/-- 10 lies between 8 and 12: the earlier one wins; of the two rows with key 3 the last one -/
example : mergeAsof exW .sort exN = .ok ⟨2, [(['t'], [10, 3]), (['s'], [8, 3]), (['v'], [3, 4])]⟩ := by decide +kernel

/-! ## Counterexamples -/

/-- The tolerance does not matter. -/
theorem mergeAsof_tolerance_ignored {V α δ : Type} [DecidableEq V] [LinearOrder α] [LT δ] [DecidableRel (fun a b : δ => a < b)]
    (x : OWorld V α δ) (act : Action) (a : AArgs V α) (t : Option α) : mergeAsof x act { a with tol := t } = mergeAsof x act a := rfl

/-- `tolerance` does not keep a far row from being matched: a row at distance 7 is matched though the tolerance is 1.
(The documentation says that `tolerance` is not implemented.) -/
theorem mergeAsof_tolerance_counterexample : ∃ (a : AArgs Int Int) (t d : Int), a.tol = some t ∧ t < d ∧ a.dir = .backward ∧
    a.left.cols = [(['t'], [10])] ∧ a.right.cols = [(['s'], [10 - d]), (['v'], [5])] ∧
    mergeAsof exW .sort a = .ok ⟨1, [(['t'], [10]), (['s'], [10 - d]), (['v'], [5])]⟩ :=
  ⟨{ left := ⟨1, [(['t'], [10])]⟩, right := ⟨1, [(['s'], [3]), (['v'], [5])]⟩, leftOn := ['t'], rightOn := ['s'], leftBy := [], rightBy := [],
     dir := .backward, tol := some 1 }, 1, 7, by decide +kernel⟩

/-- distances of unsigned numbers of 8 bits, as numpy subtracts them -/
def exU : OWorld Int Int Int := { exW with dist := fun a b => (a - b) % 256 }

/-- With an unsigned difference that wraps around, a row after the left row always looks far away: 10 is matched with 1
though 11 is nearer. -/
theorem mergeAsof_nearest_unsigned_counterexample : exU.OK ∧ ∃ (a : AArgs Int Int), a.dir = .nearest ∧
    a.left.cols = [(['t'], [10])] ∧ a.right.cols = [(['s'], [1, 11])] ∧
    mergeAsof exU .sort a = .ok ⟨1, [(['t'], [10]), (['s'], [1])]⟩ ∧ |(10 : Int) - 11| < |10 - 1| :=
  ⟨⟨exW_ok.ord, exW_ok.issorted, exW_ok.argsort, exW_ok.align⟩,
   { left := ⟨1, [(['t'], [10])]⟩, right := ⟨2, [(['s'], [1, 11])]⟩, leftOn := ['t'], rightOn := ['s'], leftBy := [], rightBy := [], dir := .nearest },
   by decide +kernel⟩

end Verif.OldAsof
