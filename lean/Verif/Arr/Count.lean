import Verif.Arr.Model
import Verif.Dup.Props

/-!
# C94: the number of different entries, repeated entries
-/
namespace Verif.Arr
open Spec Verif.Dup Verif.Grp

variable {V : Type}

/-! ## nunique -/

section
variable [LinearOrder V]

/-- the different entries in ascending order -/
def sortedU (xs : List V) : List V := xs.dedup.insertionSort (· ≤ ·)

theorem sortedU_perm (xs : List V) : (sortedU xs).Perm xs.dedup := List.perm_insertionSort _ _
theorem mem_sortedU (xs : List V) (v : V) : v ∈ sortedU xs ↔ v ∈ xs := by rw [(sortedU_perm xs).mem_iff, List.mem_dedup]
theorem sortedU_nodup (xs : List V) : (sortedU xs).Nodup := (sortedU_perm xs).nodup_iff.2 (List.nodup_dedup xs)
theorem sortedU_sorted (xs : List V) : (sortedU xs).Pairwise (· ≤ ·) := List.pairwise_insertionSort _ _

theorem differentOf_filter (isInv : V → Bool) (xs : List V) (k : Nat) (h : ((sortedU xs).filter fun v => !isInv v).length = k) :
    DifferentOf (fun v => isInv v = false) xs k :=
  ⟨(sortedU xs).filter fun v => !isInv v, (sortedU_nodup xs).filter _, h, fun v => by simp [mem_sortedU]⟩

theorem filter_all (isInv : V → Bool) (l : List V) (h : ∀ v ∈ l, isInv v = false) : (l.filter fun v => !isInv v) = l :=
  List.filter_eq_self.2 fun v hv => by simp [h v hv]

/-- **C94** `nunique` is the number of different valid entries, if the invalid value is alone of its kind and below all others
(signed integers, strings) or above all others (unsigned integers, NaN as the floats are sorted). -/
theorem nunique_exact (side : Side) (isInv : V → Bool) (hone : ∀ a b, isInv a = true → isInv b = true → a = b)
    (hside : ∀ a b, isInv a = true → (side = .first → a ≤ b) ∧ (side = .last → b ≤ a)) (xs : List V) :
    DifferentOf (fun v => isInv v = false) xs (nunique side isInv xs) := by
  apply differentOf_filter
  have hs := sortedU_sorted xs
  have hn := sortedU_nodup xs
  change _ = (if (atSide side (sortedU xs)).any isInv then
    (sortedU xs).length - 1 else (sortedU xs).length)
  generalize sortedU xs = l at *
  cases side with
  | first =>
    cases l with
    | nil => rfl
    | cons a l =>
      rw [show (atSide .first (a :: l)).any isInv = isInv a from rfl]
      have ha : a ∉ l := (List.nodup_cons.1 hn).1
      by_cases hi : isInv a = true
      · rw [if_pos hi, List.filter_cons_of_neg (by simp [hi]), filter_all isInv l]
        · simp
        · intro v hv
          by_contra hc
          exact ha (hone a v hi (by simpa using hc) ▸ hv)
      · rw [if_neg hi, filter_all]
        intro v hv
        by_contra hc
        have hv' : isInv v = true := by simpa using hc
        have h1 := (hside v a hv').1 rfl
        rcases List.mem_cons.1 hv with rfl | hm
        · exact hi hv'
        · have h2 := (List.pairwise_cons.1 hs).1 v hm
          exact hi (le_antisymm h1 h2 ▸ hv')
  | last =>
    rcases List.eq_nil_or_concat l with rfl | ⟨l', a, rfl⟩
    · rfl
    · rw [List.concat_eq_append] at *
      rw [show (atSide .last (l' ++ [a])).any isInv = isInv a by simp [atSide]]
      have ha : a ∉ l' := fun h => by
        have := (List.nodup_append.1 hn).2.2 a h a (by simp)
        exact this rfl
      by_cases hi : isInv a = true
      · rw [if_pos hi, List.filter_append, List.filter_cons_of_neg (by simp [hi]), filter_all isInv l']
        · simp
        · intro v hv
          by_contra hc
          exact ha (hone a v hi (by simpa using hc) ▸ hv)
      · rw [if_neg hi, filter_all]
        intro v hv
        by_contra hc
        have hv' : isInv v = true := by simpa using hc
        have h1 := (hside v a hv').2 rfl
        rcases List.mem_append.1 hv with hm | hm
        · have h2 := (List.pairwise_append.1 hs).2.2 v hm a (by simp)
          exact hi (le_antisymm h1 h2 ▸ hv')
        · rw [List.mem_singleton.1 hm] at hv'
          exact hi hv'

omit [LinearOrder V] in
/-- the number of different entries is one number -/
theorem differentOf_unique (p : V → Prop) (xs : List V) (j k : Nat) (hj : DifferentOf p xs j) (hk : DifferentOf p xs k) : j = k := by
  obtain ⟨l, hl, rfl, h1⟩ := hj
  obtain ⟨m, hm, rfl, h2⟩ := hk
  exact ((List.perm_ext_iff_of_nodup hl hm).2 fun v => by rw [h1, h2]).length_eq

/-- **C94** `nunique` does not depend on the order or the number of times of the entries. -/
theorem nunique_congr (side : Side) (isInv : V → Bool) (xs ys : List V) (h : ∀ v, v ∈ xs ↔ v ∈ ys) :
    nunique side isInv xs = nunique side isInv ys := by
  have hp : (sortedU xs).Perm (sortedU ys) :=
    (List.perm_ext_iff_of_nodup (sortedU_nodup xs) (sortedU_nodup ys)).2 fun v => by rw [mem_sortedU, mem_sortedU, h]
  have : sortedU xs = sortedU ys := hp.eq_of_pairwise (fun a b _ _ h1 h2 => le_antisymm h1 h2) (sortedU_sorted xs) (sortedU_sorted ys)
  unfold nunique
  change (if (atSide side (sortedU xs)).any isInv then
    (sortedU xs).length - 1 else (sortedU xs).length) = (if (atSide side (sortedU ys)).any isInv then
    (sortedU ys).length - 1 else (sortedU ys).length)
  rw [this]

end

/-- Full statement fails for bools: the sentinel listed for bools is False (`rt_enum.py` INVALID_DICT), so an array with True and
False is said to hold one different value, although `isnan` of a bool is never True. -/
theorem nunique_bool_counterexample :
    ¬ DifferentOf (fun _ : Bool => True) [true, false] (nunique .first (fun b => decide (b = false)) [true, false]) := by
  have h : nunique .first (fun b : Bool => decide (b = false)) [true, false] = 1 := by decide
  rw [h]
  rintro ⟨l, _, hl, hm⟩
  match l, hl with
  | [a], _ =>
    have h1 := (hm true).2 ⟨by simp, trivial⟩
    have h2 := (hm false).2 ⟨by simp, trivial⟩
    simp at h1 h2
    rw [h1] at h2
    cases h2

/-! ## duplicated -/

/-- The contract of `Grouping` of one array (C++): equal numbers exactly for equal entries, numbers from 1 to `n`, all used. The
order of the numbers is left open (`high_unique=True` sorts). -/
structure Grouped (xs : List V) (keys : List Nat) (n : Nat) : Prop where
  len : keys.length = xs.length
  same : ∀ (i j : Nat), i < xs.length → j < xs.length → (keys[i]? = keys[j]? ↔ xs[i]? = xs[j]?)
  pos : ∀ k ∈ keys, 1 ≤ k ∧ k ≤ n
  used : ∀ (g : Nat), 1 ≤ g → g ≤ n → g ∈ keys

theorem unset_get (ps : List Nat) : ∀ (r : List Bool) (i : Nat), i < r.length → ∃ b, (unset r ps)[i]? = some b ∧
    (b = true ↔ r[i]? = some true ∧ i ∉ ps) := by
  induction ps with
  | nil =>
    intro r i hi
    refine ⟨r[i], List.getElem?_eq_getElem hi, ?_⟩
    simp [hi]
  | cons p ps ih =>
    intro r i hi
    obtain ⟨b, h1, h2⟩ := ih (r.set p false) i (by simpa using hi)
    refine ⟨b, h1, h2.trans ?_⟩
    by_cases hp : p = i
    · subst hp; simp [hi]
    · rw [List.getElem?_set_ne hp]
      simp only [List.mem_cons, not_or]
      constructor
      · exact fun h => ⟨h.1, fun e => hp e.symm, h.2⟩
      · exact fun h => ⟨h.1, h.2.2⟩

theorem unset_length (ps : List Nat) : ∀ r : List Bool, (unset r ps).length = r.length := by
  induction ps with
  | nil => exact fun _ => rfl
  | cons p ps ih => intro r; exact (ih _).trans (by simp)

theorem ones_unset (n : Nat) (ps : List Nat) (i : Nat) (hi : i < n) :
    ∃ b, (unset (List.replicate n true) ps)[i]? = some b ∧ (b = true ↔ i ∉ ps) := by
  obtain ⟨b, h1, h2⟩ := unset_get ps (List.replicate n true) i (by simpa using hi)
  exact ⟨b, h1, by rw [h2, List.getElem?_replicate, if_pos hi]; simp⟩

theorem Grouped.lt {xs : List V} {keys : List Nat} {n : Nat} (h : Grouped xs keys n) {i g : Nat} (hi : keys[i]? = some g) : i < xs.length := by
  rw [← h.len]; exact (List.getElem?_eq_some_iff.1 hi).1

theorem Grouped.num {xs : List V} {keys : List Nat} {n : Nat} (h : Grouped xs keys n) {i : Nat} (hi : i < xs.length) :
    ∃ g, g < n ∧ keys[i]? = some (g + 1) := by
  have hk : i < keys.length := by rw [h.len]; exact hi
  have := h.pos _ (List.getElem_mem hk)
  exact ⟨keys[i] - 1, by omega, by rw [List.getElem?_eq_getElem hk]; congr 1; omega⟩

theorem firstOf_iff {xs : List V} {keys : List Nat} {n : Nat} (h : Grouped xs keys n) {i g : Nat} (hg : keys[i]? = some g) :
    firstOf keys g = some i ↔ ¬ Earlier xs i := by
  have hi := h.lt hg
  unfold firstOf
  rw [head_rowsOf]
  constructor
  · rintro ⟨_, hm⟩ ⟨j, hj, he⟩
    have := (h.same j i (by omega) hi).2 he
    have := hm j (by rw [this, hg])
    omega
  · intro he
    refine ⟨hg, fun j hj => ?_⟩
    by_contra hn
    exact he ⟨j, by omega, (h.same j i (h.lt hj) hi).1 (by rw [hj, hg])⟩

theorem mem_firsts {xs : List V} {keys : List Nat} {n : Nat} (h : Grouped xs keys n) {i : Nat} (hi : i < xs.length) :
    i ∈ firsts keys n ↔ ¬ Earlier xs i := by
  unfold firsts
  simp only [List.mem_filterMap, List.mem_range]
  constructor
  · rintro ⟨g, _, hg⟩
    have hk : keys[i]? = some (g + 1) := (head_rowsOf.1 hg).1
    exact (firstOf_iff h hk).1 hg
  · intro he
    obtain ⟨g, hg, hk⟩ := h.num hi
    exact ⟨g, hg, (firstOf_iff h hk).2 he⟩

theorem firsts_zip {xs : List V} {keys : List Nat} {n : Nat} (h : Grouped xs keys n) :
    (firsts keys n).zip (counts keys n) = (List.range n).filterMap fun (g : Nat) =>
      (firstOf keys (g + 1)).map fun i => (i, (rowsOf keys (g + 1)).length) := by
  have hf : ∀ g ∈ List.range n, ∃ i, firstOf keys (g + 1) = some i := by
    intro g hg
    have hg' := List.mem_range.1 hg
    have hm := rowsOf_ne (h.used (g + 1) (by omega) (by omega))
    cases hr : firstOf keys (g + 1) with
    | none => rw [firstOf, List.head?_eq_none_iff] at hr; rw [hr] at hm; simp at hm
    | some i => exact ⟨i, rfl⟩
  unfold firsts counts
  generalize List.range n = l at hf
  induction l with
  | nil => rfl
  | cons g l ih =>
    obtain ⟨i, hi⟩ := hf g (by simp)
    simp [List.filterMap_cons, hi, ih (fun g hg => hf g (by simp [hg]))]

theorem one_iff {xs : List V} {keys : List Nat} {n : Nat} (h : Grouped xs keys n) {i g : Nat} (hg : keys[i]? = some g) :
    (firstOf keys g = some i ∧ (rowsOf keys g).length = 1) ↔ ¬ Earlier xs i ∧ ¬ Later xs i := by
  have hi := h.lt hg
  rw [firstOf_iff h hg]
  refine and_congr_right fun he => ?_
  constructor
  · rintro h1 ⟨j, hj, hjl, hs⟩
    have hk := (h.same j i hjl hi).2 hs
    obtain ⟨a, ha⟩ := List.length_eq_one_iff.1 h1
    have m1 : i ∈ rowsOf keys g := mem_rowsOf.2 hg
    have m2 : j ∈ rowsOf keys g := mem_rowsOf.2 (by rw [hk, hg])
    rw [ha] at m1 m2
    simp at m1 m2
    omega
  · intro hl
    have hall : ∀ j ∈ rowsOf keys g, j = i := by
      intro j hj
      have hk := mem_rowsOf.1 hj
      have hs := (h.same j i (h.lt hk) hi).1 (by rw [hk, hg])
      rcases Nat.lt_trichotomy j i with a | a | a
      · exact absurd ⟨j, a, hs⟩ he
      · exact a
      · exact absurd ⟨j, a, h.lt hk, hs⟩ hl
    have m1 : i ∈ rowsOf keys g := mem_rowsOf.2 hg
    have hn : (rowsOf keys g).Nodup := (rowsOf_sorted keys g).imp fun h => Nat.ne_of_lt h
    generalize rowsOf keys g = l at *
    match l, m1 with
    | [a], _ => rfl
    | a :: b :: l, _ =>
      have e1 := hall a (by simp)
      have e2 := hall b (by simp)
      rw [e1, e2] at hn
      simp at hn

theorem earlier_reverse (xs : List V) (i : Nat) (hi : i < xs.length) :
    Earlier xs.reverse (xs.length - 1 - i) ↔ Later xs i := by
  have hr : ∀ j, j < xs.length → xs.reverse[j]? = xs[xs.length - 1 - j]? := fun j hj => List.getElem?_reverse hj
  constructor
  · rintro ⟨j, hj, he⟩
    rw [hr j (by omega), hr _ (by omega), show xs.length - 1 - (xs.length - 1 - i) = i by omega] at he
    exact ⟨xs.length - 1 - j, by omega, by omega, he⟩
  · rintro ⟨j, hj, hjl, he⟩
    refine ⟨xs.length - 1 - j, by omega, ?_⟩
    rw [hr _ (by omega), hr _ (by omega), show xs.length - 1 - (xs.length - 1 - i) = i by omega,
      show xs.length - 1 - (xs.length - 1 - j) = j by omega, he]

/-- **C94** `duplicated`: with `keep='first'` an entry is marked exactly if an earlier entry is equal, with `keep='last'` exactly if
a later one is, with `keep=False` exactly if any other one is. -/
theorem duplicated_exact (group : List V → List Nat × Nat) (hg : ∀ l, Grouped l (group l).1 (group l).2) (xs : List V) (keep : Keep) :
    (duplicated group keep xs).length = xs.length ∧ ∀ i, i < xs.length → ∃ b, (duplicated group keep xs)[i]? = some b ∧
      (b = true ↔ (keep ≠ .last ∧ Earlier xs i) ∨ (keep ≠ .first ∧ Later xs i)) := by
  have h := hg xs
  cases keep with
  | first =>
    refine ⟨by simp [duplicated, unset_length], fun i hi => ?_⟩
    obtain ⟨b, h1, h2⟩ := ones_unset xs.length (firsts (group xs).1 (group xs).2) i hi
    exact ⟨b, h1, by rw [h2, mem_firsts h hi]; simp⟩
  | last =>
    refine ⟨by simp [duplicated, unset_length], fun i hi => ?_⟩
    have h' := hg xs.reverse
    obtain ⟨b, h1, h2⟩ := ones_unset xs.reverse.length (firsts (group xs.reverse).1 (group xs.reverse).2) (xs.length - 1 - i)
      (by simp; omega)
    refine ⟨b, ?_, ?_⟩
    · have hl : (unset (List.replicate xs.reverse.length true) (firsts (group xs.reverse).1 (group xs.reverse).2)).length = xs.length := by
        simp [unset_length]
      change (unset (List.replicate xs.reverse.length true) (firsts (group xs.reverse).1 (group xs.reverse).2)).reverse[i]? = some b
      rw [List.getElem?_reverse (by omega), hl, h1]
    · rw [h2, mem_firsts h' (by simp; omega), earlier_reverse xs i hi]; simp
  | no =>
    refine ⟨by simp [duplicated, unset_length], fun i hi => ?_⟩
    obtain ⟨b, h1, h2⟩ := ones_unset xs.length (((firsts (group xs).1 (group xs).2).zip (counts (group xs).1 (group xs).2)).filterMap
      fun (e : Nat × Nat) => if e.2 = 1 then some e.1 else none) i hi
    refine ⟨b, h1, ?_⟩
    rw [h2, firsts_zip h]
    obtain ⟨g, hgn, hk⟩ := h.num hi
    have hm : (i ∈ ((List.range (group xs).2).filterMap fun (g : Nat) =>
        (firstOf (group xs).1 (g + 1)).map fun i => (i, (rowsOf (group xs).1 (g + 1)).length)).filterMap
          fun (e : Nat × Nat) => if e.2 = 1 then some e.1 else none) ↔ ¬ Earlier xs i ∧ ¬ Later xs i := by
      rw [← one_iff h hk]
      simp only [List.mem_filterMap, List.mem_range, Option.map_eq_some_iff]
      constructor
      · rintro ⟨e, ⟨g', _, i', hf, rfl⟩, he⟩
        by_cases h1' : (rowsOf (group xs).1 (g' + 1)).length = 1
        · rw [if_pos h1'] at he
          obtain rfl := Option.some.inj he
          have hk' := (head_rowsOf.1 hf).1
          rw [hk] at hk'
          obtain rfl : g = g' := by have := Option.some.inj hk'; omega
          exact ⟨hf, h1'⟩
        · rw [if_neg h1'] at he
          cases he
      · rintro ⟨hf, h1'⟩
        exact ⟨(i, _), ⟨g, hgn, i, hf, rfl⟩, by rw [if_pos h1']⟩
    rw [hm]
    by_cases e1 : Earlier xs i <;> by_cases e2 : Later xs i <;> simp [e1, e2]

/-- the contract can be met -/
theorem refGroup_grouped [DecidableEq V] (l : List V) : Grouped l (refGroup l).1 (refGroup l).2 :=
  let h := refGroup_numbered l
  ⟨h.len, h.same, h.pos, h.used⟩

/-- **C94** Exactly the entries that `duplicated` does not mark are one per different value: dropping the marked entries leaves every
value once. -/
theorem kept_once (group : List V → List Nat × Nat) (hg : ∀ l, Grouped l (group l).1 (group l).2) (xs : List V) (keep : Keep) (hk : keep ≠ .no)
    (v : V) (hv : v ∈ xs) : ∃ i : Nat, (xs[i]? = some v ∧ (duplicated group keep xs)[i]? = some false) ∧
      ∀ j : Nat, xs[j]? = some v → (duplicated group keep xs)[j]? = some false → j = i := by
  obtain ⟨hl, hd⟩ := duplicated_exact group hg xs keep
  obtain ⟨i0, hi0⟩ := List.mem_iff_getElem?.1 hv
  have hlt : ∀ j : Nat, xs[j]? = some v → j < xs.length := fun j hj => (List.getElem?_eq_some_iff.1 hj).1
  cases keep with
  | no => exact absurd rfl hk
  | first =>
    have key : ∀ j : Nat, xs[j]? = some v → ((duplicated group .first xs)[j]? = some false ↔ ¬ Earlier xs j) := by
      intro j hj
      obtain ⟨b, h1, h2⟩ := hd j (hlt j hj)
      rw [h1]
      cases b <;> simp_all
    classical
    have hex : ∃ i : Nat, xs[i]? = some v := ⟨i0, hi0⟩
    have hm := Nat.find_spec hex
    refine ⟨Nat.find hex, ⟨hm, (key _ hm).2 fun ⟨j, hj, he⟩ => Nat.find_min hex hj (he.trans hm)⟩, fun j hj hf => ?_⟩
    have hne := (key j hj).1 hf
    by_contra hc
    have : Nat.find hex ≤ j := Nat.find_min' hex hj
    exact hne ⟨Nat.find hex, by omega, by rw [hm, hj]⟩
  | last =>
    have key : ∀ j : Nat, xs[j]? = some v → ((duplicated group .last xs)[j]? = some false ↔ ¬ Later xs j) := by
      intro j hj
      obtain ⟨b, h1, h2⟩ := hd j (hlt j hj)
      rw [h1]
      cases b <;> simp_all
    classical
    have hex : ∃ k : Nat, k < xs.length ∧ xs[xs.length - 1 - k]? = some v :=
      ⟨xs.length - 1 - i0, by have := hlt _ hi0; omega, by
        rw [show xs.length - 1 - (xs.length - 1 - i0) = i0 by have := hlt _ hi0; omega]; exact hi0⟩
    obtain ⟨hm1, hm2⟩ := Nat.find_spec hex
    refine ⟨xs.length - 1 - Nat.find hex, ⟨hm2, (key _ hm2).2 ?_⟩, fun j hj hf => ?_⟩
    · rintro ⟨j, hj, hjl, he⟩
      exact Nat.find_min hex (m := xs.length - 1 - j) (by omega)
        ⟨by omega, by rw [show xs.length - 1 - (xs.length - 1 - j) = j by omega, he, hm2]⟩
    · have hne := (key j hj).1 hf
      by_contra hc
      have hjl := hlt j hj
      have : Nat.find hex ≤ xs.length - 1 - j := Nat.find_min' hex
        ⟨by omega, by rw [show xs.length - 1 - (xs.length - 1 - j) = j by omega]; exact hj⟩
      exact hne ⟨xs.length - 1 - Nat.find hex, by omega, by omega, by rw [hm2, hj]⟩

/-- concrete cases meeting the hypotheses: marks of an array, and a sentinel that is below all values -/
example : duplicated refGroup .first [7, 8, 7, 9] = [false, false, true, false] ∧
    duplicated refGroup .last [7, 8, 7, 9] = [true, false, false, false] ∧
    duplicated refGroup .no [7, 8, 7, 9] = [true, false, true, false] ∧
    nunique .first (fun v : Nat => decide (v = 0)) [0, 3, 3, 5] = 2 ∧
    (∀ a b : Nat, decide (a = 0) = true → ((Side.first = .first → a ≤ b) ∧ (Side.first = .last → b ≤ a))) := by
  refine ⟨by decide, by decide, by decide, by decide, fun a b h => ?_⟩
  simp at h
  simp [h]

end Verif.Arr
