import Verif.CatNew.Given
import Verif.Idx.Lemmas
/-! # Rows of a Categorical: indexing and copying (C161, C162) -/
namespace Verif.CatNew
variable {S : Type}
open Verif.Idx (meant trueRows IsSlice)

/-- the rows, in order, a selection stands for; `none` is a position that does not exist -/
def Selects (n : Nat) : Sel → List (Option Nat) → Prop
  | .slice a b s, L => ∃ R, IsSlice n a b s R ∧ L = R.map some
  | .mask m, L => m.length = n ∧ L = (trueRows m).map some
  | .ints ks, L => L = ks.map (meant n)

/-- the selection can be made -/
def Selectable (n : Nat) : Sel → Prop
  | .slice _ _ s => s ≠ 0
  | .mask m => m.length = n
  | .ints _ => True

theorem idxRows_selects {n : Nat} {s : Sel} {L : List (Option Nat)} (h : Verif.Idx.idxRows n s.idx = some L) : Selects n s L := by
  cases s with
  | slice a b st =>
    unfold Sel.idx Verif.Idx.idxRows at h
    dsimp only at h
    split_ifs at h with h0
    cases h
    exact ⟨_, Verif.Idx.sliceRows_isSlice n a b st h0, rfl⟩
  | mask m =>
    unfold Sel.idx Verif.Idx.idxRows at h
    dsimp only at h
    split_ifs at h with h0
    cases h
    exact ⟨h0, rfl⟩
  | ints ks =>
    unfold Sel.idx Verif.Idx.idxRows at h
    dsimp only at h
    cases h
    rfl

theorem idxRows_some {n : Nat} {s : Sel} : Selectable n s ↔ ∃ L, Verif.Idx.idxRows n s.idx = some L := by
  cases s with
  | slice a b st => by_cases h : st = 0 <;> simp [Sel.idx, Verif.Idx.idxRows, Selectable, h]
  | mask m => by_cases h : m.length = n <;> simp [Sel.idx, Verif.Idx.idxRows, Selectable, h]
  | ints ks => simp [Sel.idx, Verif.Idx.idxRows, Selectable]

/-- the rows of a selection -/
theorem select_codes {c r : C S} {s : Sel} (h : select c s = .ok r) : ∃ L, Selects c.g.codes.length s L ∧ (∀ (i : Nat), some i ∈ L → i < c.g.codes.length) ∧
    r = { ofGrouping { c.g with codes := L.map (Verif.Idx.pick (fillCode c.g.base) c.g.codes) } none false with filteredName := c.filteredName } := by
  have he := Verif.Idx.take_eq (fillCode c.g.base) c.g.codes s.idx
  unfold select selectG at h
  cases ht : Verif.Idx.take (fillCode c.g.base) c.g.codes s.idx with
  | error e => rw [ht] at h; cases h
  | ok codes =>
    rw [ht] at h he
    dsimp only at h
    cases h
    rw [Except.toOption] at he
    obtain ⟨L, hL, hcodes⟩ := Option.map_eq_some_iff.1 he.symm
    exact ⟨L, idxRows_selects hL, Verif.Idx.idxRows_lt hL, by rw [hcodes]⟩

/-- **C161** `c[rows]` shows, in order, the rows of `c` that are selected; positions that do not exist become filtered rows, or rows
with a code without category if the base index is 0. The categories stay. -/
theorem select_rows {c r : C S} {s : Sel} (h : select c s = .ok r) : ∃ L, Selects c.g.codes.length s L ∧ r.g.codes.length = L.length ∧
    catRows r = catRows c ∧ r.g.base = c.g.base ∧
    ∀ (j : Nat), (∀ (i : Nat), L[j]? = some (some i) → getItem r j = getItem c i) ∧
      (L[j]? = some none → c.g.base ≤ 1 → getItem r j = some (if c.g.base = 1 then .filtered else .bad (-128))) := by
  obtain ⟨L, hL, hlt, rfl⟩ := select_codes h
  refine ⟨L, hL, by simp [ofGrouping], rfl, rfl, fun j => ⟨fun i hj => ?_, fun hj hb => ?_⟩⟩
  · have hi := hlt i (List.mem_of_getElem? hj)
    have hjl := (List.getElem?_eq_some_iff.1 hj).1
    rw [getItem_nat hi, getItem_nat (by simpa [ofGrouping] using hjl)]
    dsimp only [ofGrouping]
    rw [List.getElem?_map, hj, List.getElem?_eq_getElem hi]
    simp only [Option.map_some, Verif.Idx.pick, Option.bind_some, List.getElem?_eq_getElem hi, Option.getD_some]
    rfl
  · have hjl := (List.getElem?_eq_some_iff.1 hj).1
    rw [getItem_nat (by simpa [ofGrouping] using hjl)]
    dsimp only [ofGrouping]
    rw [List.getElem?_map, hj]
    simp only [Option.map_some, Verif.Idx.pick, Option.bind_none, Option.getD_none]
    unfold itemOf fillCode
    dsimp only
    by_cases h1 : c.g.base = 1
    · rw [h1]; simp
    · have h0 : c.g.base = 0 := by omega
      rw [h0]; simp

/-- **C161** A slice with step 0 and a mask of another length are refused, everything else is accepted. -/
theorem select_ok_iff (c : C S) (s : Sel) : (∃ r, select c s = .ok r) ↔ Selectable c.g.codes.length s := by
  rw [idxRows_some]
  have he := Verif.Idx.take_eq (fillCode c.g.base) c.g.codes s.idx
  constructor
  · rintro ⟨r, h⟩
    unfold select selectG at h
    cases ht : Verif.Idx.take (fillCode c.g.base) c.g.codes s.idx with
    | error e => rw [ht] at h; cases h
    | ok codes =>
      rw [ht, Except.toOption] at he
      obtain ⟨L, hL, _⟩ := Option.map_eq_some_iff.1 he.symm
      exact ⟨L, hL⟩
  · rintro ⟨L, hL⟩
    rw [hL, Option.map_some] at he
    unfold select selectG
    cases ht : Verif.Idx.take (fillCode c.g.base) c.g.codes s.idx with
    | error e => rw [ht] at he; cases he
    | ok codes => exact ⟨_, rfl⟩

/-- **C162 (partial)** A copy of a Categorical with base index 1 shows the same rows and has the same categories. Missing: base index 0,
see the counterexample and `copy_base0_exact`. -/
theorem copy_rows_partial (c : C S) (hb : c.g.base = 1) : catRows (copy c) = catRows c ∧ ∀ (i : Int), getItem (copy c) i = getItem c i := by
  refine ⟨rfl, fun i => ?_⟩
  have : itemOf (copy c).g = itemOf c.g := by
    funext k
    unfold itemOf copy
    rw [hb]
  unfold getItem
  rw [this]
  rfl

/-- **C162** What a copy of a Categorical with base index 0 shows: rows of the first category are filtered, rows of every other category
show the category before it. -/
theorem copy_base0_exact {c : C S} (hb : c.g.base = 0) {i : Nat} {k : Int} (hk : c.g.codes[i]? = some k) (hr : 0 ≤ k ∧ k < c.g.count) :
    getItem c i = some (.label (rowAt c.g.uniq k.toNat)) ∧
    getItem (copy c) i = some (if k = 0 then .filtered else .label (rowAt c.g.uniq (k.toNat - 1))) := by
  have hi := (List.getElem?_eq_some_iff.1 hk).1
  constructor
  · rw [getItem_nat hi, hk, Option.map_some]
    unfold itemOf
    dsimp only
    rw [hb, if_neg (by omega)]
    simp
  · rw [getItem_nat (show i < (copy c).g.codes.length from hi)]
    show (c.g.codes[i]?).map (itemOf (copy c).g) = _
    rw [hk, Option.map_some]
    unfold itemOf copy
    dsimp only
    by_cases h0 : k = 0
    · subst h0; simp
    · rw [if_neg (by omega), if_neg h0]
      have : (k - ((1 : Nat) : Int)).toNat = k.toNat - 1 := by omega
      rw [this]

end Verif.CatNew
