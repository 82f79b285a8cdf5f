import Verif.Cat.SetLabel
import Mathlib.Order.Basic
/-!
# C31: filtered rows in comparisons, `isin`, `count` and expansion
-/
namespace Verif.Cat

/-! ## Model of the group operations -/

/-- `Grouping.isin` (`rt_grouping.py:1353-1375`), base index 0 or 1; `found` is `ismember(uniquelist, values)[0]`, a FastArray: out of
range its fancy index reads `False` (`rt_fastarray.py:1322-1326`) -/
def groupingIsin (base : Nat) (uniq : List Label) (fa : List Int) (values : List Label) : List Bool :=
  let found := uniq.map fun u => decide (u ∈ values)
  fa.map fun k => (npGet found (if base = 0 then k else k - 1)).getD false

/-- `rc.BinCount(ikey, n + 1)`: number of rows of every bin -/
def binCount (ikey : List Int) (n : Nat) : List Nat := (List.range (n + 1)).map fun j : Nat => ikey.count (j : Int)

/-- `Grouping.count(transform=True)` (`rt_grouping.py:3514-3545`) of an unpacked grouping; `ikey` is 1-based for both base
indices (`:1529-1541`); `none` is the invalid integer (a fancy index out of range, `rt_fastarray.py:1322-1326`) -/
def groupingCount (base : Nat) (ikey : List Int) (n : Nat) (filter : Option (List Bool)) (showfilter : Bool) : List (Option Nat) :=
  let b := if showfilter then 0 else 1
  let ikey' := match filter with
    | some f => List.zipWith (fun (ok : Bool) (k : Int) => if ok then k else 0) f ikey
    | none => ikey
  let countcol := (binCount ikey' n).drop b
  if showfilter = false ∧ base = 1 then ikey.map fun k => npGet countcol (k - 1)
  else ikey'.map fun k => npGet countcol k

/-! ## Comparisons with a label -/

/-- relation of the doubled code of a row to the doubled index of a label, for rows that are not filtered -/
theorem code_cmp {c : Cat} (hw : WF c) {k : Int} (hk : k ∈ c.fa) {l s : Label} (hl : label? c.base c.list k = some l) :
    (2 * k = categoryIndex2 c s ↔ l = s) ∧
    (c.sorted = true → (2 * k < categoryIndex2 c s ↔ l < s)) := by
  have hhi := hw.hi k hk
  have hkb : ¬ k < c.base := by
    intro h; unfold label? at hl; rw [if_pos h] at hl; simp at hl
  have hget : c.list[(k - (c.base : Int)).toNat]? = some l := by
    unfold label? at hl; rw [if_neg hkb] at hl; exact hl
  by_cases hs : s ∈ c.list
  · obtain ⟨i, hi⟩ := List.getElem?_of_mem hs
    rw [categoryIndex2_mem hw hi]
    constructor
    · constructor
      · intro h
        have : (k - (c.base : Int)).toNat = i := by omega
        rw [this, hi] at hget
        exact (Option.some.inj hget).symm
      · rintro rfl
        have := nodup_index hw.nodup hget hi
        omega
    · intro hso
      have hg := searchLeft_get c.list (hw.srt hso) s hs
      have hii := nodup_index hw.nodup hg hi
      constructor
      · intro h
        exact searchLeft_below c.list s _ l hget (by omega)
      · intro h
        by_contra hn
        exact searchLeft_above c.list (hw.srt hso) s _ l hget (by omega) h
  · have hne : l ≠ s := fun h => hs (h ▸ List.mem_of_getElem? hget)
    rcases categoryIndex2_not_mem hs with h | ⟨hso, hlt, h⟩
    · rw [h]
      refine ⟨⟨fun h' => by omega, fun h' => absurd h' hne⟩, fun hso => ⟨fun _ => ?_, fun _ => by omega⟩⟩
      have hall : searchLeft c.list s = c.list.length := by
        by_contra hx
        have hle := searchLeft_le c.list s
        have hlt : searchLeft c.list s < c.list.length := by omega
        unfold categoryIndex2 at h
        rw [if_pos hso] at h
        dsimp only at h
        rw [if_neg] at h
        · omega
        · rintro (h' | h')
          · rw [List.getElem?_eq_none_iff] at h'; omega
          · exact hs (List.mem_of_getElem? h')
      exact searchLeft_below c.list s _ l hget (by omega)
    · rw [h]
      refine ⟨⟨fun h' => by omega, fun h' => absurd h' hne⟩, fun _ => ⟨fun h' => ?_, fun h' => ?_⟩⟩
      · exact searchLeft_below c.list s _ l hget (by omega)
      · by_contra hn
        exact searchLeft_above c.list (hw.srt hso) s _ l hget (by omega) h'

/-- a filtered row has a code below that of every label -/
theorem code_filtered {c : Cat} (hw : WF c) {k : Int} (hk : k ∈ c.fa) {s : Label} (hl : label? c.base c.list k = none) :
    2 * k < categoryIndex2 c s := by
  have hlo := hw.lo k hk
  have hhi := hw.hi k hk
  have hkb : k < c.base := by
    by_contra h
    unfold label? at hl; rw [if_neg h, List.getElem?_eq_none_iff] at hl
    omega
  by_cases hs : s ∈ c.list
  · obtain ⟨i, hi⟩ := List.getElem?_of_mem hs
    rw [categoryIndex2_mem hw hi]; omega
  · rcases categoryIndex2_not_mem hs with h | ⟨_, _, h⟩ <;> rw [h] <;> omega

/-- **C31** `c == s` is true exactly on the rows labelled `s`; filtered rows are never equal to a label. -/
theorem compare_eq_correct {c : Cat} (hw : WF c) (s : Label) :
    compareLabel c (fun a b => decide (a = b)) s = (rows c).map fun r => decide (r = some s) := by
  unfold compareLabel rows
  rw [List.map_map]
  refine List.map_congr_left fun k hk => ?_
  simp only [Function.comp, decide_eq_decide]
  cases hl : label? c.base c.list k with
  | none =>
    have := code_filtered hw hk (s := s) hl
    simp; omega
  | some l => rw [(code_cmp hw hk hl).1]; simp

/-- **C31** `c != s` is the negation. -/
theorem compare_ne_correct {c : Cat} (hw : WF c) (s : Label) :
    compareLabel c (fun a b => decide (a ≠ b)) s = (rows c).map fun r => decide (r ≠ some s) := by
  have h := compare_eq_correct hw s
  have h2 := congrArg (List.map not) h
  unfold compareLabel at h2 ⊢
  rw [List.map_map, List.map_map] at h2
  rw [show (fun k => decide (2 * k ≠ categoryIndex2 c s)) = (not ∘ fun k => decide (2 * k = categoryIndex2 c s)) from by
    funext k; simp, h2]
  refine List.map_congr_left fun r _ => ?_
  simp

/-- **C31** `c > s` and `c >= s` for sorted categories: true exactly on the rows whose label is greater (or equal); false on
filtered rows. -/
theorem compare_gt_ge_correct {c : Cat} (hw : WF c) (hs : c.sorted = true) (s : Label) :
    compareLabel c (fun a b => decide (a > b)) s = (rows c).map (fun r => r.any fun l => decide (s < l)) ∧
    compareLabel c (fun a b => decide (a ≥ b)) s = (rows c).map (fun r => r.any fun l => decide (s ≤ l)) := by
  unfold compareLabel rows
  rw [List.map_map, List.map_map]
  constructor
  · refine List.map_congr_left fun k hk => ?_
    simp only [Function.comp]
    cases hl : label? c.base c.list k with
    | none =>
      have := code_filtered hw hk (s := s) hl
      simp; omega
    | some l =>
      have h1 := (code_cmp hw hk (s := s) hl).1
      have h2 := (code_cmp hw hk (s := s) hl).2 hs
      simp only [Option.any_some, decide_eq_decide]
      constructor
      · intro h
        rcases lt_trichotomy l s with h' | h' | h'
        · have := h2.2 h'; omega
        · have := h1.2 h'; omega
        · exact h'
      · intro h
        have n1 : ¬ (2 * k < categoryIndex2 c s) := fun hx => absurd (h2.1 hx) (not_lt_of_gt h)
        have n2 : ¬ (2 * k = categoryIndex2 c s) := fun hx => absurd (h1.1 hx) (ne_of_gt h)
        omega
  · refine List.map_congr_left fun k hk => ?_
    simp only [Function.comp]
    cases hl : label? c.base c.list k with
    | none =>
      have := code_filtered hw hk (s := s) hl
      simp; omega
    | some l =>
      have h2 := (code_cmp hw hk (s := s) hl).2 hs
      simp only [Option.any_some, decide_eq_decide]
      rw [← not_lt, ← h2]
      omega

/-- `c < s` and `c <= s`, exactly: as for the labels, but *every filtered row is smaller than every label*. -/
theorem compare_lt_le_exact {c : Cat} (hw : WF c) (hs : c.sorted = true) (s : Label) :
    compareLabel c (fun a b => decide (a < b)) s = (rows c).map (fun r => r.all fun l => decide (l < s)) ∧
    compareLabel c (fun a b => decide (a ≤ b)) s = (rows c).map (fun r => r.all fun l => decide (l ≤ s)) := by
  unfold compareLabel rows
  rw [List.map_map, List.map_map]
  constructor
  · refine List.map_congr_left fun k hk => ?_
    simp only [Function.comp]
    cases hl : label? c.base c.list k with
    | none =>
      have := code_filtered hw hk (s := s) hl
      simpa using this
    | some l =>
      have h2 := (code_cmp hw hk (s := s) hl).2 hs
      simp only [Option.all_some, decide_eq_decide]
      exact h2
  · refine List.map_congr_left fun k hk => ?_
    simp only [Function.comp]
    cases hl : label? c.base c.list k with
    | none =>
      have := code_filtered hw hk (s := s) hl
      simp; omega
    | some l =>
      have h1 := (code_cmp hw hk (s := s) hl).1
      have h2 := (code_cmp hw hk (s := s) hl).2 hs
      simp only [Option.all_some, decide_eq_decide]
      rw [le_iff_lt_or_eq, le_iff_lt_or_eq, h1, h2]

/-- **C31** `c < s` and `c <= s` without filtered rows -/
theorem compare_lt_le_partial {c : Cat} (hw : WF c) (hs : c.sorted = true) (hn : none ∉ rows c) (s : Label) :
    compareLabel c (fun a b => decide (a < b)) s = (rows c).map (fun r => r.any fun l => decide (l < s)) ∧
    compareLabel c (fun a b => decide (a ≤ b)) s = (rows c).map (fun r => r.any fun l => decide (l ≤ s)) := by
  obtain ⟨h1, h2⟩ := compare_lt_le_exact hw hs s
  rw [h1, h2]
  constructor <;>
  · refine List.map_congr_left fun r hr => ?_
    cases r with
    | none => exact absurd hr hn
    | some l => rfl

/-! ## `isin` -/

/-- What `Grouping.isin` gives: the right answer, but for filtered rows the answer for the *last* category. -/
theorem groupingIsin_exact {c : Cat} (hw : WF c) (hu : c.uniq = c.list) (hne : c.list ≠ []) (values : List Label) :
    groupingIsin c.base c.uniq c.fa values = (rows c).map fun r => decide (r.getD (c.list.getLast hne) ∈ values) := by
  unfold groupingIsin rows
  rw [hu, List.map_map]
  refine List.map_congr_left fun k hk => ?_
  have hlo := hw.lo k hk
  have hhi := hw.hi k hk
  have hb := hw.base
  have hidx : (if c.base = 0 then k else k - 1) = k - c.base := by split <;> omega
  rw [hidx]
  simp only [Function.comp]
  have hlp : 0 < c.list.length := List.length_pos_iff.2 hne
  unfold npGet label?
  by_cases hkb : k < c.base
  · rw [if_neg (by omega), if_pos (by rw [List.length_map]; omega), if_pos hkb, List.length_map, List.getElem?_map]
    rw [show ((c.list.length : Int) + (k - c.base)).toNat = c.list.length - 1 by omega, List.getLast_eq_getElem,
      List.getElem?_eq_getElem (by omega)]
    rfl
  · rw [if_pos (by omega), if_neg hkb, List.getElem?_map, List.getElem?_eq_getElem (by omega)]
    rfl

/-- **C31** `Grouping.isin` without filtered rows -/
theorem groupingIsin_partial {c : Cat} (hw : WF c) (hu : c.uniq = c.list) (hne : c.list ≠ []) (hn : none ∉ rows c) (values : List Label) :
    groupingIsin c.base c.uniq c.fa values = (rows c).map fun r => r.any fun l => decide (l ∈ values) := by
  rw [groupingIsin_exact hw hu hne]
  refine List.map_congr_left fun r hr => ?_
  cases r with
  | none => exact absurd hr hn
  | some l => rfl

/-! ## `count(transform=True)` -/

theorem binCount_get (ikey : List Int) (n j : Nat) (h : j ≤ n) : (binCount ikey n)[j]? = some (ikey.count (j : Int)) := by
  unfold binCount
  rw [List.getElem?_map, List.getElem?_range (by omega)]
  rfl

/-- What `count(transform=True)` gives for base index 1: the size of the row's group, and for filtered rows the size of the
*last* group. -/
theorem groupingCount_exact (ikey : List Int) (n : Nat) (hn : 1 ≤ n) (h : ∀ k ∈ ikey, 0 ≤ k ∧ k ≤ n) :
    groupingCount 1 ikey n none false = ikey.map fun k => some (if k = 0 then ikey.count (n : Int) else ikey.count k) := by
  unfold groupingCount
  rw [if_pos ⟨rfl, rfl⟩]
  dsimp only
  refine List.map_congr_left fun k hk => ?_
  obtain ⟨h0, h1⟩ := h k hk
  have hlen : ((binCount ikey n).drop 1).length = n := by simp [binCount]
  simp only [Bool.false_eq_true, if_false]
  unfold npGet
  by_cases hk0 : k = 0
  · subst hk0
    rw [if_neg (by omega), if_pos (by rw [hlen]; omega), hlen, List.getElem?_drop, if_pos rfl]
    rw [show 1 + ((n : Int) + (0 - 1)).toNat = n by omega]
    exact binCount_get _ _ _ (Nat.le_refl _)
  · rw [if_pos (by omega), List.getElem?_drop, if_neg hk0, binCount_get _ _ _ (by omega)]
    rw [show ((1 + (k - 1).toNat : Nat) : Int) = k by omega]

/-- **C31** without filtered rows every row gets the size of its group -/
theorem groupingCount_partial (ikey : List Int) (n : Nat) (hn : 1 ≤ n) (h : ∀ k ∈ ikey, 1 ≤ k ∧ k ≤ n) :
    groupingCount 1 ikey n none false = ikey.map fun k => some (ikey.count k) := by
  rw [groupingCount_exact ikey n hn fun k hk => ⟨by have := h k hk; omega, (h k hk).2⟩]
  refine List.map_congr_left fun k hk => ?_
  have := h k hk
  rw [if_neg (by omega)]

/-- **C31** with `showfilter=True` every row, filtered or not, gets the size of its group, for both base indices -/
theorem groupingCount_showfilter (base : Nat) (ikey : List Int) (n : Nat) (h : ∀ k ∈ ikey, 0 ≤ k ∧ k ≤ n) :
    groupingCount base ikey n none true = ikey.map fun k => some (ikey.count k) := by
  unfold groupingCount
  rw [if_neg (by simp)]
  dsimp only
  refine List.map_congr_left fun k hk => ?_
  obtain ⟨h0, h1⟩ := h k hk
  simp only [if_true, List.drop_zero]
  unfold npGet
  rw [if_pos h0, binCount_get _ _ _ (by omega), show ((k.toNat : Nat) : Int) = k by omega]

/-! ## Expansion -/

/-- **C31** `expand_array` gives the labels of the rows and the filtered name for filtered rows, both base indices. -/
theorem expandArray_correct {c : Cat} (hw : WF c) (hu : c.uniq = c.list) : expandArray c = some (rows c) := by
  unfold expandArray expandWith rows
  rw [hu]
  have hb := hw.base
  have key : ∀ k ∈ c.fa, npGet (none :: c.list.map some) (k + 1 - c.base) = some (label? c.base c.list k) := by
    intro k hk
    have hlo := hw.lo k hk
    have hhi := hw.hi k hk
    unfold npGet label?
    rw [if_pos (by omega)]
    by_cases hkb : k < c.base
    · rw [if_pos hkb, show (k + 1 - (c.base : Int)).toNat = 0 by omega]; rfl
    · rw [if_neg hkb, show (k + 1 - (c.base : Int)).toNat = (k - c.base).toNat + 1 by omega, List.getElem?_cons_succ,
        List.getElem?_map, List.getElem?_eq_getElem (by omega)]
      rfl
  by_cases h0 : c.base = 0
  · rw [if_pos h0, List.mapM_map]
    refine mapM_some _ _ _ fun k hk => ?_
    have := key k hk
    rw [h0] at this ⊢
    simpa using this
  · rw [if_neg h0]
    refine mapM_some _ _ _ fun k hk => ?_
    have := key k hk
    have h1 : c.base = 1 := by omega
    rw [h1] at this ⊢
    simpa using this

/-- `expand_dict` is the same for base index 1. -/
theorem expandDict_partial {c : Cat} (hw : WF c) (hb : c.base = 1) : expandDict c = some (rows c) := by
  have h := expandArray_correct (c := { c with uniq := c.list })
    ⟨hw.base, hw.nodup, hw.srt, hw.lo, hw.hi, hw.wid⟩ rfl
  unfold expandArray at h
  dsimp only at h
  rw [if_neg (by omega)] at h
  exact h

/-! ## Examples and counterexamples -/

example : none ∉ rows { exC with fa := [1, 3, 2] } := by decide
example : compareLabel exC (fun a b => decide (a < b)) ['b', 'b'] = [true, true, false, true, true] := by decide

/-- A filtered row is "smaller" than any label. -/
theorem filtered_less_counterexample : WF exC ∧ (rows exC)[4]? = some none ∧
    (compareLabel exC (fun a b => decide (a < b)) ['a'])[4]? = some true :=
  ⟨exC_wf, by decide, by decide⟩

/-- A filtered row is "in" a list containing the last category. -/
theorem filtered_isin_counterexample : WF exC ∧ (rows exC)[4]? = some none ∧
    (groupingIsin 1 exC.uniq exC.fa [['c']]) = [false, false, true, false, true] :=
  ⟨exC_wf, by decide, by decide⟩

/-- A filtered row gets the count of the last category. -/
theorem filtered_count_counterexample : groupingCount 1 [0, 1, 2, 2, 2] 2 none false = [some 3, some 1, some 3, some 3, some 3] := by decide

/-- With base index 0 every row gets the count of the next category, and the rows of the last category an invalid count. -/
theorem count_base0_counterexample : ∃ fa : List Int, fa = [0, 0, 1] ∧
    groupingCount 0 (fa.map (· + 1)) 2 none false = [some 1, some 1, none] :=
  ⟨_, rfl, by decide⟩

/-- With base index 0 `expand_dict` shifts all labels by one. -/
theorem expandDict_base0_counterexample : ∃ c : Cat, WF c ∧ rows c = [some ['a'], some ['b']] ∧ expandDict c = some [none, some ['a']] :=
  ⟨⟨0, 8, [0, 1], [['a'], ['b']], 1, [['a'], ['b']], true, true, true, false⟩,
    ⟨by decide, by decide, fun _ => by decide, by decide, by decide, by decide⟩, by decide, by decide⟩

end Verif.Cat
