import Verif.Shape.PivotProps
/-!
# A grouping that keeps the contract, and examples
-/
namespace Verif.Shape
open Verif.Items (Dict)
open Verif.Idx (Err Table cell_eq_get)

variable {V : Type} [DecidableEq V]

/-- the first rows of the groups -/
def heads (t : Table V) (cols : List String) (n : Nat) : List Nat :=
  (List.range n).filter fun (i : Nat) => decide ((contents t cols n).idxOf (cols.map fun c => cell t c i) = i)

/-- groups in the order of first appearance -/
def refGrp (inv : V) (t : Table V) (n : Nat) (cols : List String) : Grp V where
  codes := (List.range n).map fun (i : Nat) =>
    (heads t cols n).idxOf ((contents t cols n).idxOf (cols.map fun c => cell t c i)) + 1
  uniq := cols.map fun (c : String) => (c, (heads t cols n).map fun (i : Nat) => (cell t c i).getD inv)

/-- **C75** The contract of the grouping can be met for every table: the theorems about `pivot` are not about nothing. -/
theorem refGrp_grouped (inv : V) (t : Table V) (n : Nat) (ht : Rect t n) (cols : List String) (hn : cols.Nodup)
    (hm : ∀ c ∈ cols, c ∈ t.map Prod.fst) :
    Grouped t n cols (refGrp inv t n cols).codes (refGrp inv t n cols).uniq (heads t cols n).length ∧ Full (refGrp inv t n cols).codes ∧
      Used (refGrp inv t n cols).codes (heads t cols n).length := by
  set K := contents t cols n with hK
  set H := heads t cols n with hH
  have hHnd : H.Nodup := List.nodup_range.filter _
  have hHn : ∀ i ∈ H, i < n ∧ K.idxOf (cols.map fun c => cell t c i) = i := by
    intro i hi
    rw [hH, heads, List.mem_filter] at hi
    exact ⟨List.mem_range.1 hi.1, by simpa using hi.2⟩
  have hcell : ∀ c ∈ cols, ∀ (i : Nat), i < n → ∃ v, cell t c i = some v := by
    intro c hc i hi
    obtain ⟨e, he, rfl⟩ := List.mem_map.1 (hm c hc)
    rw [cell_eq_get, Dict.get_of_mem ht.1 he, Option.bind_some]
    exact ⟨_, List.getElem?_eq_getElem (by rw [ht.2 e he]; exact hi)⟩
  have hnames : ((refGrp inv t n cols).uniq).map Prod.fst = cols := by
    simp only [refGrp, List.map_map]; exact List.map_id _
  have hrect : Rect (refGrp inv t n cols).uniq H.length := by
    refine ⟨by rw [hnames]; exact hn, ?_⟩
    intro e he
    simp only [refGrp, List.mem_map] at he
    obtain ⟨c, _, rfl⟩ := he
    simp [hH]
  have hucell : ∀ c ∈ cols, ∀ (x : Nat) (i : Nat), H[x]? = some i → cell (refGrp inv t n cols).uniq c x = cell t c i := by
    intro c hc x i hx
    have hg : Dict.get (refGrp inv t n cols).uniq c = some (H.map fun (i : Nat) => (cell t c i).getD inv) := by
      apply Dict.get_of_mem (by rw [Dict.keys, hnames]; exact hn)
      simp only [refGrp, List.mem_map]
      exact ⟨c, hc, rfl⟩
    obtain ⟨v, hv⟩ := hcell c hc i (hHn i (List.mem_of_getElem? hx)).1
    rw [cell_eq_get, hg, Option.bind_some, List.getElem?_map, hx, Option.map_some, hv]; rfl
  have hrow : ∀ (i : Nat), i < n → K.idxOf (cols.map fun c => cell t c i) ∈ H ∧
      (cols.map fun c => cell t c (K.idxOf (cols.map fun c => cell t c i))) = cols.map fun c => cell t c i := by
    intro i hi
    have hmem : (cols.map fun c => cell t c i) ∈ K := by
      rw [hK]
      exact List.mem_map.2 ⟨i, List.mem_range.2 hi, rfl⟩
    have hlt := List.idxOf_lt_length_of_mem hmem
    have hltn : K.idxOf (cols.map fun c => cell t c i) < n := by simpa [hK, contents] using hlt
    have hget : K[K.idxOf (cols.map fun c => cell t c i)]? = some (cols.map fun c => cell t c i) := by
      rw [List.getElem?_eq_getElem hlt]
      simp
    have hsame : (cols.map fun c => cell t c (K.idxOf (cols.map fun c => cell t c i))) = cols.map fun c => cell t c i := by
      have := hget
      rw [hK, contents_get, if_pos hltn] at this
      exact Option.some.inj this
    refine ⟨?_, hsame⟩
    rw [hH, heads, List.mem_filter]
    refine ⟨List.mem_range.2 hltn, ?_⟩
    rw [decide_eq_true_eq, hsame]
  refine ⟨⟨hnames, hrect, ?_⟩, ?_, ?_⟩
  · refine ⟨by simp [refGrp, hK, contents], ?_, ?_⟩
    · intro i x hx
      simp only [refGrp] at hx
      rw [get_range_map] at hx
      by_cases hi : i < n
      · rw [if_pos hi] at hx
        have hx' : H.idxOf (K.idxOf (cols.map fun c => cell t c i)) = x := by simpa using hx
        obtain ⟨h1, h2⟩ := hrow i hi
        have hlt := List.idxOf_lt_length_of_mem h1
        rw [hx'] at hlt
        have hHx : H[x]? = some (K.idxOf (cols.map fun c => cell t c i)) := by
          rw [List.getElem?_eq_getElem hlt]
          subst hx'
          simp
        refine ⟨cols.map fun c => cell t c i, by rw [contents_get, if_pos hi], ?_⟩
        rw [contents_get, if_pos hlt, ← h2]
        congr 1
        apply List.map_congr_left
        intro c hc
        exact hucell c hc x _ hHx
      · rw [if_neg hi] at hx; simp at hx
    · rw [contents, List.nodup_map_iff_inj_on List.nodup_range]
      intro a ha b hb hab
      rw [List.mem_range] at ha hb
      have e : ∀ (x : Nat) (hx : x < H.length), (cols.map fun c => cell (refGrp inv t n cols).uniq c x) = cols.map fun c => cell t c H[x] := by
        intro x hx
        apply List.map_congr_left
        intro c hc
        exact hucell c hc x _ (List.getElem?_eq_getElem hx)
      rw [e a ha, e b hb] at hab
      have h1 := (hHn H[a] (List.getElem_mem ha)).2
      have h2 := (hHn H[b] (List.getElem_mem hb)).2
      rw [hab, h2] at h1
      exact (List.Nodup.getElem_inj_iff hHnd).1 h1.symm
  · intro h
    simp [refGrp] at h
  · intro x hx
    simp only [refGrp, List.mem_map, List.mem_range]
    obtain ⟨h1, h2⟩ := hHn H[x] (List.getElem_mem hx)
    refine ⟨H[x], h1, ?_⟩
    rw [← hH, ← hK, h2, hHnd.idxOf_getElem]

/-! ## examples -/

/-- three rows, two labels, two keys; one combination does not occur -/
example : pivot "" id (refGrp "" [("k", ["x", "x", "y"]), ("c", ["a", "b", "a"]), ("v", ["1", "2", "3"])] 3) true
    [("k", ["x", "x", "y"]), ("c", ["a", "b", "a"]), ("v", ["1", "2", "3"])] 3 (some ["k"]) ["c"] none none =
    .ok (.dataset [("k", ["x", "y"]), ("a", ["1", "3"]), ("b", ["2", ""])]) := by decide +kernel

/-- two value columns -/
example : pivot "" id (refGrp "" [("k", ["x", "y"]), ("c", ["a", "a"]), ("v", ["1", "2"]), ("w", ["3", "4"])] 2) true
    [("k", ["x", "y"]), ("c", ["a", "a"]), ("v", ["1", "2"]), ("w", ["3", "4"])] 2 (some ["k"]) ["c"] none none =
    .ok (.multiset [("v", [("k", ["x", "y"]), ("a", ["1", "2"])]), ("w", [("k", ["x", "y"]), ("a", ["3", "4"])])]) := by decide +kernel

/-- **C75** (counterexample to `pivot_wide` without its condition on names) two different keys with the same text: `a_b` with `c`, and `a`
with `b_c`. One column is lost without an exception. -/
theorem pivot_name_counterexample : pivot "" id (refGrp "" [("k", ["x", "x"]), ("c", ["a_b", "a"]), ("d", ["c", "b_c"]), ("v", ["1", "2"])] 2)
    true [("k", ["x", "x"]), ("c", ["a_b", "a"]), ("d", ["c", "b_c"]), ("v", ["1", "2"])] 2 (some ["k"]) ["c", "d"] (some ["v"]) none =
    .ok (.dataset [("k", ["x"]), ("a_b_c", ["2"])]) := by decide +kernel

/-- **C75** (the same) a key that is the name of a label column replaces the labels -/
theorem pivot_label_counterexample : pivot "" id (refGrp "" [("k", ["x", "y"]), ("c", ["k", "k"]), ("v", ["1", "2"])] 2) true
    [("k", ["x", "y"]), ("c", ["k", "k"]), ("v", ["1", "2"])] 2 (some ["k"]) ["c"] (some ["v"]) none =
    .ok (.dataset [("k", ["1", "2"])]) := by decide +kernel

/-- **C75** (disagreement) two rows with different keys removed by a filter, if they are counted in bin 0 -/
theorem pivot_filter_counterexample : pivot "" id (refGrp "" [("k", ["x", "y", "z"]), ("c", ["a", "a", "a"]), ("v", ["1", "2", "3"])] 3) true
    [("k", ["x", "y", "z"]), ("c", ["a", "a", "a"]), ("v", ["1", "2", "3"])] 3 (some ["k"]) ["c"] (some ["v"]) (some [true, false, false]) =
    .error .valueError := by decide +kernel

/-- the hypotheses of `pivot_melt` are met -/
example : ∃ m t', melt "" id [("k", ["x", "y"]), ("a", ["1", "2"]), ("b", ["3", "4"])] 2 [] ["k"] none none "value" none = .ok m ∧
    pivot "" id (refGrp "" m 4) true m 4 (some ["k"]) ["variable"] (some ["value"]) none = .ok (.dataset t') ∧
    (t'.map Prod.fst).Perm ["k", "a", "b"] := by
  obtain ⟨m, h1, h2⟩ := melt_long "" id [("k", ["x", "y"]), ("a", ["1", "2"]), ("b", ["3", "4"])] 2 (by simp [Rect]) [] ["k"] none none
    "value" (by simp) (by simp) (by simp) (by decide) (by simp) (by simp) (by simp)
  have hW : valueCols (([("k", ["x", "y"]), ("a", ["1", "2"]), ("b", ["3", "4"])] : Table String).map Prod.fst) ["k"] none = ["a", "b"] := by decide
  rw [hW] at h2
  have hmn : m.map Prod.fst = ["k", "variable", "value"] := h2.names
  have hk := refGrp_grouped "" m 4 h2.rect ["k"] (by simp) (by rw [hmn]; simp)
  have hv := refGrp_grouped "" m 4 h2.rect ["variable"] (by simp) (by rw [hmn]; simp)
  obtain ⟨t', g1, g2, _⟩ := pivot_melt "" id id (fun _ => rfl) (refGrp "" m 4) true [("k", ["x", "y"]), ("a", ["1", "2"]), ("b", ["3", "4"])] 2 (by simp)
    (by simp [Rect]) ["k"] ["a", "b"] (by simp) (by simp) (by simp) (by simp) (by simp) (by simp) (by simp) "variable" "value"
    (by
      intro i j hi hj h
      have hi' : i = 0 ∨ i = 1 := by omega
      have hj' : j = 0 ∨ j = 1 := by omega
      rcases hi' with rfl | rfl <;> rcases hj' with rfl | rfl <;> first | rfl | (exfalso; revert h; decide)) m h2 _ _ hk.1 hv.1 hk.2.1 hv.2.1 hk.2.2 hv.2.2
  exact ⟨m, t', h1, g1, g2⟩

end Verif.Shape
