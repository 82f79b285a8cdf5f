import Verif.CatOps.Model
import Verif.Cat.Filtered
/-!
# C95, C96: comparing a Categorical with several values
-/
namespace Verif.CatOps
open Verif.Cat

theorem maskOr_map (n : Nat) (rs : List (Option Label)) (hn : rs.length = n) (ls : List Label) (f : Label → Option Label → Bool) :
    maskOr n (ls.map fun s => rs.map (f s)) = rs.map fun r => ls.any fun s => f s r := by
  apply List.ext_getElem?
  intro i
  by_cases hi : i < n
  · have hr : i < rs.length := by omega
    simp [maskOr, hi, List.any_map, Function.comp_def]
    rw [List.getElem?_eq_getElem hr]
    simp
  · have hr : rs.length ≤ i := by omega
    simp [maskOr, hi, hr]

/-- **C95** `c == [labels]` is True for exactly the rows whose label is one of them. -/
theorem list_eq_exact {c : Cat} (hw : WF c) (ls : List Label) (hl : ls ≠ []) :
    ∃ m, compareList c (fun a b => decide (a = b)) ls = .ok m ∧ m.length = c.fa.length ∧
      ∀ (i : Nat) (r : Option Label), (rows c)[i]? = some r → ∃ b, m[i]? = some b ∧ (b = true ↔ ∃ s ∈ ls, r = some s) := by
  have e : compareList c (fun a b => decide (a = b)) ls = .ok ((rows c).map fun r => ls.any fun s => decide (r = some s)) := by
    unfold compareList
    rw [if_neg hl, ← maskOr_map c.fa.length (rows c) (by simp [rows]) ls fun s r => decide (r = some s)]
    simp only [compare_eq_correct hw]
  refine ⟨_, e, by simp [rows], fun i r hr => ⟨ls.any fun s => decide (r = some s), by rw [List.getElem?_map, hr]; rfl, by simp⟩⟩

/-- **C96** What `c != [labels]` is: True for the rows whose label differs from at least one of them. -/
theorem list_ne_exact {c : Cat} (hw : WF c) (ls : List Label) (hl : ls ≠ []) :
    ∃ m, compareList c (fun a b => decide (a ≠ b)) ls = .ok m ∧ m.length = c.fa.length ∧
      ∀ (i : Nat) (r : Option Label), (rows c)[i]? = some r → ∃ b, m[i]? = some b ∧ (b = true ↔ ∃ s ∈ ls, r ≠ some s) := by
  have e : compareList c (fun a b => decide (a ≠ b)) ls = .ok ((rows c).map fun r => ls.any fun s => decide (r ≠ some s)) := by
    unfold compareList
    rw [if_neg hl, ← maskOr_map c.fa.length (rows c) (by simp [rows]) ls fun s r => decide (r ≠ some s)]
    simp only [compare_ne_correct hw]
  refine ⟨_, e, by simp [rows], fun i r hr => ⟨ls.any fun s => decide (r ≠ some s), by rw [List.getElem?_map, hr]; rfl, by simp⟩⟩

/-- **C96** `c != [labels]` is the opposite of `c == [labels]` if all the labels are the same one. -/
theorem list_ne_partial {c : Cat} (hw : WF c) (ls : List Label) (hl : ls ≠ []) (s0 : Label) (h1 : ∀ s ∈ ls, s = s0) :
    ∃ m, compareList c (fun a b => decide (a ≠ b)) ls = .ok m ∧
      ∀ (i : Nat) (r : Option Label), (rows c)[i]? = some r → ∃ b, m[i]? = some b ∧ (b = true ↔ ¬ ∃ s ∈ ls, r = some s) := by
  obtain ⟨m, e, _, h⟩ := list_ne_exact hw ls hl
  refine ⟨m, e, fun i r hr => ?_⟩
  obtain ⟨b, hb, hi⟩ := h i r hr
  refine ⟨b, hb, hi.trans ?_⟩
  constructor
  · rintro ⟨s, hs, hne⟩ ⟨s', hs', he⟩
    exact hne (by rw [he, h1 s hs, h1 s' hs'])
  · intro hn
    obtain ⟨s, hs⟩ := List.exists_mem_of_ne_nil ls hl
    exact ⟨s, hs, fun he => hn ⟨s, hs, he⟩⟩

/-- **C96** With two different labels `c != [labels]` is True everywhere. -/
theorem list_ne_all {c : Cat} (hw : WF c) (ls : List Label) (a b : Label) (ha : a ∈ ls) (hb : b ∈ ls) (hab : a ≠ b) :
    ∃ m, compareList c (fun x y => decide (x ≠ y)) ls = .ok m ∧ m = List.replicate c.fa.length true := by
  obtain ⟨m, e, hl, h⟩ := list_ne_exact hw ls (List.ne_nil_of_mem ha)
  refine ⟨m, e, List.eq_replicate_iff.2 ⟨hl, fun x hx => ?_⟩⟩
  obtain ⟨i, hi⟩ := List.mem_iff_getElem?.1 hx
  have hil : i < (rows c).length := by have := (List.getElem?_eq_some_iff.1 hi).1; simp [rows]; omega
  obtain ⟨y, hy, hiff⟩ := h i _ (List.getElem?_eq_getElem hil)
  rw [hi] at hy
  obtain rfl := Option.some.inj hy
  refine hiff.2 ?_
  by_cases hr : (rows c)[i] = some a
  · exact ⟨b, hb, by rw [hr]; simpa using hab⟩
  · exact ⟨a, ha, hr⟩

/-- a Categorical of the labels a, b, a -/
def exC : Cat := { base := 1, bits := 8, fa := [1, 2, 1, 0], list := ["a".toList, "b".toList], width := 1, uniq := ["a".toList, "b".toList], shared := true, sorted := true, autoAdd := false, locked := false }

theorem exC_wf : WF exC := ⟨by decide, by decide, by decide, by decide, by decide, by decide⟩

/-- Full statement fails: `c != ['a', 'b']` is True for rows labelled a. -/
theorem list_ne_counterexample : ∃ (c : Cat) (ls : List Label), WF c ∧ ∃ m, compareList c (fun a b => decide (a ≠ b)) ls = .ok m ∧
    (rows c)[0]? = some (some "a".toList) ∧ "a".toList ∈ ls ∧ m[0]? = some true := by
  refine ⟨exC, ["a".toList, "b".toList], exC_wf, [true, true, true, true], by decide +kernel, by decide, by decide, rfl⟩

/-! ## numbers -/

variable {W : Type}

theorem npGet_code (sentinel : W) (c : C W) (hw : c.WF) (k : Int) (hk : k ∈ c.codes) :
    npGet (if c.base = 1 then sentinel :: c.labels else c.labels) k = some ((label? c.base c.labels k).getD sentinel) := by
  have h0 := hw.lo k hk
  have h1 := hw.hi k hk
  have hb := hw.base
  unfold npGet label?
  rw [if_pos h0]
  by_cases h : c.base = 1
  · rw [if_pos h]
    by_cases hz : k < c.base
    · have : k = 0 := by omega
      subst this
      rw [if_pos hz]; rfl
    · have hlt : (k - c.base).toNat < c.labels.length := by omega
      rw [if_neg hz, show k.toNat = (k - c.base).toNat + 1 by omega, List.getElem?_cons_succ, List.getElem?_eq_getElem hlt]
      rfl
  · have hb0 : c.base = 0 := by omega
    have hlt : (k - c.base).toNat < c.labels.length := by omega
    rw [if_neg h, if_neg (by omega), show k.toNat = (k - c.base).toNat by omega, List.getElem?_eq_getElem hlt]
    rfl

/-- **C96** Comparing with as many numbers as rows compares row by row, a filtered row as if it were labelled with the sentinel. -/
theorem array_exact (sentinel : W) (cmp : W → W → Bool) (c : C W) (hw : c.WF) (ys : List W) (i : Nat) (r : Option W) (y : W)
    (hr : c.rows[i]? = some r) (hy : ys[i]? = some y) :
    (compareArray sentinel cmp c ys)[i]? = some (some (cmp (r.getD sentinel) y)) := by
  unfold C.rows at hr
  rw [List.getElem?_map, Option.map_eq_some_iff] at hr
  obtain ⟨k, hk, rfl⟩ := hr
  unfold compareArray
  rw [List.getElem?_zipWith, hk, hy]
  simp only
  rw [npGet_code sentinel c hw k (List.mem_of_getElem? hk)]
  rfl

/-- **C96** A row that is filtered never equals a valid number, a labelled row exactly its label. -/
theorem array_eq_partial [DecidableEq W] (sentinel : W) (c : C W) (hw : c.WF) (ys : List W) (hs : sentinel ∉ ys) (i : Nat) (r : Option W) (y : W)
    (hr : c.rows[i]? = some r) (hy : ys[i]? = some y) :
    (compareArray sentinel (fun a b => decide (a = b)) c ys)[i]? = some (some (decide (r = some y))) := by
  rw [array_exact sentinel _ c hw ys i r y hr hy]
  cases r with
  | none =>
    have : sentinel ≠ y := fun h => hs (h ▸ List.mem_of_getElem? hy)
    simp [this]
  | some x => simp

/-- Full statement fails: a filtered row is smaller than every number. -/
theorem array_filtered_counterexample : ∃ (c : C Int) (ys : List Int), c.WF ∧ c.rows[0]? = some none ∧
    (compareArray (-128) (fun a b => decide (a < b)) c ys)[0]? = some (some true) :=
  ⟨⟨1, [0, 1], [7]⟩, [-5, 7], ⟨by decide, by decide, by decide, by decide⟩, by decide, by decide⟩

/-- concrete cases meeting the hypotheses -/
example : WF exC ∧ compareList exC (fun a b => decide (a = b)) ["a".toList, "z".toList] = .ok [true, false, true, false] :=
  ⟨exC_wf, by decide +kernel⟩

example : (⟨1, [0, 1, 2], [7, 9]⟩ : C Int).WF ∧ compareArray (-128) (fun a b => decide (a = b)) ⟨1, [0, 1, 2], [7, 9]⟩ [7, 7, 8] =
    [some false, some true, some false] := ⟨⟨by decide, by decide, by decide, by decide⟩, by decide⟩

end Verif.CatOps
