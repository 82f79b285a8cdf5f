import Verif.Outlier.Spec
import Mathlib.Tactic.NormNum
/-! # Outliers (C385, C386) -/
namespace Verif.Outlier

theorem four (keep : String) (a b c d : List Cell) (h1 : keep ≠ "Values") (h2 : keep ≠ "Pos") (h3 : keep ≠ "Names") :
    assign (assign (assign (assign [] "Values" a) keep b) "Pos" c) "Names" d = [("Values", a), (keep, b), ("Pos", c), ("Names", d)] := by
  simp [assign, h1, Ne.symm h2, Ne.symm h3]

theorem applyOutlier_describes (le : ℚ → ℚ → Prop) (arg : Arg) (ha : Finds le arg) (dflt : Cell) (ds : List (String × Col)) (keep : String) (k : Col)
    (hk : ds.lookup keep = some k) (hlen : ∀ n l, (n, Col.num l) ∈ ds → l.length = k.cells.length)
    (h1 : keep ≠ "Values") (h2 : keep ≠ "Pos") (h3 : keep ≠ "Names") :
    ∃ out, applyOutlier arg dflt ds keep = some out ∧ Describes le ds keep k.cells out := by
  simp only [applyOutlier, hk]
  rw [four _ _ _ _ _ h1 h2 h3]
  refine ⟨_, rfl, _, _, _, _, rfl, rfl, by simp [others], by simp [others], by simp [others], ?_⟩
  intro i n l hi ⟨v0, hv0⟩
  obtain ⟨f1, f2⟩ := ha l
  cases hp : arg l with
  | none => exact absurd hp (f1 v0 hv0)
  | some p =>
    obtain ⟨v, e, hle⟩ := f2 p hp
    have hpl : p < l.length := (List.getElem?_eq_some_iff.1 e).1
    have hmem : (n, Col.num l) ∈ ds := (List.mem_filter.1 (List.mem_of_getElem? hi)).1
    have hkl : p < k.cells.length := by rw [← hlen n l hmem]; exact hpl
    have hr : row arg k.cells dflt (Col.num l) = (.num (some v), k.cells[p], .num (some (p : ℚ))) := by
      have hc : (Col.num l).cells = l.map Cell.num := rfl
      simp only [row, pos, hp, hc, List.getD_eq_getElem?_getD, List.getElem?_map, e, Option.map_some, Option.getD_some]
      rw [List.getElem?_eq_getElem hkl, Option.getD_some]
    have ho : (others ds keep)[i]? = some (n, Col.num l) := hi
    refine ⟨p, v, e, hle, ?_, ?_, ?_⟩
    · simp only [List.map_map, List.getElem?_map, ho, Option.map_some, Function.comp_apply, hr]
    · simp only [List.map_map, List.getElem?_map, ho, Option.map_some, Function.comp_apply, hr]
    · simp only [List.map_map, List.getElem?_map, ho, Option.map_some, Function.comp_apply, hr]
      rw [List.getElem?_eq_getElem hkl]

/-- C385: the least and the largest number of every other column, with the row and what is kept there -/
theorem outliers_correct (argmin argmax : Arg) (hmin : Finds (fun w v => v ≤ w) argmin) (hmax : Finds (fun w v => w ≤ v) argmax) (dflt : Cell)
    (ds : List (String × Col)) (keep : String) (k : Col) (hk : ds.lookup keep = some k)
    (hlen : ∀ n l, (n, Col.num l) ∈ ds → l.length = k.cells.length)
    (h1 : keep ≠ "Values") (h2 : keep ≠ "Pos") (h3 : keep ≠ "Names") :
    ∃ a b, outliers argmin argmax dflt ds keep = some (a, b) ∧ Describes (fun w v => v ≤ w) ds keep k.cells a ∧
      Describes (fun w v => w ≤ v) ds keep k.cells b := by
  obtain ⟨a, ea, ha⟩ := applyOutlier_describes _ argmin hmin dflt ds keep k hk hlen h1 h2 h3
  obtain ⟨b, eb, hb⟩ := applyOutlier_describes _ argmax hmax dflt ds keep k hk hlen h1 h2 h3
  exact ⟨a, b, by simp [outliers, ea, eb], ha, hb⟩

/-- C385: columns without numbers have NaN and the row -1 -/
theorem no_numbers (arg : Arg) (dflt : Cell) (ds : List (String × Col)) (keep : String) (k : Col) (hk : ds.lookup keep = some k)
    (h1 : keep ≠ "Values") (h2 : keep ≠ "Pos") (h3 : keep ≠ "Names") (i : Nat) (n : String) (l : List String)
    (hi : (ds.filter fun c => c.1 ≠ keep)[i]? = some (n, Col.text l)) :
    ∃ values whose rows names, applyOutlier arg dflt ds keep = some [("Values", values), (keep, whose), ("Pos", rows), ("Names", names)] ∧
      names[i]? = some (.text n) ∧ values[i]? = some (.num none) ∧ whose[i]? = some dflt ∧ rows[i]? = some (.num (some (-1))) := by
  simp only [applyOutlier, hk]
  rw [four _ _ _ _ _ h1 h2 h3]
  have ho : (others ds keep)[i]? = some (n, Col.text l) := hi
  refine ⟨_, _, _, _, rfl, ?_, ?_, ?_, ?_⟩
  · simp only [List.getElem?_map, ho, Option.map_some]
  all_goals simp only [List.map_map, List.getElem?_map, ho, Option.map_some, Function.comp_apply, row, pos]

/-- a column that is not there raises -/
theorem missing_raises (argmin argmax : Arg) (dflt : Cell) (ds : List (String × Col)) (keep : String) (h : ds.lookup keep = none) :
    outliers argmin argmax dflt ds keep = none := by
  simp [outliers, applyOutlier, h]

/-- C386: with one of these three names a column of the result is missing, whatever the data -/
theorem one_lost (arg : Arg) (dflt : Cell) (ds : List (String × Col)) (keep : String) (k : Col) (hk : ds.lookup keep = some k)
    (h : keep = "Values" ∨ keep = "Pos" ∨ keep = "Names") :
    ∃ out, applyOutlier arg dflt ds keep = some out ∧ out.length = 3 := by
  simp only [applyOutlier, hk]
  refine ⟨_, rfl, ?_⟩
  rcases h with rfl | rfl | rfl <;> simp [assign]

/-- finds the first of the largest numbers -/
def firstBest (le : ℚ → ℚ → Bool) : Arg
  | [] => none
  | none :: l => (firstBest le l).map (· + 1)
  | some v :: l => match firstBest le l with
    | none => some 0
    | some p => if le ((l.getD p none).getD v) v then some 0 else some (p + 1)

def sample (keep : String) : List (String × Col) :=
  [("a", .num [some 3, none, some 7]), (keep, .text ["x", "y", "z"]), ("b", .num [some 5, some 9, some 4])]

/-- With a column called Values the values are lost, with one called Pos or Names what was to be kept. -/
theorem names_counterexample :
    let f := fun keep => applyOutlier (firstBest fun a b => decide (a ≤ b)) (.text "") (sample keep) keep
    f "Values" = some [("Values", [.text "z", .text "y"]), ("Pos", [.num (some 2), .num (some 1)]), ("Names", [.text "a", .text "b"])] ∧
    f "Pos" = some [("Values", [.num (some 7), .num (some 9)]), ("Pos", [.num (some 2), .num (some 1)]), ("Names", [.text "a", .text "b"])] ∧
    f "Names" = some [("Values", [.num (some 7), .num (some 9)]), ("Names", [.text "a", .text "b"]), ("Pos", [.num (some 2), .num (some 1)])] := by
  decide +kernel

/-! ## Concrete cases -/

theorem firstBest_finds : Finds (fun w v => w ≤ v) (firstBest fun a b => decide (a ≤ b)) := by
  intro l
  induction l with
  | nil => exact ⟨fun v h => by simp at h, fun p h => by simp [firstBest] at h⟩
  | cons x l ih =>
    obtain ⟨i1, i2⟩ := ih
    cases x with
    | none =>
      constructor
      · intro v hv
        have := i1 v (by simpa using hv)
        simpa [firstBest] using this
      · intro p hp
        simp only [firstBest, Option.map_eq_some_iff] at hp
        obtain ⟨q, hq, rfl⟩ := hp
        obtain ⟨v, e, hle⟩ := i2 q hq
        exact ⟨v, by simpa using e, fun w hw => hle w (by simpa using hw)⟩
    | some x =>
      cases hb : firstBest (fun a b => decide (a ≤ b)) l with
      | none =>
        have e0 : firstBest (fun a b => decide (a ≤ b)) (some x :: l) = some 0 := by simp [firstBest, hb]
        refine ⟨fun v _ => by simp [e0], fun p hp => ?_⟩
        obtain rfl := Option.some.inj (e0.symm.trans hp)
        refine ⟨x, rfl, fun w hw => ?_⟩
        rcases List.mem_cons.1 hw with h | h
        · exact (Option.some.inj h).le
        · exact absurd hb (i1 w h)
      | some q =>
        obtain ⟨v, e, hle⟩ := i2 q hb
        have e0 : firstBest (fun a b => decide (a ≤ b)) (some x :: l) = if v ≤ x then some 0 else some (q + 1) := by
          simp [firstBest, hb, e]
        rw [e0]
        by_cases hvx : v ≤ x
        · rw [if_pos hvx]
          refine ⟨fun _ _ => by simp, fun p hp => ?_⟩
          obtain rfl := Option.some.inj hp
          refine ⟨x, rfl, fun w hw => ?_⟩
          rcases List.mem_cons.1 hw with h | h
          · exact (Option.some.inj h).le
          · exact (hle w h).trans hvx
        · rw [if_neg hvx]
          refine ⟨fun _ _ => by simp, fun p hp => ?_⟩
          obtain rfl := Option.some.inj hp
          refine ⟨v, by simpa using e, fun w hw => ?_⟩
          rcases List.mem_cons.1 hw with h | h
          · rw [Option.some.inj h]; exact (not_le.1 hvx).le
          · exact hle w h

example : applyOutlier (firstBest fun a b => decide (a ≤ b)) (.text "") (sample "k") "k" =
    some [("Values", [.num (some 7), .num (some 9)]), ("k", [.text "z", .text "y"]), ("Pos", [.num (some 2), .num (some 1)]),
      ("Names", [.text "a", .text "b"])] := by decide +kernel

end Verif.Outlier
