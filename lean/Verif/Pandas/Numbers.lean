import Verif.Pandas.Model
/-! # Integers and Dates to pandas and back (C201, C202, C203, C204) -/
namespace Verif.Pandas
open Verif.NpOps hiding Err
open Verif.Arrow

/-- **C201** An integer column goes to pandas with the same numbers; missing values are missing there. -/
theorem toPandasInt_shows (a : IntArr) : (toPandasInt true a).shows = Arrow.shown a.sg a.w a.vals := rfl

/-- **C201** An integer column comes back from pandas with its type and its values, with `use_nullable` and without. -/
theorem int_round_trip (useNullable : Bool) (a : IntArr) : fromPandasInt (toPandasInt useNullable a) = a := by
  obtain ⟨sg, w, vals⟩ := a
  cases useNullable with
  | false => rfl
  | true =>
    show IntArr.mk sg w ((vals.map fun v => if v = missing sg w then none else some v).map fun r => r.getD (missing sg w)) = _
    congr 1
    rw [List.map_map]
    conv_rhs => rw [← List.map_id vals]
    apply List.map_congr_left
    intro v _
    by_cases h : v = missing sg w
    · simp [h]
    · simp [h]

example : toPandasInt true ⟨true, 0, [1, -128, 3]⟩ = .nullable true 0 [some 1, none, some 3] := by decide

/-- **C202 (partial)** With `use_nullable=False` pandas shows the values of a column that has no missing values; only then. -/
theorem plain_shows_exact (a : IntArr) : (toPandasInt false a).shows = Arrow.shown a.sg a.w a.vals ↔ missing a.sg a.w ∉ a.vals := by
  show a.vals.map some = a.vals.map (fun v => if v = missing a.sg a.w then none else some v) ↔ _
  rw [List.map_inj_left]
  constructor
  · intro h hm
    have := h _ hm
    simp at this
  · intro h v hv
    rw [if_neg]
    rintro rfl
    exact h hv

/-- **C202** violated: without `use_nullable` the missing value is a number in pandas. -/
theorem plain_counterexample : (toPandasInt false ⟨true, 0, [1, -128]⟩).shows = [some 1, some (-128)] ∧
    Arrow.shown true 0 [1, -128] = [some 1, none] := by decide

/-- **C203 (partial)** A nullable column of pandas comes with its rows, unless one of its numbers is the missing value of riptable; then
not. -/
theorem fromPandasInt_exact (sg : Bool) (w : Fin 4) (rows : List (Option Int)) :
    Arrow.shown (fromPandasInt (.nullable sg w rows)).sg (fromPandasInt (.nullable sg w rows)).w (fromPandasInt (.nullable sg w rows)).vals = rows ↔
      some (missing sg w) ∉ rows := by
  show (rows.map fun r => r.getD (missing sg w)).map (fun v => if v = missing sg w then none else some v) = rows ↔ _
  rw [List.map_map]
  constructor
  · intro h hm
    rw [List.map_eq_iff] at h
    obtain ⟨i, hi, he⟩ := List.getElem_of_mem hm
    have := h i
    rw [List.getElem?_eq_getElem hi, he] at this
    simp at this
  · intro h
    conv_rhs => rw [← List.map_id rows]
    apply List.map_congr_left
    intro r hr
    cases r with
    | none => simp
    | some v =>
      have : v ≠ missing sg w := by rintro rfl; exact h hr
      simp [this]

/-- **C203** The type stays, and so does the number of rows. -/
theorem fromPandasInt_type (sg : Bool) (w : Fin 4) (rows : List (Option Int)) :
    (fromPandasInt (.nullable sg w rows)).sg = sg ∧ (fromPandasInt (.nullable sg w rows)).w = w ∧
    (fromPandasInt (.nullable sg w rows)).vals.length = rows.length := ⟨rfl, rfl, List.length_map _⟩

/-- **C203** violated: the numbers -128 of `Int8` and 65535 of `UInt16` are lost without an error (`from_arrow` raises). -/
theorem fromPandasInt_counterexample :
    Arrow.shown true 0 (fromPandasInt (.nullable true 0 [some 5, some (-128)])).vals = [some 5, none] ∧
    Arrow.shown false 1 (fromPandasInt (.nullable false 1 [some 65535])).vals = [none] := by decide

/-- **C204 (partial)** A Date column goes to pandas as the numbers of its days. Missing: it is no column of dates. -/
theorem date_days_partial (days : List Int) : (toPandasDate true days).shows = Arrow.shown true 2 days ∧
    (fromPandasInt (toPandasDate true days)).vals = days := ⟨rfl, congrArg IntArr.vals (int_round_trip true ⟨true, 2, days⟩)⟩

/-- **C204** violated: pandas has the same column for a Date and for an array of 32 bit integers, so no conversion back can tell them
apart; and day 0, which is a missing Date, is a number there. -/
theorem date_counterexample : (∀ (useNullable : Bool) (days : List Int), toPandasDate useNullable days = toPandasInt useNullable ⟨true, 2, days⟩) ∧
    (toPandasDate true [0, 1]).shows = [some 0, some 1] ∧ [0, 1].map (dateShown (least true 2)) = [none, some 1] := by
  refine ⟨fun _ _ => rfl, ?_, ?_⟩ <;> decide

end Verif.Pandas
