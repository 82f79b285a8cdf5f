import Verif.CatNew.Lookup
/-! # Categoricals: counterexamples and examples

Values are natural numbers standing for strings or numbers; only their order matters. -/
namespace Verif.CatNew

instance : DecidableEq (Except Err (List Bool)) := fun a b => by
  cases a with
  | error e => cases b with
    | error e' => exact if h : e = e' then .isTrue (by rw [h]) else .isFalse (by simpa using h)
    | ok _ => exact .isFalse (by simp)
  | ok l => cases b with
    | error _ => exact .isFalse (by simp)
    | ok l' => exact if h : l = l' then .isTrue (by rw [h]) else .isFalse (by simpa using h)

/-- the Categorical, if there is one -/
def got {A E : Type} : Except E A → Option A
  | .ok a => some a
  | .error _ => none

def showRows (x : Option (C Nat)) (n : Nat) : List (Option (Row Nat)) :=
  match x with
  | none => []
  | some c => (List.range n).map fun i => getItem c i

/-! ## C156: one array -/

/-- `Categorical([7, 5, 7, 6])` -/
def one : Except Err (C Nat) := newOfArrays [(none, [7, 5, 7, 6])] {}

example : showRows (got one) 4 = [some (.label [7]), some (.label [5]), some (.label [7]), some (.label [6])] ∧
    (got one).map catRows = some [[5], [6], [7]] := by decide +kernel

example : showRows (got (newOfArrays [(none, [7, 5, 7, 6])] { base := some 0, ordered := some false })) 4 =
    [some (.label [7]), some (.label [5]), some (.label [7]), some (.label [6])] ∧
    (got (newOfArrays [(none, [7, 5, 7, 6])] { base := some 0, ordered := some false })).map catRows = some [[7], [5], [6]] := by decide +kernel

example : showRows (got (newOfArrays [(none, [7, 5, 7, 6])] { filter := some [true, true, false, false] })) 4 =
    [some (.label [7]), some (.label [5]), some .filtered, some .filtered] := by decide +kernel

/-! ## C157: several arrays -/

/-- Arrays named `key_c2`, `x` and `x`: the third is renamed to `key_c2` and takes the place of the first. -/
theorem newOfArrays_names_counterexample : ∃ (arrs : List (Option Name × List Nat)) (c : C Nat), newOfArrays arrs {} = .ok c ∧
    (∀ a ∈ arrs, a.2.length = 2) ∧ keysOf (arrs.map (·.2)) 0 ≠ keysOf (arrs.map (·.2)) 1 ∧ getItem c 0 = getItem c 1 := by
  refine ⟨[(some "key_c2".toList, [1, 2]), (some "x".toList, [3, 3]), (some "x".toList, [4, 4])], _, rfl, ?_, ?_, ?_⟩
  · decide
  · decide
  · decide +kernel

example : NoClash ([(some "key_c2".toList, [1, 2]), (some "x".toList, [3, 3]), (some "x".toList, [4, 4])] : List (Option Name × List Nat)) → False := by
  rintro (h | h)
  · simp at h
  · exact h _ (List.mem_cons_self) 2 rfl

example : NoClash ([(none, [1, 2, 1]), (some "x".toList, [3, 3, 3])] : List (Option Name × List Nat)) := by
  right
  intro a ha i h
  simp only [List.mem_cons, List.not_mem_nil, or_false] at ha
  rcases ha with rfl | rfl
  · cases h
  · have := Option.some.inj h
    simp [dupName] at this

example : showRows (got (newOfArrays [(none, [1, 2, 1]), (some "x".toList, [3, 3, 3])] {})) 3 =
    [some (.label [1, 3]), some (.label [2, 3]), some (.label [1, 3])] := by decide +kernel

/-! ## C158: values and categories -/

/-- An array without rows, with categories and base index 0, is refused although every value is a category. -/
theorem newOfMembers_empty_counterexample : ∃ (vals cats : List Nat) (o : Opts Nat), Allowed vals.length cats o ∧ (∀ v ∈ vals, v ∈ cats) ∧
    ¬ ∃ c, newOfMembers vals cats o = .ok c := by
  refine ⟨[], [5], { base := some 0 }, ⟨by simp, by simp, by simp, rfl⟩, by simp, ?_⟩
  rintro ⟨c, h⟩
  revert h
  simp [newOfMembers, unknown, groupingOfMembers, memberCodes, recastIfAsked, combineFilter, filterFits]

example : showRows (got (newOfMembers [7, 5, 7] [5, 7, 9] {})) 3 = [some (.label [7]), some (.label [5]), some (.label [7])] ∧
    showRows (got (newOfMembers [7, 5, 8] [5, 7, 9] { filter := some [true, true, true] })) 3 = [some (.label [7]), some (.label [5]), some .filtered] ∧
    (got (newOfMembers [7, 5, 8] [5, 7, 9] {})).isNone := by decide +kernel

/-! ## C159: codes and categories -/

/-- The unsigned code 257 is accepted with one category and shows it. -/
theorem newOfCodes_unsigned_counterexample : ∃ (codes : List Int) (cats : List Nat) (c : C Nat), newOfCodes codes true cats {} = .ok c ∧
    ¬ (∀ k ∈ codes, InRange 1 cats.length k) ∧ getItem c 0 = some (.label [5]) := by
  refine ⟨[257], [5], _, rfl, ?_, ?_⟩
  · decide
  · decide +kernel

example : showRows (got (newOfCodes [2, 0, 1] false [7, 5] {})) 3 = [some (.label [5]), some .filtered, some (.label [7])] ∧
    showRows (got (newOfCodes [1, 0] true [7, 5] { base := some 0, dtype := some 16 })) 2 = [some (.label [5]), some (.label [7])] ∧
    (got (newOfCodes [3] false [7, 5] {})).isNone := by decide +kernel

example : Allowed 3 [7, 5] ({} : Opts Nat) ∧ ∀ k ∈ ([2, 0, 1] : List Int), InRange 1 2 k := by
  refine ⟨⟨by simp, by simp, by simp, rfl⟩, by decide⟩

/-! ## C160: pandas -/

example : showRows (got (newOfPandas [1, -1, 0] 8 [5, 7] false {})) 3 = [some (.label [7]), some .filtered, some (.label [5])] := by decide +kernel

/-! ## C161, C162: rows and copies -/

example : showRows ((got one).bind fun c => got (select c (.slice (some (-3)) none 2))) 2 = [some (.label [5]), some (.label [6])] ∧
    showRows ((got one).bind fun c => got (select c (.ints [3, 9, -1]))) 3 = [some (.label [6]), some .filtered, some (.label [6])] ∧
    showRows ((got one).bind fun c => got (select c (.mask [true, false, false, true]))) 2 = [some (.label [7]), some (.label [6])] := by decide +kernel

/-- A copy of a Categorical with base index 0 shows other rows. -/
theorem copy_base0_counterexample : ∃ (c : C Nat), newOfArrays [(none, [5, 7])] { base := some 0 } = .ok c ∧
    [getItem c 0, getItem c 1] = [some (.label [5]), some (.label [7])] ∧
    [getItem (copy c) 0, getItem (copy c) 1] = [some .filtered, some (.label [5])] := by
  refine ⟨_, rfl, ?_, ?_⟩ <;> decide +kernel

example : ∃ (c : C Nat), one = .ok c ∧ c.g.base = 1 := ⟨_, rfl, rfl⟩

/-! ## C163, C164: the invalid category -/

/-- The row that is invalid in the Categorical is valid in its slice and in its copy. -/
theorem select_invalid_counterexample : ∃ (c r : C Nat), newOfArrays [(none, [5, 7])] { invalid := some 5 } = .ok c ∧
    select c (.slice none none 1) = .ok r ∧ isnan c = [true, false] ∧ isnan r = [false, false] ∧ isnan (copy c) = [false, false] := by
  refine ⟨_, _, rfl, rfl, ?_, ?_, ?_⟩ <;> decide +kernel

/-- `invalid_set` refuses bytes, which it is written to accept. -/
theorem invalidSet_bytes_counterexample : ∃ (c : C Nat) (s : Nat), newOfArrays [(none, [5, 7])] {} = .ok c ∧ [s] ∈ catRows c ∧
    invalidSet c (.bytes s) = .error .typeError := by
  refine ⟨_, 5, rfl, ?_, rfl⟩
  decide +kernel

example : ∃ (c : C Nat), newOfArrays [(none, [5, 7])] { invalid := some 5 } = .ok c ∧ WF c :=
  ⟨_, rfl, newOfArrays_wf (a := (none, [5, 7])) (o := { invalid := some 5 }) rfl (Or.inl rfl) (by decide)⟩

/-! ## C165: comparisons -/

/-- A Categorical whose categories are not sorted is compared by the order of the categories and not refused, although it was made with
`ordered=False`: 7 is said to be smaller than 5. -/
theorem compare_unordered_counterexample : ∃ (c : C Nat), newOfArrays [(none, [7, 5, 9])] { ordered := some false } = .ok c ∧
    getItem c 0 = some (.label [7]) ∧ compare c .lt 5 = .ok [true, false, false] := by
  refine ⟨_, rfl, ?_, ?_⟩ <;> decide +kernel

/-- The slice of a copy is not known to be sorted: all rows are smaller than a label that is no category. -/
theorem compare_copy_counterexample : ∃ (c r : C Nat), newOfArrays [(none, [5, 9])] {} = .ok c ∧ select (copy c) (.slice none none 1) = .ok r ∧
    [getItem r 0, getItem r 1] = [getItem c 0, getItem c 1] ∧ compare c .lt 7 = .ok [true, false] ∧ compare r .lt 7 = .ok [true, true] := by
  refine ⟨_, _, rfl, rfl, ?_, ?_, ?_⟩ <;> decide +kernel

example : ∃ (c : C Nat), one = .ok c ∧ c.sorted = true ∧ compare c .le 6 = .ok [false, true, false, true] := by
  refine ⟨_, rfl, rfl, ?_⟩
  decide +kernel

/-! ## C166, C167: codes of labels -/

example : ∃ (c : C Nat), one = .ok c ∧ fromCategory c 6 = some 2 ∧ fromCategory c 8 = none ∧ fromCategory c 4 = none := by
  refine ⟨_, rfl, ?_, ?_, ?_⟩ <;> decide +kernel

/-- A key of two parts that is no category gets a code. -/
theorem fromCategoryTuple_counterexample : ∃ (c : C Nat), newOfArrays [(none, [1, 2]), (none, [3, 4])] {} = .ok c ∧ [1, 4] ∉ catRows c ∧
    fromCategoryTuple c [1, 4] = .ok (-1) := by
  refine ⟨_, rfl, ?_, ?_⟩
  · decide +kernel
  · exact fromCategoryTuple_missing_exact (by decide +kernel) rfl

example : ∃ (c : C Nat), newOfArrays [(none, [1, 2]), (none, [3, 4])] {} = .ok c ∧ (catRows c)[1]? = some [2, 4] ∧ (catRows c).Nodup := by
  refine ⟨_, rfl, ?_, ?_⟩ <;> decide +kernel

end Verif.CatNew
