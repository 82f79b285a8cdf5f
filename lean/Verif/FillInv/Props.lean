import Verif.FillInv.Model
/-! # Filling with invalids: properties (C369 - C371) -/
namespace Verif.FillInv

/-- every element is invalid for the class and type of the array -/
def AllInvalid (x : Arr) : Prop := ∀ v ∈ x.vals, Invalid x.cls x.dtype v

theorem dict_invalid {t : DType} {v : Val} (ht : t ≠ .bool) (h : invalidDict t = some v) : InvalidNumber t v := by
  unfold invalidDict at h
  split at h <;> first | exact absurd rfl ht | cases h
  all_goals first | rfl | decide

theorem fillWith_ok {x : Arr} {n : Nat} {t : DType} {ip : Bool} {w : Class} {v : Val} {o : Option Arr} (hw : w = x.cls) (hv : Invalid x.cls t v)
    (h : (fillWith x n t ip w v).2 = .ok o) :
    (ip = true → o = none ∧ AllInvalid (fillWith x n t ip w v).1 ∧ (fillWith x n t ip w v).1.vals.length = x.vals.length ∧
      (fillWith x n t ip w v).1.cls = x.cls ∧ (fillWith x n t ip w v).1.dtype = x.dtype) ∧
    (ip = false → (fillWith x n t ip w v).1 = x ∧ ∃ y, o = some y ∧ AllInvalid y ∧ y.vals.length = n ∧ y.cls = x.cls ∧ y.dtype = t) := by
  subst hw
  unfold fillWith at h ⊢
  cases ip with
  | true =>
    refine ⟨fun _ => ?_, by simp⟩
    rw [if_pos rfl] at h ⊢
    by_cases h1 : n ≠ x.vals.length
    · rw [if_pos h1] at h
      cases h
    · rw [if_neg h1] at h ⊢
      by_cases h2 : t ≠ x.dtype
      · rw [if_pos h2] at h
        cases h
      · rw [if_neg h2] at h ⊢
        have h2 : t = x.dtype := by simpa using h2
        cases h
        refine ⟨rfl, ?_, by simp, rfl, rfl⟩
        intro u hu
        obtain ⟨_, _, rfl⟩ := List.mem_map.1 hu
        exact h2 ▸ hv
  | false =>
    refine ⟨by simp, fun _ => ?_⟩
    rw [if_neg (by simp)] at h ⊢
    cases h
    refine ⟨rfl, _, rfl, ?_, by simp, rfl, rfl⟩
    intro u hu
    obtain rfl := List.eq_of_mem_replicate hu
    exact hv

/-- **C369** Whenever `fill_invalid` returns, in place: the array has as many elements as before, of the same class and type, and all of them are invalid;
otherwise: the array is as before, and the result is of its class, has the length asked for, and all of its elements are invalid. Not for bools. -/
theorem fill_invalid_correct (x : Arr) (hx : Typed x) (hb : x.dtype ≠ .bool) (shape : Option Nat) (dtype : Option DType) (hd : dtype ≠ some .bool)
    (ip : Bool) (o : Option Arr) (h : (fillInvalid x shape dtype ip).2 = .ok o) :
    (ip = true → o = none ∧ AllInvalid (fillInvalid x shape dtype ip).1 ∧ (fillInvalid x shape dtype ip).1.vals.length = x.vals.length ∧
      (fillInvalid x shape dtype ip).1.cls = x.cls ∧ (fillInvalid x shape dtype ip).1.dtype = x.dtype) ∧
    (ip = false → (fillInvalid x shape dtype ip).1 = x ∧ ∃ y, o = some y ∧ AllInvalid y ∧ y.vals.length = shape.getD x.vals.length ∧ y.cls = x.cls) := by
  have weaken : ∀ {n t w v}, (fillInvalid x shape dtype ip) = fillWith x n t ip w v → n = shape.getD x.vals.length → w = x.cls → Invalid x.cls t v →
      (ip = true → o = none ∧ AllInvalid (fillInvalid x shape dtype ip).1 ∧ (fillInvalid x shape dtype ip).1.vals.length = x.vals.length ∧
      (fillInvalid x shape dtype ip).1.cls = x.cls ∧ (fillInvalid x shape dtype ip).1.dtype = x.dtype) ∧
    (ip = false → (fillInvalid x shape dtype ip).1 = x ∧ ∃ y, o = some y ∧ AllInvalid y ∧ y.vals.length = shape.getD x.vals.length ∧ y.cls = x.cls) := by
    intro n t w v he hn hw hv
    rw [he] at h ⊢
    obtain ⟨h1, h2⟩ := fillWith_ok hw hv h
    refine ⟨h1, fun hi => ?_⟩
    obtain ⟨g1, y, g2, g3, g4, g5, _⟩ := h2 hi
    exact ⟨g1, y, g2, g3, hn ▸ g4, g5⟩
  unfold Typed at hx
  cases hc : x.cls with
  | plain =>
    have ht : dtype.getD x.dtype ≠ .bool := by
      cases dtype with
      | none => exact hb
      | some t => simpa using hd
    have e : fillInvalid x shape dtype ip = internal x shape dtype ip none .plain := by
      unfold fillInvalid
      rw [hc]
    cases hi : invalidDict (dtype.getD x.dtype) with
    | none =>
      rw [e] at h
      simp only [internal, hi] at h
      cases h
    | some v =>
      rw [← hc]
      refine weaken (n := shape.getD x.vals.length) (t := dtype.getD x.dtype) (w := .plain) (v := v) ?_ rfl hc.symm ?_
      · rw [e]
        simp only [internal, hi]
      · rw [hc]
        exact dict_invalid ht hi
  | date =>
    rw [← hc]
    refine weaken (n := shape.getD x.vals.length) (t := x.dtype) (w := .date) (v := .i 0) ?_ rfl hc.symm ?_
    · unfold fillInvalid
      rw [hc]
      rfl
    · rw [hc]
      exact Or.inl rfl
  | dateSpan =>
    rw [hc] at hx
    rw [← hc]
    refine weaken (n := shape.getD x.vals.length) (t := x.dtype) (w := .dateSpan) (v := .i (-2147483648)) ?_ rfl hc.symm ?_
    · unfold fillInvalid
      rw [hc]
      simp only [internal, Option.getD_some, hx, invalidDict]
    · rw [hc]
      exact rfl
  | nano =>
    rw [← hc]
    refine weaken (n := shape.getD x.vals.length) (t := x.dtype) (w := .nano) (v := .i 0) ?_ rfl hc.symm ?_
    · unfold fillInvalid
      rw [hc]
      rfl
    · rw [hc]
      exact ⟨0, rfl, Int.le_refl 0⟩
  | span =>
    rw [hc] at hx
    rw [← hc]
    refine weaken (n := shape.getD x.vals.length) (t := x.dtype) (w := .span) (v := .nan) ?_ rfl hc.symm ?_
    · unfold fillInvalid
      rw [hc]
      simp only [internal, Option.getD_some, hx, invalidDict]
    · rw [hc]
      exact rfl
  | cat base cats =>
    by_cases hbase : base = some 1
    · rw [← hc]
      refine weaken (n := shape.getD x.vals.length) (t := dtype.getD x.dtype) (w := .cat base cats) (v := .i 0) ?_ rfl hc.symm ?_
      · unfold fillInvalid
        rw [hc]
        dsimp only
        rw [if_pos hbase]
      · rw [hc]
        exact ⟨hbase, rfl⟩
    · exfalso
      unfold fillInvalid at h
      rw [hc] at h
      dsimp only at h
      rw [if_neg hbase] at h
      cases h

/-- **C369** A call without arguments returns for numbers, strings, days, times, spans and Categoricals from 1 on. -/
theorem fill_invalid_total (x : Arr) (hx : Typed x) (hc : ∀ b cats, x.cls = .cat b cats → b = some 1) (hd : x.cls = .plain → (invalidDict x.dtype).isSome) :
    (fillInvalid x none none true).2 = .ok none := by
  unfold Typed at hx
  unfold fillInvalid
  cases h : x.cls with
  | plain =>
    obtain ⟨v, hv⟩ := Option.isSome_iff_exists.1 (hd h)
    simp [internal, hv, fillWith]
  | date => simp [internal, fillWith]
  | dateSpan =>
    rw [h] at hx
    simp [internal, hx, invalidDict, fillWith]
  | nano => simp [internal, fillWith]
  | span =>
    rw [h] at hx
    simp [internal, hx, invalidDict, fillWith]
  | cat b cats =>
    dsimp only
    rw [if_pos (hc b cats h)]
    simp [fillWith]

/-- **C369** The copy has the type that was asked for, in plain arrays and Categoricals. -/
theorem fill_invalid_type (x y : Arr) (hc : x.cls = .plain ∨ ∃ b cats, x.cls = .cat b cats) (shape : Option Nat) (dtype : Option DType)
    (h : (fillInvalid x shape dtype false).2 = .ok (some y)) : y.dtype = dtype.getD x.dtype := by
  unfold fillInvalid at h
  rcases hc with hc | ⟨b, cats, hc⟩
  · rw [hc] at h
    simp only [internal] at h
    cases hi : invalidDict (dtype.getD x.dtype) with
    | none =>
      rw [hi] at h
      cases h
    | some v =>
      rw [hi] at h
      cases h
      rfl
  · rw [hc] at h
    dsimp only at h
    by_cases hb : b = some 1
    · rw [if_pos hb] at h
      cases h
      rfl
    · rw [if_neg hb] at h
      cases h

theorem fillWith_error {x : Arr} {n : Nat} {t : DType} {ip : Bool} {w : Class} {v : Val} {e : Err} (h : (fillWith x n t ip w v).2 = .error e) :
    (fillWith x n t ip w v).1 = x := by
  unfold fillWith at h ⊢
  by_cases hi : ip = true
  · rw [if_pos hi] at h ⊢
    by_cases h1 : n ≠ x.vals.length
    · rw [if_pos h1]
    · rw [if_neg h1] at h ⊢
      by_cases h2 : t ≠ x.dtype
      · rw [if_pos h2]
      · rw [if_neg h2] at h
        cases h
  · rw [if_neg hi]

theorem internal_error {x : Arr} {n : Option Nat} {t : Option DType} {ip : Bool} {f : Option Val} {w : Class} {e : Err} (h : (internal x n t ip f w).2 = .error e) :
    (internal x n t ip f w).1 = x := by
  cases f with
  | some v => exact fillWith_error h
  | none =>
    simp only [internal] at h ⊢
    cases hi : invalidDict (t.getD x.dtype) with
    | none => rfl
    | some v =>
      rw [hi] at h
      exact fillWith_error h

/-- **C370** A call that raises changes nothing. -/
theorem fill_invalid_raises_unchanged (x : Arr) (shape : Option Nat) (dtype : Option DType) (ip : Bool) (e : Err)
    (h : (fillInvalid x shape dtype ip).2 = .error e) : (fillInvalid x shape dtype ip).1 = x := by
  unfold fillInvalid at h ⊢
  cases hc : x.cls with
  | cat base cats =>
    rw [hc] at h
    dsimp only at h ⊢
    by_cases hb : base = some 1
    · rw [if_pos hb] at h ⊢
      exact fillWith_error h
    · rw [if_neg hb]
  | _ =>
    rw [hc] at h
    exact internal_error h

theorem fillWith_shape {x : Arr} {n : Nat} {t : DType} {w : Class} {v : Val} (hn : n ≠ x.vals.length ∨ t ≠ x.dtype) :
    ∃ e, (fillWith x n t true w v).2 = .error e := by
  unfold fillWith
  rw [if_pos rfl]
  by_cases h1 : n ≠ x.vals.length
  · rw [if_pos h1]
    exact ⟨_, rfl⟩
  · rw [if_neg h1, if_pos (hn.resolve_left h1)]
    exact ⟨_, rfl⟩

theorem internal_shape {x : Arr} {n : Option Nat} {t : Option DType} {f : Option Val} {w : Class}
    (hn : n.getD x.vals.length ≠ x.vals.length ∨ t.getD x.dtype ≠ x.dtype) : ∃ e, (internal x n t true f w).2 = .error e := by
  cases f with
  | some v => exact fillWith_shape hn
  | none =>
    simp only [internal]
    cases invalidDict (t.getD x.dtype) with
    | none => exact ⟨_, rfl⟩
    | some v => exact fillWith_shape hn

/-- **C370** In place, another number of rows raises for every class. -/
theorem fill_invalid_shape (x : Arr) (n : Nat) (hn : n ≠ x.vals.length) (dtype : Option DType) : ∃ e, (fillInvalid x (some n) dtype true).2 = .error e := by
  unfold fillInvalid
  cases x.cls with
  | cat base cats =>
    dsimp only
    by_cases hb : base = some 1
    · rw [if_pos hb]
      exact fillWith_shape (Or.inl hn)
    · rw [if_neg hb]
      exact ⟨_, rfl⟩
  | _ => exact internal_shape (Or.inl hn)

/-- **C371** In place, another type raises for plain arrays and Categoricals. -/
theorem fill_invalid_dtype_partial (x : Arr) (t : DType) (ht : t ≠ x.dtype) (shape : Option Nat) (hc : x.cls = .plain ∨ ∃ b cats, x.cls = .cat b cats) :
    ∃ e, (fillInvalid x shape (some t) true).2 = .error e := by
  unfold fillInvalid
  rcases hc with hc | ⟨b, cats, hc⟩
  · rw [hc]
    exact internal_shape (Or.inr ht)
  · rw [hc]
    dsimp only
    by_cases hb : b = some 1
    · rw [if_pos hb]
      exact fillWith_shape (Or.inr ht)
    · rw [if_neg hb]
      exact ⟨_, rfl⟩

/-- **C371** exactly: for days, times and spans the type makes no difference. -/
theorem fill_invalid_dtype_exact (x : Arr) (hc : x.cls = .date ∨ x.cls = .dateSpan ∨ x.cls = .nano ∨ x.cls = .span) (shape : Option Nat) (d d' : Option DType)
    (ip : Bool) : fillInvalid x shape d ip = fillInvalid x shape d' ip := by
  unfold fillInvalid
  rcases hc with hc | hc | hc | hc <;> rw [hc]

/-- **C371** fails: dates are filled in place although another type was asked for. -/
theorem fill_invalid_dtype_counterexample :
    fillInvalid ⟨.date, .int 32, [.i 18000]⟩ none (some (.int 64)) true = (⟨.date, .int 32, [.i 0]⟩, .ok none) := rfl

/-- **C369** is not for bools: they are filled with False, which is not invalid. -/
theorem fill_bool_counterexample :
    fillInvalid ⟨.plain, .bool, [.b true]⟩ none none true = (⟨.plain, .bool, [.b false]⟩, .ok none) ∧ ∀ v, ¬ Invalid .plain .bool v :=
  ⟨rfl, fun _ h => h⟩

example : Typed ⟨.dateSpan, .int 32, [.i 5, .i 6]⟩ ∧
    fillInvalid ⟨.dateSpan, .int 32, [.i 5, .i 6]⟩ (some 3) none false =
      (⟨.dateSpan, .int 32, [.i 5, .i 6]⟩, .ok (some ⟨.dateSpan, .int 32, [.i (-2147483648), .i (-2147483648), .i (-2147483648)]⟩)) :=
  ⟨rfl, rfl⟩
example : fillInvalid ⟨.cat (some 1) ["a"], .int 8, [.i 1, .i 1]⟩ none none true = (⟨.cat (some 1) ["a"], .int 8, [.i 0, .i 0]⟩, .ok none) := rfl
end Verif.FillInv
