import Verif.GrpFill.Model
import Verif.GrpFill.Spec
/-! # Fills in groups (C387 - C389) -/
namespace Verif.GrpFill
variable {α : Type}

theorem forward_length (fill : Option α) (l : List (Option α)) : (forward fill l).length = l.length := by
  induction l generalizing fill with
  | nil => rfl
  | cons x l ih => cases x <;> simp [forward, ih]

theorem backward_length (l : List (Option α)) : (backward l).2.length = l.length := by
  induction l with
  | nil => rfl
  | cons x l ih => cases x <;> simp [backward, ih]

theorem forward_at (fill : Option α) (l : List (Option α)) (j : Nat) (hj : j < l.length) :
    (∃ v, LastUpTo l j v ∧ (forward fill l)[j]? = some (some v)) ∨ (NoneUpTo l j ∧ (forward fill l)[j]? = some fill) := by
  induction l generalizing fill j with
  | nil => simp at hj
  | cons x l ih =>
    cases j with
    | zero =>
      cases x with
      | none => exact Or.inr ⟨fun k hk => by obtain rfl := Nat.le_zero.1 hk; rfl, rfl⟩
      | some v => exact Or.inl ⟨v, ⟨0, Nat.le_refl _, rfl, fun k h1 h2 => absurd h1 (by omega)⟩, rfl⟩
    | succ j =>
      have hj' : j < l.length := by simpa using hj
      have lift : ∀ v, LastUpTo l j v → LastUpTo (x :: l) (j + 1) v := by
        rintro v ⟨i, h1, h2, h3⟩
        refine ⟨i + 1, by omega, by simpa using h2, fun k hk1 hk2 => ?_⟩
        obtain ⟨k', rfl⟩ : ∃ k', k = k' + 1 := ⟨k - 1, by omega⟩
        simpa using h3 k' (by omega) (by omega)
      cases x with
      | none =>
        rcases ih fill j hj' with ⟨v, h1, h2⟩ | ⟨h1, h2⟩
        · exact Or.inl ⟨v, lift v h1, by simpa [forward] using h2⟩
        · refine Or.inr ⟨fun k hk => ?_, by simpa [forward] using h2⟩
          cases k with
          | zero => rfl
          | succ k => simpa using h1 k (by omega)
      | some w =>
        rcases ih (some w) j hj' with ⟨v, h1, h2⟩ | ⟨h1, h2⟩
        · exact Or.inl ⟨v, lift v h1, by simpa [forward] using h2⟩
        · refine Or.inl ⟨w, ⟨0, by omega, rfl, fun k hk1 hk2 => ?_⟩, by simpa [forward] using h2⟩
          obtain ⟨k', rfl⟩ : ∃ k', k = k' + 1 := ⟨k - 1, by omega⟩
          simpa using h1 k' (by omega)

theorem backward_fill (l : List (Option α)) :
    (∃ v, FirstFrom l 0 v ∧ (backward l).1 = some v) ∨ (NoneFrom l 0 ∧ (backward l).1 = none) := by
  induction l with
  | nil => exact Or.inr ⟨fun k _ h => by simp at h, rfl⟩
  | cons x l ih =>
    cases x with
    | some v => exact Or.inl ⟨v, ⟨0, Nat.le_refl _, rfl, fun k _ h => absurd h (by omega)⟩, rfl⟩
    | none =>
      rcases ih with ⟨v, ⟨i, h1, h2, h3⟩, h4⟩ | ⟨h1, h2⟩
      · refine Or.inl ⟨v, ⟨i + 1, by omega, by simpa using h2, fun k hk1 hk2 => ?_⟩, h4⟩
        cases k with
        | zero => rfl
        | succ k => simpa using h3 k (by omega) (by omega)
      · refine Or.inr ⟨fun k hk1 hk2 => ?_, h2⟩
        cases k with
        | zero => rfl
        | succ k => simpa using h1 k (by omega) (by simpa using hk2)

theorem backward_at (l : List (Option α)) (j : Nat) (hj : j < l.length) :
    (∃ v, FirstFrom l j v ∧ (backward l).2[j]? = some (some v)) ∨ (NoneFrom l j ∧ (backward l).2[j]? = some none) := by
  induction l generalizing j with
  | nil => simp at hj
  | cons x l ih =>
    cases j with
    | zero =>
      have h0 : (backward (x :: l)).2[0]? = some (backward (x :: l)).1 := by cases x <;> simp [backward]
      rcases backward_fill (x :: l) with ⟨v, h1, h2⟩ | ⟨h1, h2⟩
      · exact Or.inl ⟨v, h1, by rw [h0, h2]⟩
      · exact Or.inr ⟨h1, by rw [h0, h2]⟩
    | succ j =>
      have hj' : j < l.length := by simpa using hj
      have hs : (backward (x :: l)).2[j + 1]? = (backward l).2[j]? := by cases x <;> simp [backward]
      rw [hs]
      rcases ih j hj' with ⟨v, ⟨i, h1, h2, h3⟩, h4⟩ | ⟨h1, h2⟩
      · refine Or.inl ⟨v, ⟨i + 1, by omega, by simpa using h2, fun k hk1 hk2 => ?_⟩, h4⟩
        obtain ⟨k', rfl⟩ : ∃ k', k = k' + 1 := ⟨k - 1, by omega⟩
        simpa using h3 k' (by omega) (by omega)
      · refine Or.inr ⟨fun k hk1 hk2 => ?_, h2⟩
        obtain ⟨k', rfl⟩ : ∃ k', k = k' + 1 := ⟨k - 1, by omega⟩
        simpa using h1 k' (by omega) (by simpa using hk2)

/-! ## Writing the groups -/

theorem scatter_length (ret : List (Option α)) (g : List Nat) (vs : List (Option α)) : (scatter ret g vs).length = ret.length := by
  induction g generalizing ret vs with
  | nil => simp [scatter]
  | cons i g ih => cases vs <;> simp [scatter, ih]

theorem scatter_other (ret : List (Option α)) (g : List Nat) (vs : List (Option α)) (r : Nat) (h : r ∉ g) : (scatter ret g vs)[r]? = ret[r]? := by
  induction g generalizing ret vs with
  | nil => simp [scatter]
  | cons i g ih =>
    cases vs with
    | nil => simp [scatter]
    | cons v vs =>
      simp only [scatter]
      rw [ih _ _ (fun h' => h (List.mem_cons_of_mem _ h')), List.getElem?_set_ne]
      rintro rfl
      exact h List.mem_cons_self

theorem scatter_at (ret : List (Option α)) (g : List Nat) (vs : List (Option α)) (hl : vs.length = g.length) (hd : g.Nodup)
    (hr : ∀ r ∈ g, r < ret.length) (j r : Nat) (hj : g[j]? = some r) : (scatter ret g vs)[r]? = vs[j]? := by
  induction g generalizing ret vs j with
  | nil => simp at hj
  | cons i g ih =>
    cases vs with
    | nil => simp at hl
    | cons v vs =>
      simp only [scatter]
      obtain ⟨hi, hd'⟩ := List.nodup_cons.1 hd
      cases j with
      | zero =>
        obtain rfl : i = r := by simpa using hj
        rw [scatter_other _ _ _ _ hi, List.getElem?_set_self (hr i List.mem_cons_self)]
        rfl
      | succ j =>
        have := ih (ret.set i v) vs (by simpa using hl) hd' (fun r h => by simpa using hr r (List.mem_cons_of_mem _ h)) j (by simpa using hj)
        simpa using this

theorem kernel_length (f : List (Option α) → List (Option α)) (groups : List (List Nat)) (data mem : List (Option α)) :
    (kernel f groups data mem).length = mem.length := by
  unfold kernel
  induction groups generalizing mem with
  | nil => rfl
  | cons g gs ih => rw [List.foldl_cons, ih, scatter_length]

theorem kernel_other (f : List (Option α) → List (Option α)) (groups : List (List Nat)) (data mem : List (Option α)) (r : Nat)
    (h : r ∉ groups.flatten) : (kernel f groups data mem)[r]? = mem[r]? := by
  unfold kernel
  induction groups generalizing mem with
  | nil => rfl
  | cons g gs ih =>
    rw [List.flatten_cons, List.mem_append, not_or] at h
    rw [List.foldl_cons, ih _ h.2, scatter_other _ _ _ _ h.1]

theorem kernel_at (f : List (Option α) → List (Option α)) (hf : ∀ l, (f l).length = l.length) (groups : List (List Nat)) (data mem : List (Option α))
    (hg : Groups groups mem.length) (g : List Nat) (hm : g ∈ groups) (j r : Nat) (hj : g[j]? = some r) :
    (kernel f groups data mem)[r]? = (f (g.map fun i => data.getD i none))[j]? := by
  induction groups generalizing mem with
  | nil => simp at hm
  | cons g' gs ih =>
    obtain ⟨hd, hr⟩ := hg
    rw [List.flatten_cons] at hd hr
    obtain ⟨d1, d2, d3⟩ := List.nodup_append.1 hd
    have hk : kernel f (g' :: gs) data mem = kernel f gs data (scatter mem g' (f (g'.map fun i => data.getD i none))) := rfl
    rw [hk]
    by_cases hgs : g ∈ gs
    · exact ih _ ⟨d2, fun x hx => by rw [scatter_length]; exact hr x (List.mem_append_right _ hx)⟩ hgs
    · have he : g = g' := by
        rcases List.mem_cons.1 hm with h | h
        · exact h
        · exact absurd h hgs
      subst he
      have hrg : r ∈ g := List.mem_of_getElem? hj
      rw [kernel_other _ _ _ _ _ (fun h => d3 r hrg r h rfl),
        scatter_at _ _ _ (by rw [hf, List.length_map]) d1 (fun x hx => hr x (List.mem_append_left _ hx)) j r hj]

/-! ## The fills -/

/-- the values of a group in order -/
abbrev vals (data : List (Option α)) (g : List Nat) : List (Option α) := g.map fun i => data.getD i none

/-- C387: every row of a group has the last value of its group up to it, NaN if there is none -/
theorem fillForward_correct (groups : List (List Nat)) (data mem : List (Option α)) (hg : Groups groups mem.length) (g : List Nat) (hm : g ∈ groups)
    (j r : Nat) (hj : g[j]? = some r) :
    (∀ v, LastUpTo (vals data g) j v → (fillForward groups data mem)[r]? = some (some v)) ∧
    (NoneUpTo (vals data g) j → (fillForward groups data mem)[r]? = some none) := by
  have hjl : j < (vals data g).length := by rw [List.length_map]; exact (List.getElem?_eq_some_iff.1 hj).1
  have he : (fillForward groups data mem)[r]? = (forward none (vals data g))[j]? := kernel_at _ (forward_length none) groups data mem hg g hm j r hj
  rw [he]
  rcases forward_at none (vals data g) j hjl with ⟨v, ⟨i, h1, h2, h3⟩, h4⟩ | ⟨h1, h2⟩
  · constructor
    · rintro w ⟨i', w1, w2, w3⟩
      have : i = i' := by
        rcases Nat.lt_trichotomy i i' with h | h | h
        · rw [h3 i' h w1] at w2; cases w2
        · exact h
        · rw [w3 i h h1] at h2; cases h2
      subst this
      rw [h2] at w2
      rw [h4, Option.some.inj w2]
    · intro hn
      rw [hn i h1] at h2; cases h2
  · constructor
    · rintro w ⟨i', w1, w2, -⟩
      rw [h1 i' w1] at w2; cases w2
    · intro _; exact h2

/-- C387: backward -/
theorem fillBackward_correct (groups : List (List Nat)) (data mem : List (Option α)) (hg : Groups groups mem.length) (g : List Nat) (hm : g ∈ groups)
    (j r : Nat) (hj : g[j]? = some r) :
    (∀ v, FirstFrom (vals data g) j v → (fillBackward groups data mem)[r]? = some (some v)) ∧
    (NoneFrom (vals data g) j → (fillBackward groups data mem)[r]? = some none) := by
  have hjl : j < (vals data g).length := by rw [List.length_map]; exact (List.getElem?_eq_some_iff.1 hj).1
  have he : (fillBackward groups data mem)[r]? = (backward (vals data g)).2[j]? :=
    kernel_at _ (fun l => backward_length l) groups data mem hg g hm j r hj
  rw [he]
  rcases backward_at (vals data g) j hjl with ⟨v, ⟨i, h1, h2, h3⟩, h4⟩ | ⟨h1, h2⟩
  · have hil : i < (vals data g).length := (List.getElem?_eq_some_iff.1 h2).1
    constructor
    · rintro w ⟨i', w1, w2, w3⟩
      have : i = i' := by
        rcases Nat.lt_trichotomy i i' with h | h | h
        · rw [w3 i h1 h] at h2; cases h2
        · exact h
        · rw [h3 i' w1 h] at w2; cases w2
      subst this
      rw [h2] at w2
      rw [h4, Option.some.inj w2]
    · intro hn
      rw [hn i h1 hil] at h2; cases h2
  · constructor
    · rintro w ⟨i', w1, w2, -⟩
      rw [h1 i' w1 (List.getElem?_eq_some_iff.1 w2).1] at w2; cases w2
    · intro _; exact h2

theorem vals_forward (groups : List (List Nat)) (data mem : List (Option α)) (hg : Groups groups mem.length) (g : List Nat) (hm : g ∈ groups) :
    vals (fillForward groups data mem) g = forward none (vals data g) := by
  apply List.ext_getElem?
  intro j
  by_cases hj : j < g.length
  · have he := kernel_at (forward none) (forward_length none) groups data mem hg g hm j g[j] (List.getElem?_eq_getElem hj)
    have hlen : j < (forward none (vals data g)).length := by rw [forward_length, List.length_map]; exact hj
    have he' : (fillForward groups data mem)[g[j]]? = some (forward none (vals data g))[j] := by
      rw [← List.getElem?_eq_getElem hlen]; exact he
    rw [List.getElem?_map, List.getElem?_eq_getElem hj, List.getElem?_eq_getElem hlen, Option.map_some, List.getD_eq_getElem?_getD, he']
    rfl
  · rw [List.getElem?_eq_none (by rw [List.length_map]; omega), List.getElem?_eq_none (by rw [forward_length, List.length_map]; omega)]

/-- C388: the last value up to the row; if there is none the first one after it; NaN only in groups without values -/
theorem fillBoth_correct (groups : List (List Nat)) (data mem mem' : List (Option α)) (hg : Groups groups mem.length) (hl : mem'.length = mem.length)
    (g : List Nat) (hm : g ∈ groups) (j r : Nat) (hj : g[j]? = some r) :
    (∀ v, LastUpTo (vals data g) j v → (fillBoth groups data mem mem')[r]? = some (some v)) ∧
    (∀ v, NoneUpTo (vals data g) j → FirstFrom (vals data g) j v → (fillBoth groups data mem mem')[r]? = some (some v)) ∧
    ((∀ k, k < (vals data g).length → (vals data g)[k]? = some none) → (fillBoth groups data mem mem')[r]? = some none) := by
  have hjl : j < (vals data g).length := by rw [List.length_map]; exact (List.getElem?_eq_some_iff.1 hj).1
  have hf := vals_forward groups data mem hg g hm
  obtain ⟨b1, b2⟩ := fillBackward_correct groups (fillForward groups data mem) mem' (by rw [hl]; exact hg) g hm j r hj
  rw [hf] at b1 b2
  have hlast : ∀ i, i < (vals data g).length → ∀ v, LastUpTo (vals data g) i v → (forward none (vals data g))[i]? = some (some v) := by
    intro i hi v hv
    have hig : i < g.length := by rwa [List.length_map] at hi
    have h1 := (fillForward_correct groups data mem hg g hm i g[i] (List.getElem?_eq_getElem hig)).1 v hv
    rw [← kernel_at (forward none) (forward_length none) groups data mem hg g hm i g[i] (List.getElem?_eq_getElem hig)]
    exact h1
  have hnone : ∀ i, i < (vals data g).length → NoneUpTo (vals data g) i → (forward none (vals data g))[i]? = some none := by
    intro i hi hv
    have hig : i < g.length := by rwa [List.length_map] at hi
    have h1 := (fillForward_correct groups data mem hg g hm i g[i] (List.getElem?_eq_getElem hig)).2 hv
    rw [← kernel_at (forward none) (forward_length none) groups data mem hg g hm i g[i] (List.getElem?_eq_getElem hig)]
    exact h1
  refine ⟨fun v hv => ?_, fun v hn hv => ?_, fun hn => ?_⟩
  · exact b1 v ⟨j, Nat.le_refl _, hlast j hjl v hv, fun k h1 h2 => absurd h1 (by omega)⟩
  · obtain ⟨i, h1, h2, h3⟩ := hv
    have hil : i < (vals data g).length := (List.getElem?_eq_some_iff.1 h2).1
    refine b1 v ⟨i, h1, hlast i hil v ⟨i, Nat.le_refl _, h2, fun k k1 k2 => absurd k1 (by omega)⟩, fun k k1 k2 => ?_⟩
    refine hnone k (by omega) (fun m hmk => ?_)
    by_cases hmj : m ≤ j
    · exact hn m hmj
    · exact h3 m (by omega) (by omega)
  · refine b2 (fun k k1 k2 => ?_)
    rw [forward_length] at k2
    exact hnone k k2 (fun m hmk => hn m (by omega))

/-- C389: a row that is in no group has what was in memory -/
theorem outside_exact (groups : List (List Nat)) (data mem mem' : List (Option α)) (r : Nat) (h : r ∉ groups.flatten) :
    (fillForward groups data mem)[r]? = mem[r]? ∧ (fillBackward groups data mem)[r]? = mem[r]? ∧ (fillBoth groups data mem mem')[r]? = mem'[r]? :=
  ⟨kernel_other _ _ _ _ _ h, kernel_other _ _ _ _ _ h, kernel_other (fun l => (backward l).2) groups (fillForward groups data mem) mem' r h⟩

/-- C389: if every row is in a group the result does not depend on what was in memory -/
theorem determined_partial (groups : List (List Nat)) (data mem mem' : List (Option α)) (hl : mem.length = mem'.length) (hg : Groups groups mem.length)
    (hall : ∀ r, r < mem.length → r ∈ groups.flatten) : fillForward groups data mem = fillForward groups data mem' ∧
      fillBackward groups data mem = fillBackward groups data mem' := by
  have key : ∀ f : List (Option α) → List (Option α), (∀ l, (f l).length = l.length) → kernel f groups data mem = kernel f groups data mem' := by
    intro f hf
    apply List.ext_getElem?
    intro r
    by_cases hr : r < mem.length
    · obtain ⟨g, hm, hrg⟩ := List.mem_flatten.1 (hall r hr)
      obtain ⟨j, hj⟩ := List.mem_iff_getElem?.1 hrg
      rw [kernel_at f hf groups data mem hg g hm j r hj, kernel_at f hf groups data mem' (by rw [← hl]; exact hg) g hm j r hj]
    · rw [List.getElem?_eq_none (by rw [kernel_length]; omega), List.getElem?_eq_none (by rw [kernel_length]; omega)]
  exact ⟨key _ (forward_length none), key _ (fun l => backward_length l)⟩

/-- Row 1 is in no group: two runs with the same table differ. -/
theorem outside_counterexample : fillForward [[0, 2]] [some 5, some 6, none] [none, some 77, none] = [some 5, some 77, some 5] ∧
    fillForward [[0, 2]] [some 5, some 6, none] [none, some 88, none] = [some 5, some 88, some 5] := by decide

/-! ## Concrete cases -/

example : Groups [[0, 2, 4], [1, 3]] 5 := by unfold Groups; decide
example : fillForward [[0, 2, 4], [1, 3]] [none, some 1, some 2, none, none] [none, none, none, none, none] = [none, some 1, some 2, some 1, some 2] := by
  decide
example : fillBoth [[0, 2, 4], [1, 3]] [none, some 1, some 2, none, none] [none, none, none, none, none] [none, none, none, none, none] =
    [some 2, some 1, some 2, some 1, some 2] := by decide
example : LastUpTo (vals [none, some 1, some 2, none, none] [0, 2, 4]) 2 2 := ⟨1, by omega, rfl, fun k h1 h2 => by
  obtain rfl : k = 2 := by omega
  rfl⟩

end Verif.GrpFill
