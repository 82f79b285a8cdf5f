import Verif.DsOps.Model

/-!
# Assigning columns of a Dataset

Theorems about `assign`, `delete`, `head` and `tail` over all histories.
-/

namespace Verif.DsOps

variable {V : Type}

theorem setCol_eq (name : String) (xs : List V) (cols : List (String × List V)) : setCol name xs cols = put name xs cols := by
  induction cols with
  | nil => rfl
  | cons e es ih => simp only [setCol, put, ih]

theorem mem_put {C : Type} (name : String) (c : C) (es : List (String × C)) (e : String × C) (h : e ∈ put name c es) :
    e = (name, c) ∨ e ∈ es := by
  induction es with
  | nil => simp [put] at h; exact .inl h
  | cons a as ih =>
    unfold put at h
    split at h
    · rcases List.mem_cons.1 h with h | h
      · exact .inl h
      · exact .inr (List.mem_cons_of_mem _ h)
    · rcases List.mem_cons.1 h with h | h
      · exact .inr (by rw [h]; exact List.mem_cons_self)
      · rcases ih h with h | h
        · exact .inl h
        · exact .inr (List.mem_cons_of_mem _ h)

theorem put_ne_nil {C : Type} (name : String) (c : C) (es : List (String × C)) : put name c es ≠ [] := by
  cases es with
  | nil => simp [put]
  | cons a as => unfold put; split <;> simp

theorem repeatEach_one (n : Nat) (x : V) : repeatEach n [x] = List.replicate n x := by simp [repeatEach]

/-- All columns have the number of rows of the Dataset. -/
def Even (d : Ds V) : Prop := ∀ c ∈ d.cols, d.nrows = some c.2.length

theorem addCol_even (ok : List V → Bool) (d : Ds V) (name : String) (xs : List V) (h : Even d) : Even (addCol ok d name xs).1 := by
  unfold addCol
  split
  · exact h
  · cases hn : d.nrows with
    | none =>
      intro c hc
      simp only [setCol_eq] at hc
      rcases mem_put _ _ _ _ hc with rfl | hc
      · rfl
      · exact absurd (h c hc) (by rw [hn]; simp)
    | some n =>
      have hk (ys : List V) (hl : ys.length = n) : Even { d with cols := setCol name ys d.cols } := by
        intro c hc
        simp only [setCol_eq] at hc
        rcases mem_put _ _ _ _ hc with rfl | hc
        · simpa [hl] using hn
        · exact h c hc
      dsimp only
      split
      · split
        · next hl => exact hn ▸ hk _ hl
        · exact h
      · split
        · next hl => exact hn ▸ hk _ hl
        · exact h

theorem getD_even (d : Ds V) (k : Nat) (h : Even d) : Even { d with nrows := some (d.nrows.getD k) } := by
  intro c hc
  have := h c hc
  simp [this]

theorem assign_even (ok : List V → Bool) (d : Ds V) (name : String) (v : Value V) (h : Even d) : Even (assign ok d name v).1 := by
  cases v with
  | set => exact h
  | array xs => exact addCol_even ok d name xs h
  | scalar x => exact addCol_even ok _ name _ (getD_even d 1 h)
  | seq xs =>
    simp only [assign]
    split
    · exact addCol_even ok _ name _ (getD_even d _ h)
    · split
      · exact addCol_even ok _ name _ (getD_even d _ h)
      · exact getD_even d _ h

theorem delete_even (d : Ds V) (name : String) (h : Even d) : Even (delete d name).1 := by
  unfold delete
  split
  · exact h
  · split
    · intro c hc; cases hc
    · intro c hc; exact h c (List.mem_of_mem_eraseP hc)

theorem look_even (d : Ds V) (h : Even d) : Even (look d) := by
  unfold look
  cases hn : d.nrows with
  | none =>
    intro c hc
    exact absurd (h c hc) (by rw [hn]; simp)
  | some n => exact h

theorem step_even (ok : List V → Bool) (d : Ds V) (o : Op V) (h : Even d) : Even (step ok d o).1 := by
  cases o with
  | assign name v => exact assign_even ok d name v h
  | delete name => exact delete_even d name h
  | look => exact look_even d h

theorem run_even (ok : List V → Bool) (ops : List (Op V)) (d : Ds V) (h : Even d) : Even (run ok d ops) := by
  induction ops generalizing d with
  | nil => exact h
  | cons o os ih => exact ih _ (step_even ok d o h)

/-- After every history of assignments (also failed ones), deletions and looks, all columns of a Dataset have equally many rows,
the number the Dataset reports. -/
theorem rows_even (ok : List V → Bool) (ops : List (Op V)) :
    ∀ c ∈ (run ok empty ops).cols, (run ok empty ops).nrows = some c.2.length :=
  run_even ok ops empty fun c hc => by cases hc

example : (run (fun _ => true) (empty : Ds Int) [.assign "a" (.array [1, 2, 3]), .assign "b" (.scalar 7), .assign "c" (.array [1, 2]),
    .look, .assign "a" (.seq [5]), .delete "b"]).cols = [("a", [5, 5, 5])] := by decide +kernel

theorem addCol_of (ok : List V → Bool) (d : Ds V) (name : String) (xs : List V) (n : Nat) (hn : d.nrows = some n)
    (hx : xs.length = n) (hok : ok xs = true) : addCol ok d name xs = ({ d with cols := put name xs d.cols }, none) := by
  unfold addCol
  rw [hn]
  simp only [hok, Bool.true_eq_false, if_false, hx, setCol_eq, if_true]
  have : ¬ (n = 1 ∧ 1 < n) := by omega
  rw [if_neg this]

theorem addCol_bad (ok : List V → Bool) (d : Ds V) (name : String) (xs : List V) (hok : ok xs = false) :
    addCol ok d name xs = (d, some .type) := by simp [addCol, hok]

theorem set_nrows (d : Ds V) (n k : Nat) (hn : d.nrows = some n) : { d with nrows := some (d.nrows.getD k) } = d := by
  cases d with
  | mk r c => simp only [] at hn; subst hn; rfl

/-- What is asked of the conversion: equal rows are converted if one of them is. -/
def Rowwise (ok : List V → Bool) : Prop := ∀ (x : V) (n : Nat), 0 < n → ok (List.replicate n x) = ok [x]

/-- In a Dataset with rows, an assignment puts exactly the meant column at its place (or last, if new) and keeps all others; if the
value has no meaning or cannot be converted, an exception is raised and the Dataset is unchanged. -/
theorem assign_correct (ok : List V → Bool) (hr : Rowwise ok) (d : Ds V) (n : Nat) (hn : d.nrows = some n) (h0 : 0 < n)
    (name : String) (v : Value V) :
    (∀ ys, meant n v = some ys → ok ys = true → assign ok d name v = ({ nrows := some n, cols := put name ys d.cols }, none)) ∧
    ((meant n v = none ∨ ∃ ys, meant n v = some ys ∧ ok ys = false) → (assign ok d name v).1 = d ∧ (assign ok d name v).2 ≠ none) := by
  have hd : ({ d with nrows := some (d.nrows.getD 1) } : Ds V) = d := set_nrows d n 1 hn
  have hD (ys : List V) : ({ d with cols := put name ys d.cols } : Ds V) = { nrows := some n, cols := put name ys d.cols } := by
    rw [← hn]
  cases v with
  | set => simp [meant, assign]
  | scalar x =>
    simp only [meant, assign, hd]
    have hg : d.nrows.getD 1 = n := by rw [hn]; rfl
    rw [hg]
    refine ⟨fun ys h ho => ?_, fun h => ?_⟩
    · cases h
      rw [addCol_of ok d name _ n hn (by simp) ho, hD]
    · rcases h with h | ⟨ys, h, ho⟩
      · cases h
      · cases h
        rw [addCol_bad ok d name _ ho]; simp
  | array xs =>
    simp only [assign]
    by_cases hl : xs.length = n
    · simp only [meant, hl, if_true]
      refine ⟨fun ys h ho => ?_, fun h => ?_⟩
      · cases h; rw [addCol_of ok d name _ n hn hl ho, hD]
      · rcases h with h | ⟨ys, h, ho⟩
        · cases h
        · cases h; rw [addCol_bad ok d name _ ho]; simp
    · match xs, hl with
      | [x], hl =>
        have h1 : 1 < n := by simp at hl; omega
        simp only [meant, hl, if_false]
        refine ⟨fun ys h ho => ?_, fun h => ?_⟩
        · cases h
          rw [hr x n h0] at ho
          unfold addCol
          rw [hn]
          simp [ho, repeatEach_one, setCol_eq, h1]
        · rcases h with h | ⟨ys, h, ho⟩
          · cases h
          · cases h
            rw [hr x n h0] at ho
            rw [addCol_bad ok d name _ ho]; simp
      | [], hl =>
        refine ⟨fun ys h ho => by simp [meant] at h; omega, fun _ => ?_⟩
        unfold addCol
        rw [hn]
        dsimp only
        split
        · simp
        · simp only [List.length_nil]
          first
            | rw [if_neg (by omega), if_neg (by omega)]; simp
            | simp
      | x :: y :: zs, hl =>
        refine ⟨fun ys h ho => by simp [meant] at h; simp at hl; omega, fun _ => ?_⟩
        unfold addCol
        rw [hn]
        dsimp only
        split
        · simp
        · first
            | rw [if_neg (by simp), if_neg hl]; simp
            | (rw [if_neg (by simp)]; simp)
  | seq xs =>
    have hg : d.nrows.getD xs.length = n := by rw [hn]; rfl
    have hs : ({ d with nrows := some (d.nrows.getD xs.length) } : Ds V) = d := set_nrows d n _ hn
    simp only [assign]
    rw [hs, hg]
    by_cases hl : xs.length = n
    · simp only [meant, hl, if_true]
      rw [if_neg (by omega)]
      refine ⟨fun ys h ho => ?_, fun h => ?_⟩
      · cases h; rw [addCol_of ok d name _ n hn hl ho, hD]
      · rcases h with h | ⟨ys, h, ho⟩
        · cases h
        · cases h; rw [addCol_bad ok d name _ ho]; simp
    · match xs, hl with
      | [x], hl =>
        have h1 : n ≠ 1 := by simp at hl; omega
        have h1' : ¬ 1 = n := fun e => h1 e.symm
        simp only [meant, List.length_singleton, true_and, ne_eq, h1, h1', not_false_eq_true, if_true, if_false, repeatEach_one]
        refine ⟨fun ys h ho => ?_, fun h => ?_⟩
        · cases h
          rw [addCol_of ok d name _ n hn (by simp) ho, hD]
        · rcases h with h | ⟨ys, h, ho⟩
          · cases h
          · cases h
            rw [addCol_bad ok d name _ ho]; simp
      | [], hl =>
        refine ⟨fun ys h ho => by simp [meant] at h; omega, fun _ => ?_⟩
        simp only [List.length_nil]
        rw [if_neg (by omega), if_neg (by omega)]
        simp
      | x :: y :: zs, hl =>
        refine ⟨fun ys h ho => by simp [meant] at h; simp at hl; omega, fun _ => ?_⟩
        rw [if_neg (by simp), if_neg hl]
        simp

example : Rowwise (fun _ : List Int => true) ∧
    assign (fun _ => true) { nrows := some 2, cols := [("a", [1, 2]), ("b", [3, 4])] } "a" (.seq [9]) =
      ({ nrows := some 2, cols := [("a", [9, 9]), ("b", [3, 4])] }, none) := ⟨fun _ _ _ => rfl, by decide +kernel⟩

/-- No column, no number of rows: nothing was done that left one behind. -/
def Fresh (d : Ds V) : Prop := d.cols = [] → d.nrows = none

/-- Not a look at a Dataset without columns. -/
def SeesColumns (d : Ds V) : Op V → Prop
  | .look => d.cols ≠ []
  | _ => True

/-- The history is quiet: no exception, every look at a Dataset with columns. -/
def Quiet (ok : List V → Bool) (d : Ds V) : List (Op V) → Prop
  | [] => True
  | o :: os => (step ok d o).2 = none ∧ SeesColumns d o ∧ Quiet ok (step ok d o).1 os

theorem addCol_cols (ok : List V → Bool) (d : Ds V) (name : String) (xs : List V) (h : (addCol ok d name xs).2 = none) :
    (addCol ok d name xs).1.cols ≠ [] := by
  revert h
  unfold addCol
  split
  · simp
  · cases hn : d.nrows with
    | none => intro _; simp only [setCol_eq]; exact put_ne_nil _ _ _
    | some n =>
      dsimp only
      split
      · split
        · intro _; simp only [setCol_eq]; exact put_ne_nil _ _ _
        · simp
      · split
        · intro _; simp only [setCol_eq]; exact put_ne_nil _ _ _
        · simp

theorem step_fresh (ok : List V → Bool) (d : Ds V) (o : Op V) (hf : Fresh d) (h : (step ok d o).2 = none)
    (hl : SeesColumns d o) : Fresh (step ok d o).1 := by
  cases o with
  | look =>
    intro hc
    have : (look d).cols = d.cols := by unfold look; split <;> rfl
    exact absurd (this ▸ hc) hl
  | delete name =>
    simp only [step] at h ⊢
    unfold delete at h ⊢
    split
    · exact hf
    · split
      · exact fun _ => rfl
      · next hne => intro hc; exact absurd hc hne
  | assign name v =>
    intro hc
    exfalso
    simp only [step] at h hc
    cases v with
    | set => simp [assign] at h
    | array xs => exact addCol_cols ok d name xs h hc
    | scalar x => exact addCol_cols ok _ name _ h hc
    | seq xs =>
      simp only [assign] at h hc
      split at h
      · next h1 => rw [if_pos h1] at hc; exact addCol_cols ok _ name _ h hc
      · next h1 =>
        rw [if_neg h1] at hc
        split at h
        · next h2 => rw [if_pos h2] at hc; exact addCol_cols ok _ name _ h hc
        · cases h

theorem run_fresh (ok : List V → Bool) (ops : List (Op V)) (d : Ds V) (hf : Fresh d) (hq : Quiet ok d ops) : Fresh (run ok d ops) := by
  induction ops generalizing d with
  | nil => exact hf
  | cons o os ih => exact ih _ (step_fresh ok d o hf hq.1 hq.2.1) hq.2.2

/-- Part of: a Dataset without columns takes an array or list of any length as its first column. Proved after histories in which
nothing failed and nobody called `head` or `tail` while there was no column. -/
theorem first_column_partial (ok : List V → Bool) (ops : List (Op V)) (hq : Quiet ok empty ops) (hc : (run ok empty ops).cols = [])
    (name : String) (xs : List V) (hok : ok xs = true) :
    assign ok (run ok empty ops) name (.array xs) = ({ nrows := some xs.length, cols := [(name, xs)] }, none) ∧
    assign ok (run ok empty ops) name (.seq xs) = ({ nrows := some xs.length, cols := [(name, xs)] }, none) := by
  have hn : (run ok empty ops).nrows = none := run_fresh ok ops empty (fun _ => rfl) hq hc
  generalize run ok empty ops = d at hc hn
  cases d with
  | mk r c =>
    subst hc; subst hn
    have h1 : ¬ (xs.length = 1 ∧ 1 < xs.length) := by omega
    have h2 : ¬ (xs.length = 1 ∧ xs.length ≠ 1) := by omega
    constructor
    · simp [assign, addCol, hok, setCol]
    · simp only [assign, Option.getD_none, h2, if_false, if_true]
      simp only [addCol, hok, Bool.true_eq_false, if_false, h1, if_true, setCol]

example : Quiet (fun _ => true) (empty : Ds Int) [.assign "a" (.array [1, 2]), .look, .delete "a"] ∧
    (run (fun _ => true) (empty : Ds Int) [.assign "a" (.array [1, 2]), .look, .delete "a"]).cols = [] := by
  refine ⟨⟨by decide +kernel, trivial, by decide +kernel, ?_, by decide +kernel, trivial, trivial⟩, by decide +kernel⟩
  simp [step, assign, addCol, empty, setCol, SeesColumns]

/-- Exactly when a Dataset without columns takes a first array. -/
theorem first_array_exact (ok : List V → Bool) (d : Ds V) (hc : d.cols = []) (name : String) (xs : List V) (hok : ok xs = true) :
    (assign ok d name (.array xs)).2 = none ↔
      d.nrows = none ∨ d.nrows = some xs.length ∨ (xs.length = 1 ∧ ∃ n, d.nrows = some n ∧ 1 < n) := by
  cases d with
  | mk r c =>
    simp only at hc
    subst hc
    cases r with
    | none => simp [assign, addCol, hok]
    | some n =>
      simp only [assign, addCol, hok, Bool.true_eq_false, if_false]
      split
      · next h =>
        match xs, h.1 with
        | [x], _ => simp [repeatEach_one, h.2]
      · next h =>
        split
        · next h2 => simp [h2]
        · next h2 =>
          simp only [reduceCtorEq, false_or, Option.some.injEq, false_iff, not_or, not_and, not_exists]
          exact ⟨fun e => h2 e.symm, fun h1 m hm hlt => h ⟨h1, by omega⟩⟩

/-- The code violates it: after looking at an empty Dataset with `head`, or after a failed assignment, columns that a new Dataset
takes are refused. -/
theorem first_column_counterexample :
    (run (fun _ => true) (empty : Ds Int) [.look]).cols = [] ∧
    (assign (fun _ => true) (run (fun _ => true) (empty : Ds Int) [.look]) "a" (.array [1, 2, 3])).2 = some .rows ∧
    (assign (fun _ => true) (run (fun _ => true) (empty : Ds Int) [.look]) "a" (.scalar 5)).1.cols = [("a", [])] ∧
    (run (fun xs => xs != [0, 0, 0]) (empty : Ds Int) [.assign "a" (.seq [0, 0, 0])]).cols = [] ∧
    (assign (fun xs => xs != [0, 0, 0]) (run (fun xs => xs != [0, 0, 0]) (empty : Ds Int) [.assign "a" (.seq [0, 0, 0])]) "a"
      (.array [1, 2])).2 = some .rows := by decide +kernel

/-- A Dataset of no rows takes a list of one value and a single value, but not an array of one value. -/
theorem one_value_counterexample :
    assign (fun _ => true) ({ nrows := some 0, cols := [("a", [])] } : Ds Int) "b" (.seq [5]) =
      ({ nrows := some 0, cols := [("a", []), ("b", [])] }, none) ∧
    (assign (fun _ => true) ({ nrows := some 0, cols := [("a", [])] } : Ds Int) "b" (.array [5])).2 = some .rows := by decide +kernel

end Verif.DsOps
