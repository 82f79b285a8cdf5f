import Verif.Arrow.Model
import Mathlib.Data.List.Forall2
import Mathlib.Data.List.Nodup
/-! # Datasets to Arrow tables and back (C199, C200) -/
namespace Verif.Arrow
variable {A P : Type}

theorem toTable_iff (conv : A → Except Err P) (ds : List (List Char × A)) (t : List (List Char × P)) :
    toTable conv ds = .ok t ↔ List.Forall₂ (fun c d => c.1 = d.1 ∧ conv c.2 = .ok d.2) ds t := by
  induction ds generalizing t with
  | nil =>
    constructor
    · intro h; cases h; exact List.Forall₂.nil
    · intro h; cases h; rfl
  | cons c ds ih =>
    obtain ⟨k, a⟩ := c
    unfold toTable
    cases hc : conv a with
    | error e =>
      constructor
      · intro h; cases h
      · intro h; cases h with
        | cons h _ => rw [hc] at h; cases h.2
    | ok p =>
      cases ht : toTable conv ds with
      | error e =>
        constructor
        · intro h; cases h
        · intro h; cases h with
          | cons _ h2 => rw [(ih _).2 h2] at ht; cases ht
      | ok r =>
        constructor
        · intro h; cases h
          exact List.Forall₂.cons ⟨rfl, hc⟩ ((ih _).1 ht)
        · intro h; cases h with
          | cons h1 h2 =>
            rename_i d t'
            rw [(ih _).2 h2] at ht
            cases ht
            obtain ⟨k', p'⟩ := d
            obtain ⟨h1, h1'⟩ := h1
            rw [hc] at h1'
            cases h1'
            cases h1
            rfl

/-- **C199** `Dataset.to_arrow` gives a column for every column, in the same order and with the same name, or raises if one cannot be converted. -/
theorem toTable_columns (conv : A → Except Err P) (ds : List (List Char × A)) :
    (∀ t, toTable conv ds = .ok t → List.Forall₂ (fun c d => c.1 = d.1 ∧ conv c.2 = .ok d.2) ds t) ∧
    ((∃ t, toTable conv ds = .ok t) ↔ ∀ c ∈ ds, ∃ p, conv c.2 = .ok p) := by
  refine ⟨fun t h => (toTable_iff conv ds t).1 h, ?_, ?_⟩
  · rintro ⟨t, h⟩ c hc
    have hF := (toTable_iff conv ds t).1 h
    obtain ⟨i, hi, rfl⟩ := List.getElem_of_mem hc
    have := (List.forall₂_iff_get.1 hF).2 i hi (by rw [← hF.length_eq]; exact hi)
    exact ⟨_, this.2⟩
  · intro h
    induction ds with
    | nil => exact ⟨_, rfl⟩
    | cons c ds ih =>
      obtain ⟨t, ht⟩ := ih fun x hx => h x (List.mem_cons_of_mem _ hx)
      obtain ⟨p, hp⟩ := h c List.mem_cons_self
      exact ⟨(c.1, p) :: t, (toTable_iff _ _ _).2 (List.Forall₂.cons ⟨rfl, hp⟩ ((toTable_iff _ _ _).1 ht))⟩

theorem tableLoop_ok (conv : P → Except Err A) : ∀ (t : List (List Char × P)) (ds done : List (List Char × A)),
    List.Forall₂ (fun c d => c.1 = d.1 ∧ conv c.2 = .ok d.2) t ds → (t.map (·.1)).Nodup → (∀ c ∈ t, c.1 ∉ done.map (·.1)) →
    tableLoop conv done t = .ok (done ++ ds)
  | [], _, done, hF, _, _ => by cases hF; unfold tableLoop; rw [List.append_nil]
  | (k, p) :: t, _, done, hF, hn, hd => by
    cases hF with
    | cons h1 h2 =>
      rename_i d ds
      obtain ⟨k', a⟩ := d
      obtain ⟨hk, ha⟩ := h1
      dsimp only at hk ha
      subst hk
      unfold tableLoop
      rw [ha]
      dsimp only
      have hnew : putCol done k a = done ++ [(k, a)] := by
        unfold putCol
        rw [if_neg (hd (k, p) List.mem_cons_self)]
      rw [List.map_cons, List.nodup_cons] at hn
      rw [hnew, tableLoop_ok conv t ds _ h2 hn.2, List.append_assoc]
      · rfl
      · intro c hc hm
        rw [List.map_append] at hm
        rcases List.mem_append.1 hm with hm | hm
        · exact hd c (List.mem_cons_of_mem _ hc) hm
        · simp at hm
          exact hn.1 (List.mem_map.2 ⟨c, hc, hm⟩)

theorem tableLoop_converts (conv : P → Except Err A) : ∀ (t : List (List Char × P)) (done r : List (List Char × A)),
    tableLoop conv done t = .ok r → ∀ c ∈ t, ∃ a, conv c.2 = .ok a
  | [], _, _, _, c, hc => by cases hc
  | (k, p) :: t, done, r, h, c, hc => by
    unfold tableLoop at h
    cases hp : conv p with
    | error e => rw [hp] at h; cases h
    | ok a =>
      rw [hp] at h
      rcases List.mem_cons.1 hc with rfl | hc
      · exact ⟨a, hp⟩
      · exact tableLoop_converts conv t _ r h c hc

/-- **C200 (partial)** `Dataset.from_arrow` of a table with different column names gives a column for every column, in the same order and with the same
name, or raises if one cannot be converted. Missing: tables with a name twice. -/
theorem fromTable_columns_partial (conv : P → Except Err A) (t : List (List Char × P)) (hn : (t.map (·.1)).Nodup) :
    (∀ ds, fromTable conv t = .ok ds → List.Forall₂ (fun c d => c.1 = d.1 ∧ conv c.2 = .ok d.2) t ds) ∧
    ((∃ ds, fromTable conv t = .ok ds) ↔ ∀ c ∈ t, ∃ a, conv c.2 = .ok a) := by
  have key : (∀ c ∈ t, ∃ a, conv c.2 = .ok a) → ∃ ds, fromTable conv t = .ok ds ∧ List.Forall₂ (fun c d => c.1 = d.1 ∧ conv c.2 = .ok d.2) t ds := by
    intro h
    obtain ⟨ds, hds⟩ := (toTable_columns conv t).2.2 h
    have hF := (toTable_iff conv t ds).1 hds
    exact ⟨ds, tableLoop_ok conv t ds [] hF hn (by simp), hF⟩
  have conv' : ∀ ds, fromTable conv t = .ok ds → ∀ c ∈ t, ∃ a, conv c.2 = .ok a := fun ds h => tableLoop_converts conv t [] ds h
  refine ⟨fun ds h => ?_, fun ⟨ds, h⟩ => conv' ds h, fun h => ?_⟩
  · obtain ⟨ds', h1, h2⟩ := key (conv' ds h)
    rw [h] at h1; cases h1
    exact h2
  · obtain ⟨ds, h1, _⟩ := key h
    exact ⟨ds, h1⟩

/-- **C199** A Dataset (whose column names are different) comes back with the same columns, if every column does. -/
theorem table_round_trip (to_ : A → Except Err P) (from_ : P → Except Err A) (ds : List (List Char × A)) (hn : (ds.map (·.1)).Nodup)
    (h : ∀ c ∈ ds, ∃ p, to_ c.2 = .ok p ∧ from_ p = .ok c.2) : ∃ t, toTable to_ ds = .ok t ∧ fromTable from_ t = .ok ds := by
  obtain ⟨t, ht⟩ := (toTable_columns to_ ds).2.2 fun c hc => by
    obtain ⟨p, hp, _⟩ := h c hc
    exact ⟨p, hp⟩
  refine ⟨t, ht, ?_⟩
  have hF := (toTable_iff to_ ds t).1 ht
  have hF2 : List.Forall₂ (fun c d => c.1 = d.1 ∧ from_ c.2 = .ok d.2) t ds := by
    rw [List.forall₂_iff_get] at hF ⊢
    refine ⟨hF.1.symm, fun i hi hi' => ?_⟩
    have h1 := hF.2 i hi' hi
    refine ⟨h1.1.symm, ?_⟩
    obtain ⟨p, hp, hp2⟩ := h (ds.get ⟨i, hi'⟩) (List.getElem_mem _)
    rw [hp] at h1
    have := h1.2
    cases this
    exact hp2
  have hn2 : (t.map (·.1)).Nodup := by
    have : t.map (·.1) = ds.map (·.1) := by
      clear hn h ht hF
      induction hF2 with
      | nil => rfl
      | cons h _ ih => rw [List.map_cons, List.map_cons, ih, h.1]
    rw [this]; exact hn
  exact tableLoop_ok from_ t ds [] hF2 hn2 (by simp)

example : (∀ c ∈ [(['a'], 1), (['b'], 2)], ∃ p, (fun n : Nat => (Except.ok (n + 1) : Except Err Nat)) c.2 = .ok p ∧
    (fun n : Nat => (if 0 < n then .ok (n - 1) else .error .typeError : Except Err Nat)) p = .ok c.2) := by
  intro c _
  exact ⟨c.2 + 1, rfl, by simp⟩

/-- **C200** violated: of two columns with the same name only the second is there. -/
theorem fromTable_counterexample : fromTable (fun n : Nat => .ok n) [(['a'], 1), (['a'], 2)] = .ok [(['a'], 2)] := by decide

end Verif.Arrow
