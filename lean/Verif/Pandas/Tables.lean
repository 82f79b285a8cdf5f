import Verif.Pandas.Model
import Verif.Arrow.Tables
/-! # Datasets to frames and back (C216, C217) -/
namespace Verif.Pandas
open Verif.Arrow
variable {A P : Type}

theorem toFrame_iff (conv : A → Except Err P) (index : P) (ds : List (List Char × A)) (f : Frame P) :
    toFrame conv index ds = .ok f ↔
      f = ⟨true, none, index, f.cols⟩ ∧ List.Forall₂ (fun c d => c.1 = d.1 ∧ conv c.2 = .ok d.2) ds f.cols := by
  induction ds generalizing f with
  | nil =>
    constructor
    · intro h; cases h; exact ⟨rfl, List.Forall₂.nil⟩
    · rintro ⟨h, h2⟩
      cases hc : f.cols with
      | nil => rw [hc] at h; rw [h]; rfl
      | cons _ _ => rw [hc] at h2; cases h2
  | cons c ds ih =>
    obtain ⟨k, a⟩ := c
    unfold toFrame
    cases hc : conv a with
    | error e =>
      constructor
      · intro h; cases h
      · rintro ⟨_, h⟩
        cases hf : f.cols with
        | nil => rw [hf] at h; cases h
        | cons _ _ => rw [hf] at h; cases h with | cons h _ => rw [hc] at h; cases h.2
    | ok p =>
      dsimp only
      constructor
      · intro h
        cases ht : toFrame conv index ds with
        | error e => rw [ht] at h; cases h
        | ok g =>
          rw [ht] at h
          cases h
          obtain ⟨h1, h2⟩ := (ih g).1 ht
          refine ⟨?_, List.Forall₂.cons ⟨rfl, hc⟩ h2⟩
          rw [h1]
      · rintro ⟨h1, h2⟩
        cases hf : f.cols with
        | nil => rw [hf] at h2; cases h2
        | cons d cs =>
          rw [hf] at h2 h1
          cases h2 with
          | cons h3 h4 =>
            obtain ⟨k', p'⟩ := d
            obtain ⟨h5, h6⟩ := h3
            rw [hc] at h6
            cases h6
            cases h5
            rw [(ih ⟨true, none, index, cs⟩).2 ⟨rfl, h4⟩, h1]
            rfl

/-- names that a Dataset accepts -/
def Allowed (k : List Char) : Prop := k ≠ [] ∧ k.head? ≠ some '_'

theorem makeDs_iff (d r : List (List Char × A)) : makeDs d = .ok r ↔ r = d ∧ ∀ e ∈ d, Allowed e.1 := by
  unfold makeDs Allowed
  split
  · next h =>
    rw [List.any_eq_true] at h
    obtain ⟨e, he, h⟩ := h
    constructor
    · intro h2; cases h2
    · rintro ⟨_, h2⟩
      rw [decide_eq_true_eq] at h
      obtain ⟨h3, h4⟩ := h2 e he
      rcases h with h | h
      · exact absurd h h4
      · exact absurd (List.head?_eq_none_iff.1 h) h3
  · next h =>
    rw [List.any_eq_true] at h
    push Not at h
    constructor
    · intro h2; cases h2
      refine ⟨rfl, fun e he => ?_⟩
      have := h e he
      rw [ne_eq, decide_eq_true_eq, not_or] at this
      exact ⟨fun h3 => this.2 (by rw [h3]; rfl), this.1⟩
    · rintro ⟨rfl, _⟩; rfl

theorem fromFrame_iff (conv : P → Except Err A) (preserve : Option Bool) (f : Frame P) (ds : List (List Char × A)) :
    fromFrame conv preserve f = .ok ds ↔ ∃ cols, frameCols preserve f = .ok cols ∧ tableLoop conv [] cols = .ok ds ∧ ∀ e ∈ ds, Allowed e.1 := by
  unfold fromFrame
  cases hc : frameCols preserve f with
  | error e => exact ⟨(fun h => by cases h), (fun ⟨_, h, _⟩ => by cases h)⟩
  | ok cols =>
    dsimp only
    cases ht : tableLoop conv [] cols with
    | error e =>
      refine ⟨(fun h => by cases h), ?_⟩
      rintro ⟨_, h, h2, _⟩
      cases h
      rw [ht] at h2
      cases h2
    | ok d =>
      dsimp only
      rw [makeDs_iff]
      constructor
      · rintro ⟨rfl, h⟩
        exact ⟨cols, rfl, ht, h⟩
      · rintro ⟨_, h, h2, h3⟩
        cases h
        rw [ht] at h2
        cases h2
        exact ⟨rfl, h3⟩

/-- **C216** `to_pandas` gives a frame with a column for every column, in the same order and with the same name, with the default index; it
raises exactly if a column cannot be converted. -/
theorem toFrame_columns (conv : A → Except Err P) (index : P) (ds : List (List Char × A)) :
    (∀ f, toFrame conv index ds = .ok f → f.defaultIndex = true ∧ List.Forall₂ (fun c d => c.1 = d.1 ∧ conv c.2 = .ok d.2) ds f.cols) ∧
    ((∃ f, toFrame conv index ds = .ok f) ↔ ∀ c ∈ ds, ∃ p, conv c.2 = .ok p) := by
  refine ⟨fun f h => ?_, ?_, ?_⟩
  · obtain ⟨h1, h2⟩ := (toFrame_iff conv index ds f).1 h
    exact ⟨by rw [h1], h2⟩
  · rintro ⟨f, h⟩ c hc
    obtain ⟨_, hF⟩ := (toFrame_iff conv index ds f).1 h
    obtain ⟨i, hi, rfl⟩ := List.getElem_of_mem hc
    have := (List.forall₂_iff_get.1 hF).2 i hi (by rw [← hF.length_eq]; exact hi)
    exact ⟨_, this.2⟩
  · intro h
    obtain ⟨t, ht⟩ := (toTable_columns conv ds).2.2 h
    exact ⟨⟨true, none, index, t⟩, (toFrame_iff _ _ _ _).2 ⟨rfl, (toTable_iff conv ds t).1 ht⟩⟩

/-- **C216** A Dataset (whose names are different and allowed) comes back from pandas with the same columns, if every column does;
also with `preserve_index=None`. -/
theorem frame_round_trip (to_ : A → Except Err P) (from_ : P → Except Err A) (index : P) (ds : List (List Char × A)) (hn : (ds.map (·.1)).Nodup)
    (ha : ∀ c ∈ ds, Allowed c.1) (h : ∀ c ∈ ds, ∃ p, to_ c.2 = .ok p ∧ from_ p = .ok c.2) (preserve : Option Bool) (hp : preserve ≠ some true) :
    ∃ f, toFrame to_ index ds = .ok f ∧ fromFrame from_ preserve f = .ok ds := by
  obtain ⟨t, ht, hback⟩ := table_round_trip to_ from_ ds hn h
  refine ⟨⟨true, none, index, t⟩, (toFrame_iff _ _ _ _).2 ⟨rfl, (toTable_iff to_ ds t).1 ht⟩, ?_⟩
  have hpres : preserves preserve (⟨true, none, index, t⟩ : Frame P) = false := by
    cases preserve with
    | none => rfl
    | some b => cases b with
      | false => rfl
      | true => exact absurd rfl hp
  refine (fromFrame_iff _ _ _ _).2 ⟨t, ?_, hback, ha⟩
  unfold frameCols
  rw [hpres]
  rfl

example : ∀ c ∈ [(['a'], 1), (['b'], 2)], Allowed c.1 := by unfold Allowed; decide

/-- **C217 (partial)** If a frame with different names becomes a Dataset, it is one with a column for every column, in the same order; with
`preserve_index=True`, or `None` and an index that is not the default, the index is the first column, under a name that no column has.
Missing: frames with a name twice, or with names that riptable does not allow. -/
theorem fromFrame_columns_partial (conv : P → Except Err A) (preserve : Option Bool) (f : Frame P) (hn : (f.cols.map (·.1)).Nodup)
    (ds : List (List Char × A)) (h : fromFrame conv preserve f = .ok ds) :
    (preserves preserve f = false → List.Forall₂ (fun c d => c.1 = d.1 ∧ conv c.2 = .ok d.2) f.cols ds) ∧
    (preserves preserve f = true → ∃ k a rest, ds = (k, a) :: rest ∧ conv f.index = .ok a ∧ k ∉ f.cols.map (·.1) ∧
      List.Forall₂ (fun c d => c.1 = d.1 ∧ conv c.2 = .ok d.2) f.cols rest) := by
  obtain ⟨cols, hc, ht, _⟩ := (fromFrame_iff _ _ _ _).1 h
  unfold frameCols at hc
  constructor
  · intro hp
    rw [hp] at hc
    cases hc
    exact (fromTable_columns_partial conv f.cols hn).1 _ ht
  · intro hp
    rw [hp, if_pos rfl] at hc
    unfold resetIndex at hc
    split at hc
    · cases hc
    · next hx =>
      cases hc
      have hF := (fromTable_columns_partial conv ((indexColumn f, f.index) :: f.cols) (by
        rw [List.map_cons, List.nodup_cons]; exact ⟨hx, hn⟩)).1 _ ht
      cases hF with
      | cons h1 h2 =>
        exact ⟨_, _, _, rfl, h1.2, by rw [← h1.1]; exact hx, h2⟩

theorem forall2_names {R : List Char × P → List Char × A → Prop} {l : List (List Char × P)} {r : List (List Char × A)}
    (h : List.Forall₂ (fun c d => c.1 = d.1 ∧ R c d) l r) : r.map (·.1) = l.map (·.1) := by
  induction h with
  | nil => rfl
  | cons h _ ih => rw [List.map_cons, List.map_cons, ih, h.1]

/-- **C217 (partial)** Without the index, a frame with different names is accepted exactly if every column can be converted and every name is
allowed. -/
theorem fromFrame_accepts_exact (conv : P → Except Err A) (f : Frame P) (hn : (f.cols.map (·.1)).Nodup) :
    (∃ ds, fromFrame conv (some false) f = .ok ds) ↔ ∀ c ∈ f.cols, Allowed c.1 ∧ ∃ a, conv c.2 = .ok a := by
  have names : ∀ ds, tableLoop conv [] f.cols = .ok ds → ds.map (·.1) = f.cols.map (·.1) := by
    intro ds h
    exact forall2_names ((fromTable_columns_partial conv f.cols hn).1 _ h)
  constructor
  · rintro ⟨ds, h⟩ c hc
    obtain ⟨cols, h1, ht, hal⟩ := (fromFrame_iff _ _ _ _).1 h
    cases h1
    refine ⟨?_, (fromTable_columns_partial conv f.cols hn).2.1 ⟨ds, ht⟩ c hc⟩
    have : c.1 ∈ ds.map (·.1) := by rw [names ds ht]; exact List.mem_map.2 ⟨c, hc, rfl⟩
    obtain ⟨e, he, h2⟩ := List.mem_map.1 this
    rw [← h2]
    exact hal e he
  · intro h
    obtain ⟨ds, ht⟩ := (fromTable_columns_partial conv f.cols hn).2.2 fun c hc => (h c hc).2
    refine ⟨ds, (fromFrame_iff _ _ _ _).2 ⟨f.cols, rfl, ht, fun e he => ?_⟩⟩
    have : e.1 ∈ f.cols.map (·.1) := by rw [← names ds ht]; exact List.mem_map.2 ⟨e, he, rfl⟩
    obtain ⟨c, hc, h2⟩ := List.mem_map.1 this
    rw [← h2]
    exact (h c hc).1

/-- **C217** violated: of two columns with the same name the second is there, in the place of the first; a frame with a column `_x` is
refused; and so is `preserve_index=True` for a frame with columns "index" and "level_0". -/
theorem fromFrame_counterexample :
    fromFrame (fun n : Nat => .ok n) none ⟨true, none, 0, [(['a'], 1), (['b'], 3), (['a'], 2)]⟩ = .ok [(['a'], 2), (['b'], 3)] ∧
    fromFrame (fun n : Nat => .ok n) none ⟨true, none, 0, [(['_', 'x'], 1)]⟩ = .error .valueError ∧
    fromFrame (fun n : Nat => .ok n) (some true) ⟨true, none, 0, [("index".toList, 1), ("level_0".toList, 2)]⟩ = .error .valueError := by
  refine ⟨?_, ?_, ?_⟩ <;> decide

end Verif.Pandas
