import Verif.Pandas.Model
import Verif.CatNew.Given
/-! # Categoricals to pandas and back (C208, C209, C210) -/
namespace Verif.Pandas
open Verif.NpOps hiding Err
open Verif.Arrow
variable {S : Type} [LinearOrder S]

theorem fromCodes_iff (codes : List Int) (cats : List S) (p : PCat S) :
    fromCodes codes cats = .ok p ↔ p = ⟨codes, cats⟩ ∧ PCat.Valid p := by
  have hany : (codes.any fun j => decide (j < -1) || decide ((cats.length : Int) ≤ j)) = true ↔ ¬ ∀ j ∈ codes, -1 ≤ j ∧ j < (cats.length : Int) := by
    rw [List.any_eq_true]
    push Not
    refine exists_congr fun j => and_congr_right fun _ => ?_
    simp only [Bool.or_eq_true, decide_eq_true_eq]
    constructor
    · intro h h2; omega
    · intro h; by_cases h2 : j < -1
      · exact .inl h2
      · exact .inr (h (by omega))
  unfold fromCodes PCat.Valid
  by_cases h : (codes.any fun j => decide (j < -1) || decide ((cats.length : Int) ≤ j)) = true
  · rw [if_pos h]
    constructor
    · intro h2; cases h2
    · rintro ⟨rfl, h2, _⟩
      exact absurd h2 (hany.1 h)
  · rw [if_neg h]
    have h' := not_not.1 (fun hn => h (hany.2 hn))
    by_cases hn : cats.Nodup
    · rw [if_pos hn]
      constructor
      · intro h2; cases h2; exact ⟨rfl, h', hn⟩
      · rintro ⟨rfl, _⟩; rfl
    · rw [if_neg hn]
      constructor
      · intro h2; cases h2
      · rintro ⟨rfl, _, h2⟩; exact absurd h2 hn

theorem pandasBits_pos (n : Nat) : 8 ≤ pandasBits n := by unfold pandasBits; split_ifs <;> omega

theorem pandasBits_fits {n : Nat} (h : n < 2 ^ 63) : n < 2 ^ (pandasBits n - 1) := by
  unfold pandasBits
  split_ifs
  · have : (2 : Nat) ^ (8 - 1) = 128 := by decide
    omega
  · have : (2 : Nat) ^ (16 - 1) = 32768 := by decide
    omega
  · have : (2 : Nat) ^ (32 - 1) = 2147483648 := by decide
    omega
  · exact h

/-- adding 1 never overflows -/
theorem codesPlusOne_eq (p : PCat S) (hp : p.Valid) (hn : p.cats.length < 2 ^ 63) : codesPlusOne p = p.codes.map (· + 1) := by
  unfold codesPlusOne
  apply List.map_congr_left
  intro k hk
  have h1 := hp.1 k hk
  have h2 := pandasBits_fits hn
  have h3 := pandasBits_pos p.cats.length
  apply CatNew.store_id (by omega)
  · have : (0 : Int) ≤ ((2 ^ (pandasBits p.cats.length - 1) : Nat) : Int) := Int.natCast_nonneg _
    omega
  · omega

theorem fromPandasCat_eq (p : PCat S) (hp : p.Valid) (hn : p.cats.length < 2 ^ 63) :
    fromPandasCat p = .ok (1, p.codes.map (· + 1), p.cats) := by
  unfold fromPandasCat CatNew.groupingOfCodes
  rw [codesPlusOne_eq p hp hn]
  have : CatNew.outside 1 p.cats.length (p.codes.map (· + 1)) = false := by
    rw [CatNew.not_outside]
    intro k hk
    obtain ⟨j, hj, rfl⟩ := List.mem_map.1 hk
    have := hp.1 j hj
    constructor <;> omega
  simp [CatNew.flipUnsigned, this, CatNew.combineFilter, CatNew.recastIfAsked]

theorem catShows_plusOne (p : PCat S) : catShows 1 (p.codes.map (· + 1)) p.cats = p.shows := by
  unfold catShows PCat.shows
  rw [List.map_map]
  apply List.map_congr_left
  intro j _
  show (if j + 1 < ((1 : Nat) : Int) then none else p.cats[(j + 1 - ((1 : Nat) : Int)).toNat]?) = _
  have e : j + 1 - ((1 : Nat) : Int) = j := by omega
  rw [e]
  by_cases h : j < 0
  · rw [if_pos (by omega), if_pos h]
  · rw [if_neg (by omega), if_neg h]

/-- **C208** A Categorical column of pandas becomes a Categorical whose rows show the same categories, with the same categories in the same
order; rows without a category are filtered. Nothing overflows, however many categories there are. -/
theorem fromPandasCat_shows (p : PCat S) (hp : p.Valid) (hn : p.cats.length < 2 ^ 63) :
    ∃ base codes, fromPandasCat p = .ok (base, codes, p.cats) ∧ catShows base codes p.cats = p.shows ∧
      ∀ (i : Nat), p.codes[i]? = some (-1) ↔ codes[i]? = some 0 := by
  refine ⟨1, _, fromPandasCat_eq p hp hn, catShows_plusOne p, fun i => ?_⟩
  rw [List.getElem?_map]
  cases p.codes[i]? with
  | none => simp
  | some k =>
    simp only [Option.map_some, Option.some.injEq]
    omega

example : PCat.Valid (⟨[0, -1, 1, 0], [10, 20]⟩ : PCat Nat) := by
  unfold PCat.Valid; decide

/-- **C209** A Categorical with base index 1 and different categories goes to pandas with its rows and categories, and comes back as it
was. -/
theorem cat_round_trip (c : ACat S) (hb : c.base = 1) (hc : OneBased c.codes c.labels) (hd : c.labels.Nodup) (hn : c.labels.length < 2 ^ 63) :
    ∃ p, toPandasCat c = .ok p ∧ p.cats = c.labels ∧ p.shows = catShows c.base c.codes c.labels ∧
      fromPandasCat p = .ok (c.base, c.codes, c.labels) := by
  have hv : PCat.Valid (⟨c.codes.map fun k => k - (c.base : Int), c.labels⟩ : PCat S) := by
    refine ⟨fun j hj => ?_, hd⟩
    obtain ⟨k, hk, rfl⟩ := List.mem_map.1 hj
    have := hc k hk
    rw [hb]
    constructor
    · omega
    · show k - ((1 : Nat) : Int) < (c.labels.length : Int)
      omega
  have hback : (c.codes.map fun k => k - (c.base : Int)).map (· + 1) = c.codes := by
    rw [List.map_map]
    conv_rhs => rw [← List.map_id c.codes]
    apply List.map_congr_left
    intro k _
    show k - (c.base : Int) + 1 = k
    rw [hb]; omega
  refine ⟨_, (fromCodes_iff _ _ _).2 ⟨rfl, hv⟩, rfl, ?_, ?_⟩
  · rw [← catShows_plusOne, hback, hb]
  · rw [fromPandasCat_eq _ hv hn, hback, hb]

example : OneBased [1, 0, 2] ["a", "b"] := by unfold OneBased; decide

/-- **C210 (partial)** A Categorical with base index 0 goes to pandas exactly if every code is a position in the categories or -1 (and the
categories are different). Then it shows the same rows there; it comes back with base index 1. Missing: rows with the invalid integer. -/
theorem base0_exact (c : ACat S) (hb : c.base = 0) (hn : c.labels.length < 2 ^ 63) :
    ((∃ p, toPandasCat c = .ok p) ↔ (∀ k ∈ c.codes, -1 ≤ k ∧ k < (c.labels.length : Int)) ∧ c.labels.Nodup) ∧
    ∀ p, toPandasCat c = .ok p → p.shows = catShows c.base c.codes c.labels ∧
      fromPandasCat p = .ok (1, c.codes.map (· + 1), c.labels) ∧ catShows 1 (c.codes.map (· + 1)) c.labels = catShows c.base c.codes c.labels := by
  have hsame : (c.codes.map fun k => k - (c.base : Int)) = c.codes := by
    conv_rhs => rw [← List.map_id c.codes]
    apply List.map_congr_left
    intro k _
    show k - (c.base : Int) = k
    rw [hb]; omega
  have hshow : PCat.shows (⟨c.codes, c.labels⟩ : PCat S) = catShows c.base c.codes c.labels := by
    unfold PCat.shows catShows
    apply List.map_congr_left
    intro k _
    rw [hb]
    show _ = if k < ((0 : Nat) : Int) then none else c.labels[(k - ((0 : Nat) : Int)).toNat]?
    have e : k - ((0 : Nat) : Int) = k := by omega
    rw [e]
    rfl
  unfold toPandasCat
  rw [hsame]
  constructor
  · constructor
    · rintro ⟨p, hp⟩
      obtain ⟨rfl, hv⟩ := (fromCodes_iff _ _ _).1 hp
      exact hv
    · intro h
      exact ⟨_, (fromCodes_iff _ _ _).2 ⟨rfl, h⟩⟩
  · intro p hp
    obtain ⟨rfl, hv⟩ := (fromCodes_iff _ _ _).1 hp
    exact ⟨hshow, fromPandasCat_eq _ hv hn, by rw [← hshow, ← catShows_plusOne]⟩

/-- **C210** violated: a Categorical with base index 0 and a missing row (the invalid integer) cannot be converted. With base index 1 the
same rows can. -/
theorem base0_counterexample :
    toPandasCat (⟨0, 0, [0, -128], [10, 20]⟩ : ACat Nat) = .error .valueError ∧
    catShows 0 [0, -128] [10, 20] = [some 10, none] ∧
    toPandasCat (⟨1, 0, [1, 0], [10, 20]⟩ : ACat Nat) = .ok ⟨[0, -1], [10, 20]⟩ ∧ catShows 1 [1, 0] [10, 20] = [some 10, none] := by
  refine ⟨?_, ?_, ?_, ?_⟩ <;> decide

end Verif.Pandas
