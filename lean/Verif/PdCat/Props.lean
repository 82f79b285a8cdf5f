import Verif.PdCat.Model
import Mathlib.Tactic.Common
/-! # The building blocks of a pandas Categorical (C310) -/
namespace Verif.PdCat

theorem make_vals (cats : Cats) : (makeStringArray cats).vals = cats.vals := by
  cases cats with
  | int l => rfl
  | text l => simp only [makeStringArray]; split <;> rfl

theorem minOf_spec (codes : List Int) : (minOf codes = none ↔ codes = []) ∧
    ∀ m, minOf codes = some m → m ∈ codes ∧ ∀ k ∈ codes, m ≤ k := by
  cases codes with
  | nil => simp [minOf]
  | cons a l =>
    refine ⟨by simp [minOf], ?_⟩
    intro m hm
    simp only [minOf, Option.some.injEq] at hm
    subst hm
    have key : ∀ (l : List Int) (a : Int), (l.foldl min a ∈ a :: l) ∧ ∀ k ∈ a :: l, l.foldl min a ≤ k := by
      intro l
      induction l with
      | nil => simp
      | cons b l ih =>
        intro a
        obtain ⟨h1, h2⟩ := ih (min a b)
        simp only [List.foldl_cons]
        constructor
        · rcases List.mem_cons.1 h1 with h | h
          · rw [h]
            rcases Int.le_total a b with hab | hab
            · rw [Int.min_eq_left hab]; simp
            · rw [Int.min_eq_right hab]; simp
          · simp [h]
        · have hm := h2 _ List.mem_cons_self
          intro k hk
          rcases List.mem_cons.1 hk with rfl | hk
          · omega
          · rcases List.mem_cons.1 hk with rfl | hk
            · omega
            · exact h2 k (List.mem_cons_of_mem _ hk)
    exact key l a

/-- C310: with a base index other than zero every row shows its category, and a missing value is a code below the base -/
theorem base_exact (codes : List Int) (cats : Cats) (base : Int) (hb : base ≠ 0) :
    ∃ (out : List Int) (ls : Labels), convert codes cats base = .ok (out, ls) ∧ ls.vals = cats.vals ∧
      out.map (shown base ls) = codes.map (pandasRow cats) := by
  refine ⟨_, _, by unfold convert; rw [if_pos hb], make_vals cats, ?_⟩
  rw [List.map_map]
  refine List.map_congr_left fun k _ => ?_
  simp only [Function.comp, shown, pandasRow, make_vals]
  have : k + base - base = k := by omega
  rw [this]
  by_cases hk : k < 0
  · rw [if_pos hk, if_pos (by omega)]
  · rw [if_neg hk, if_neg (by omega)]

/-- C310: with base index zero and no missing value every row shows its category -/
theorem zero_partial (codes : List Int) (cats : Cats) (hne : codes ≠ []) (h : ∀ k ∈ codes, 0 ≤ k) :
    ∃ (out : List Int) (ls : Labels), convert codes cats 0 = .ok (out, ls) ∧ ls.vals = cats.vals ∧
      out.map (shown 0 ls) = codes.map (pandasRow cats) := by
  obtain ⟨m, hm⟩ : ∃ m, minOf codes = some m := by
    cases hh : minOf codes with
    | none => exact absurd ((minOf_spec codes).1.1 hh) hne
    | some m => exact ⟨m, rfl⟩
  have h0 := h m ((minOf_spec codes).2 m hm).1
  refine ⟨codes, makeStringArray cats, ?_, make_vals cats, ?_⟩
  · unfold convert
    rw [if_neg (by simp), hm]
    dsimp only
    rw [if_neg (by omega), if_neg (by omega)]
  · refine List.map_congr_left fun k _ => ?_
    simp only [shown, pandasRow, make_vals, Int.sub_zero]

theorem convert_missing (codes : List Int) (cats : Cats) (h : WF codes cats) (hmis : (-1 : Int) ∈ codes) :
    convert codes cats 0 = match insertFirst codes (makeStringArray cats) with
      | .error e => .error e
      | .ok ls => .ok (codes.map (· + 1), ls) := by
  obtain ⟨m, hm⟩ : ∃ m, minOf codes = some m := by
    cases hh : minOf codes with
    | none => rw [(minOf_spec codes).1.1 hh] at hmis; cases hmis
    | some m => exact ⟨m, rfl⟩
  obtain ⟨h1, h2⟩ := (minOf_spec codes).2 m hm
  have h3 := (h m h1).1
  have h4 := h2 _ hmis
  obtain rfl : m = -1 := by omega
  unfold convert
  rw [if_neg (by simp), hm]
  dsimp only
  rw [if_neg (by omega), if_pos rfl]
  rfl

theorem widthOf_ge (l : List (List Char)) (n : Nat) (hn : 1 < n) : n ≤ widthOf l ↔ HasLong l n := by
  unfold widthOf HasLong
  induction l with
  | nil => simp; omega
  | cons t l ih =>
    simp only [List.foldr_cons, List.mem_cons, exists_eq_or_imp, ← ih]
    omega

theorem widthOf_pos (l : List (List Char)) : 1 ≤ widthOf l := by
  unfold widthOf
  induction l with
  | nil => simp
  | cons t l ih => simp only [List.foldr_cons]; omega

/-- the label missing values get: `Inv` if the longest category has three characters or more, `In` if it has two and all categories
are ASCII, otherwise the empty text -/
def IsWord (l : List (List Char)) (word : List Char) : Prop :=
  (HasLong l 3 → word = ['I', 'n', 'v']) ∧
  (¬ HasLong l 3 → HasLong l 2 → (∀ t ∈ l, ∀ c ∈ t, c.val < 128) → word = ['I', 'n']) ∧
  (¬ HasLong l 3 → ¬ (HasLong l 2 ∧ ∀ t ∈ l, ∀ c ∈ t, c.val < 128) → word = [])

/-- C310: texts, base index zero and missing values: a label is put in front; every row with a category shows it, and every
missing value shows the new label -/
theorem word_exact (codes : List Int) (l : List (List Char)) (h : WF codes (.text l)) (hmis : (-1 : Int) ∈ codes) :
    ∃ (out : List Int) (ls : Labels) (word : List Char), convert codes (.text l) 0 = .ok (out, ls) ∧ IsWord l word ∧
      ls.vals = .text word :: l.map .text ∧
      out.map (shown 0 ls) = codes.map (fun k => if k = -1 then some (.text word) else pandasRow (.text l) k) := by
  have rows : ∀ (ls : Labels) (word : List Char), ls.vals = .text word :: l.map .text →
      (codes.map (· + 1)).map (shown 0 ls) =
        codes.map (fun k => if k = -1 then some (.text word) else pandasRow (.text l) k) := by
    intro ls word hls
    rw [List.map_map]
    refine List.map_congr_left fun k hk => ?_
    have hk1 := (h k hk).1
    simp only [Function.comp, shown, pandasRow, hls, Int.sub_zero, Cats.vals]
    by_cases hk' : k = -1
    · subst hk'; simp
    · rw [if_neg (by omega), if_neg hk', if_neg (by omega)]
      have : (k + 1).toNat = k.toNat + 1 := by omega
      rw [this, List.getElem?_cons_succ]
  have hasc : (l.all (fun t => t.all fun c => decide (c.val < 128)) = true) ↔ ∀ t ∈ l, ∀ c ∈ t, c.val < 128 := by
    simp [List.all_eq_true]
  have w3 := widthOf_ge l 3 (by omega)
  have w2 := widthOf_ge l 2 (by omega)
  have w1 := widthOf_pos l
  rw [convert_missing codes _ h hmis]
  by_cases ha : ∀ t ∈ l, ∀ c ∈ t, c.val < 128
  · refine ⟨codes.map (· + 1), .bytes (widthOf l) (invBytes (widthOf l) :: l), invBytes (widthOf l), ?_, ?_, rfl, rows _ _ rfl⟩
    · simp only [makeStringArray]
      rw [if_pos (hasc.2 ha)]
      rfl
    · unfold IsWord
      rw [← w3, ← w2]
      unfold invBytes store invName
      refine ⟨fun h3 => ?_, fun h3 h2 _ => ?_, fun h3 h2 => ?_⟩
      · rw [if_neg (by omega)]
        exact List.take_of_length_le (by simpa using h3)
      · have : widthOf l = 2 := by omega
        rw [this]; rfl
      · have : ¬ 2 ≤ widthOf l := fun hh => h2 ⟨hh, ha⟩
        rw [if_pos (by omega)]
  · refine ⟨codes.map (· + 1), .unicode (widthOf l) (invUnicode (widthOf l) :: l), invUnicode (widthOf l), ?_, ?_, rfl, rows _ _ rfl⟩
    · simp only [makeStringArray]
      rw [if_neg (fun hh => ha (hasc.1 hh))]
      rfl
    · unfold IsWord
      rw [← w3, ← w2]
      unfold invUnicode store invName
      refine ⟨fun h3 => ?_, fun h3 h2 h4 => absurd h4 ha, fun h3 h2 => ?_⟩
      · rw [if_neg (by omega)]
        exact List.take_of_length_le (by simpa using h3)
      · rw [if_pos (by omega)]

/-- C310: so missing values are told apart from the others if no category is the inserted label -/
theorem apart_partial (codes : List Int) (l : List (List Char)) (h : WF codes (.text l)) (hmis : (-1 : Int) ∈ codes)
    (hw : ∀ word, IsWord l word → word ∉ l) :
    ∃ (out : List Int) (ls : Labels), convert codes (.text l) 0 = .ok (out, ls) ∧
      ∀ (i j : Nat) (k m : Int), codes[i]? = some k → codes[j]? = some m →
        (out.map (shown 0 ls))[i]? = (out.map (shown 0 ls))[j]? → (pandasRow (.text l) k = none ↔ pandasRow (.text l) m = none) := by
  obtain ⟨out, ls, word, h1, h2, h3, h4⟩ := word_exact codes l h hmis
  refine ⟨out, ls, h1, ?_⟩
  intro i j k m hi hj he
  rw [h4, List.getElem?_map, List.getElem?_map, hi, hj] at he
  simp only [Option.map_some, Option.some.injEq] at he
  have hkr := h k (List.mem_of_getElem? hi)
  have hmr := h m (List.mem_of_getElem? hj)
  have hnn : ∀ x : Int, -1 ≤ x ∧ x < (Cats.text l).vals.length → x ≠ -1 →
      ∃ t ∈ l, pandasRow (.text l) x = some (.text t) := by
    intro x hx hx1
    unfold pandasRow
    rw [if_neg (by omega)]
    have hlt : x.toNat < l.length := by
      have := hx.2
      simp only [Cats.vals, List.length_map] at this
      omega
    exact ⟨l[x.toNat], List.getElem_mem hlt, by simp [Cats.vals, hlt]⟩
  have hm1 : pandasRow (.text l) (-1) = none := rfl
  by_cases hk : k = -1 <;> by_cases hm : m = -1
  · subst hk; subst hm; simp
  · exfalso
    rw [if_pos hk, if_neg hm] at he
    obtain ⟨t, ht, ht'⟩ := hnn m hmr hm
    rw [ht'] at he
    injection he with he
    injection he with he
    exact hw word h2 (he ▸ ht)
  · exfalso
    rw [if_neg hk, if_pos hm] at he
    obtain ⟨t, ht, ht'⟩ := hnn k hkr hk
    rw [ht'] at he
    injection he with he
    injection he with he
    exact hw word h2 (he ▸ ht)
  · obtain ⟨t, -, ht'⟩ := hnn k hkr hk
    obtain ⟨t2, -, ht2⟩ := hnn m hmr hm
    simp [ht', ht2]

example : WF [-1, 0, 1, 0] (.text [['a', 'b', 'c'], ['d']]) ∧ (-1 : Int) ∈ ([-1, 0, 1, 0] : List Int) ∧
    ∀ word, IsWord [['a', 'b', 'c'], ['d']] word → word ∉ [['a', 'b', 'c'], ['d']] := by
  refine ⟨by unfold WF; decide, by decide, ?_⟩
  intro word hw
  rw [hw.1 ⟨['a', 'b', 'c'], by simp, by simp⟩]
  decide

/-- C310: integers as categories, base index zero and a missing value: either the call fails, or every missing value shows the
category of the last row -/
theorem int_exact (codes : List Int) (l : List Int) (h : WF codes (.int l)) (hmis : (-1 : Int) ∈ codes) :
    (codes.getLast? = some (-1) ∧ ∃ e, convert codes (.int l) 0 = .error e) ∨
    ∃ (out : List Int) (ls : Labels) (k v : Int), codes.getLast? = some k ∧ pandasRow (.int l) k = some (.int v) ∧
      convert codes (.int l) 0 = .ok (out, ls) ∧
      out.map (shown 0 ls) = codes.map (fun k => if k = -1 then some (.int v) else pandasRow (.int l) k) := by
  rw [convert_missing codes _ h hmis]
  simp only [makeStringArray, insertFirst]
  obtain ⟨k, hk⟩ : ∃ k, codes.getLast? = some k := by
    cases hh : codes.getLast? with
    | none => rw [List.getLast?_eq_none_iff.1 hh] at hmis; cases hmis
    | some k => exact ⟨k, rfl⟩
  have hkr := h k (List.mem_of_getLast? hk)
  by_cases hk1 : k = -1
  · subst hk1
    left
    refine ⟨hk, "ValueError: cannot convert float NaN to integer", ?_⟩
    simp [lastRow, hk]
  · right
    have hlt : k.toNat < l.length := by
      have := hkr.2
      simp only [Cats.vals, List.length_map] at this
      omega
    refine ⟨codes.map (· + 1), .int (l[k.toNat] :: l), k, l[k.toNat], hk, ?_, ?_, ?_⟩
    · unfold pandasRow
      rw [if_neg (by omega)]
      simp [Cats.vals, hlt]
    · have : lastRow codes l = some l[k.toNat] := by
        unfold lastRow
        rw [hk]
        dsimp only
        rw [if_neg (by omega), List.getElem?_eq_getElem hlt]
      rw [this]
    · rw [List.map_map]
      refine List.map_congr_left fun x hx => ?_
      have hx1 := (h x hx).1
      simp only [Function.comp, shown, pandasRow, Labels.vals, Int.sub_zero, Cats.vals]
      by_cases hx' : x = -1
      · subst hx'; simp
      · rw [if_neg (by omega), if_neg hx', if_neg (by omega)]
        have : (x + 1).toNat = x.toNat + 1 := by omega
        rw [this, List.map_cons, List.getElem?_cons_succ]

/-- C310: rows missing, 7: both show 7 -/
theorem int_counterexample : convert [-1, 0] (.int [7]) 0 = .ok ([0, 1], .int [7, 7]) := by decide

/-- C310: rows missing, `Inv`: both show `Inv`; and without three characters: the empty category and missing values are the same -/
theorem label_counterexample :
    convert [-1, 0] (.text [['I', 'n', 'v']]) 0 = .ok ([0, 1], .bytes 3 [['I', 'n', 'v'], ['I', 'n', 'v']]) ∧
    convert [-1, 0] (.text [[]]) 0 = .ok ([0, 1], .bytes 1 [[], []]) := by decide

/-- C310: no rows: the call fails -/
theorem empty_counterexample (cats : Cats) : ∃ e, convert [] cats 0 = .error e := ⟨_, rfl⟩

/-- C310: `Categorical(codes, categories=labels)` counts from one, unlike the codes of the default call: row "a" of rows a, b is
filtered and row "b" shows "a"; with a missing value row "a" shows "In", the label for missing values -/
theorem default_counterexample :
    (∃ out ls, convert [0, 1] (.text [['a'], ['b']]) 0 = .ok (out, ls) ∧ out.map (shown 1 ls) = [none, some (.text ['a'])]) ∧
    ∃ out ls, convert [-1, 0, 1] (.text [['a', 'a'], ['b', 'b']]) 0 = .ok (out, ls) ∧
      out.map (shown 1 ls) = [none, some (.text ['I', 'n']), some (.text ['a', 'a'])] :=
  ⟨⟨_, _, rfl, by decide⟩, ⟨_, _, rfl, by decide⟩⟩

end Verif.PdCat
