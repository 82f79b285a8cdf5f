import Verif.NpOps.Model
import Verif.PDs.Names
import Mathlib.Tactic.Ring
/-! # cat2keys (C179, C182) -/
namespace Verif.NpOps
variable {S : Type}

/-- the values of row `j` of key columns -/
def labelAt (cats : KeyCols S) (j : Nat) : List (Option S) := cats.map fun kv => kv.2[j]?

/-- a key: its columns have one row per category -/
structure Key.WF (k : Key S) : Prop where
  rect : ∀ kv ∈ k.cats, kv.2.length = k.count
  names : (k.cats.map (·.1)).Nodup

/-! ## columns -/

theorem tile_get {A : Type} (v : List A) {n : Nat} (hn : v.length = n) : ∀ (m c r : Nat), r < n → c < m → (tile m v)[c * n + r]? = v[r]? := by
  intro m
  induction m with
  | zero => intro c r _ hc; omega
  | succ m ih =>
    intro c r hr hc
    unfold tile
    rw [List.replicate_succ, List.flatten_cons]
    cases c with
    | zero => rw [Nat.zero_mul, Nat.zero_add, List.getElem?_append_left (by omega)]
    | succ c =>
      have he : (c + 1) * n + r = n + (c * n + r) := by ring
      rw [List.getElem?_append_right (by omega), he, hn, Nat.add_sub_cancel_left]
      exact ih c r hr (by omega)

theorem tile_length {A : Type} (m : Nat) (v : List A) : (tile m v).length = m * v.length := by
  induction m with
  | zero => simp [tile]
  | succ m ih => unfold tile at *; rw [List.replicate_succ, List.flatten_cons, List.length_append, ih]; ring

theorem repeatEach_get {A : Type} (n : Nat) : ∀ (v : List A) (c r : Nat), r < n → (repeatEach n v)[c * n + r]? = v[c]? := by
  intro v
  induction v with
  | nil => intro c r _; simp [repeatEach]
  | cons a v ih =>
    intro c r hr
    unfold repeatEach at *
    rw [List.flatMap_cons]
    cases c with
    | zero => rw [Nat.zero_mul, Nat.zero_add, List.getElem?_append_left (by simpa using hr)]; simp [hr]
    | succ c =>
      have he : (c + 1) * n + r = n + (c * n + r) := by ring
      rw [List.getElem?_append_right (by simp; omega), he, List.length_replicate, Nat.add_sub_cancel_left, ih c r hr]
      rfl

theorem repeatEach_length {A : Type} (n : Nat) (v : List A) : (repeatEach n v).length = v.length * n := by
  induction v with
  | nil => simp [repeatEach]
  | cons a v ih => unfold repeatEach at *; rw [List.flatMap_cons, List.length_append, ih, List.length_replicate, List.length_cons]; ring

/-! ## names -/

/-- the names that are tried -/
def tried (orig : List Char) (counter : Nat) (k : List Char) : Nat → List Char
  | 0 => k
  | j + 1 => orig ++ Nat.toDigits 10 (counter + j)

theorem freeName_cases (used : List (List Char)) (orig : List Char) : ∀ (fuel counter : Nat) (k : List Char),
    (∀ j < fuel, tried orig counter k j ∈ used) ∨ ((freeName used orig fuel counter k) ∉ used ∧ ∃ j, freeName used orig fuel counter k = tried orig counter k j) := by
  intro fuel
  induction fuel with
  | zero => intro c k; left; intro j hj; omega
  | succ fuel ih =>
    intro c k
    rw [freeName]
    split_ifs with h
    · rcases ih (c + 1) (orig ++ Nat.toDigits 10 c) with h1 | ⟨h1, j, h2⟩
      · left
        intro j hj
        cases j with
        | zero => exact h
        | succ j =>
          have := h1 j (by omega)
          cases j with
          | zero => exact this
          | succ j =>
            have he : c + 1 + j = c + (j + 1) := by omega
            show orig ++ Nat.toDigits 10 (c + (j + 1)) ∈ used
            rw [← he]
            exact this
      · right
        refine ⟨h1, j + 1, ?_⟩
        rw [h2]
        cases j with
        | zero => rfl
        | succ j =>
          have he : c + 1 + j = c + (j + 1) := by omega
          show orig ++ Nat.toDigits 10 (c + 1 + j) = orig ++ Nat.toDigits 10 (c + (j + 1))
          rw [he]
    · exact Or.inr ⟨h, 0, rfl⟩

theorem tried_inj (orig : List Char) : Function.Injective (tried orig 1 orig) := by
  have hpos : ∀ n, Nat.toDigits 10 n ≠ [] := fun n => Nat.toDigits_ne_nil
  intro a b h
  match a, b, h with
  | 0, 0, _ => rfl
  | 0, b + 1, h =>
    unfold tried at h
    exact absurd (List.self_eq_append_right.1 h) (hpos _)
  | a + 1, 0, h =>
    unfold tried at h
    exact absurd (List.self_eq_append_right.1 h.symm) (hpos _)
  | a + 1, b + 1, h =>
    unfold tried at h
    have := Verif.PDs.toDigits_inj (List.append_cancel_left h)
    omega

theorem freeName_new (used : List (List Char)) (k : List Char) : freeName used k (used.length + 1) 1 k ∉ used := by
  rcases freeName_cases used k (used.length + 1) 1 k with h | h
  · exfalso
    have hnd : ((List.range (used.length + 1)).map (tried k 1 k)).Nodup := List.nodup_range.map (tried_inj k)
    have hsub : ((List.range (used.length + 1)).map (tried k 1 k)) ⊆ used := by
      intro x hx
      obtain ⟨j, hj, rfl⟩ := List.mem_map.1 hx
      exact h j (List.mem_range.1 hj)
    have := (hnd.subperm hsub).length_le
    simp at this
  · exact h.1

theorem addCols_ok (n : Nat) : ∀ (rest gd : KeyCols S), (gd.map (·.1)).Nodup →
    ((addCols n gd rest).map (·.1)).Nodup ∧ (addCols n gd rest).map (·.2) = gd.map (·.2) ++ rest.map (fun kv => repeatEach n kv.2) ∧
      ∃ extra, (addCols n gd rest).map (·.1) = gd.map (·.1) ++ extra := by
  intro rest
  induction rest with
  | nil => intro gd h; exact ⟨h, by simp [addCols], [], by simp [addCols]⟩
  | cons kv rest ih =>
    intro gd h
    have hnew := freeName_new (gd.map (·.1)) kv.1
    rw [List.length_map] at hnew
    obtain ⟨h1, h2, extra, h3⟩ := ih (gd ++ [(freeName (gd.map (·.1)) kv.1 (gd.length + 1) 1 kv.1, repeatEach n kv.2)]) (by
      rw [List.map_append, List.map_singleton]
      exact List.nodup_append.2 ⟨h, by simp, fun a ha b hb hab => by
        simp only [List.mem_singleton] at hb
        subst hab; subst hb
        exact hnew ha⟩)
    exact ⟨h1, by rw [addCols, h2]; simp, freeName (gd.map (·.1)) kv.1 (gd.length + 1) 1 kv.1 :: extra, by rw [addCols, h3]; simp⟩

/-! ## C179 -/

/-- **C179** The categories of `cat2keys(key1, key2)` are all pairs of a category of `key1` and one of `key2`: one row per pair, and the key columns
are those of `key1` followed by those of `key2`. -/
theorem cat2keys_categories (k1 k2 : Key S) (w1 : k1.WF) (w2 : k2.WF) :
    (∀ kv ∈ (cat2keys k1 k2).cats, kv.2.length = k1.count * k2.count) ∧
    ∀ (r c : Nat), r < k1.count → c < k2.count → labelAt (cat2keys k1 k2).cats (c * k1.count + r) = labelAt k1.cats r ++ labelAt k2.cats c := by
  have hn : ((k1.cats.map fun kv => (kv.1, tile k2.count kv.2)).map (·.1)).Nodup := by rw [List.map_map]; exact w1.names
  obtain ⟨_, h2, _⟩ := addCols_ok k1.count k2.cats _ hn
  rw [List.map_map] at h2
  constructor
  · intro kv hkv
    have : kv.2 ∈ (cat2keys k1 k2).cats.map (·.2) := List.mem_map.2 ⟨kv, hkv, rfl⟩
    unfold cat2keys at this
    dsimp only at this
    rw [h2, List.mem_append] at this
    rcases this with h | h
    · obtain ⟨x, hx, he⟩ := List.mem_map.1 h
      rw [← he]
      show (tile k2.count x.2).length = _
      rw [tile_length, w1.rect x hx]; ring
    · obtain ⟨x, hx, he⟩ := List.mem_map.1 h
      rw [← he, repeatEach_length, w2.rect x hx]; ring
  · intro r c hr hc
    have hl : ∀ (cats : KeyCols S) j, labelAt cats j = (cats.map (·.2)).map fun v => v[j]? := fun cats j => by rw [List.map_map]; rfl
    rw [hl]
    unfold cat2keys
    dsimp only
    rw [h2, List.map_append, List.map_map, List.map_map]
    congr 1
    · exact List.map_congr_left fun kv hkv => tile_get kv.2 (w1.rect kv hkv) _ c r hr hc
    · exact List.map_congr_left fun kv _ => repeatEach_get _ kv.2 c r hr

/-- **C179** No key column is lost: the names are all different, and those of `key1` stay. -/
theorem cat2keys_names (k1 k2 : Key S) (w1 : k1.WF) :
    ((cat2keys k1 k2).cats.map (·.1)).Nodup ∧ (cat2keys k1 k2).cats.length = k1.cats.length + k2.cats.length ∧
      ∃ extra, (cat2keys k1 k2).cats.map (·.1) = k1.cats.map (·.1) ++ extra := by
  have hn : ((k1.cats.map fun kv => (kv.1, tile k2.count kv.2)).map (·.1)).Nodup := by rw [List.map_map]; exact w1.names
  obtain ⟨h1, h2, extra, h3⟩ := addCols_ok k1.count k2.cats _ hn
  refine ⟨h1, ?_, extra, ?_⟩
  · have := congrArg List.length h2
    rw [List.length_map, List.length_append, List.length_map, List.length_map, List.length_map] at this
    exact this
  · show (addCols _ _ _).map (·.1) = _
    rw [h3, List.map_map]; rfl

/-- **C179** Every row shows the category of its row in `key1` followed by that in `key2`. -/
theorem cat2keys_rows (k1 k2 : Key S) (w1 : k1.WF) (w2 : k2.WF) (hl : k1.codes.length = k2.codes.length) :
    (cat2keys k1 k2).codes.length = k1.codes.length ∧
    ∀ (i r c : Nat), k1.codes[i]? = some (r + 1) → k2.codes[i]? = some (c + 1) → r < k1.count → c < k2.count →
      ∃ j : Nat, j < k1.count * k2.count ∧ (cat2keys k1 k2).codes[i]? = some ((j : Int) + 1) ∧
        labelAt (cat2keys k1 k2).cats j = labelAt k1.cats r ++ labelAt k2.cats c := by
  refine ⟨by simp [cat2keys, pairCodes, hl], fun i r c h1 h2 hr hc => ?_⟩
  refine ⟨c * k1.count + r, ?_, ?_, (cat2keys_categories k1 k2 w1 w2).2 r c hr hc⟩
  · have h3 : (c + 1) * k1.count ≤ k2.count * k1.count := Nat.mul_le_mul_right _ hc
    have h4 : (c + 1) * k1.count = c * k1.count + k1.count := by ring
    have h5 : k1.count * k2.count = k2.count * k1.count := by ring
    omega
  · show (pairCodes k1.count k1.codes k2.codes)[i]? = _
    unfold pairCodes
    rw [List.getElem?_zipWith, h1, h2]
    simp only [Option.some.injEq]
    push_cast
    ring

/-! ## C182 -/

/-- the label of a key with one text column, `Inv` for the invalid row -/
def textOf (k : Key (List Char)) : Nat → Option (List Char)
  | 0 => some "Inv".toList
  | r + 1 => (k.cats.head?).bind fun kv => kv.2[r]?

theorem oneDict_single {k : Key (List Char)} {nm : List Char} {v : List (List Char)} (h : k.cats = [(nm, v)]) (hv : v.length = k.count) :
    oneDict true k.count k.cats = (nm, "Inv".toList :: v) := by
  unfold oneDict
  rw [h]
  dsimp only
  refine Prod.ext ?_ ?_
  · simp [List.intercalate, List.intersperse]
  · refine List.ext_getElem? fun j => ?_
    simp only [if_true, List.map_cons, List.map_nil]
    rw [List.getElem?_map]
    rcases Nat.lt_or_ge j (k.count + 1) with hj | hj
    · rw [List.getElem?_range hj, Option.map_some]
      simp only [List.intercalate, List.intersperse, List.flatten_cons, List.flatten_nil, List.append_nil]
      rw [List.getD_eq_getElem?_getD, List.getElem?_eq_getElem (by simp [hv]; omega), Option.getD_some]
    · rw [List.getElem?_eq_none (by simpa using hj), List.getElem?_eq_none (by simp [hv]; omega)]; rfl

/-- **C182 (partial)** `cat2keys(key1, key2, invalid=True)` of keys with one text column each: every row that passes the filter shows both labels,
`Inv` for an invalid one; the two columns have different names. Missing: rows that do not pass, keys with several columns, and categories named `Inv`,
see the counterexamples. -/
theorem cat2keys_invalid_partial (filter : Option (List Bool)) (k1 k2 : Key (List Char)) {n1 n2 : List Char} {v1 v2 : List (List Char)}
    (h1 : k1.cats = [(n1, v1)]) (h2 : k2.cats = [(n2, v2)]) (l1 : v1.length = k1.count) (l2 : v2.length = k2.count) (hl : k1.codes.length = k2.codes.length) :
    ((cat2keysFused true filter k1 k2).cats.map (·.1)).Nodup ∧ (cat2keysFused true filter k1 k2).codes.length = k1.codes.length ∧
    ∀ (i r c : Nat), (∀ f, filter = some f → f[i]? = some true) → k1.codes[i]? = some r → k2.codes[i]? = some c → r ≤ k1.count → c ≤ k2.count →
      ∃ j : Nat, (cat2keysFused true filter k1 k2).codes[i]? = some ((j : Int) + 1) ∧ labelAt (cat2keysFused true filter k1 k2).cats j = [textOf k1 r, textOf k2 c] := by
  have hcats : (cat2keysFused true filter k1 k2).cats = [(n1, tile (k2.count + 1) ("Inv".toList :: v1)),
      (if n1 = n2 then n2 ++ "1".toList else n2, repeatEach (k1.count + 1) ("Inv".toList :: v2))] := by
    unfold cat2keysFused fusedCols
    simp only [Bool.true_or]
    rw [oneDict_single h1 l1, oneDict_single h2 l2]
    rfl
  have hcodes : (cat2keysFused true filter k1 k2).codes = (combine2 k1.count k1.codes k2.codes filter).map (· + 1) := rfl
  refine ⟨?_, ?_, fun i r c hf hr hc hrn hcn => ?_⟩
  · rw [hcats]
    simp only [List.map_cons, List.map_nil, List.nodup_cons, List.mem_singleton, List.not_mem_nil, not_false_eq_true, List.nodup_nil, and_true]
    split_ifs with h
    · intro he
      rw [h] at he
      exact absurd (List.self_eq_append_right.1 he) (by decide)
    · exact h
  · rw [hcodes]; simp [combine2]
  · have hi : i < k1.codes.length := (List.getElem?_eq_some_iff.1 hr).1
    refine ⟨c * (k1.count + 1) + r, ?_, ?_⟩
    · rw [hcodes, List.getElem?_map]
      unfold combine2
      rw [List.getElem?_map, List.getElem?_range hi]
      simp only [Option.map_some, List.getD_eq_getElem?_getD, hr, hc, Option.getD_some]
      have hp : passesAt filter i = true := by
        unfold passesAt
        cases filter with
        | none => rfl
        | some f => dsimp only; rw [List.getD_eq_getElem?_getD, hf f rfl]; rfl
      rw [if_pos hp, Option.some.injEq]
      push_cast
      ring
    · rw [hcats]
      unfold labelAt
      simp only [List.map_cons, List.map_nil]
      rw [tile_get _ (n := k1.count + 1) (by simp [l1]) _ c r (by omega) (by omega), repeatEach_get _ _ c r (by omega)]
      have ht : ∀ (k : Key (List Char)) nm (v : List (List Char)), k.cats = [(nm, v)] → ∀ r, ("Inv".toList :: v)[r]? = textOf k r := by
        intro k nm v hk r
        cases r with
        | zero => rfl
        | succ r => unfold textOf; rw [hk]; rfl
      rw [ht k1 n1 v1 h1, ht k2 n2 v2 h2]

/-- **C182** violated: a row that does not pass the filter shows `(Inv, Inv)`, as a row that passes and is invalid in both keys does. -/
theorem cat2keys_filter_counterexample :
    let k : Key (List Char) := ⟨[1, 0], [("a".toList, ["x".toList])], 1⟩
    (cat2keysFused true (some [false, true]) k k).codes = [1, 1] ∧ labelAt (cat2keysFused true (some [false, true]) k k).cats 0 = [some "Inv".toList, some "Inv".toList] := by
  decide +kernel

/-- **C182** violated: labels of several columns are joined by `_`: different categories `("a_b", "c")` and `("a", "b_c")` get the same label. -/
theorem cat2keys_join_counterexample :
    let k : Key (List Char) := ⟨[1, 2], [("a".toList, ["a_b".toList, "a".toList]), ("b".toList, ["c".toList, "b_c".toList])], 2⟩
    (oneDict true k.count k.cats).2 = ["Inv_Inv".toList, "a_b_c".toList, "a_b_c".toList] := by decide +kernel

/-- **C182** violated: a category `Inv` and the invalid row get the same label. -/
theorem cat2keys_inv_counterexample :
    let k : Key (List Char) := ⟨[0, 1], [("a".toList, ["Inv".toList])], 1⟩
    labelAt (cat2keysFused true none k k).cats 0 = labelAt (cat2keysFused true none k k).cats 3 ∧ (cat2keysFused true none k k).codes = [1, 4] := by decide +kernel

/-! ## cases -/

def exK1 : Key Nat := ⟨[1, 2, 1], [("k".toList, [10, 20])], 2⟩
def exK2 : Key Nat := ⟨[3, 1, 2], [("k".toList, [7, 8, 9])], 3⟩

example : exK1.WF ∧ exK2.WF ∧ (cat2keys exK1 exK2).codes = [5, 2, 3] ∧ (cat2keys exK1 exK2).cats.map (·.1) = ["k".toList, "k1".toList] ∧
    labelAt (cat2keys exK1 exK2).cats 4 = [some 10, some 9] :=
  ⟨⟨by decide, by decide⟩, ⟨by decide, by decide⟩, by decide +kernel, by decide +kernel, by decide +kernel⟩

end Verif.NpOps
