import Verif.CatNew.Values
/-! # Categoricals made of codes or values and given categories (C158, C159, C160) -/
namespace Verif.CatNew
variable {S : Type} [LinearOrder S]

/-- what a row with code `k` should show: the category it is the number of, counting from the base index -/
def meantBy (base : Nat) (cats : List S) (k : Int) : Row S :=
  if base = 1 ∧ k = 0 then .filtered
  else match cats[(k - base).toNat]? with
    | some v => .label [v]
    | none => .bad k

/-- the code is the number of a category, or 0 for base index 1 -/
def InRange (base n : Nat) (k : Int) : Prop := 0 ≤ k ∧ k < (n : Int) + base

instance (base n : Nat) (k : Int) : Decidable (InRange base n k) := by unfold InRange; infer_instance

theorem itemOf_given {base : Nat} (hb : base ≤ 1) {cats : List S} {codes : List Int} {ordered : Bool} {k : Int} (hk : InRange base cats.length k) :
    itemOf { base := base, codes := codes, uniq := [(key0, cats)], count := cats.length, ordered := ordered } k = meantBy base cats k := by
  unfold itemOf meantBy
  dsimp only
  obtain ⟨h0, h1⟩ := hk
  by_cases hf : base = 1 ∧ k = 0
  · rw [if_pos (by left; omega), if_pos hf, if_pos hf]
  · rw [if_neg (by omega), if_neg hf]
    have : (k - (base : Int)).toNat < cats.length := by omega
    unfold rowAt
    rw [List.filterMap_cons, List.filterMap_nil]
    rw [List.getElem?_eq_getElem this]

theorem catRows_given {base : Nat} {cats : List S} {codes : List Int} {ordered sorted : Bool} {inv : Option S} :
    catRows { g := { base := base, codes := codes, uniq := [(key0, cats)], count := cats.length, ordered := ordered }, sorted := sorted, invalid := inv } =
      cats.map fun v => [v] := by
  unfold catRows
  refine List.ext_getElem (by simp) fun j h1 h2 => ?_
  rw [List.length_map] at h2
  simp [rowAt, List.getElem?_eq_getElem h2]

theorem recastIfAsked_get {n : Nat} {req : Option Nat} (hn : n < 2 ^ 63) {codes : List Int} {i : Nat} {k : Int} (hk : codes[i]? = some k) (h0 : 0 ≤ k) (h1 : k ≤ n) :
    (recastIfAsked n req codes)[i]? = some k := by
  unfold recastIfAsked
  cases req with
  | none => exact hk
  | some r =>
    unfold recast
    rw [List.getElem?_map, hk, Option.map_some, store_recast (some r) hn h0 h1]

theorem recastIfAsked_length {n : Nat} {req : Option Nat} {codes : List Int} : (recastIfAsked n req codes).length = codes.length := by
  unfold recastIfAsked recast
  cases req <;> simp

theorem combineFilter_get {codes : List Int} {filter : Option (List Bool)} (hf : filterFits filter codes.length = true) {i : Nat} {k : Int} (hk : codes[i]? = some k) :
    (combineFilter codes filter)[i]? = some (if Passes filter i then k else 0) := by
  unfold combineFilter Passes
  cases filter with
  | none => simpa using hk
  | some f =>
    dsimp only
    have hi := (List.getElem?_eq_some_iff.1 hk).1
    have hl : f.length = codes.length := by simpa [filterFits] using hf
    have hfi : f[i]? = some f[i] := List.getElem?_eq_getElem (by omega)
    rw [List.getElem?_zipWith, hk]
    cases hv : f[i] with
    | true => rw [hv] at hfi; simp [hfi]
    | false => rw [hv] at hfi; simp [hfi]

theorem combineFilter_length {codes : List Int} {filter : Option (List Bool)} (hf : filterFits filter codes.length = true) : (combineFilter codes filter).length = codes.length := by
  unfold combineFilter
  cases filter with
  | none => rfl
  | some f =>
    have hl : f.length = codes.length := by simpa [filterFits] using hf
    simp [hl]

omit [LinearOrder S] in
theorem getItem_nat {c : C S} {i : Nat} (hi : i < c.g.codes.length) : getItem c i = (c.g.codes[i]?).map (itemOf c.g) := by
  unfold getItem
  rw [Verif.Idx.pos_eq]
  have : Verif.Idx.meant c.g.codes.length i = some i := by
    unfold Verif.Idx.meant
    rw [if_pos (by constructor <;> omega)]
    rfl
  rw [this]
  rfl

theorem not_outside {base n : Nat} {codes : List Int} : outside base n codes = false ↔ ∀ k ∈ codes, InRange base n k := by
  unfold outside InRange
  rw [List.any_eq_false]
  constructor
  · intro h k hk
    have := h k hk
    simp only [Bool.or_eq_true, decide_eq_true_eq, not_or] at this
    omega
  · intro h k hk
    have := h k hk
    simp only [Bool.or_eq_true, decide_eq_true_eq, not_or]
    omega

/-! ## codes -/

/-- the conditions on the keywords -/
structure Allowed (n : Nat) (cats : List S) (o : Opts S) : Prop where
  base : ¬ (o.base = some 0 ∧ o.filter ≠ none)
  lex : o.lex ≠ some true
  cats : cats ≠ []
  fits : filterFits o.filter n = true

/-- the codes that are checked and stored -/
theorem flipUnsigned_id {unsigned : Bool} {n : Nat} {req : Option Nat} (hn : n < 2 ^ 63) {base : Nat} (hb : base ≤ 1) {codes : List Int}
    (h : unsigned = false ∨ ∀ k ∈ codes, InRange base n k) : flipUnsigned unsigned n req codes = codes := by
  unfold flipUnsigned
  cases unsigned with
  | false => rfl
  | true =>
    rcases h with h | h
    · cases h
    · rw [if_pos rfl]
      unfold recast
      conv => rhs; rw [← List.map_id codes]
      refine List.map_congr_left fun k hk => ?_
      obtain ⟨h0, h1⟩ := h k hk
      exact store_recast req hn h0 (by omega)

/-- the grouping of codes in range -/
def givenGrouping (codes : List Int) (cats : List S) (filter : Option (List Bool)) (base : Nat) (req : Option Nat) (ordered : Bool) : Grouping S :=
  { base := base, codes := recastIfAsked cats.length req (combineFilter codes filter), uniq := [(key0, cats)], count := cats.length, ordered := ordered }

theorem given_item {codes : List Int} {cats : List S} {filter : Option (List Bool)} {base : Nat} {req : Option Nat} {ordered : Bool} (hb : base ≤ 1)
    (hz : base = 0 → filter = none) (hn : cats.length < 2 ^ 63) (hf : filterFits filter codes.length = true) {i : Nat} {k : Int} (hk : codes[i]? = some k)
    (hr : InRange base cats.length k) :
    ((givenGrouping codes cats filter base req ordered).codes[i]?).map (itemOf (givenGrouping codes cats filter base req ordered)) =
      some (if Passes filter i then meantBy base cats k else .filtered) := by
  have h1 := combineFilter_get hf hk
  obtain ⟨hr0, hr1⟩ := hr
  have h2 : (givenGrouping codes cats filter base req ordered).codes[i]? = some (if Passes filter i then k else 0) := by
    unfold givenGrouping
    refine recastIfAsked_get hn h1 ?_ ?_
    · split_ifs <;> omega
    · split_ifs <;> omega
  rw [h2, Option.map_some]
  by_cases hp : Passes filter i
  · rw [if_pos hp, if_pos hp]
    exact congrArg some (itemOf_given hb ⟨hr0, hr1⟩)
  · rw [if_neg hp, if_neg hp]
    have hb1 : base = 1 := by
      have : base ≠ 0 := fun h => by
        have := hz h
        subst this
        exact hp trivial
      omega
    have := itemOf_given (S := S) hb (cats := cats) (k := 0) (codes := recastIfAsked cats.length req (combineFilter codes filter)) (ordered := ordered)
      ⟨le_refl _, by omega⟩
    unfold meantBy at this
    rw [if_pos ⟨hb1, rfl⟩] at this
    exact congrArg some this

theorem base_zero {o : Opts S} (hb : o.base = none ∨ o.base = some 0 ∨ o.base = some 1) (h0 : ¬ (o.base = some 0 ∧ o.filter ≠ none)) :
    o.base.getD 1 = 0 → o.filter = none := by
  intro hz
  by_contra hf
  refine h0 ⟨?_, hf⟩
  rcases hb with h | h | h <;> rw [h] at hz ⊢ <;> simp at hz

/-- the codes as they are checked and stored -/
def usedCodes (codes : List Int) (unsigned : Bool) (cats : List S) (o : Opts S) : List Int := flipUnsigned unsigned cats.length o.dtype codes

theorem newOfCodes_eq (codes : List Int) (unsigned : Bool) (cats : List S) (o : Opts S) (c : C S) :
    newOfCodes codes unsigned cats o = .ok c ↔ Allowed codes.length cats o ∧
      (∀ k ∈ usedCodes codes unsigned cats o, InRange (o.base.getD 1) cats.length k) ∧
      c = ofGrouping (givenGrouping (usedCodes codes unsigned cats o) cats o.filter (o.base.getD 1) o.dtype
        (if (usedCodes codes unsigned cats o).isEmpty then false else issorted cats)) o.invalid false := by
  unfold newOfCodes groupingOfCodes
  dsimp only
  constructor
  · intro h
    by_cases h1 : o.base = some 0 ∧ o.filter ≠ none
    · rw [if_pos h1] at h; cases h
    by_cases h2 : o.lex = some true
    · rw [if_neg h1, if_pos h2] at h; cases h
    by_cases h3 : cats = []
    · rw [if_neg h1, if_neg h2, if_pos h3] at h; cases h
    by_cases h4 : filterFits o.filter codes.length = false
    · rw [if_neg h1, if_neg h2, if_neg h3, if_pos h4] at h; cases h
    by_cases h5 : outside (o.base.getD 1) cats.length (flipUnsigned unsigned cats.length o.dtype codes) = true
    · rw [if_neg h1, if_neg h2, if_neg h3, if_neg h4, if_pos h5] at h; cases h
    rw [if_neg h1, if_neg h2, if_neg h3, if_neg h4, if_neg h5] at h
    cases h
    rw [Bool.not_eq_true, not_outside] at h5
    exact ⟨⟨h1, h2, h3, by simpa using h4⟩, h5, rfl⟩
  · rintro ⟨⟨h1, h2, h3, h4⟩, h5, rfl⟩
    rw [if_neg h1, if_neg h2, if_neg h3, if_neg (by rw [h4]; simp), if_neg]
    · rfl
    · rw [Bool.not_eq_true, not_outside]; exact h5

/-- **C159 (partial)** Signed codes are accepted exactly if the keywords are allowed and every code is the number of a category (0 is
allowed for base index 1). Missing: unsigned codes, see the counterexample and `newOfCodes_unsigned_exact`. -/
theorem newOfCodes_ok_partial (codes : List Int) (cats : List S) (o : Opts S) :
    (∃ c, newOfCodes codes false cats o = .ok c) ↔ Allowed codes.length cats o ∧ ∀ k ∈ codes, InRange (o.base.getD 1) cats.length k := by
  constructor
  · rintro ⟨c, h⟩
    obtain ⟨h1, h2, _⟩ := (newOfCodes_eq _ _ _ _ _).1 h
    exact ⟨h1, h2⟩
  · rintro ⟨h1, h2⟩
    exact ⟨_, (newOfCodes_eq _ _ _ _ _).2 ⟨h1, h2, rfl⟩⟩

/-- **C159** Unsigned codes are handled as the signed codes they wrap around to in the integer type chosen for the number of
categories; codes in range are never refused. -/
theorem newOfCodes_unsigned_exact (codes : List Int) (cats : List S) (o : Opts S) (hb : o.base = none ∨ o.base = some 0 ∨ o.base = some 1)
    (hn : cats.length < 2 ^ 63) :
    newOfCodes codes true cats o = newOfCodes (codes.map fun k => Int.bmod k (2 ^ recastBits cats.length o.dtype)) false cats o ∧
    ((∀ k ∈ codes, InRange (o.base.getD 1) cats.length k) → newOfCodes codes true cats o = newOfCodes codes false cats o) := by
  constructor
  · unfold newOfCodes groupingOfCodes flipUnsigned recast store
    simp
  · intro h
    unfold newOfCodes groupingOfCodes
    rw [flipUnsigned_id hn (base_ok hb) (Or.inr h), flipUnsigned_id (unsigned := false) hn (base_ok hb) (Or.inl rfl)]

/-- **C159 (partial)** Every row of a Categorical made of codes in range shows the category with that number, in the order given; rows
that do not pass the filter are filtered. The integer type asked for makes no difference. -/
theorem newOfCodes_rows_partial {codes : List Int} {unsigned : Bool} {cats : List S} {o : Opts S} {c : C S} (h : newOfCodes codes unsigned cats o = .ok c)
    (hb : o.base = none ∨ o.base = some 0 ∨ o.base = some 1) (hn : cats.length < 2 ^ 63)
    (hu : unsigned = false ∨ ∀ k ∈ codes, InRange (o.base.getD 1) cats.length k) :
    c.g.codes.length = codes.length ∧ catRows c = (cats.map fun v => [v]) ∧
      ∀ (i : Nat) (k : Int), codes[i]? = some k → getItem c i = some (if Passes o.filter i then meantBy (o.base.getD 1) cats k else .filtered) := by
  obtain ⟨ha, hr, rfl⟩ := (newOfCodes_eq _ _ _ _ _).1 h
  have hid : usedCodes codes unsigned cats o = codes := flipUnsigned_id hn (base_ok hb) hu
  rw [hid] at hr ⊢
  have hl : (givenGrouping codes cats o.filter (o.base.getD 1) o.dtype (if codes.isEmpty then false else issorted cats)).codes.length = codes.length := by
    unfold givenGrouping
    rw [recastIfAsked_length, combineFilter_length ha.fits]
  refine ⟨hl, catRows_given, fun i k hk => ?_⟩
  rw [getItem_nat (by
    show i < (givenGrouping codes cats o.filter (o.base.getD 1) o.dtype (if codes.isEmpty then false else issorted cats)).codes.length
    rw [hl]; exact (List.getElem?_eq_some_iff.1 hk).1)]
  exact given_item (base_ok hb) (base_zero hb ha.base) hn ha.fits hk (hr k (List.mem_of_getElem? hk))

/-! ## pandas -/

theorem pandasCodes_eq {codes : List Int} {bits n : Nat} {dtype : Option Nat} (hn : n < 2 ^ 63) (hbits : n < 2 ^ (bits - 1)) (hb : 1 ≤ bits)
    (hc : ∀ k ∈ codes, -1 ≤ k ∧ k < n) : pandasCodes codes bits n dtype = codes.map (· + 1) := by
  unfold pandasCodes
  cases dtype with
  | none =>
    refine List.map_congr_left fun k hk => ?_
    obtain ⟨h0, h1⟩ := hc k hk
    exact store_recast none hn (by omega) (by omega)
  | some r =>
    refine List.map_congr_left fun k hk => ?_
    obtain ⟨h0, h1⟩ := hc k hk
    refine store_id hb ?_ ?_
    · have : (0 : Int) ≤ ((2 ^ (bits - 1) : Nat) : Int) := Int.natCast_nonneg _
      omega
    · omega

/-- **C160** A pandas Categorical keeps its categories in their order; rows with a category keep it, missing rows and rows that do not
pass the filter are filtered. -/
theorem newOfPandas_rows {codes : List Int} {bits : Nat} {cats : List S} {ordered : Bool} {o : Opts S} (hn : cats.length < 2 ^ 63) (hb : 1 ≤ bits)
    (hbits : cats.length < 2 ^ (bits - 1)) (hc : ∀ k ∈ codes, -1 ≤ k ∧ k < cats.length) (hbase : o.base.getD 1 = 1) (hf : filterFits o.filter codes.length = true) :
    ∃ c, newOfPandas codes bits cats ordered o = .ok c ∧ c.g.codes.length = codes.length ∧ catRows c = (cats.map fun v => [v]) ∧
      ∀ (i : Nat) (k : Int), codes[i]? = some k → getItem c i = some (if Passes o.filter i ∧ k ≠ -1 then
        (match cats[k.toNat]? with | some v => .label [v] | none => .bad k) else .filtered) := by
  have he := pandasCodes_eq (dtype := o.dtype) hn hbits hb hc
  have hr : ∀ k ∈ codes.map (· + 1), InRange 1 cats.length k := by
    intro k hk
    obtain ⟨x, hx, rfl⟩ := List.mem_map.1 hk
    obtain ⟨h0, h1⟩ := hc x hx
    constructor <;> push_cast <;> omega
  have hf2 : filterFits o.filter (codes.map (· + 1)).length = true := by simpa using hf
  have hok : newOfPandas codes bits cats ordered o = .ok (ofGrouping (givenGrouping (codes.map (· + 1)) cats o.filter 1 o.dtype
      (if (codes.map (· + 1)).isEmpty then ordered else issorted cats)) o.invalid false) := by
    unfold newOfPandas groupingOfCodes
    rw [if_neg (by simpa using hbase), if_neg (by rw [hf]; simp), he]
    dsimp only [flipUnsigned]
    have ho : outside 1 cats.length (codes.map (· + 1)) = false := not_outside.2 hr
    simp only [Bool.false_eq_true, if_false, ho]
    rfl
  have hl : (givenGrouping (codes.map (· + 1)) cats o.filter 1 o.dtype (if (codes.map (· + 1)).isEmpty then ordered else issorted cats)).codes.length = codes.length := by
    unfold givenGrouping
    rw [recastIfAsked_length, combineFilter_length hf2, List.length_map]
  refine ⟨_, hok, hl, catRows_given, fun i k hk => ?_⟩
  have hk1 : (codes.map (· + 1))[i]? = some (k + 1) := by rw [List.getElem?_map, hk]; rfl
  rw [getItem_nat (by
    show i < (givenGrouping (codes.map (· + 1)) cats o.filter 1 o.dtype (if (codes.map (· + 1)).isEmpty then ordered else issorted cats)).codes.length
    rw [hl]; exact (List.getElem?_eq_some_iff.1 hk).1)]
  refine (given_item (le_refl _) (by simp) hn hf2 hk1 (hr _ (List.mem_of_getElem? hk1))).trans ?_
  obtain ⟨h0, h1⟩ := hc k (List.mem_of_getElem? hk)
  by_cases hp : Passes o.filter i
  · rw [if_pos hp]
    unfold meantBy
    by_cases hm : k = -1
    · subst hm
      simp
    · rw [if_neg (by omega), if_pos ⟨hp, hm⟩]
      have : (k + 1 - ((1 : Nat) : Int)).toNat = k.toNat := by omega
      rw [this, List.getElem?_eq_getElem (show k.toNat < cats.length by omega)]
  · rw [if_neg hp, if_neg (fun h => hp h.1)]

/-! ## values with given categories -/

theorem memberCodes_get {base : Nat} (hb : base ≤ 1) {vals cats : List S} {i : Nat} {v : S} (h : vals[i]? = some v) :
    (memberCodes base vals cats)[i]? = some (if v ∈ cats then (cats.idxOf v : Int) + base else if base = 0 then -128 else 0) := by
  unfold memberCodes
  rw [List.getElem?_map, h]
  rfl

theorem newOfMembers_eq (vals cats : List S) (o : Opts S) (c : C S) :
    newOfMembers vals cats o = .ok c ↔ Allowed vals.length cats o ∧
      unknown (o.base.getD 1) cats.length o.filter (groupingOfMembers vals cats o.filter (o.base.getD 1) o.dtype).codes = false ∧
      c = ofGrouping (groupingOfMembers vals cats o.filter (o.base.getD 1) o.dtype) o.invalid false := by
  unfold newOfMembers
  dsimp only
  constructor
  · intro h
    split_ifs at h with h1 h2 h3 h4 h5
    cases h
    exact ⟨⟨h1, h2, h3, by simpa using h4⟩, by simpa [groupingOfMembers] using h5, rfl⟩
  · rintro ⟨⟨h1, h2, h3, h4⟩, h5, rfl⟩
    rw [if_neg h1, if_neg h2, if_neg h3, if_neg (by rw [h4]; simp), if_neg]
    rw [Bool.not_eq_true]
    exact h5

theorem memberLen (base : Nat) (vals cats : List S) : (memberCodes base vals cats).length = vals.length := by simp [memberCodes]

/-- codes of a Categorical with base index 1 -/
theorem members_get1 {vals cats : List S} {filter : Option (List Bool)} {req : Option Nat} (hn : cats.length < 2 ^ 63) (hf : filterFits filter vals.length = true)
    {i : Nat} {v : S} (hv : vals[i]? = some v) :
    (groupingOfMembers vals cats filter 1 req).codes[i]? = some (if Passes filter i ∧ v ∈ cats then (cats.idxOf v : Int) + 1 else 0) := by
  have h1 := memberCodes_get (le_refl 1) (cats := cats) hv
  have h2 := combineFilter_get (filter := filter) (by rw [memberLen]; exact hf) h1
  have h3 : (if Passes filter i then (if v ∈ cats then (cats.idxOf v : Int) + (1 : Nat) else if (1 : Nat) = 0 then -128 else 0) else 0) =
      (if Passes filter i ∧ v ∈ cats then (cats.idxOf v : Int) + 1 else 0) := by
    by_cases hp : Passes filter i <;> by_cases hm : v ∈ cats <;> simp [hp, hm]
  rw [h3] at h2
  unfold groupingOfMembers
  have hle : cats.idxOf v ≤ cats.length := List.idxOf_le_length
  refine recastIfAsked_get hn h2 ?_ ?_
  · split_ifs <;> omega
  · split_ifs with h
    · have := List.idxOf_lt_length_of_mem h.2
      omega
    · omega

/-- codes of a Categorical with base index 0 whose values are all known -/
theorem members_get0 {vals cats : List S} {req : Option Nat} (hn : cats.length < 2 ^ 63) {i : Nat} {v : S} (hv : vals[i]? = some v) (hm : v ∈ cats) :
    (groupingOfMembers vals cats none 0 req).codes[i]? = some (cats.idxOf v : Int) := by
  have h1 := memberCodes_get (Nat.zero_le 1) (cats := cats) hv
  rw [if_pos hm] at h1
  unfold groupingOfMembers
  have := List.idxOf_lt_length_of_mem hm
  have h2 := recastIfAsked_get (req := req) hn h1 (by omega) (by omega)
  simpa [combineFilter] using h2

/-- a negative code stays negative when the type is changed to one that is large enough for -128 -/
theorem members_neg {vals cats : List S} {req : Option Nat} {i : Nat} {v : S} (hv : vals[i]? = some v) (hm : v ∉ cats) :
    (groupingOfMembers vals cats none 0 req).codes[i]? = some (-128) := by
  have h1 := memberCodes_get (Nat.zero_le 1) (cats := cats) hv
  rw [if_neg hm, if_pos rfl] at h1
  unfold groupingOfMembers recastIfAsked
  dsimp only [combineFilter]
  cases req with
  | none => exact h1
  | some r =>
    dsimp only [recast]
    rw [List.getElem?_map, h1, Option.map_some]
    have hb := lenBits_recast cats.length (some r)
    have h8 := lenBits_pos cats.length
    have hmono : (2 : Nat) ^ 7 ≤ 2 ^ (recastBits cats.length (some r) - 1) := Nat.pow_le_pow_right (by omega) (by omega)
    rw [store_id (by omega) (by omega) (by omega)]

theorem groupingOfMembers_length {vals cats : List S} {filter : Option (List Bool)} {base : Nat} {req : Option Nat} (hf : filterFits filter vals.length = true) :
    (groupingOfMembers vals cats filter base req).codes.length = vals.length := by
  unfold groupingOfMembers
  dsimp only
  rw [recastIfAsked_length, combineFilter_length (by rw [memberLen]; exact hf), memberLen]

/-- **C158 (partial)** Values with given categories are accepted exactly if the keywords are allowed and every value is a category, or a
filter is given. Missing: with base index 0 an array without rows is refused. -/
theorem newOfMembers_ok_partial (vals cats : List S) (o : Opts S) (hb : o.base = none ∨ o.base = some 0 ∨ o.base = some 1) (hn : cats.length < 2 ^ 63) :
    (∃ c, newOfMembers vals cats o = .ok c) ↔ Allowed vals.length cats o ∧ ((∀ v ∈ vals, v ∈ cats) ∨ o.filter ≠ none) ∧ ¬ (o.base = some 0 ∧ vals = []) := by
  have hmain : Allowed vals.length cats o → (unknown (o.base.getD 1) cats.length o.filter (groupingOfMembers vals cats o.filter (o.base.getD 1) o.dtype).codes = false ↔
      ((∀ v ∈ vals, v ∈ cats) ∨ o.filter ≠ none) ∧ ¬ (o.base = some 0 ∧ vals = [])) := by
    intro ha
    have hlen := groupingOfMembers_length (cats := cats) (base := o.base.getD 1) (req := o.dtype) ha.fits
    by_cases h0 : o.base = some 0
    · have hfn : o.filter = none := by
        by_contra hf
        exact ha.base ⟨h0, hf⟩
      have hb0 : o.base.getD 1 = 0 := by rw [h0]; rfl
      rw [hb0, hfn] at hlen ⊢
      unfold unknown
      rw [if_pos rfl, Bool.or_eq_false_iff, List.any_eq_false]
      constructor
      · rintro ⟨he, hall⟩
        refine ⟨Or.inl fun v hv => ?_, fun hh => ?_⟩
        · by_contra hm
          obtain ⟨i, hi⟩ := List.getElem?_of_mem hv
          have := hall _ (List.mem_of_getElem? (members_neg (req := o.dtype) hi hm))
          simp at this
        · rw [hh.2] at hlen
          rw [List.isEmpty_eq_false_iff] at he
          exact he (List.eq_nil_of_length_eq_zero (by rw [← hh.2] at hlen; simpa [hh.2] using hlen))
      · rintro ⟨hk, hne⟩
        have hk' : ∀ v ∈ vals, v ∈ cats := by rcases hk with h | h; exacts [h, absurd rfl h]
        refine ⟨?_, fun k hk2 => ?_⟩
        · rw [List.isEmpty_eq_false_iff]
          intro he
          rw [he] at hlen
          exact hne ⟨h0, List.eq_nil_of_length_eq_zero (hlen.symm.trans rfl)⟩
        · obtain ⟨i, hi⟩ := List.getElem?_of_mem hk2
          have hil := (List.getElem?_eq_some_iff.1 hi).1
          rw [hlen] at hil
          have hv := List.getElem?_eq_getElem hil
          have hm := hk' _ (List.mem_of_getElem? hv)
          have := members_get0 (req := o.dtype) hn hv hm
          rw [this] at hi
          have := List.idxOf_lt_length_of_mem hm
          cases hi
          simp only [Bool.or_eq_true, decide_eq_true_eq]
          omega
    · have hb1 : o.base.getD 1 = 1 := by rcases hb with h | h | h <;> simp_all
      rw [hb1] at hlen ⊢
      unfold unknown
      rw [if_neg (by omega)]
      cases hf : o.filter with
      | some f => simp [h0]
      | none =>
        rw [Option.isNone_none, Bool.true_and, List.any_eq_false]
        have hfit : filterFits (none : Option (List Bool)) vals.length = true := rfl
        rw [hf] at hlen
        constructor
        · intro h
          refine ⟨Or.inl fun v hv => ?_, fun hh => h0 hh.1⟩
          by_contra hm
          obtain ⟨i, hi⟩ := List.getElem?_of_mem hv
          have := members_get1 (req := o.dtype) hn hfit hi
          rw [if_neg (fun h => hm h.2)] at this
          have := h _ (List.mem_of_getElem? this)
          simp at this
        · rintro ⟨hk, _⟩ k hk2
          have hk' : ∀ v ∈ vals, v ∈ cats := by rcases hk with h | h; exacts [h, absurd rfl h]
          obtain ⟨i, hi⟩ := List.getElem?_of_mem hk2
          have hil := (List.getElem?_eq_some_iff.1 hi).1
          rw [hlen] at hil
          have hv := List.getElem?_eq_getElem hil
          have hm := hk' _ (List.mem_of_getElem? hv)
          have := members_get1 (req := o.dtype) hn hfit hv
          rw [if_pos ⟨trivial, hm⟩, hi] at this
          cases this
          simp only [decide_eq_true_eq]
          omega
  constructor
  · rintro ⟨c, h⟩
    obtain ⟨ha, hu, _⟩ := (newOfMembers_eq _ _ _ _).1 h
    exact ⟨ha, (hmain ha).1 hu⟩
  · rintro ⟨ha, h⟩
    exact ⟨_, (newOfMembers_eq _ _ _ _).2 ⟨ha, (hmain ha).2 h, rfl⟩⟩

/-- **C158** Every row shows its value; rows that do not pass the filter and, with a filter, values that are no category are filtered.
The categories are those given, in their order. -/
theorem newOfMembers_rows {vals cats : List S} {o : Opts S} {c : C S} (h : newOfMembers vals cats o = .ok c)
    (hb : o.base = none ∨ o.base = some 0 ∨ o.base = some 1) (hn : cats.length < 2 ^ 63) :
    c.g.codes.length = vals.length ∧ catRows c = (cats.map fun v => [v]) ∧
      ∀ (i : Nat) (v : S), vals[i]? = some v → getItem c i = some (if Passes o.filter i ∧ v ∈ cats then .label [v] else .filtered) := by
  have hok := (newOfMembers_ok_partial vals cats o hb hn).1 ⟨c, h⟩
  obtain ⟨ha, _, rfl⟩ := (newOfMembers_eq _ _ _ _).1 h
  have hlen := groupingOfMembers_length (cats := cats) (base := o.base.getD 1) (req := o.dtype) ha.fits
  refine ⟨hlen, catRows_given, fun i v hv => ?_⟩
  have hi : i < vals.length := (List.getElem?_eq_some_iff.1 hv).1
  rw [getItem_nat (by
    show i < (groupingOfMembers vals cats o.filter (o.base.getD 1) o.dtype).codes.length
    rw [hlen]; exact hi)]
  show ((groupingOfMembers vals cats o.filter (o.base.getD 1) o.dtype).codes[i]?).map (itemOf (groupingOfMembers vals cats o.filter (o.base.getD 1) o.dtype)) = _
  by_cases h0 : o.base = some 0
  · have hfn : o.filter = none := by
      by_contra hf
      exact ha.base ⟨h0, hf⟩
    have hb0 : o.base.getD 1 = 0 := by rw [h0]; rfl
    have hm : v ∈ cats := by
      rcases hok.2.1 with h | h
      · exact h v (List.mem_of_getElem? hv)
      · exact absurd hfn h
    rw [hb0, hfn, members_get0 hn hv hm, if_pos ⟨trivial, hm⟩, Option.map_some]
    have hlt := List.idxOf_lt_length_of_mem hm
    unfold groupingOfMembers
    rw [itemOf_given (by omega) ⟨by omega, by push_cast; omega⟩]
    unfold meantBy
    have : ((cats.idxOf v : Int) - ((0 : Nat) : Int)).toNat = cats.idxOf v := by omega
    rw [if_neg (by omega), this, find_pos hm]
  · have hb1 : o.base.getD 1 = 1 := by rcases hb with h | h | h <;> simp_all
    rw [hb1, members_get1 hn ha.fits hv, Option.map_some]
    unfold groupingOfMembers
    by_cases hp : Passes o.filter i ∧ v ∈ cats
    · have hlt := List.idxOf_lt_length_of_mem hp.2
      rw [if_pos hp, if_pos hp, itemOf_given (le_refl _) ⟨by omega, by push_cast; omega⟩]
      unfold meantBy
      have : ((cats.idxOf v : Int) + 1 - ((1 : Nat) : Int)).toNat = cats.idxOf v := by omega
      rw [if_neg (by omega), this, find_pos hp.2]
    · rw [if_neg hp, if_neg hp, itemOf_given (le_refl _) ⟨by omega, by push_cast; omega⟩]
      unfold meantBy
      simp

end Verif.CatNew
