import Verif.NpOps.Model
/-! # mask_and, mask_or, mask_xor, mask_andnot (C177, C178) -/
namespace Verif.NpOps

/-- the entry of an argument in row `i` -/
def entry (m : Mem) : MArg → Nat → Bool
  | .lit b, _ => b
  | .ref r, i => ((m[r]?).getD []).getD i false

/-- a bool, or an array with `n` rows -/
def FitsMem (m : Mem) (n : Nat) : MArg → Prop
  | .lit _ => True
  | .ref r => ∃ l, m[r]? = some l ∧ l.length = n

/-- what each function computes from the entries of one row -/
def wanted : MaskOp → List Bool → Bool
  | .and => allTrue
  | .or => anyTrue
  | .xor => oddTrue
  | .andnot => onlyFirst

theorem entry_ref (m : Mem) (r i : Nat) : entry m (.ref r) i = ((m[r]?).getD []).getD i false := rfl

theorem val_fits {m : Mem} {n : Nat} {a : MArg} (h : FitsMem m n a) : ∃ l, a.val m n = some l ∧ l.length = n ∧ ∀ i < n, l[i]? = some (entry m a i) := by
  cases a with
  | lit b => exact ⟨_, rfl, by simp, fun i hi => by simp [hi, entry]⟩
  | ref r =>
    obtain ⟨l, h1, h2⟩ := h
    refine ⟨l, by simp [MArg.val, h1, h2], h2, fun i hi => ?_⟩
    rw [entry_ref, h1, Option.getD_some, List.getD_eq_getElem?_getD, List.getElem?_eq_getElem (by omega), Option.getD_some]

/-- one row of the loop: the result so far, and the entry of the next argument; the array of the result itself has the result so far -/
def rowStep (op : MaskOp) (m : Mem) (res i : Nat) (c : Bool) (v : MArg) : Bool := op.run c (if v = .ref res then c else entry m v i)

theorem entry_set {m : Mem} {res : Nat} {l : List Bool} {v : MArg} (hv : v ≠ .ref res) (i : Nat) : entry (m.set res l) v i = entry m v i := by
  cases v with
  | lit b => rfl
  | ref r =>
    have : res ≠ r := fun h => hv (by rw [h])
    rw [entry_ref, entry_ref, List.getElem?_set_ne this]

theorem fits_set {m : Mem} {n res : Nat} {l : List Bool} (hl : l.length = n) (hres : res < m.length) {v : MArg} (hv : FitsMem m n v) : FitsMem (m.set res l) n v := by
  cases v with
  | lit b => trivial
  | ref r =>
    by_cases h : res = r
    · subst h
      exact ⟨l, by rw [List.getElem?_set_self hres], hl⟩
    · obtain ⟨l', h1, h2⟩ := hv
      exact ⟨l', by rw [List.getElem?_set_ne h]; exact h1, h2⟩

theorem rowStep_set {op : MaskOp} {m : Mem} {res : Nat} {l : List Bool} {i : Nat} (vs : List MArg) (c : Bool) :
    vs.foldl (rowStep op (m.set res l) res i) c = vs.foldl (rowStep op m res i) c := by
  induction vs generalizing c with
  | nil => rfl
  | cons v vs ih =>
    rw [List.foldl_cons, List.foldl_cons, ih]
    congr 1
    unfold rowStep
    split_ifs with h
    · rfl
    · rw [entry_set h]

theorem maskLoop_ok (op : MaskOp) (n res : Nat) : ∀ (vs : List MArg) (m : Mem) (cur : List Bool), m[res]? = some cur → cur.length = n → (∀ v ∈ vs, FitsMem m n v) →
    ∃ m' out, maskLoop op n res m vs = .ok m' ∧ m'.length = m.length ∧ (∀ k, k ≠ res → m'[k]? = m[k]?) ∧ m'[res]? = some out ∧ out.length = n ∧
      ∀ i < n, out[i]? = (cur[i]?).map (vs.foldl (rowStep op m res i)) := by
  intro vs
  induction vs with
  | nil => intro m cur h1 h2 _; exact ⟨m, cur, rfl, rfl, fun _ _ => rfl, h1, h2, fun i _ => by simp⟩
  | cons v vs ih =>
    intro m cur h1 h2 hf
    have hres : res < m.length := (List.getElem?_eq_some_iff.1 h1).1
    obtain ⟨b, hb1, hb2, hb3⟩ := val_fits (hf v List.mem_cons_self)
    have ha : (MArg.ref res).val m n = some cur := by simp [MArg.val, h1, h2]
    have hl : (List.zipWith op.run cur b).length = n := by simp [h2, hb2]
    obtain ⟨m', out, e1, e2, e3, e4, e5, e6⟩ := ih (m.set res (List.zipWith op.run cur b)) (List.zipWith op.run cur b) (List.getElem?_set_self hres) hl
      (fun w hw => fits_set hl hres (hf w (List.mem_cons_of_mem _ hw)))
    refine ⟨m', out, ?_, by rw [e2, List.length_set], fun k hk => by rw [e3 k hk, List.getElem?_set_ne (Ne.symm hk)], e4, e5, fun i hi => ?_⟩
    · rw [maskLoop, ha, hb1]; exact e1
    · rw [e6 i hi, List.getElem?_zipWith, hb3 i hi, List.getElem?_eq_getElem (by omega)]
      simp only [Option.map_some, Option.some.injEq]
      rw [rowStep_set, List.foldl_cons]
      congr 1
      unfold rowStep
      split_ifs with h
      · subst h
        have : entry m (.ref res) i = cur[i] := by
          rw [entry_ref, h1, Option.getD_some, List.getD_eq_getElem?_getD, List.getElem?_eq_getElem (by omega), Option.getD_some]
        rw [this]
      · rfl

/-! ## one row -/

theorem fold_fresh {op : MaskOp} {m : Mem} {res i : Nat} : ∀ (vs : List MArg) (c : Bool), (∀ v ∈ vs, v ≠ .ref res) →
    vs.foldl (rowStep op m res i) c = (vs.map fun v => entry m v i).foldl op.run c := by
  intro vs
  induction vs with
  | nil => intro c _; rfl
  | cons v vs ih =>
    intro c h
    rw [List.foldl_cons, List.map_cons, List.foldl_cons, ih _ (fun w hw => h w (List.mem_cons_of_mem _ hw))]
    unfold rowStep
    rw [if_neg (h v List.mem_cons_self)]

theorem fold_and (l : List Bool) : ∀ c, l.foldl MaskOp.and.run c = (c && l.all id) := by
  induction l with
  | nil => intro c; simp
  | cons a l ih => intro c; rw [List.foldl_cons, ih]; cases a <;> cases c <;> simp [MaskOp.run]

theorem fold_or (l : List Bool) : ∀ c, l.foldl MaskOp.or.run c = (c || l.any id) := by
  induction l with
  | nil => intro c; simp
  | cons a l ih => intro c; rw [List.foldl_cons, ih]; cases a <;> cases c <;> simp [MaskOp.run]

theorem fold_andnot (l : List Bool) : ∀ c, l.foldl MaskOp.andnot.run c = (c && !(l.any id)) := by
  induction l with
  | nil => intro c; simp
  | cons a l ih => intro c; rw [List.foldl_cons, ih]; cases a <;> cases c <;> simp [MaskOp.run]

theorem odd_cons (a : Bool) (l : List Bool) : oddTrue (a :: l) = (a ^^ oddTrue l) := by
  unfold oddTrue
  rw [List.count_cons]
  rcases Nat.mod_two_eq_zero_or_one (l.count true) with h | h <;> cases a <;> simp [Nat.add_mod, h]

theorem fold_xor (l : List Bool) : ∀ c, l.foldl MaskOp.xor.run c = (c ^^ oddTrue l) := by
  induction l with
  | nil => intro c; simp [oddTrue]
  | cons a l ih =>
    intro c
    rw [List.foldl_cons, ih, odd_cons]
    show ((c ^^ a) ^^ oddTrue l) = _
    rw [Bool.xor_assoc]

theorem fold_wanted (op : MaskOp) (c : Bool) (l : List Bool) : l.foldl op.run c = wanted op (c :: l) := by
  cases op with
  | and => rw [fold_and]; rfl
  | or => rw [fold_or]; rfl
  | andnot => rw [fold_andnot]; rfl
  | xor => rw [fold_xor, ← odd_cons]; rfl

theorem rowsOfArgs_some {m : Mem} {n : Nat} {a b : MArg} (ha : FitsMem m n a) (hb : FitsMem m n b) (h : (∃ r, a = .ref r) ∨ ∃ r, b = .ref r) :
    rowsOfArgs m [a, b] = some n := by
  match a, b, ha, hb with
  | .ref r, b, ha, _ => obtain ⟨l, h1, h2⟩ := ha; simp [rowsOfArgs, h1, h2]
  | .lit _, .ref r, _, hb => obtain ⟨l, h1, h2⟩ := hb; simp [rowsOfArgs, h1, h2]
  | .lit _, .lit _, _, _ => rcases h with ⟨r, h⟩ | ⟨r, h⟩ <;> cases h

/-! ## C177 -/

/-- **C177** `mask_and`, `mask_or`, `mask_xor` and `mask_andnot` of two or more masks make a new array that has in every row whether all,
any, an odd number of, or only the first of the masks are True; no array is changed. -/
theorem mask_rows (op : MaskOp) (m : Mem) (n : Nat) (a b : MArg) (rest : List MArg) (hf : ∀ v ∈ a :: b :: rest, FitsMem m n v)
    (hab : (∃ r, a = .ref r) ∨ ∃ r, b = .ref r) :
    ∃ out, maskOp op false m (a :: b :: rest) = .ok (m ++ [out], .ref m.length) ∧
      RowByRow (wanted op) ((a :: b :: rest).map (entry m)) n out := by
  have ha := hf a (by simp)
  have hb := hf b (by simp)
  obtain ⟨x, x1, x2, x3⟩ := val_fits ha
  obtain ⟨y, y1, y2, y3⟩ := val_fits hb
  have hz : (List.zipWith op.run x y).length = n := by simp [x2, y2]
  have hnew : (m ++ [List.zipWith op.run x y])[m.length]? = some (List.zipWith op.run x y) := by simp
  have hlt : ∀ v, FitsMem m n v → v ≠ .ref m.length := by
    rintro v hv rfl
    obtain ⟨l, h1, _⟩ := hv
    have := (List.getElem?_eq_some_iff.1 h1).1
    omega
  have hext : ∀ v, FitsMem m n v → FitsMem (m ++ [List.zipWith op.run x y]) n v ∧ ∀ i, entry (m ++ [List.zipWith op.run x y]) v i = entry m v i := by
    intro v hv
    cases v with
    | lit b => exact ⟨trivial, fun _ => rfl⟩
    | ref r =>
      obtain ⟨l, h1, h2⟩ := hv
      have hr := (List.getElem?_eq_some_iff.1 h1).1
      have : (m ++ [List.zipWith op.run x y])[r]? = m[r]? := List.getElem?_append_left hr
      exact ⟨⟨l, this.trans h1, h2⟩, fun i => by rw [entry_ref, entry_ref, this]⟩
  obtain ⟨m', out, e1, e2, e3, e4, e5, e6⟩ := maskLoop_ok op n m.length rest _ _ hnew hz (fun v hv => (hext v (hf v (by simp [hv]))).1)
  have hm' : m' = m ++ [out] := by
    refine List.ext_getElem? fun k => ?_
    by_cases hk : k = m.length
    · subst hk; rw [e4]; simp
    · rw [e3 k hk]
      rcases Nat.lt_or_ge k m.length with h | h
      · rw [List.getElem?_append_left h, List.getElem?_append_left h]
      · rw [List.getElem?_eq_none (by simp; omega), List.getElem?_eq_none (by simp; omega)]
  subst hm'
  refine ⟨out, ?_, e5, fun i hi => ?_⟩
  · unfold maskOp
    dsimp only
    rw [rowsOfArgs_some ha hb hab]
    dsimp only
    rw [if_neg (by simp), x1, y1]
    dsimp only
    rw [e1]
    rfl
  · rw [e6 i hi, List.getElem?_zipWith, x3 i hi, y3 i hi]
    simp only [Option.map_some, Option.some.injEq]
    rw [fold_fresh rest _ (fun v hv => hlt v (hf v (by simp [hv])))]
    have hmap : (rest.map fun v => entry (m ++ [List.zipWith op.run x y]) v i) = rest.map fun v => entry m v i :=
      List.map_congr_left fun v hv => (hext v (hf v (by simp [hv]))).2 i
    rw [hmap, show op.run (entry m a i) (entry m b i) = [entry m b i].foldl op.run (entry m a i) from rfl, ← List.foldl_append, fold_wanted]
    simp [List.map_map]
    rfl

/-! ## C178 -/

theorem fold_and_any {m : Mem} {res i : Nat} : ∀ (vs : List MArg) (c x0 : Bool), (c = true → x0 = true) → entry m (.ref res) i = x0 →
    vs.foldl (rowStep .and m res i) c = (c && (vs.map fun v => entry m v i).all id) := by
  intro vs
  induction vs with
  | nil => intro c x0 _ _; simp
  | cons v vs ih =>
    intro c x0 hc hx
    rw [List.foldl_cons, ih _ x0 ?_ hx]
    · unfold rowStep MaskOp.run
      by_cases h : v = .ref res
      · subst h
        rw [if_pos rfl, List.map_cons, List.all_cons, hx]
        cases c <;> simp_all
      · rw [if_neg h, List.map_cons, List.all_cons]
        simp [Bool.and_assoc]
    · unfold rowStep MaskOp.run
      cases c <;> simp_all

theorem fold_or_any {m : Mem} {res i : Nat} : ∀ (vs : List MArg) (c x0 : Bool), (x0 = true → c = true) → entry m (.ref res) i = x0 →
    vs.foldl (rowStep .or m res i) c = (c || (vs.map fun v => entry m v i).any id) := by
  intro vs
  induction vs with
  | nil => intro c x0 _ _; simp
  | cons v vs ih =>
    intro c x0 hc hx
    rw [List.foldl_cons, ih _ x0 ?_ hx]
    · unfold rowStep MaskOp.run
      by_cases h : v = .ref res
      · subst h
        rw [if_pos rfl, List.map_cons, List.any_cons, hx]
        cases c <;> cases x0 <;> simp_all
      · rw [if_neg h, List.map_cons, List.any_cons]
        simp [Bool.or_assoc]
    · unfold rowStep MaskOp.run
      intro h
      simp [hc h]

theorem fold_andnot_any {m : Mem} {res i : Nat} : ∀ (vs : List MArg) (c x0 : Bool), (c = true → x0 = true) → entry m (.ref res) i = x0 →
    vs.foldl (rowStep .andnot m res i) c = (c && !((vs.map fun v => entry m v i).any id)) := by
  intro vs
  induction vs with
  | nil => intro c x0 _ _; simp
  | cons v vs ih =>
    intro c x0 hc hx
    rw [List.foldl_cons, ih _ x0 ?_ hx]
    · unfold rowStep MaskOp.run
      by_cases h : v = .ref res
      · subst h
        rw [if_pos rfl, List.map_cons, List.any_cons, hx]
        cases c <;> simp_all
      · rw [if_neg h, List.map_cons, List.any_cons]
        cases c <;> cases entry m v i <;> simp
    · unfold rowStep MaskOp.run
      cases c <;> simp_all

/-- **C178 (partial)** `mask_andi`, `mask_ori`, `mask_xori` and `mask_andnoti` put the result of C177 in the first array and change no other.
Missing: `mask_xori` with the first array again in third or later place, see the counterexample. -/
theorem mask_inplace_partial (op : MaskOp) (m : Mem) (n r : Nat) (b : MArg) (rest : List MArg) (hf : ∀ v ∈ .ref r :: b :: rest, FitsMem m n v)
    (hx : op = .xor → ∀ v ∈ rest, v ≠ .ref r) :
    ∃ m' out, maskOp op true m (.ref r :: b :: rest) = .ok (m', .ref r) ∧ m'.length = m.length ∧ (∀ k, k ≠ r → m'[k]? = m[k]?) ∧ m'[r]? = some out ∧
      RowByRow (wanted op) ((.ref r :: b :: rest).map (entry m)) n out := by
  obtain ⟨cur, c1, c2⟩ := hf (.ref r) (by simp)
  obtain ⟨m', out, e1, e2, e3, e4, e5, e6⟩ := maskLoop_ok op n r (b :: rest) m cur c1 c2 (fun v hv => hf v (List.mem_cons_of_mem _ hv))
  refine ⟨m', out, ?_, e2, e3, e4, e5, fun i hi => ?_⟩
  · unfold maskOp
    dsimp only
    rw [rowsOfArgs_some (hf _ (by simp)) (hf b (by simp)) (Or.inl ⟨r, rfl⟩)]
    dsimp only
    rw [if_pos rfl, e1]
    rfl
  · have hcur : entry m (.ref r) i = cur[i] := by
      rw [entry_ref, c1, Option.getD_some, List.getD_eq_getElem?_getD, List.getElem?_eq_getElem (by omega), Option.getD_some]
    rw [e6 i hi, List.getElem?_eq_getElem (by omega), Option.map_some, Option.some.injEq, List.map_cons, List.map_cons, List.map_map]
    show _ = wanted op (entry m (.ref r) i :: ((b :: rest).map fun v => entry m v i))
    cases op with
    | and => rw [fold_and_any (b :: rest) _ cur[i] (fun h => h) hcur, hcur]; rfl
    | or => rw [fold_or_any (b :: rest) _ cur[i] (fun h => h) hcur, hcur]; rfl
    | andnot => rw [fold_andnot_any (b :: rest) _ cur[i] (fun h => h) hcur, hcur]; rfl
    | xor =>
      rw [List.foldl_cons, fold_fresh rest _ (hx rfl), hcur, List.map_cons, ← fold_wanted, List.foldl_cons]
      congr 1
      unfold rowStep
      split_ifs with h
      · rw [h, hcur]
      · rfl

/-- **C178** violated: `mask_xori(a, b, a)` is False everywhere, whatever `a` and `b` are, instead of `b`. -/
theorem mask_xori_counterexample : (maskOp .xor true [[true, false], [true, false]] [.ref 0, .ref 1, .ref 0]).toOption = some ([[false, false], [true, false]], .ref 0) ∧
    ¬ RowByRow oddTrue ([.ref 0, .ref 1, .ref 0].map (entry [[true, false], [true, false]])) 2 [false, false] := by
  refine ⟨by decide, fun h => ?_⟩
  have := h.2 0 (by omega)
  revert this
  decide

/-- **C178** violated: the result of one mask is that array itself, not a new one. -/
theorem mask_single_counterexample (op : MaskOp) (m : Mem) (r : Nat) : maskOp op false m [.ref r] = .ok (m, .ref r) := rfl

example : (maskOp .andnot false [[true, true, false]] [.ref 0, .lit false]).toOption = some ([[true, true, false], [true, true, false]], .ref 1) ∧
    ∀ v ∈ [MArg.ref 0, .lit false], FitsMem [[true, true, false]] 3 v := by
  refine ⟨by decide, fun v hv => ?_⟩
  simp at hv
  rcases hv with rfl | rfl
  · exact ⟨_, rfl, rfl⟩
  · trivial

end Verif.NpOps
