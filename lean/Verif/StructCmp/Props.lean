import Verif.StructCmp.Model
import Verif.StructCmp.Spec
/-!
# Comparing Structs (C271 - C275)
-/
namespace Verif.StructCmp

theorem cmpFields_keys (other : Op → Val → Val → Res) (op : Op) (gs gas : Fields) :
    ∀ (fs : Fields) (flags : List (String × Bool)), cmpFields other op fs gs gas = .ok flags → flags.map (fun p => p.1) = fs.keys := by
  intro fs
  induction fs using Fields.rec (motive_1 := fun _ => True) with
  | nil => intro flags h; simp only [cmpFields, Except.ok.injEq] at h; subst h; rfl
  | cons k v rest _ ih =>
    intro flags h
    simp only [cmpFields] at h
    split at h
    · split at h
      · rename_i fl hfl
        simp only [Except.ok.injEq] at h
        subst h
        simp [Fields.keys, ih fl hfl]
      · simp at h
    · split at h
      · simp at h
      · split at h
        · rename_i fl hfl
          simp only [Except.ok.injEq] at h
          subst h
          simp [Fields.keys, ih fl hfl]
        · simp at h
  | _ => trivial

/-- **C271.** Whatever is compared and however: if a result comes out, its keys are those of the left Struct in order, then those of
the right one that the left lacks, in order. -/
theorem keys_union (other : Op → Val → Val → Res) (op : Op) (fs gs gas : Fields) (flags : List (String × Bool))
    (h : compare other op fs gs gas = .ok flags) :
    flags.map (fun p => p.1) = fs.keys ++ gs.keys.filter (fun k => k ∉ fs.keys) := by
  simp only [compare] at h
  split at h
  · rename_i fl hfl
    simp only [Except.ok.injEq] at h
    subst h
    have hk := cmpFields_keys other op gs gas fs fl hfl
    rw [List.map_append, hk]
    congr 1
    simp [missing, hk, List.map_map, Function.comp_def]
  · simp at h

theorem get_mem_keys (gs : Fields) (k : String) (v : Val) (h : gs.get k = some v) : k ∈ gs.keys := by
  induction gs using Fields.rec (motive_1 := fun _ => True) with
  | nil => simp [Fields.get] at h
  | cons k' v' rest _ ih =>
    simp only [Fields.get] at h
    split at h
    · rename_i hk; simp [Fields.keys, hk]
    · simp [Fields.keys, ih h]
  | _ => trivial

theorem get_of_not_mem (gs : Fields) (k : String) (h : k ∉ gs.keys) : gs.get k = Option.none := by
  cases hg : gs.get k with
  | none => rfl
  | some v => exact absurd (get_mem_keys gs k v hg) h

theorem mem_keys_get (gs : Fields) (k : String) (h : k ∈ gs.keys) : ∃ v, gs.get k = some v := by
  induction gs using Fields.rec (motive_1 := fun _ => True) with
  | nil => simp [Fields.keys] at h
  | cons k' v' rest _ ih =>
    simp only [Fields.get]
    by_cases hk : k' = k
    · exact ⟨v', by simp [hk]⟩
    · simp only [Fields.keys, List.mem_cons] at h
      rcases h with h | h
      · exact absurd h.symm hk
      · simpa [hk] using ih h
  | _ => trivial

/-- The flags of the loop over the left keys. -/
theorem cmpFields_flag (other : Op → Val → Val → Res) (op : Op) (gs gas : Fields) :
    ∀ (fs : Fields) (flags : List (String × Bool)), cmpFields other op fs gs gas = .ok flags → fs.keys.Nodup →
    ∀ k b, (k, b) ∈ flags → ∃ v, fs.get k = some v ∧
      ((attr gs gas k = Option.none ∧ b = false) ∨ ∃ w, attr gs gas k = some w ∧ truth (cmpVal other op v w) = .ok b) := by
  intro fs
  induction fs using Fields.rec (motive_1 := fun _ => True) with
  | nil => intro flags h _ k b hm; simp only [cmpFields, Except.ok.injEq] at h; subst h; simp at hm
  | cons k' v' rest _ ih =>
    intro flags h hnd k b hm
    simp only [Fields.keys, List.nodup_cons] at hnd
    have hrest : ∀ fl, cmpFields other op rest gs gas = .ok fl → (k, b) ∈ fl →
        ∃ v, (Fields.cons k' v' rest).get k = some v ∧
          ((attr gs gas k = Option.none ∧ b = false) ∨ ∃ w, attr gs gas k = some w ∧ truth (cmpVal other op v w) = .ok b) := by
      intro fl hfl hmem
      obtain ⟨v, hv, hr⟩ := ih fl hfl hnd.2 k b hmem
      refine ⟨v, ?_, hr⟩
      have hkr : k ∈ rest.keys := get_mem_keys rest k v hv
      have hne : k' ≠ k := fun he => hnd.1 (he ▸ hkr)
      simpa [Fields.get, hne] using hv
    simp only [cmpFields] at h
    split at h
    · rename_i hattr
      split at h
      · rename_i fl hfl
        simp only [Except.ok.injEq] at h
        subst h
        simp only [List.mem_cons, Prod.mk.injEq] at hm
        rcases hm with ⟨hk, hb⟩ | hm
        · subst hk hb
          exact ⟨v', by simp [Fields.get], Or.inl ⟨hattr, rfl⟩⟩
        · exact hrest fl hfl hm
      · simp at h
    · rename_i w hattr
      split at h
      · simp at h
      · rename_i b' hb'
        split at h
        · rename_i fl hfl
          simp only [Except.ok.injEq] at h
          subst h
          simp only [List.mem_cons, Prod.mk.injEq] at hm
          rcases hm with ⟨hk, hb⟩ | hm
          · subst hk hb
            exact ⟨v', by simp [Fields.get], Or.inr ⟨w, hattr, hb'⟩⟩
          · exact hrest fl hfl hm
        · simp at h
  | _ => trivial

/-- **C272.** A key that only the right Struct has is False, always. -/
theorem right_only (other : Op → Val → Val → Res) (op : Op) (fs gs gas : Fields) (flags : List (String × Bool))
    (h : compare other op fs gs gas = .ok flags) (k : String) (hk : k ∉ fs.keys) (b : Bool) (hm : (k, b) ∈ flags) : b = false := by
  simp only [compare] at h
  split at h
  · rename_i fl hfl
    simp only [Except.ok.injEq] at h
    subst h
    rw [List.mem_append] at hm
    rcases hm with hm | hm
    · have := cmpFields_keys other op gs gas fs fl hfl
      exact absurd (this ▸ List.mem_map_of_mem (f := fun p : String × Bool => p.1) hm) hk
    · simp only [missing, List.mem_map, Prod.mk.injEq] at hm
      obtain ⟨_, _, _, hb⟩ := hm
      exact hb.symm
  · simp at h

/-- A flag of a key of the left Struct comes from the loop over the left keys. -/
theorem compare_left (other : Op → Val → Val → Res) (op : Op) (fs gs gas : Fields) (flags : List (String × Bool))
    (h : compare other op fs gs gas = .ok flags) (k : String) (hk : k ∈ fs.keys) (b : Bool) (hm : (k, b) ∈ flags) :
    ∃ fl, cmpFields other op fs gs gas = .ok fl ∧ (k, b) ∈ fl := by
  simp only [compare] at h
  split at h
  · rename_i fl hfl
    simp only [Except.ok.injEq] at h
    subst h
    refine ⟨fl, hfl, ?_⟩
    rw [List.mem_append] at hm
    rcases hm with hm | hm
    · exact hm
    · have hkeys := cmpFields_keys other op gs gas fs fl hfl
      simp only [missing, List.mem_map, List.mem_filter, Prod.mk.injEq] at hm
      obtain ⟨k', ⟨_, hc⟩, hke, _⟩ := hm
      subst hke
      rw [hkeys] at hc
      simp [hk] at hc
  · simp at h

/-- **C272.** A key that only the left Struct has is False, if the right object has no attribute of that name either. -/
theorem left_only_partial (other : Op → Val → Val → Res) (op : Op) (fs gs gas : Fields) (flags : List (String × Bool))
    (hnd : fs.keys.Nodup) (h : compare other op fs gs gas = .ok flags) (k : String) (hk : k ∈ fs.keys) (hg : k ∉ gs.keys)
    (ha : k ∉ gas.keys) (b : Bool) (hm : (k, b) ∈ flags) : b = false := by
  obtain ⟨fl, hfl, hm'⟩ := compare_left other op fs gs gas flags h k hk b hm
  obtain ⟨v, _, hr⟩ := cmpFields_flag other op gs gas fs fl hfl hnd k b hm'
  have hn : attr gs gas k = Option.none := by simp [attr, get_of_not_mem gs k hg, get_of_not_mem gas k ha]
  rcases hr with ⟨_, hb⟩ | ⟨w, hw, _⟩
  · exact hb
  · rw [hn] at hw; simp at hw

theorem num_iff (op : Op) (a b : Int) : op.num a b = true ↔ Rel op a b := by
  cases op <;> simp [Op.num, Op.on, Rel] <;> omega

/-- **C273**, arrays: the flag at a key where both Structs have arrays of the same length is True exactly if the length is not zero and
the comparison holds at every position. -/
theorem array_exact (other : Op → Val → Val → Res) (op : Op) (fs gs gas : Fields) (flags : List (String × Bool))
    (hnd : fs.keys.Nodup) (h : compare other op fs gs gas = .ok flags) (k : String) (xs ys : List Int)
    (hx : fs.get k = some (.arr xs)) (hy : gs.get k = some (.arr ys)) (hlen : xs.length = ys.length) (b : Bool) (hm : (k, b) ∈ flags) :
    b = true ↔ xs ≠ [] ∧ ∀ (i : Nat) (x y : Int), xs[i]? = some x → ys[i]? = some y → Rel op x y := by
  simp only [← num_iff]
  obtain ⟨fl, hfl, hm'⟩ := compare_left other op fs gs gas flags h k (get_mem_keys fs k _ hx) b hm
  obtain ⟨v, hv, hr⟩ := cmpFields_flag other op gs gas fs fl hfl hnd k b hm'
  rw [hx, Option.some.injEq] at hv
  subst hv
  have ha : attr gs gas k = some (.arr ys) := by simp [attr, hy]
  rcases hr with ⟨hn, _⟩ | ⟨w, hw, ht⟩
  · rw [ha] at hn; simp at hn
  · rw [ha, Option.some.injEq] at hw
    subst hw
    have hall : (∀ (i : Nat) (x y : Int), xs[i]? = some x → ys[i]? = some y → op.num x y = true) ↔
        (List.zipWith op.num xs ys).all id = true := by
      rw [List.all_eq_true]
      constructor
      · intro hp b hb
        obtain ⟨i, hi⟩ := List.getElem?_of_mem hb
        rw [List.getElem?_zipWith] at hi
        cases hxi : xs[i]? with
        | none => simp [hxi] at hi
        | some x =>
          cases hyi : ys[i]? with
          | none => simp [hxi, hyi] at hi
          | some y =>
            simp only [hxi, hyi, Option.some.injEq] at hi
            rw [← hi]
            exact hp i x y hxi hyi
      · intro hp i x y hxi hyi
        have hz : (List.zipWith op.num xs ys)[i]? = some (op.num x y) := by rw [List.getElem?_zipWith]; simp [hxi, hyi]
        exact hp _ (List.mem_of_getElem? hz)
    rw [hall]
    simp only [cmpVal, hlen, if_true] at ht
    match xs, ys with
    | [], [] => simp only [List.zipWith_nil_left, truth, Except.ok.injEq] at ht; subst ht; simp
    | [], _ :: _ => simp at hlen
    | _ :: _, [] => simp at hlen
    | [x], [y] => simp only [List.zipWith_cons_cons, List.zipWith_nil_left, truth, Except.ok.injEq] at ht; subst ht; simp
    | [_], _ :: _ :: _ => simp at hlen
    | _ :: _ :: _, [_] => simp at hlen
    | x :: x' :: xs, y :: y' :: ys =>
      simp only [List.zipWith_cons_cons, truth, Except.ok.injEq] at ht
      subst ht
      simp

/-- The flag at a key of both Structs is the truth of the comparison of the two values. -/
theorem shared_flag (other : Op → Val → Val → Res) (op : Op) (fs gs gas : Fields) (flags : List (String × Bool))
    (hnd : fs.keys.Nodup) (h : compare other op fs gs gas = .ok flags) (k : String) (v w : Val)
    (hx : fs.get k = some v) (hy : gs.get k = some w) (b : Bool) (hm : (k, b) ∈ flags) : truth (cmpVal other op v w) = .ok b := by
  obtain ⟨fl, hfl, hm'⟩ := compare_left other op fs gs gas flags h k (get_mem_keys fs k _ hx) b hm
  obtain ⟨v', hv, hr⟩ := cmpFields_flag other op gs gas fs fl hfl hnd k b hm'
  rw [hx, Option.some.injEq] at hv
  subst hv
  have ha : attr gs gas k = some w := by simp [attr, hy]
  rcases hr with ⟨hn, _⟩ | ⟨w', hw, ht⟩
  · rw [ha] at hn; simp at hn
  · rw [ha, Option.some.injEq] at hw
    subst hw
    exact ht

/-- **C273**, Structs inside: the flag is True exactly if the comparison of the two inner Structs is True at every key, that is at
every key of either. -/
theorem nested_exact (other : Op → Val → Val → Res) (op : Op) (fs gs gas : Fields) (flags : List (String × Bool))
    (hnd : fs.keys.Nodup) (h : compare other op fs gs gas = .ok flags) (k : String) (a aa b ba : Fields)
    (hx : fs.get k = some (.struct a aa)) (hy : gs.get k = some (.struct b ba)) (r : Bool) (hm : (k, r) ∈ flags) :
    ∃ inner, compare other op a b ba = .ok inner ∧ (r = true ↔ ∀ p ∈ inner, p.2 = true) := by
  have ht := shared_flag other op fs gs gas flags hnd h k _ _ hx hy r hm
  simp only [cmpVal] at ht
  split at ht
  · rename_i fl hfl
    refine ⟨_, by simp only [compare, hfl]; rfl, ?_⟩
    simp only [truth, Except.ok.injEq] at ht
    rw [← ht, List.all_eq_true]
  · simp [truth] at ht
  · simp [truth] at ht

/-- **C273**, numbers and texts. -/
theorem scalar_exact (other : Op → Val → Val → Res) (op : Op) (fs gs gas : Fields) (flags : List (String × Bool))
    (hnd : fs.keys.Nodup) (h : compare other op fs gs gas = .ok flags) (k : String) (r : Bool) (hm : (k, r) ∈ flags) :
    (∀ a b : Int, fs.get k = some (.int a) → gs.get k = some (.int b) → (r = true ↔ Rel op a b)) ∧
    (∀ s t : String, op = .eq → fs.get k = some (.text s) → gs.get k = some (.text t) → (r = true ↔ s = t)) ∧
    (∀ s t : String, op = .ne → fs.get k = some (.text s) → gs.get k = some (.text t) → (r = true ↔ s ≠ t)) := by
  refine ⟨fun a b hx hy => ?_, fun s t ho hx hy => ?_, fun s t ho hx hy => ?_⟩ <;>
    have ht := shared_flag other op fs gs gas flags hnd h k _ _ hx hy r hm
  · simp only [cmpVal, truth, Except.ok.injEq] at ht
    rw [← ht, num_iff]
  · subst ho
    simp only [cmpVal, truth, Op.on, Except.ok.injEq] at ht
    rw [← ht]; simp
  · subst ho
    simp only [cmpVal, truth, Op.on, Except.ok.injEq] at ht
    rw [← ht]; simp

theorem num_refl (n : Int) : Op.num .eq n n = true := by simp [Op.num, Op.on]

theorem missing_self (ks : List String) : missing ks ks = [] := by
  simp [missing, List.filter_eq_nil_iff]

theorem zip_refl (xs : List Int) : (List.zipWith (Op.num .eq) xs xs) = xs.map fun _ => true := by
  induction xs with
  | nil => rfl
  | cons x xs ih => simp [ih, num_refl]

theorem truth_refl_arr (xs : List Int) : truth (.arr (xs.map fun _ => true)) = .ok (!xs.isEmpty) := by
  match xs with
  | [] => rfl
  | [_] => rfl
  | _ :: _ :: xs => simp [truth]

/-- Comparing a value with itself. -/
theorem refl_all (other : Op → Val → Val → Res) :
    (∀ v : Val, DistinctVal v → truth (cmpVal other .eq v v) = .ok (!hasEmpty v)) ∧
    (∀ fs : Fields, DistinctFields fs → ∀ (gs gas : Fields), fs.keys.Nodup → (∀ k v, fs.get k = some v → gs.get k = some v) →
      ∃ flags, cmpFields other .eq fs gs gas = .ok flags ∧ flags.all (fun p => p.2) = !hasEmptyF fs) := by
  have main : ∀ fs : Fields, (DistinctFields fs → ∀ (gs gas : Fields), fs.keys.Nodup → (∀ k v, fs.get k = some v → gs.get k = some v) →
      ∃ flags, cmpFields other .eq fs gs gas = .ok flags ∧ flags.all (fun p => p.2) = !hasEmptyF fs) := by
    intro fs
    induction fs using Fields.rec
      (motive_1 := fun v => DistinctVal v → truth (cmpVal other .eq v v) = .ok (!hasEmpty v)) with
    | int n => simp [cmpVal, truth, num_refl, hasEmpty]
    | flt n => simp [cmpVal, truth, num_refl, hasEmpty]
    | text s => simp [cmpVal, truth, Op.on, hasEmpty]
    | none => simp [cmpVal, truth, hasEmpty]
    | arr xs => simp only [cmpVal, if_true, zip_refl, truth_refl_arr, hasEmpty]
    | struct fs as ih _ =>
      rename_i hd
      simp only [DistinctVal] at hd
      obtain ⟨flags, h1, h2⟩ := ih hd.2 fs as hd.1 (fun _ _ h => h)
      have hk := cmpFields_keys other .eq fs as fs flags h1
      simp only [cmpVal, h1, hk, missing_self, List.append_nil, truth, hasEmpty, h2]
    | nil => intro _ gs gas _ _; exact ⟨[], by simp [cmpFields], by simp [hasEmptyF]⟩
    | cons k v rest ihv ihr =>
      intro hd gs gas hnd hsub
      simp only [DistinctFields] at hd
      simp only [Fields.keys, List.nodup_cons] at hnd
      obtain ⟨flags, h1, h2⟩ := ihr hd.2 gs gas hnd.2 (fun k' v' h' => by
        have hkr : k' ∈ rest.keys := get_mem_keys rest k' v' h'
        have hne : k ≠ k' := fun he => hnd.1 (he ▸ hkr)
        exact hsub k' v' (by simpa [Fields.get, hne] using h'))
      have hg : gs.get k = some v := hsub k v (by simp [Fields.get])
      refine ⟨(k, !hasEmpty v) :: flags, ?_, ?_⟩
      · simp only [cmpFields, attr, hg, ihv hd.1, h1]
      · simp [h2, hasEmptyF, Bool.not_or]
  refine ⟨fun v => ?_, main⟩
  cases v with
  | int n => intro _; simp [cmpVal, truth, num_refl, hasEmpty]
  | flt n => intro _; simp [cmpVal, truth, num_refl, hasEmpty]
  | text s => intro _; simp [cmpVal, truth, Op.on, hasEmpty]
  | none => intro _; simp [cmpVal, truth, hasEmpty]
  | arr xs => intro _; simp only [cmpVal, if_true, zip_refl, truth_refl_arr, hasEmpty]
  | struct fs as =>
    intro hd
    simp only [DistinctVal] at hd
    obtain ⟨flags, h1, h2⟩ := main fs hd.2 fs as hd.1 (fun _ _ h => h)
    have hk := cmpFields_keys other .eq fs as fs flags h1
    simp only [cmpVal, h1, hk, missing_self, List.append_nil, truth, hasEmpty, h2]

/-- **C274.** A Struct compared with itself, or with another one of the same contents, to any depth: the comparison gives a result, and
it is True at every key exactly if there is no empty array inside. -/
theorem self_equal_exact (other : Op → Val → Val → Res) (fs gas : Fields) (hnd : fs.keys.Nodup) (hd : DistinctFields fs) :
    ∃ flags, compare other .eq fs fs gas = .ok flags ∧ ((∀ p ∈ flags, p.2 = true) ↔ hasEmptyF fs = false) := by
  obtain ⟨flags, h1, h2⟩ := (refl_all other).2 fs hd fs gas hnd (fun _ _ h => h)
  have hk := cmpFields_keys other .eq fs gas fs flags h1
  refine ⟨flags, by simp only [compare, h1, hk, missing_self, List.append_nil], ?_⟩
  rw [← Bool.not_eq_true', ← h2, List.all_eq_true]

/-- **C275.** The comparison fails exactly if, at some key of the left Struct, the comparison of the two values does. -/
theorem raises_exact (other : Op → Val → Val → Res) (op : Op) (fs gs gas : Fields) (hnd : fs.keys.Nodup) :
    (∃ e, compare other op fs gs gas = .error e) ↔
      ∃ k v w e, fs.get k = some v ∧ attr gs gas k = some w ∧ truth (cmpVal other op v w) = .error e := by
  have main : ∀ fs : Fields, fs.keys.Nodup → ((∃ e, cmpFields other op fs gs gas = .error e) ↔
      ∃ k v w e, fs.get k = some v ∧ attr gs gas k = some w ∧ truth (cmpVal other op v w) = .error e) := by
    intro fs
    induction fs using Fields.rec (motive_1 := fun _ => True) with
    | nil => intro _; simp [cmpFields, Fields.get]
    | cons k v rest _ ih =>
      intro hnd
      simp only [Fields.keys, List.nodup_cons] at hnd
      have ih' := ih hnd.2
      have hlift : (∃ k' v' w e, rest.get k' = some v' ∧ attr gs gas k' = some w ∧ truth (cmpVal other op v' w) = .error e) →
          ∃ k' v' w e, (Fields.cons k v rest).get k' = some v' ∧ attr gs gas k' = some w ∧ truth (cmpVal other op v' w) = .error e := by
        rintro ⟨k', v', w, e, h1, h2, h3⟩
        have hkr : k' ∈ rest.keys := get_mem_keys rest k' v' h1
        have hne : k ≠ k' := fun he => hnd.1 (he ▸ hkr)
        exact ⟨k', v', w, e, by simpa [Fields.get, hne] using h1, h2, h3⟩
      constructor
      · rintro ⟨e, he⟩
        simp only [cmpFields] at he
        split at he
        · split at he
          · simp at he
          · rename_i e' he'
            exact hlift (ih'.mp ⟨e', he'⟩)
        · rename_i w hw
          split at he
          · rename_i e' he'
            exact ⟨k, v, w, e', by simp [Fields.get], hw, he'⟩
          · split at he
            · simp at he
            · rename_i e' he'
              exact hlift (ih'.mp ⟨e', he'⟩)
      · rintro ⟨k', v', w, e, h1, h2, h3⟩
        simp only [cmpFields]
        by_cases hk : k = k'
        · subst hk
          simp only [Fields.get, if_true, Option.some.injEq] at h1
          subst h1
          rw [h2]
          simp only [h3]
          exact ⟨e, rfl⟩
        · simp only [Fields.get, hk, if_false] at h1
          obtain ⟨e', he'⟩ := ih'.mpr ⟨k', v', w, e, h1, h2, h3⟩
          rw [he']
          split
          · exact ⟨e', rfl⟩
          · split
            · rename_i e'' _
              exact ⟨e'', rfl⟩
            · exact ⟨e', rfl⟩
    | _ => trivial
  rw [← main fs hnd]
  simp only [compare]
  constructor
  · rintro ⟨e, he⟩
    split at he
    · simp at he
    · rename_i e' he'
      exact ⟨e', he'⟩
  · rintro ⟨e, he⟩
    rw [he]
    exact ⟨e, rfl⟩

/-! ## Concrete cases -/

deriving instance DecidableEq for Except

/-- What numpy says elsewhere: False. -/
def other0 : Op → Val → Val → Res := fun _ _ _ => .bool false

def one (k : String) (v : Val) : Fields := .cons k v .nil

example : compare other0 .eq (.cons "a" (.int 1) (.cons "b" (.arr [1, 2]) .nil)) (.cons "c" (.int 2) (.cons "b" (.arr [1, 2]) .nil)) .nil =
    .ok [("a", false), ("b", true), ("c", false)] := by decide +kernel

example : compare other0 .eq (one "s" (.struct (one "x" (.arr [1, 2])) .nil)) (one "s" (.struct (one "x" (.arr [1, 3])) .nil)) .nil =
    .ok [("s", false)] := by decide +kernel

/-- A nested Struct meets the hypotheses of `self_equal_exact`. -/
example : (one "s" (.struct (one "x" (.arr [1, 2])) .nil)).keys.Nodup ∧ DistinctFields (one "s" (.struct (one "x" (.arr [1, 2])) .nil)) := by
  simp [one, Fields.keys, DistinctFields, DistinctVal]

/-- **C274**: a Struct with an empty array is not equal to itself. -/
theorem empty_counterexample : compare other0 .eq (one "a" (.arr [])) (one "a" (.arr [])) .nil = .ok [("a", false)] := by decide +kernel

/-- **C275**: documented is False where a comparison fails; an int and a float raise, one way round only. -/
theorem raises_counterexample :
    compare other0 .eq (one "a" (.int 1)) (one "a" (.flt 1)) .nil = .error .notImplemented ∧
    compare other0 .eq (one "a" (.flt 1)) (one "a" (.int 1)) .nil = .ok [("a", true)] ∧
    compare other0 .eq (one "a" (.struct .nil .nil)) (one "a" (.int 1)) .nil = .error .raised := by decide +kernel

/-- **C272**: a Dataset of six values has no key `size`, but an attribute. -/
theorem attribute_counterexample :
    compare other0 .eq (one "size" (.int 6)) (one "x" (.arr [1, 2, 3, 4, 5, 6])) (one "size" (.int 6)) =
      .ok [("size", true), ("x", false)] := by decide +kernel

/-- **C273**: arrays of different length can be equal, and arrays that differ are not unequal. -/
theorem array_counterexample :
    compare other0 .eq (one "a" (.arr [1])) (one "a" (.arr [1, 1, 1])) .nil = .ok [("a", true)] ∧
    compare other0 .ne (one "a" (.arr [1, 2])) (one "a" (.arr [1, 3])) .nil = .ok [("a", false)] ∧
    compare other0 .eq (one "a" (.arr [1, 2])) (one "a" (.arr [1, 3])) .nil = .ok [("a", false)] := by decide +kernel

end Verif.StructCmp
