import Verif.StructEq.Model
import Mathlib.Data.Fintype.Pigeonhole
/-!
# `Struct.equals` (C279 - C281)
-/
namespace Verif.StructEq

variable {C : Type} [DecidableEq C]

theorem leBytes_inj : ∀ (w x y : Nat), x < 256 ^ w → y < 256 ^ w → leBytes w x = leBytes w y → x = y := by
  intro w
  induction w with
  | zero => intro x y hx hy _; simp at hx hy; omega
  | succ w ih =>
    intro x y hx hy h
    simp only [leBytes, List.cons.injEq] at h
    have := ih (x / 256) (y / 256) (by rw [Nat.pow_succ] at hx; omega) (by rw [Nat.pow_succ] at hy; omega) h.2
    omega

theorem leBytes_length (w x : Nat) : (leBytes w x).length = w := by
  induction w generalizing x with
  | zero => rfl
  | succ w ih => simp [leBytes, ih]

theorem bytes_inj (w : Nat) (hw : 0 < w) : ∀ (e e' : List Nat), (∀ x ∈ e, x < 256 ^ w) → (∀ x ∈ e', x < 256 ^ w) → bytes w e = bytes w e' → e = e' := by
  intro e
  induction e with
  | nil =>
    intro e' _ _ h
    cases e' with
    | nil => rfl
    | cons y ys =>
      have := congrArg List.length h
      simp [bytes, leBytes_length] at this
      omega
  | cons x xs ih =>
    intro e' h1 h2 h
    cases e' with
    | nil =>
      have := congrArg List.length h
      simp [bytes, leBytes_length] at this
      omega
    | cons y ys =>
      simp only [bytes, List.flatMap_cons] at h
      obtain ⟨a, b⟩ := List.append_inj h (by simp [leBytes_length])
      rw [leBytes_inj w x y (h1 x List.mem_cons_self) (h2 y List.mem_cons_self) a,
        ih ys (fun z hz => h1 z (List.mem_cons_of_mem _ hz)) (fun z hz => h2 z (List.mem_cons_of_mem _ hz)) b]

mutual
theorem Val.eq_self (crc : List Nat → C) : ∀ (v : Val), (v.eq crc v = .ok true ∧ v.NoNan) ∨ (v.eq crc v = .ok false ∧ ¬ v.NoNan)
  | .arr k w e => .inl ⟨by simp [Val.eq], trivial⟩
  | .num n => .inl ⟨by simp [Val.eq, scalarEq], trivial⟩
  | .nan => .inr ⟨by simp [Val.eq, scalarEq], fun h => h⟩
  | .text s => .inl ⟨by simp [Val.eq, scalarEq], trivial⟩
  | .struct f => by
    rcases Fields.eq_self crc f with h | h
    · exact .inl ⟨by simp [Val.eq, h.1], h.2⟩
    · exact .inr ⟨by simp [Val.eq, h.1], h.2⟩
theorem Fields.eq_self (crc : List Nat → C) : ∀ (f : Fields), (f.eq crc f = .ok true ∧ f.NoNan) ∨ (f.eq crc f = .ok false ∧ ¬ f.NoNan)
  | .nil => .inl ⟨by simp [Fields.eq], trivial⟩
  | .cons k v r => by
    rcases Val.eq_self crc v with h | h
    · rcases Fields.eq_self crc r with g | g
      · exact .inl ⟨by simp [Fields.eq, h.1, g.1], h.2, g.2⟩
      · exact .inr ⟨by simp [Fields.eq, h.1, g.1], fun x => g.2 x.2⟩
    · exact .inr ⟨by simp [Fields.eq, h.1], fun x => h.2 x.1⟩
end

/-- **C279**: two Structs with the same keys in the same order and the same values (bit by bit) are equal, exactly if no number in them is NaN;
with a NaN the answer is False. -/
theorem same_exact (crc : List Nat → C) (f : Fields) : (equals crc f f = .ok true ↔ f.NoNan) ∧ (equals crc f f = .ok false ↔ ¬ f.NoNan) := by
  simp only [equals, ne_eq, not_true_eq_false, if_false]
  rcases Fields.eq_self crc f with h | h <;> simp [h.1, h.2]

example : equals (C := List Nat) id (.cons "a" (.arr 0 8 [1, 2]) (.cons "s" (.struct (.cons "t" (.text "x") .nil)) .nil))
    (.cons "a" (.arr 0 8 [1, 2]) (.cons "s" (.struct (.cons "t" (.text "x") .nil)) .nil)) = .ok true :=
  (same_exact _ _).1.2 ⟨trivial, ⟨trivial, trivial⟩, trivial⟩

/-- Disagreement (C279): a Struct with the number NaN is not equal to itself. -/
theorem nan_counterexample (crc : List Nat → C) : equals crc (.cons "a" .nan .nil) (.cons "a" .nan .nil) = .ok false :=
  (same_exact crc _).2.2 fun h => h.1

/-- Disagreement (C279): NaNs in the same place of arrays are equal only with the same bits: numpy's `nan` and the NaN that `0/0` gives on x86
have different signs. -/
theorem nan_bits_counterexample (crc : List Nat → C) (hcrc : crc (bytes 8 [0x7FF8000000000000]) ≠ crc (bytes 8 [0xFFF8000000000000])) :
    IsNan 0x7FF8000000000000 ∧ IsNan 0xFFF8000000000000 ∧
      equals crc (.cons "a" (.arr 0 8 [0x7FF8000000000000]) .nil) (.cons "a" (.arr 0 8 [0xFFF8000000000000]) .nil) = .ok false := by
  refine ⟨by decide, by decide, ?_⟩
  have : (crc (bytes 8 [0xFFF8000000000000]) == crc (bytes 8 [0x7FF8000000000000])) = false := by simpa using Ne.symm hcrc
  simp only [equals, Fields.length, Fields.eq, Val.eq, this]
  rfl

mutual
theorem Val.eq_sound (crc : List Nat → C) : ∀ (v v' : Val), v.Kinds v' → (∀ x ∈ v.mem, ∀ y ∈ v'.mem, crc x = crc y → x = y) →
    v.eq crc v' = .ok true → v = v'
  | .arr k w e, v', hk, hc, h => by
    cases v' <;> simp only [Val.eq, Except.ok.injEq, Bool.false_eq_true, reduceCtorEq] at h
    rename_i k' w' e'
    obtain ⟨rfl, rfl, hw, h1, h2⟩ := hk
    have := hc _ (List.mem_singleton.2 rfl) _ (List.mem_singleton.2 rfl) (by simpa using (beq_iff_eq.1 h).symm)
    rw [bytes_inj w hw e e' h1 h2 this]
  | .struct f, v', hk, hc, h => by
    cases v' <;> simp only [Val.eq, Except.ok.injEq, Bool.false_eq_true, reduceCtorEq] at h
    rename_i g
    split at h
    · simp at h
    · rename_i hl
      rw [Fields.eq_sound crc f g hk hc (by simpa using hl) h]
  | .num n, v', _, _, h => by
    cases v' <;> simp [Val.eq, scalarEq] at h
    rw [h]
  | .nan, v', _, _, h => by cases v' <;> simp [Val.eq, scalarEq] at h
  | .text s, v', _, _, h => by
    cases v' <;> simp [Val.eq, scalarEq] at h
    rw [h]
theorem Fields.eq_sound (crc : List Nat → C) : ∀ (f g : Fields), f.Kinds g → (∀ x ∈ f.mem, ∀ y ∈ g.mem, crc x = crc y → x = y) →
    f.length = g.length → f.eq crc g = .ok true → f = g
  | .nil, g, _, _, hl, _ => by
    cases g with
    | nil => rfl
    | cons _ _ _ => simp [Fields.length] at hl
  | .cons k v r, g, hk, hc, hl, h => by
    cases g with
    | nil => simp [Fields.length] at hl
    | cons k' v' r' =>
      simp only [Fields.eq] at h
      split at h
      · rename_i hkk
        subst hkk
        split at h
        · simp at h
        · simp at h
        · rename_i hv
          rw [Val.eq_sound crc v v' hk.1 (fun x hx y hy => hc x (List.mem_append_left _ hx) y (List.mem_append_left _ hy)) hv,
            Fields.eq_sound crc r r' hk.2 (fun x hx y hy => hc x (List.mem_append_right _ hx) y (List.mem_append_right _ hy))
              (by simpa [Fields.length] using hl) h]
      · simp at h
end

/-- **C280**: if arrays under the same key have elements of one kind and the checksums of different memory differ, Structs that are equal have
the same keys in the same order and the same values. -/
theorem equal_sound_partial (crc : List Nat → C) (f g : Fields) (hk : f.Kinds g) (hc : ∀ x ∈ f.mem, ∀ y ∈ g.mem, crc x = crc y → x = y)
    (h : equals crc f g = .ok true) : f = g := by
  rw [equals] at h
  split at h
  · simp at h
  · rename_i hl
    exact Fields.eq_sound crc f g hk hc (by simpa using hl) h

example : (Fields.cons "a" (.arr 0 8 [1, 2]) .nil).Kinds (.cons "a" (.arr 0 8 [3]) .nil) := ⟨⟨rfl, rfl, by decide, by decide, by decide⟩, trivial⟩

/-- Disagreement (C280): the kind of the elements is not compared: the integers `[1, 0]` of four bytes equal the integer `[1]` of eight bytes,
and a date equals an integer, whatever the checksum. -/
theorem kind_counterexample (crc : List Nat → C) :
    equals crc (.cons "a" (.arr 0 4 [1, 0]) .nil) (.cons "a" (.arr 0 8 [1]) .nil) = .ok true ∧
      equals crc (.cons "a" (.arr 0 4 [7]) .nil) (.cons "a" (.arr 1 4 [7]) .nil) = .ok true := by
  have : bytes 4 [1, 0] = bytes 8 [1] := by decide
  constructor <;> simp [equals, Fields.length, Fields.eq, Val.eq, this]

/-- Disagreement (C280): the length is not compared either, so for every checksum of 32 bits there are Structs with arrays of zeros of different
lengths that are equal. -/
theorem length_counterexample (crc : List Nat → Fin (2 ^ 32)) :
    ∃ m n, m ≠ n ∧ equals crc (.cons "a" (.arr 0 8 (List.replicate m 0)) .nil) (.cons "a" (.arr 0 8 (List.replicate n 0)) .nil) = .ok true := by
  obtain ⟨m, n, hne, h⟩ := Finite.exists_ne_map_eq_of_infinite fun n : Nat => crc (bytes 8 (List.replicate n 0))
  exact ⟨m, n, hne, by simp [equals, Fields.length, Fields.eq, Val.eq, h]⟩

mutual
theorem Val.eq_returns (crc : List Nat → C) : ∀ (v v' : Val), v.Fits v' → ∃ b, v.eq crc v' = .ok b
  | .arr k w e, v', _ => by cases v' <;> simp [Val.eq]
  | .struct f, v', h => by
    cases v' <;> simp [Val.Fits, Val.isStruct, Val.isArr] at h
    · simp [Val.eq]
    · rename_i g
      simp only [Val.eq]
      split
      · simp
      · exact Fields.eq_returns crc f g h
  | .num n, v', h => by cases v' <;> simp [Val.Fits, Val.isStruct, Val.isArr] at h <;> simp [Val.eq]
  | .nan, v', h => by cases v' <;> simp [Val.Fits, Val.isStruct, Val.isArr] at h <;> simp [Val.eq]
  | .text s, v', h => by cases v' <;> simp [Val.Fits, Val.isStruct, Val.isArr] at h <;> simp [Val.eq]
theorem Fields.eq_returns (crc : List Nat → C) : ∀ (f g : Fields), f.Fits g → ∃ b, f.eq crc g = .ok b
  | .nil, g, _ => by cases g <;> simp [Fields.eq]
  | .cons k v r, g, h => by
    cases g with
    | nil => simp [Fields.eq]
    | cons k' v' r' =>
      obtain ⟨b, hb⟩ := Val.eq_returns crc v v' h.1
      simp only [Fields.eq, hb]
      split
      · cases b
        · exact ⟨false, rfl⟩
        · exact Fields.eq_returns crc r r' h.2
      · exact ⟨false, rfl⟩
end

/-- **C281**: comparing gives True or False if there is never a Struct on one side and a number or text on the other. -/
theorem returns_partial (crc : List Nat → C) (f g : Fields) (h : f.Fits g) : ∃ b, equals crc f g = .ok b := by
  rw [equals]
  split
  · exact ⟨false, rfl⟩
  · exact Fields.eq_returns crc f g h

/-- Disagreement (C281): a number compared with a Struct raises, one way AttributeError, the other TypeError. -/
theorem raises_counterexample (crc : List Nat → C) (n : Int) (f : Fields) :
    equals crc (.cons "a" (.num n) .nil) (.cons "a" (.struct f) .nil) = .error .attribute ∧
      equals crc (.cons "a" (.struct f) .nil) (.cons "a" (.num n) .nil) = .error .type := by
  constructor <;> simp [equals, Fields.length, Fields.eq, Val.eq]

/-- **C281**: other keys, or the same keys in another order, are never equal, and comparing them does not raise if the first keys differ. -/
theorem order_exact (crc : List Nat → C) (k k' : String) (v v' : Val) (r r' : Fields) (h : k ≠ k') :
    equals crc (.cons k v r) (.cons k' v' r') = .ok false := by
  simp only [equals, Fields.eq, h, if_false]
  split <;> rfl

end Verif.StructEq
