import Verif.Str.Lemmas
import Mathlib.Tactic.SplitIfs
/-!
# Case, length, reversal, trimming and searching (C22, C23, part of C25)

`src` holds `n` rows of width `w`; `dest` is the uninitialised result array; every theorem is about
every interleaving of the row iterations.
-/
namespace Verif.Str
open Verif.Str.Spec

/-! ## C22 -/

/-- stores that write `g` of every character of the row -/
theorem mapTrace_row {src dest out : Buf} {n w : Nat} (g : Nat → Nat) (hs : src.length = n * w) (hd : dest.length = n * w)
    (hr : Runs n (fun i => (List.range w).map fun j => (i * w + j, g (rd src (i * w + j)))) dest out) :
    out.length = n * w ∧ ∀ i < n, row w i out = (row w i src).map g := by
  obtain ⟨h1, h2⟩ := runs_row (w := w) hr (by
    intro i _ s hs
    simp only [List.mem_map, List.mem_range] at hs
    obtain ⟨j, hj, rfl⟩ := hs
    exact ⟨by omega, by show i * w + j < _; omega⟩)
  refine ⟨h1.trans hd, fun i hi => ?_⟩
  rw [h2 i hi]
  refine row_stores hd hi (by rw [List.length_map, row_length hs hi]) ?_ ?_
  · intro s hs'
    simp only [List.mem_map, List.mem_range] at hs'
    obtain ⟨j, hj, rfl⟩ := hs'
    exact ⟨j, rfl, by rw [List.getElem?_map, row_getElem? hs hi hj]; rfl⟩
  · intro j hj
    exact ⟨_, List.mem_map.mpr ⟨j, List.mem_range.mpr hj, rfl⟩, rfl⟩

/-- **C22** `upper` turns exactly the lower-case ASCII letters of every row into capitals. -/
theorem upper_correct {src dest out : Buf} {n w : Nat} (hs : src.length = n * w) (hd : dest.length = n * w)
    (hr : Runs n (upperTrace src w) dest out) :
    out.length = n * w ∧ ∀ i < n, decode (row w i out) = (decode (row w i src)).map upChar := by
  obtain ⟨h1, h2⟩ := mapTrace_row (fun c => if c ≥ 97 ∧ c ≤ 122 then c - 32 else c) hs hd hr
  refine ⟨h1, fun i hi => ?_⟩
  have e : (fun c => if c ≥ 97 ∧ c ≤ 122 then c - 32 else c) = upChar := by
    funext c
    simp only [upChar, show 'a'.toNat = 97 from rfl, show 'z'.toNat = 122 from rfl, show 'A'.toNat = 65 from rfl]
    by_cases h : 97 ≤ c ∧ c ≤ 122
    · rw [if_pos h, if_pos h]; omega
    · rw [if_neg h, if_neg h]
  rw [h2 i hi, e, decode_map]
  intro c
  simp only [upChar, show 'a'.toNat = 97 from rfl, show 'z'.toNat = 122 from rfl, show 'A'.toNat = 65 from rfl]
  split <;> omega

/-- **C22** `lower` turns exactly the ASCII capitals of every row into lower-case letters. -/
theorem lower_correct {src dest out : Buf} {n w : Nat} (hs : src.length = n * w) (hd : dest.length = n * w)
    (hr : Runs n (lowerTrace src w) dest out) :
    out.length = n * w ∧ ∀ i < n, decode (row w i out) = (decode (row w i src)).map lowChar := by
  obtain ⟨h1, h2⟩ := mapTrace_row (fun c => if c ≥ 65 ∧ c ≤ 90 then c + 32 else c) hs hd hr
  refine ⟨h1, fun i hi => ?_⟩
  have e : (fun c => if c ≥ 65 ∧ c ≤ 90 then c + 32 else c) = lowChar := by
    funext c
    simp only [lowChar, show 'a'.toNat = 97 from rfl, show 'Z'.toNat = 90 from rfl, show 'A'.toNat = 65 from rfl]
    by_cases h : 65 ≤ c ∧ c ≤ 90
    · rw [if_pos h, if_pos h]; omega
    · rw [if_neg h, if_neg h]
  rw [h2 i hi, e, decode_map]
  intro c
  simp only [lowChar, show 'a'.toNat = 97 from rfl, show 'Z'.toNat = 90 from rfl, show 'A'.toNat = 65 from rfl]
  split <;> omega

/-- **C22** Doing it twice changes nothing more; lower case of upper case is lower case. -/
theorem upChar_lowChar (c : Nat) : upChar (upChar c) = upChar c ∧ lowChar (lowChar c) = lowChar c ∧
    lowChar (upChar c) = lowChar c ∧ upChar (lowChar c) = upChar c := by
  simp only [upChar, lowChar, show 'a'.toNat = 97 from rfl, show 'z'.toNat = 122 from rfl, show 'A'.toNat = 65 from rfl,
    show 'Z'.toNat = 90 from rfl]
  refine ⟨?_, ?_, ?_, ?_⟩ <;> split_ifs <;> omega

/-- **C22** two runs of `upper` give what one gives -/
theorem upper_idempotent {src dest out dest' out' : Buf} {n w : Nat} (hs : src.length = n * w) (hd : dest.length = n * w)
    (hd' : dest'.length = n * w) (hr : Runs n (upperTrace src w) dest out) (hr' : Runs n (upperTrace out w) dest' out') :
    ∀ i < n, decode (row w i out') = decode (row w i out) := by
  obtain ⟨h1, h2⟩ := upper_correct hs hd hr
  obtain ⟨_, h4⟩ := upper_correct h1 hd' hr'
  intro i hi
  rw [h4 i hi, h2 i hi, List.map_map]
  congr 1; funext c; exact (upChar_lowChar c).1

/-- the counting loop stops at the first NUL -/
theorem strlenLoop_eq (src : Buf) (w i : Nat) : ∀ (todo k : Nat), k + todo = w → (∀ j < k, (row w i src).getD j 0 ≠ 0) →
    let m := strlenLoop src (i * w) todo k
    m ≤ w ∧ (∀ j < m, (row w i src).getD j 0 ≠ 0) ∧ (m < w → (row w i src).getD m 0 = 0) := by
  intro todo
  induction todo with
  | zero => intro k hk h; exact ⟨by simp only [strlenLoop]; omega, h, fun h' => absurd h' (by simp only [strlenLoop]; omega)⟩
  | succ todo ih =>
    intro k hk h
    have hkw : k < w := by omega
    simp only [strlenLoop, rd_row src w i k hkw]
    split
    · rename_i h0; exact ⟨by omega, h, fun _ => h0⟩
    · rename_i h0
      refine ih (k + 1) (by omega) fun j hj => ?_
      rcases Nat.lt_succ_iff_lt_or_eq.mp hj with h' | rfl
      · exact h j h'
      · exact h0

/-- on an ordinary row it is the length of the string -/
theorem strlenLoop_clean {src : Buf} {n w i : Nat} (hs : src.length = n * w) (hi : i < n) (hc : Clean (row w i src)) :
    strlenLoop src (i * w) w 0 = (decode (row w i src)).length := by
  obtain ⟨h1, h2, h3⟩ := strlenLoop_eq src w i w 0 (by omega) (by intro j hj; omega)
  generalize strlenLoop src (i * w) w 0 = m at *
  obtain ⟨k, hk⟩ := decode_spec (row w i src)
  have hl := row_length hs hi
  have hlen := congrArg List.length hk
  simp only [List.length_append, List.length_replicate] at hlen
  unfold Clean at hc
  generalize decode (row w i src) = s at *
  rcases Nat.lt_trichotomy m s.length with h | h | h
  · exfalso
    have := h3 (by omega)
    rw [hk, List.getD_eq_getElem?_getD, List.getElem?_append_left h, List.getElem?_eq_getElem h] at this
    exact hc (this ▸ List.getElem_mem h)
  · exact h
  · exfalso
    refine h2 s.length h ?_
    rw [hk, List.getD_eq_getElem?_getD, List.getElem?_append_right (Nat.le_refl _)]
    simp [List.getElem?_replicate]
    split <;> rfl

/-- **C22** `strlen` is the number of characters of each row. -/
theorem strlen_correct {src : Buf} {dest out : List Int} {n w : Nat} (hs : src.length = n * w) (hd : dest.length = n)
    (hr : Runs n (strlenTrace src w) dest out) :
    out.length = n ∧ ∀ i < n, Clean (row w i src) → out[i]? = some ((decode (row w i src)).length : Int) := by
  obtain ⟨h1, h2⟩ := runs_one hr (by intro i _ s hs; simp [strlenTrace] at hs; rw [hs])
  refine ⟨h1.trans hd, fun i hi hc => ?_⟩
  rw [h2 i hi, strlenTrace, stores_cons, strlenLoop_clean hs hi hc]
  simp [stores, hd, hi]

/-! ## C23 -/

theorem strEqual_iff (a b : List Nat) (h : b.length ≤ a.length) : strEqual a b = true ↔ b <+: a := by
  induction b generalizing a with
  | nil => simp [strEqual]
  | cons y b ih =>
    cases a with
    | nil => simp at h
    | cons x a =>
      have := ih a (by simpa using h)
      simp only [strEqual] at this
      simp only [strEqual, List.zip_cons_cons, List.all_cons, Bool.and_eq_true, beq_iff_eq, this, List.cons_prefix_cons]
      exact ⟨fun ⟨a, b⟩ => ⟨a.symm, b⟩, fun ⟨a, b⟩ => ⟨a.symm, b⟩⟩

/-- a string that does not end in NUL is found at a place of the field iff it is found there in the decoded string -/
theorem prefix_field (f t : List Nat) (j : Nat) (hne : t ≠ []) (ht : t.getLast hne ≠ 0) :
    t <+: f.drop j ↔ t <+: (decode f).drop j := by
  obtain ⟨k, hk⟩ := decode_spec f
  generalize decode f = s at *
  subst hk
  constructor
  · rintro ⟨r, hr⟩
    by_cases hle : j + t.length ≤ s.length
    · rw [List.drop_append_of_le_length (by omega)] at hr
      have := congrArg (List.take t.length) hr
      rw [List.take_left, List.take_append_of_le_length (by simp; omega)] at this
      exact ⟨_, by rw [this]; exact List.take_append_drop _ _⟩
    · exfalso
      have hpos : 0 < t.length := List.length_pos_iff.mpr hne
      have h1 : ((s ++ List.replicate k 0).drop j)[t.length - 1]? = some (t.getLast hne) := by
        rw [← hr, List.getElem?_append_left (by omega), List.getLast_eq_getElem, List.getElem?_eq_getElem]
      rw [List.getElem?_drop, List.getElem?_append_right (by omega), List.getElem?_replicate] at h1
      split at h1
      · exact ht (Option.some.inj h1).symm
      · simp at h1
  · rintro ⟨r, hr⟩
    have hpos : 0 < t.length := List.length_pos_iff.mpr hne
    have : j ≤ s.length := by
      have := congrArg List.length hr
      simp at this; omega
    rw [List.drop_append_of_le_length this, ← hr, List.append_assoc]
    exact List.prefix_append _ _

theorem infix_iff_drop (t s : List Nat) (hne : t ≠ []) : t <:+: s ↔ ∃ j, t <+: s.drop j := by
  constructor
  · rintro ⟨a, b, h⟩
    exact ⟨a.length, b, by rw [← h, List.append_assoc, List.drop_left]⟩
  · rintro ⟨j, h⟩
    exact List.IsInfix.trans h.isInfix (List.drop_suffix j s).isInfix

/-- what the scan over positions tests -/
theorem scan_test {src : Buf} {n w i j : Nat} (t : Buf) (hs : src.length = n * w) (hi : i < n) (hj : j < w + 1 - t.length)
    (hne : t ≠ []) (ht : t.getLast hne ≠ 0) :
    strEqual (src.drop (i * w + j)) t = true ↔ t <+: (decode (row w i src)).drop j := by
  have hle : (i + 1) * w ≤ n * w := Nat.mul_le_mul_right w hi
  rw [Nat.add_mul] at hle
  rw [strEqual_iff _ _ (by rw [List.length_drop]; omega), ← prefix_field _ t j hne ht]
  have hsplit : src.drop (i * w + j) = (row w i src).drop j ++ src.drop (i * w + w) := by
    rw [row, List.drop_take, ← List.drop_drop, ← List.drop_drop]
    conv_lhs => rw [← List.take_append_drop (w - j) ((src.drop (i * w)).drop j)]
    simp only [List.drop_drop]
    congr 2
    omega
  rw [hsplit]
  have hl : t.length ≤ ((row w i src).drop j).length := by rw [List.length_drop, row_length hs hi]; omega
  constructor
  · intro h; exact List.prefix_of_prefix_length_le h (List.prefix_append _ _) hl
  · intro h; exact h.trans (List.prefix_append _ _)

theorem prefix_bound {s t : List Nat} {j w : Nat} (hne : t ≠ []) (hl : s.length ≤ w) (h : t <+: s.drop j) : j < w + 1 - t.length := by
  have h1 := h.length_le
  rw [List.length_drop] at h1
  have : 0 < t.length := List.length_pos_iff.mpr hne
  omega

/-- an argument whose characters are an ordinary string: not ending in NUL, and `bytes` not empty -/
structure Arg.Plain (a : Arg) : Prop where
  last : ∀ h : a.chars ≠ [], a.chars.getLast h ≠ 0
  bytes : a.isStr = false → a.chars ≠ []

theorem Arg.Plain.cases {a : Arg} (h : a.Plain) : (a.isEmptyStr = true ∧ a.chars = []) ∨
    (a.isEmptyStr = false ∧ a.chars ≠ [] ∧ a.buf = a.chars) := by
  by_cases he : a.chars = []
  · left
    have : a.isStr = true := by by_contra hb; exact h.bytes (by simpa using hb) he
    simp [Arg.isEmptyStr, he, this]
  · right
    refine ⟨?_, he, by simp [Arg.buf, he]⟩
    cases hc : a.chars with
    | nil => exact absurd hc he
    | cons => simp [Arg.isEmptyStr, hc]

/-- **C23** `index` is Python's `find` on every row. -/
theorem index_correct {src : Buf} {dest out : List Int} {n w : Nat} {a : Arg} (ha : a.Plain) (hs : src.length = n * w)
    (hd : dest.length = n) (hr : Index src w n a dest out) :
    out.length = n ∧ ∀ i < n, ∃ r, out[i]? = some r ∧ IsFind (decode (row w i src)) a.chars r := by
  unfold Index Search at hr
  rcases ha.cases with ⟨h1, h2⟩ | ⟨h1, hne, h3⟩
  · rw [h1, if_pos rfl] at hr
    subst hr
    refine ⟨by simp, fun i hi => ⟨0, by simp [hi], .inr ⟨0, rfl, by simp [h2], fun k hk => absurd hk (by omega)⟩⟩⟩
  · rw [h1, if_neg (by simp), h3] at hr
    obtain ⟨k1, k2⟩ := runs_one hr (by
      intro i _ s hs
      unfold indexTrace at hs
      dsimp only at hs
      rcases List.mem_cons.mp hs with rfl | hm
      · rfl
      · split at hm
        · rw [List.mem_singleton] at hm; rw [hm]
        · simp at hm)
    refine ⟨k1.trans hd, fun i hi => ?_⟩
    have hlast := ha.last hne
    have hwl : (decode (row w i src)).length ≤ w := (decode_length_le _).trans (by rw [row_length hs hi])
    rw [k2 i hi]
    unfold indexTrace
    dsimp only
    split
    · rename_i j hf
      refine ⟨j, by simp [stores, hd, hi], .inr ⟨j, rfl, ?_, ?_⟩⟩
      · have hj := List.find?_some hf
        exact (scan_test a.chars hs hi (List.mem_range.mp (List.mem_of_find?_eq_some hf)) hne hlast).mp hj
      · intro k hk hp
        have hkb := prefix_bound hne hwl hp
        have := (scan_test a.chars hs hi hkb hne hlast).mpr hp
        rw [List.find?_range_eq_some] at hf
        have := hf.2.2 k hk
        simp_all
    · rename_i hf
      refine ⟨-1, by simp [stores, hd, hi], .inl ⟨rfl, ?_⟩⟩
      rw [infix_iff_drop _ _ hne]
      rintro ⟨j, hp⟩
      have hkb := prefix_bound hne hwl hp
      have := (scan_test a.chars hs hi hkb hne hlast).mpr hp
      rw [List.find?_eq_none] at hf
      exact hf j (List.mem_range.mpr hkb) this

/-- **C23** `contains` is Python's `in` on every row. -/
theorem contains_correct {src : Buf} {dest out : List Bool} {n w : Nat} {a : Arg} (ha : a.Plain) (hs : src.length = n * w)
    (hd : dest.length = n) (hr : Contains src w n a dest out) :
    out.length = n ∧ ∀ i < n, out[i]? = some (decide (a.chars <:+: decode (row w i src))) := by
  unfold Contains Search at hr
  rcases ha.cases with ⟨h1, h2⟩ | ⟨h1, hne, h3⟩
  · rw [h1, if_pos rfl] at hr
    subst hr
    exact ⟨by simp, fun i hi => by simp [hi, h2]⟩
  · rw [h1, if_neg (by simp), h3] at hr
    obtain ⟨k1, k2⟩ := runs_one hr (by
      intro i _ s hs
      unfold containsTrace at hs
      dsimp only at hs
      rcases List.mem_cons.mp hs with rfl | hm
      · rfl
      · split at hm
        · rw [List.mem_singleton] at hm; rw [hm]
        · simp at hm)
    refine ⟨k1.trans hd, fun i hi => ?_⟩
    have hlast := ha.last hne
    have hwl : (decode (row w i src)).length ≤ w := (decode_length_le _).trans (by rw [row_length hs hi])
    rw [k2 i hi]
    unfold containsTrace
    dsimp only
    split
    · rename_i j hf
      have hj := List.find?_some hf
      have := (scan_test a.chars hs hi (List.mem_range.mp (List.mem_of_find?_eq_some hf)) hne hlast).mp hj
      rw [decide_eq_true ((infix_iff_drop _ _ hne).mpr ⟨j, this⟩)]
      simp [stores, hd, hi]
    · rename_i hf
      rw [decide_eq_false]
      · simp [stores, hd, hi]
      rw [infix_iff_drop _ _ hne]
      rintro ⟨j, hp⟩
      have hkb := prefix_bound hne hwl hp
      have := (scan_test a.chars hs hi hkb hne hlast).mpr hp
      rw [List.find?_eq_none] at hf
      exact hf j (List.mem_range.mpr hkb) this

/-- the loop of `startswith` counts the common characters -/
theorem startLoop_eq (src t : Buf) (w i : Nat) (hw : t.length ≤ w) : ∀ (todo k : Nat), k + todo = t.length →
    (startLoop src (i * w) t todo k = t.length ↔ ∀ j, k ≤ j → j < t.length → (row w i src).getD j 0 = t.getD j 0) ∧
    startLoop src (i * w) t todo k ≤ t.length := by
  intro todo
  induction todo with
  | zero => intro k hk; exact ⟨⟨fun _ j h1 h2 => absurd h2 (by omega), fun _ => by simp only [startLoop]; omega⟩,
      by simp only [startLoop]; omega⟩
  | succ todo ih =>
    intro k hk
    simp only [startLoop, rd_row src w i k (by omega)]
    by_cases h : (row w i src).getD k 0 = rd t k
    · rw [if_neg (by simpa using h)]
      refine ⟨(ih (k + 1) (by omega)).1.trans ⟨fun H j h1 h2 => ?_, fun H j h1 h2 => H j (by omega) h2⟩,
        (ih (k + 1) (by omega)).2⟩
      rcases Nat.lt_or_ge k j with h' | h'
      · exact H j h' h2
      · rw [show j = k by omega]; exact h
    · rw [if_pos h]
      exact ⟨⟨fun e => absurd e (by omega), fun H => absurd (H k (by omega) (by omega)) h⟩, by omega⟩

theorem prefix_iff_getD (t f : List Nat) (hl : t.length ≤ f.length) :
    t <+: f ↔ ∀ j < t.length, f.getD j 0 = t.getD j 0 := by
  rw [List.prefix_iff_eq_take]
  constructor
  · intro h j hj
    conv_rhs => rw [h]
    rw [List.getD_eq_getElem?_getD, List.getD_eq_getElem?_getD, List.getElem?_take, if_pos hj]
  · intro h
    refine List.ext_getElem (by simp [hl]) fun j h1 h2 => ?_
    have := h j h1
    rw [List.getD_eq_getElem?_getD, List.getD_eq_getElem?_getD, List.getElem?_eq_getElem h1,
      List.getElem?_eq_getElem (by omega)] at this
    simpa using this.symm

/-- **C23** `startswith` is Python's on every row. -/
theorem startswith_correct {src : Buf} {dest out : List Bool} {n w : Nat} {a : Arg} (ha : a.Plain) (hs : src.length = n * w)
    (hd : dest.length = n) (hr : Startswith src w n a dest out) :
    out.length = n ∧ ∀ i < n, out[i]? = some (decide (a.chars <+: decode (row w i src))) := by
  unfold Startswith Search at hr
  rcases ha.cases with ⟨h1, h2⟩ | ⟨h1, hne, h3⟩
  · rw [h1, if_pos rfl] at hr
    subst hr
    exact ⟨by simp, fun i hi => by simp [hi, h2]⟩
  · rw [h1, if_neg (by simp), h3] at hr
    obtain ⟨k1, k2⟩ := runs_one hr (by
      intro i _ s hs
      unfold startswithTrace at hs
      dsimp only at hs
      rcases List.mem_cons.mp hs with rfl | hm
      · rfl
      · split at hm
        · split at hm
          · rw [List.mem_singleton] at hm; rw [hm]
          · simp at hm
        · simp at hm)
    refine ⟨k1.trans hd, fun i hi => ?_⟩
    have hwl : (decode (row w i src)).length ≤ w := (decode_length_le _).trans (by rw [row_length hs hi])
    have hkey : a.chars <+: decode (row w i src) ↔ a.chars <+: row w i src := by
      have := prefix_field (row w i src) a.chars 0 hne (ha.last hne)
      simpa using this.symm
    rw [k2 i hi]
    unfold startswithTrace
    dsimp only
    by_cases hle : w ≥ a.chars.length
    · rw [if_pos hle]
      have hp := prefix_iff_getD a.chars (row w i src) (by rw [row_length hs hi]; exact hle)
      have hq := (startLoop_eq src a.chars w i hle a.chars.length 0 (by omega)).1
      by_cases he : startLoop src (i * w) a.chars a.chars.length 0 = a.chars.length
      · rw [if_pos he, decide_eq_true (hkey.mpr (hp.mpr fun j hj => hq.mp he j (by omega) hj))]
        simp [stores, hd, hi]
      · rw [if_neg he, decide_eq_false]
        · simp [stores, hd, hi]
        · intro h; exact he (hq.mpr fun j _ hj => hp.mp (hkey.mp h) j hj)
    · rw [if_neg hle, decide_eq_false]
      · simp [stores, hd, hi]
      · intro h; have := h.length_le; omega

theorem getD_field (f : List Nat) (p : Nat) (hp : p < (decode f).length) : f.getD p 0 = (decode f).getD p 0 := by
  obtain ⟨z, hz⟩ := decode_spec f
  generalize decode f = s at *
  rw [hz, List.getD_eq_getElem?_getD, List.getD_eq_getElem?_getD, List.getElem?_append_left hp]

theorem padLoop_eq (src : Buf) (w i : Nat) (hl : (row w i src).length = w) : ∀ k, k ≤ w →
    padLoop src (i * w) k = (decode ((row w i src).take k)).length := by
  intro k
  induction k with
  | zero => intro _; simp [padLoop, decode]
  | succ k ih =>
    intro hk
    have hkr : k < (row w i src).length := by omega
    rw [padLoop, rd_row src w i k (by omega), List.take_succ_eq_append_getElem hkr, ih (by omega),
      List.getD_eq_getElem?_getD, List.getElem?_eq_getElem hkr, Option.getD_some]
    by_cases h0 : (row w i src)[k] = 0
    · rw [if_pos h0, h0]
      exact congrArg List.length (decode_append_zeros ((row w i src).take k) 1).symm
    · rw [if_neg h0, decode_eq_self]
      · simp; omega
      · intro h; rw [List.getLast_append_singleton]; exact h0

theorem endLoop_eq (src t : Buf) (w i : Nat) : ∀ (k2 k : Nat), k2 ≤ k → k ≤ w →
    (endLoop src (i * w) t k k2 = true ↔ ∀ j < k2, (row w i src).getD (k - k2 + j) 0 = t.getD j 0) := by
  intro k2
  induction k2 with
  | zero => intro k _ _; simp [endLoop]
  | succ k2 ih =>
    intro k hk hw
    have hr : rd src (i * w + k - 1) = (row w i src).getD (k - 1) 0 := by
      rw [show i * w + k - 1 = i * w + (k - 1) by omega, rd_row src w i (k - 1) (by omega)]
    simp only [endLoop, hr]
    by_cases h : (row w i src).getD (k - 1) 0 = rd t k2
    · rw [if_neg (by simpa using h), ih (k - 1) (by omega) (by omega)]
      constructor
      · intro H j hj
        rcases Nat.lt_succ_iff_lt_or_eq.mp hj with h' | rfl
        · have := H j h'
          rwa [show k - 1 - k2 + j = k - (k2 + 1) + j by omega] at this
        · rw [show k - (j + 1) + j = k - 1 by omega]; exact h
      · intro H j hj
        rw [show k - 1 - k2 + j = k - (k2 + 1) + j by omega]; exact H j (by omega)
    · rw [if_pos h]
      constructor
      · intro e; simp at e
      · intro H
        have := H k2 (by omega)
        rw [show k - (k2 + 1) + k2 = k - 1 by omega] at this
        exact absurd this h

/-- **C23** `endswith` is Python's on every row. -/
theorem endswith_correct {src : Buf} {dest out : List Bool} {n w : Nat} {a : Arg} (ha : a.Plain) (hs : src.length = n * w)
    (hd : dest.length = n) (hr : Endswith src w n a dest out) :
    out.length = n ∧ ∀ i < n, out[i]? = some (decide (a.chars <:+ decode (row w i src))) := by
  unfold Endswith Search at hr
  rcases ha.cases with ⟨h1, h2⟩ | ⟨h1, hne, h3⟩
  · rw [h1, if_pos rfl] at hr
    subst hr
    exact ⟨by simp, fun i hi => by simp [hi, h2]⟩
  · rw [h1, if_neg (by simp), h3] at hr
    obtain ⟨k1, k2⟩ := runs_one hr (by
      intro i _ s hs
      unfold endswithTrace at hs
      dsimp only at hs
      rcases List.mem_cons.mp hs with rfl | hm
      · rfl
      · split at hm
        · split at hm
          · split at hm
            · rw [List.mem_singleton] at hm; rw [hm]
            · simp at hm
          · simp at hm
        · simp at hm)
    refine ⟨k1.trans hd, fun i hi => ?_⟩
    have hl := row_length hs hi
    have hpad := padLoop_eq src w i hl w (Nat.le_refl _)
    rw [List.take_of_length_le (by omega)] at hpad
    obtain ⟨z, hz⟩ := decode_spec (row w i src)
    have hwl : (decode (row w i src)).length ≤ w := (decode_length_le _).trans (by omega)
    rw [k2 i hi]
    unfold endswithTrace
    dsimp only
    rw [hpad]
    by_cases hle : (decode (row w i src)).length ≥ a.chars.length
    · rw [if_pos (show w ≥ a.chars.length by omega), if_pos hle]
      have hq := endLoop_eq src a.chars w i a.chars.length _ hle hwl
      have hp : a.chars <:+ decode (row w i src) ↔
          ∀ j < a.chars.length, (row w i src).getD ((decode (row w i src)).length - a.chars.length + j) 0 = a.chars.getD j 0 := by
        have hg : ∀ j < a.chars.length, (row w i src).getD ((decode (row w i src)).length - a.chars.length + j) 0 =
            ((decode (row w i src)).drop ((decode (row w i src)).length - a.chars.length)).getD j 0 := by
          intro j hj
          rw [getD_field _ _ (by omega), List.getD_eq_getElem?_getD, List.getD_eq_getElem?_getD, List.getElem?_drop]
        rw [List.suffix_iff_eq_drop]
        constructor
        · intro h j hj
          rw [hg j hj, ← h]
        · intro h
          have h2 := (prefix_iff_getD a.chars _ (by rw [List.length_drop]; omega)).mpr (fun j hj => (hg j hj).symm.trans (h j hj))
          exact h2.eq_of_length (by rw [List.length_drop]; omega)
      by_cases he : endLoop src (i * w) a.chars (decode (row w i src)).length a.chars.length = true
      · rw [if_pos he, decide_eq_true (hp.mpr (hq.mp he))]
        simp [stores, hd, hi]
      · rw [if_neg he, decide_eq_false (fun h => he (hq.mpr (hp.mp h)))]
        simp [stores, hd, hi]
    · rw [if_neg hle, decide_eq_false (fun h => hle h.length_le)]
      split <;> simp [stores, hd, hi]

/-- **C23** `index_any_of` is the first position of a character of the set (characters without NUL). -/
theorem index_any_of_correct {src : Buf} {dest out : List Int} {n w : Nat} {a : Arg} (h0 : 0 ∉ a.chars) (hne : a.chars ≠ [])
    (hs : src.length = n * w) (hd : dest.length = n) (hr : IndexAnyOf src w n a dest out) :
    out.length = n ∧ ∀ i < n, ∃ r, out[i]? = some r ∧ IsFindAny (decode (row w i src)) a.chars r := by
  have hb : a.buf = a.chars := by simp [Arg.buf, hne]
  have he : a.isEmptyStr = false := by simp [Arg.isEmptyStr, hne]
  unfold IndexAnyOf Search at hr
  rw [he, if_neg (by simp), hb] at hr
  obtain ⟨k1, k2⟩ := runs_one hr (by
    intro i _ s hs
    unfold indexAnyOfTrace at hs
    dsimp only at hs
    split at hs <;> · rw [List.mem_singleton] at hs; rw [hs])
  refine ⟨k1.trans hd, fun i hi => ?_⟩
  obtain ⟨z, hz⟩ := decode_spec (row w i src)
  have hl := row_length hs hi
  have hcell : ∀ j < w, (row w i src)[j]? = some (rd src (i * w + j)) := fun j hj => row_getElem? hs hi hj
  have hin : ∀ j < w, rd src (i * w + j) ∈ a.chars → (decode (row w i src))[j]? = some (rd src (i * w + j)) := by
    intro j hj hm
    have h1 := hcell j hj
    rw [hz] at h1
    rcases Nat.lt_or_ge j (decode (row w i src)).length with h | h
    · rwa [List.getElem?_append_left h] at h1
    · rw [List.getElem?_append_right h, List.getElem?_replicate] at h1
      split at h1
      · rw [← Option.some.inj h1] at hm; exact absurd hm h0
      · simp at h1
  have hout : ∀ (j d : Nat), (decode (row w i src))[j]? = some d → j < w ∧ d = rd src (i * w + j) := by
    intro j d h
    have hj : j < (decode (row w i src)).length := (List.getElem?_eq_some_iff.mp h).1
    have hjw : j < w := by have := decode_length_le (row w i src); omega
    have h1 := hcell j hjw
    rw [hz, List.getElem?_append_left hj, h] at h1
    exact ⟨hjw, Option.some.inj h1⟩
  have htest : ∀ j, (a.chars.any fun s => rd src (i * w + j) == s) = true ↔ rd src (i * w + j) ∈ a.chars := by
    intro j; simp [List.any_eq_true]
  rw [k2 i hi]
  unfold indexAnyOfTrace
  dsimp only
  split
  · rename_i j hf
    rw [List.find?_range_eq_some] at hf
    obtain ⟨f1, f2, f3⟩ := hf
    have hjw := List.mem_range.mp f2
    refine ⟨j, by simp [stores, hd, hi], .inr ⟨j, _, rfl, hin j hjw ((htest j).mp f1), (htest j).mp f1, ?_⟩⟩
    intro k hk d hd' hm
    obtain ⟨_, rfl⟩ := hout k d hd'
    have := f3 k hk
    rw [(htest k).mpr hm] at this
    simp at this
  · rename_i hf
    refine ⟨-1, by simp [stores, hd, hi], .inl ⟨rfl, ?_⟩⟩
    intro c hc hm
    obtain ⟨j, hj, rfl⟩ := List.getElem_of_mem hc
    obtain ⟨hjw, he⟩ := hout j _ (List.getElem?_eq_getElem hj)
    rw [List.find?_eq_none] at hf
    exact hf j (List.mem_range.mpr hjw) ((htest j).mpr (he ▸ hm))

end Verif.Str
