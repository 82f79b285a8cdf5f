import Verif.Str.Props
/-!
# `replace` (C24)
-/
namespace Verif.Str
open Verif.Str.Spec

/-- consecutive stores of `R` from `base` on -/
def seqStores (base : Nat) (R : Buf) : List (Nat × Nat) := R.zipIdx.map fun p => (base + p.2, p.1)

theorem seqStores_append (base : Nat) (A B : Buf) : seqStores base (A ++ B) = seqStores base A ++ seqStores (base + A.length) B := by
  simp only [seqStores, List.zipIdx_append, List.map_append, Nat.zero_add]
  congr 1
  rw [List.zipIdx_eq_map_add, List.map_map]
  apply List.map_congr_left
  intro p _
  simp only [Function.comp]
  congr 1
  omega

theorem seqStores_cons (base : Nat) (c : Nat) (B : Buf) : seqStores base (c :: B) = (base, c) :: seqStores (base + 1) B := by
  have := seqStores_append base [c] B
  simpa [seqStores] using this

theorem mem_seqStores (base : Nat) (R : Buf) (s : Nat × Nat) : s ∈ seqStores base R ↔ ∃ j, s.1 = base + j ∧ R[j]? = some s.2 := by
  simp only [seqStores, List.mem_map, Prod.exists]
  constructor
  · rintro ⟨a, j, h, rfl⟩
    rw [List.mem_zipIdx_iff_getElem?] at h
    exact ⟨j, rfl, h⟩
  · rintro ⟨j, h1, h2⟩
    exact ⟨s.2, j, List.mem_zipIdx_iff_getElem?.mpr h2, by rw [← h1]⟩

/-- what consecutive stores leave in a row -/
theorem row_seqStores {w n i : Nat} {dest R : Buf} (hd : dest.length = n * w) (hi : i < n) (hR : R.length ≤ w) :
    row w i (stores (seqStores (i * w) R) dest) = R ++ (row w i dest).drop R.length := by
  have hle : (i + 1) * w ≤ n * w := Nat.mul_le_mul_right w hi
  rw [Nat.add_mul] at hle
  refine List.ext_getElem? fun j => ?_
  rw [getElem?_row]
  rcases Nat.lt_or_ge j R.length with hj | hj
  · rw [if_pos (by omega), List.getElem?_append_left hj, List.getElem?_eq_getElem hj]
    refine stores_same _ _ _ dest (fun s hs e => ?_) ⟨(i * w + j, R[j]), ?_, rfl⟩ (by omega)
    · obtain ⟨j', h1, h2⟩ := (mem_seqStores _ _ _).mp hs
      have : j' = j := by omega
      subst this
      rw [List.getElem?_eq_getElem hj] at h2
      exact (Option.some.inj h2).symm
    · exact (mem_seqStores _ _ _).mpr ⟨j, rfl, List.getElem?_eq_getElem hj⟩
  · rw [List.getElem?_append_right hj, List.getElem?_drop, getElem?_row, show R.length + (j - R.length) = j by omega]
    split
    · refine stores_other _ _ dest fun s hs e => ?_
      obtain ⟨j', h1, h2⟩ := (mem_seqStores _ _ _).mp hs
      have := (List.getElem?_eq_some_iff.mp h2).1
      omega
    · rfl

/-! ## occurrences -/

/-- positions where the left-to-right scan meets `old`, the first character having position `p` -/
def hits (old : Buf) : Nat → Nat → List Nat → List Nat
  | _, _, [] => []
  | skip + 1, p, _ :: s => hits old skip (p + 1) s
  | 0, p, c :: s => if old <+: c :: s then p :: hits old (old.length - 1) (p + 1) s else hits old 0 (p + 1) s

theorem hits_skip (old : Buf) (k : Nat) : ∀ (p : Nat) (s : List Nat), hits old k p s = hits old 0 (p + k) (s.drop k) := by
  induction k with
  | zero => intro p s; simp
  | succ k ih =>
    intro p s
    cases s with
    | nil => simp [hits]
    | cons c s => rw [hits, ih, List.drop_succ_cons]; congr 1; omega

theorem replaceFrom_skip (old new : Buf) (k : Nat) : ∀ s : List Nat, replaceFrom old new k s = replaceFrom old new 0 (s.drop k) := by
  induction k with
  | zero => intro s; simp
  | succ k ih =>
    intro s
    cases s with
    | nil => simp [replaceFrom]
    | cons c s => rw [replaceFrom, ih, List.drop_succ_cons]

theorem hits_short (old : Buf) (s : List Nat) : ∀ p, s.length < old.length → hits old 0 p s = [] := by
  induction s with
  | nil => intro p _; simp [hits]
  | cons c s ih =>
    intro p h
    rw [hits, if_neg (fun h' => by have := h'.length_le; omega)]
    exact ih _ (by simp at h; omega)

theorem hits_bound (old : Buf) (s : List Nat) : ∀ k p, ∀ q ∈ hits old k p s, p + k ≤ q ∧ q < p + s.length := by
  induction s with
  | nil => intro k p q h; simp [hits] at h
  | cons c s ih =>
    intro k p q h
    cases k with
    | succ k => rw [hits] at h; have := ih k (p + 1) q h; simp only [List.length_cons]; omega
    | zero =>
      rw [hits] at h
      split at h
      · rcases List.mem_cons.mp h with rfl | h
        · simp
        · have := ih _ (p + 1) q h; simp only [List.length_cons]; omega
      · have := ih 0 (p + 1) q h; simp only [List.length_cons]; omega

theorem hits_nodup (old : Buf) (s : List Nat) : ∀ k p, (hits old k p s).Nodup := by
  induction s with
  | nil => intro k p; simp [hits]
  | cons c s ih =>
    intro k p
    cases k with
    | succ k => rw [hits]; exact ih k (p + 1)
    | zero =>
      rw [hits]
      split
      · refine List.nodup_cons.mpr ⟨fun h => ?_, ih _ _⟩
        have := hits_bound old s _ _ p h; omega
      · exact ih 0 (p + 1)

/-- the result has `new` in place of `old` as often as `old` is met -/
theorem replaceFrom_length (old new : Buf) (ho : old ≠ []) (s : List Nat) : ∀ p k, k ≤ s.length →
    (replaceFrom old new k s).length + (hits old k p s).length * old.length + k = s.length + (hits old k p s).length * new.length := by
  have hpos : 0 < old.length := List.length_pos_iff.mpr ho
  induction s with
  | nil => intro p k hk; obtain rfl : k = 0 := by simpa using hk
           simp [replaceFrom, hits]
  | cons c s ih =>
    intro p k hk
    cases k with
    | succ k =>
      rw [replaceFrom, hits]
      have := ih (p + 1) k (by simpa using hk)
      simp only [List.length_cons]; omega
    | zero =>
      rw [replaceFrom, hits]
      split
      · rename_i h
        have hl := h.length_le
        simp only [List.length_cons] at hl
        have := ih (p + 1) (old.length - 1) (by omega)
        simp only [List.length_cons, List.length_append, Nat.add_mul, Nat.one_mul]; omega
      · have := ih (p + 1) 0 (by omega)
        simp only [List.length_cons]; omega

/-- padding after a string is not touched -/
theorem replaceFrom_pad (old new : Buf) (ho : old ≠ []) (hl : old.getLast ho ≠ 0) (z : Nat) (s : List Nat) : ∀ k, k ≤ s.length →
    replaceFrom old new k (s ++ List.replicate z 0) = replaceFrom old new k s ++ List.replicate z 0 := by
  have hpos : 0 < old.length := List.length_pos_iff.mpr ho
  have hpre : ∀ s : List Nat, old <+: s ++ List.replicate z 0 ↔ old <+: s := by
    intro s
    constructor
    · intro h
      refine List.prefix_of_prefix_length_le h (List.prefix_append _ _) ?_
      by_contra hlt
      obtain ⟨r, hr⟩ := h
      have h1 : (s ++ List.replicate z 0)[old.length - 1]? = some (old.getLast ho) := by
        rw [← hr, List.getElem?_append_left (by omega), List.getLast_eq_getElem, List.getElem?_eq_getElem]
      rw [List.getElem?_append_right (by omega), List.getElem?_replicate] at h1
      split at h1
      · exact hl (Option.some.inj h1).symm
      · simp at h1
    · intro h; exact h.trans (List.prefix_append _ _)
  induction s with
  | nil =>
    intro k hk
    obtain rfl : k = 0 := by simpa using hk
    simp only [List.nil_append, replaceFrom]
    have : ∀ z' ≤ z, replaceFrom old new 0 (List.replicate z' 0) = List.replicate z' 0 := by
      intro z'
      induction z' with
      | zero => intro _; simp [replaceFrom]
      | succ z' ih =>
        intro hz
        rw [List.replicate_succ, replaceFrom, if_neg, ih (by omega)]
        intro h
        have h2 : old <+: List.replicate z 0 := by
          rw [← List.replicate_succ] at h
          refine h.trans ⟨List.replicate (z - (z' + 1)) 0, ?_⟩
          rw [← List.replicate_add]; congr 1; omega
        have h3 := (hpre []).mp (by simpa using h2)
        exact ho (List.prefix_nil.mp h3)
    exact this z (Nat.le_refl _)
  | cons c s ih =>
    intro k hk
    cases k with
    | succ k => rw [List.cons_append, replaceFrom, replaceFrom]; exact ih k (by simpa using hk)
    | zero =>
      rw [List.cons_append, replaceFrom, replaceFrom]
      have hp := hpre (c :: s)
      rw [List.cons_append] at hp
      by_cases h : old <+: c :: s
      · rw [if_pos (hp.mpr h), if_pos h, List.append_assoc]
        have := h.length_le
        simp only [List.length_cons] at this
        rw [ih _ (by omega)]
      · rw [if_neg (fun h' => h (hp.mp h')), if_neg h, List.cons_append, ih 0 (by omega)]

/-! ## the loops -/

theorem strEqual_row {src : Buf} {n w i pos : Nat} (old : Buf) (hs : src.length = n * w) (hi : i < n) (hp : pos + old.length ≤ w) :
    strEqual (src.drop (i * w + pos)) old = true ↔ old <+: (row w i src).drop pos := by
  have hle : (i + 1) * w ≤ n * w := Nat.mul_le_mul_right w hi
  rw [Nat.add_mul] at hle
  rw [strEqual_iff _ _ (by rw [List.length_drop]; omega)]
  have hsplit : src.drop (i * w + pos) = (row w i src).drop pos ++ src.drop (i * w + w) := by
    rw [row, List.drop_take, ← List.drop_drop, ← List.drop_drop]
    conv_lhs => rw [← List.take_append_drop (w - pos) ((src.drop (i * w)).drop pos)]
    simp only [List.drop_drop]
    congr 2
    omega
  rw [hsplit]
  have hl : old.length ≤ ((row w i src).drop pos).length := by rw [List.length_drop, row_length hs hi]; omega
  exact ⟨fun h => List.prefix_of_prefix_length_le h (List.prefix_append _ _) hl, fun h => h.trans (List.prefix_append _ _)⟩

/-- `_nb_find` marks the places the left-to-right scan meets -/
theorem findLoop_eq {src : Buf} {n w i : Nat} (old : Buf) (ho : old ≠ []) (hs : src.length = n * w) (hi : i < n) :
    ∀ fuel pos, w < pos + fuel → findLoop src (i * w) w old fuel pos = hits old 0 pos ((row w i src).drop pos) := by
  have hpos : 0 < old.length := List.length_pos_iff.mpr ho
  have hl := row_length hs hi
  intro fuel
  induction fuel with
  | zero => intro pos h; rw [findLoop, List.drop_eq_nil_of_le (by omega)]; simp [hits]
  | succ fuel ih =>
    intro pos h
    rw [findLoop]
    by_cases hle : pos + old.length ≤ w
    · rw [if_pos hle]
      have hlt : pos < (row w i src).length := by omega
      have hdrop : (row w i src).drop pos = (row w i src)[pos] :: (row w i src).drop (pos + 1) := List.drop_eq_getElem_cons hlt
      have hse := strEqual_row old hs hi hle
      rw [hdrop, hits, ← hdrop]
      by_cases he : old <+: (row w i src).drop pos
      · rw [if_pos (hse.mpr he), if_pos he, ih _ (by omega), hits_skip old (old.length - 1), List.drop_drop,
          show pos + 1 + (old.length - 1) = pos + old.length by omega]
      · rw [if_neg (fun h' => he (hse.mp h')), if_neg he, ih _ (by omega)]
    · rw [if_neg hle, hits_short]
      rw [List.length_drop]; omega

theorem foldl_set_true (ps : List Nat) : ∀ l : List Bool, (∀ p ∈ ps, p < l.length) →
    (ps.foldl (fun l p => l.set p true) l).length = l.length ∧
    ∀ q, (ps.foldl (fun l p => l.set p true) l).getD q false = (decide (q ∈ ps) || l.getD q false) := by
  induction ps with
  | nil => intro l _; simp
  | cons p ps ih =>
    intro l h
    obtain ⟨h1, h2⟩ := ih (l.set p true) (by intro q hq; rw [List.length_set]; exact h q (by simp [hq]))
    refine ⟨by rw [List.foldl_cons, h1]; simp, fun q => ?_⟩
    rw [List.foldl_cons, h2 q, List.getD_eq_getElem?_getD, List.getD_eq_getElem?_getD, List.getElem?_set]
    by_cases hpq : p = q
    · subst hpq
      have := h p (by simp)
      simp [this]
    · simp [hpq, Ne.symm hpq]

theorem locRow_spec {src : Buf} {n w i : Nat} (old : Buf) (ho : old ≠ []) (hs : src.length = n * w) (hi : i < n) :
    (∀ q, (locRow src w old i).getD q false = decide (q ∈ hits old 0 0 (row w i src))) ∧
    (locRow src w old i).count true = (hits old 0 0 (row w i src)).length := by
  have hf := findLoop_eq old ho hs hi (w + 1) 0 (by omega)
  rw [List.drop_zero] at hf
  have hl := row_length hs hi
  have hb : ∀ p ∈ hits old 0 0 (row w i src), p < (List.replicate w false).length := by
    intro p hp; have := (hits_bound old _ _ _ p hp).2; simp; omega
  have hnd := hits_nodup old (row w i src) 0 0
  unfold locRow
  rw [hf]
  generalize hits old 0 0 (row w i src) = ps at *
  obtain ⟨h1, h2⟩ := foldl_set_true ps (List.replicate w false) hb
  refine ⟨fun q => ?_, ?_⟩
  · rw [h2]
    have : (List.replicate w false).getD q false = false := by
      rw [List.getD_eq_getElem?_getD, List.getElem?_replicate]; split <;> rfl
    rw [this, Bool.or_false]
  · have gen : ∀ (ps : List Nat) (l : List Bool), ps.Nodup → (∀ p ∈ ps, p < l.length ∧ l.getD p false = false) →
        (ps.foldl (fun l p => l.set p true) l).count true = ps.length + l.count true := by
      intro ps
      induction ps with
      | nil => intro l _ _; simp
      | cons p ps ih =>
        intro l hn hp
        obtain ⟨hpl, hpf⟩ := hp p (by simp)
        rw [List.foldl_cons, ih _ (List.nodup_cons.mp hn).2, List.count_set hpl]
        · rw [List.getD_eq_getElem?_getD, List.getElem?_eq_getElem hpl, Option.getD_some] at hpf
          simp [hpf]; omega
        · intro q hq
          obtain ⟨q1, q2⟩ := hp q (by simp [hq])
          have hne : p ≠ q := fun e => (List.nodup_cons.mp hn).1 (e ▸ hq)
          refine ⟨by simpa using q1, ?_⟩
          rw [List.getD_eq_getElem?_getD, List.getElem?_set_ne hne, ← List.getD_eq_getElem?_getD]; exact q2
    rw [gen ps _ hnd]
    · simp [List.count_replicate]
    · intro p hp
      refine ⟨hb p hp, ?_⟩
      rw [List.getD_eq_getElem?_getD, List.getElem?_replicate]; split <;> rfl

/-- `_nb_replace` writes the replaced field from left to right -/
theorem replLoop_eq {src : Buf} {n w i : Nat} (old new : Buf) (ne : Bool) (loc : List Bool) (ho : old ≠ []) (hs : src.length = n * w)
    (hi : i < n) : ∀ fuel sp dp, w ≤ sp + fuel →
    (∀ q, sp ≤ q → loc.getD q false = decide (q ∈ hits old 0 sp ((row w i src).drop sp))) →
    replLoop src (i * w) w old.length new ne loc fuel sp dp =
      seqStores dp (replaceFrom old (if ne then [] else new) 0 ((row w i src).drop sp)) := by
  have hpos : 0 < old.length := List.length_pos_iff.mpr ho
  have hl := row_length hs hi
  intro fuel
  induction fuel with
  | zero => intro sp dp h _; rw [replLoop, List.drop_eq_nil_of_le (by omega)]; simp [replaceFrom, seqStores]
  | succ fuel ih =>
    intro sp dp h hloc
    rw [replLoop]
    by_cases hsp : sp < w
    · rw [if_pos hsp]
      have hlt : sp < (row w i src).length := by omega
      have hdrop : (row w i src).drop sp = (row w i src)[sp] :: (row w i src).drop (sp + 1) := List.drop_eq_getElem_cons hlt
      have hh : hits old 0 sp ((row w i src).drop sp) =
          if old <+: (row w i src).drop sp then sp :: hits old 0 (sp + old.length) ((row w i src).drop (sp + old.length))
          else hits old 0 (sp + 1) ((row w i src).drop (sp + 1)) := by
        rw [hdrop, hits, ← hdrop, hits_skip old (old.length - 1), List.drop_drop,
          show sp + 1 + (old.length - 1) = sp + old.length by omega]
      have hr : ∀ nw, replaceFrom old nw 0 ((row w i src).drop sp) =
          if old <+: (row w i src).drop sp then nw ++ replaceFrom old nw 0 ((row w i src).drop (sp + old.length))
          else (row w i src)[sp] :: replaceFrom old nw 0 ((row w i src).drop (sp + 1)) := by
        intro nw
        rw [hdrop, replaceFrom, ← hdrop, replaceFrom_skip old nw (old.length - 1), List.drop_drop,
          show sp + 1 + (old.length - 1) = sp + old.length by omega]
      by_cases he : old <+: (row w i src).drop sp
      · rw [if_pos he] at hh
        have hat : loc.getD sp false = true := by rw [hloc sp (Nat.le_refl _), hh]; simp
        have hloc' : ∀ q, sp + old.length ≤ q → loc.getD q false =
            decide (q ∈ hits old 0 (sp + old.length) ((row w i src).drop (sp + old.length))) := by
          intro q hq
          rw [hloc q (by omega), hh]
          simp [show q ≠ sp by omega]
        rw [if_pos hat, hr, if_pos he]
        cases ne with
        | true => simpa using ih (sp + old.length) dp (by omega) hloc'
        | false =>
          have h1 := ih (sp + old.length) (dp + new.length) (by omega) hloc'
          simp only [Bool.false_eq_true, if_false] at h1 ⊢
          rw [h1, seqStores_append]; rfl
      · rw [if_neg he] at hh
        have hat : loc.getD sp false = false := by
          rw [hloc sp (Nat.le_refl _), hh]
          refine decide_eq_false fun hm => ?_
          have := (hits_bound old _ _ _ sp hm).1; omega
        have hloc' : ∀ q, sp + 1 ≤ q → loc.getD q false =
            decide (q ∈ hits old 0 (sp + 1) ((row w i src).drop (sp + 1))) := by
          intro q hq; rw [hloc q (by omega), hh]
        rw [if_neg (by simp only [hat]; simp), hr, if_neg he, seqStores_cons, ih (sp + 1) (dp + 1) (by omega) hloc', rd_row src w i sp hsp,
          List.getD_eq_getElem?_getD, List.getElem?_eq_getElem hlt, Option.getD_some]
    · rw [if_neg hsp, List.drop_eq_nil_of_le (by omega)]; simp [replaceFrom, seqStores]

theorem le_foldl_max (l : List Nat) : ∀ a, a ≤ l.foldl max a ∧ ∀ x ∈ l, x ≤ l.foldl max a := by
  induction l with
  | nil => intro a; simp
  | cons y l ih =>
    intro a
    obtain ⟨h1, h2⟩ := ih (max a y)
    refine ⟨by rw [List.foldl_cons]; omega, fun x hx => ?_⟩
    rw [List.foldl_cons]
    rcases List.mem_cons.mp hx with rfl | hx
    · omega
    · exact h2 x hx

/-- what `new` stands for: the field of an empty replacement is a single 0 -/
theorem newIsEmpty_iff (new : Arg) (hn : new.Plain) :
    (if (new.buf.length == 1 && rd new.buf 0 == 0) = true then [] else new.buf) = new.chars ∧
    new.chars.length ≤ new.buf.length := by
  by_cases h : new.chars = []
  · have : new.buf = [0] := by simp [Arg.buf, h]
    rw [this, h]; simp [rd]
  · have hb : new.buf = new.chars := by simp [Arg.buf, h]
    rw [hb]
    refine ⟨?_, Nat.le_refl _⟩
    rw [if_neg]
    intro hc
    simp only [Bool.and_eq_true, beq_iff_eq] at hc
    have hl := hn.last h
    obtain ⟨x, hx⟩ := List.length_eq_one_iff.mp hc.1
    simp only [hx, rd] at hc hl
    simp_all

/-- **C24** `replace` gives on every row Python's left-to-right replacement (an array field never
keeps NULs at its end, hence `decode` on the right), whatever the interleaving of the rows, and the
chosen width is enough for every row.  For ordinary rows and a `new` without NUL the result is exact
(`replace_exact`). -/
theorem replace_correct {src : Buf} {n w : Nat} {old new : Arg} {res : Except String (Nat × Buf)} (ho : old.Plain)
    (hne : old.chars ≠ []) (hn : new.chars = [] ∨ new.Plain) (hs : src.length = n * w) (hr : Replace src w n old new res) :
    ∃ dw out, res = .ok (dw, out) ∧ out.length = n * dw ∧ ∀ i < n,
      (pyReplace old.chars new.chars (decode (row w i src))).length ≤ dw ∧
      decode (row dw i out) = decode (pyReplace old.chars new.chars (decode (row w i src))) := by
  have hb : old.buf = old.chars := by simp [Arg.buf, hne]
  have hem : old.isEmptyStr = false := by simp [Arg.isEmptyStr, hne]
  have hpos : 0 < old.chars.length := List.length_pos_iff.mpr hne
  unfold Replace at hr
  rw [hem, if_neg (by simp), hb] at hr
  have hdec : ∀ i < n, ∃ z, pyReplace old.chars new.chars (row w i src) =
      pyReplace old.chars new.chars (decode (row w i src)) ++ List.replicate z 0 := by
    intro i _
    obtain ⟨z, hz⟩ := decode_spec (row w i src)
    refine ⟨z, ?_⟩
    conv_lhs => rw [hz]
    exact replaceFrom_pad old.chars new.chars hne (ho.last hne) z _ 0 (by omega)
  split at hr
  · rename_i hany
    refine ⟨w, src, hr, hs, fun i hi => ?_⟩
    obtain ⟨z, hz⟩ := hdec i hi
    have h0 : (hits old.chars 0 0 (row w i src)) = [] := by
      rw [← List.length_eq_zero_iff, ← (locRow_spec old.chars hne hs hi).2]
      by_contra hc
      refine hany (List.any_eq_true.mpr ⟨_, List.mem_map.mpr ⟨i, List.mem_range.mpr hi, rfl⟩, ?_⟩)
      simp only [decide_eq_true_eq]; omega
    have hid : ∀ (s : List Nat) p, hits old.chars 0 p s = [] → replaceFrom old.chars new.chars 0 s = s := by
      intro s
      induction s with
      | nil => intro p _; simp [replaceFrom]
      | cons c s ih =>
        intro p h
        rw [hits] at h
        split at h
        · simp at h
        · rename_i hnp
          rw [replaceFrom, if_neg hnp, ih (p + 1) h]
    have h2 : pyReplace old.chars new.chars (row w i src) = row w i src := hid _ 0 h0
    rw [h2] at hz
    have hl := row_length hs hi
    refine ⟨?_, ?_⟩
    · have := congrArg List.length hz; simp only [List.length_append] at this; omega
    · conv_lhs => rw [hz]
      exact decode_append_zeros _ _
  · dsimp only at hr
    obtain ⟨out, hrun, rfl⟩ := hr
    generalize hdw : destItemsize w old.chars new.buf (counts src w n old.chars) = dw at *
    have hnew : (if (new.buf.length == 1 && rd new.buf 0 == 0) = true then [] else new.buf) = new.chars ∧
        new.chars.length ≤ new.buf.length := by
      rcases hn with h | h
      · have : new.buf = [0] := by simp [Arg.buf, h]
        rw [this, h]; simp [rd]
      · exact newIsEmpty_iff new h
    have htr : ∀ i < n, replaceTrace src w dw old.chars new.buf i =
        seqStores (i * dw) (pyReplace old.chars new.chars (row w i src)) := by
      intro i hi
      unfold replaceTrace
      rw [replLoop_eq old.chars new.buf _ (locRow src w old.chars i) hne hs hi w 0 (i * dw) (by omega), hnew.1]
      · rfl
      · intro q _; exact (locRow_spec old.chars hne hs hi).1 q
    have hfit : ∀ i < n, (pyReplace old.chars new.chars (row w i src)).length ≤ dw := by
      intro i hi
      have hlen := replaceFrom_length old.chars new.chars hne (row w i src) 0 0 (by omega)
      have hk : (hits old.chars 0 0 (row w i src)).length ∈ counts src w n old.chars :=
        List.mem_map.mpr ⟨i, List.mem_range.mpr hi, (locRow_spec old.chars hne hs hi).2⟩
      have hmax := (le_foldl_max (counts src w n old.chars) 0).2 _ hk
      rw [row_length hs hi] at hlen
      rw [← hdw]
      unfold destItemsize pyReplace
      generalize (hits old.chars 0 0 (row w i src)).length = k at *
      generalize (counts src w n old.chars).foldl max 0 = mx at *
      have h3 : k * new.chars.length ≤ k * new.buf.length := Nat.mul_le_mul_left k hnew.2
      split
      · rename_i hgt
        have h1 : (new.buf.length - old.chars.length) * k ≤ (new.buf.length - old.chars.length) * mx := Nat.mul_le_mul_left _ hmax
        have h2 : k * new.buf.length = k * old.chars.length + (new.buf.length - old.chars.length) * k := by
          rw [Nat.mul_comm (_ - _) k, ← Nat.mul_add]; congr 1; omega
        omega
      · rename_i hle
        have h2 : k * new.buf.length ≤ k * old.chars.length := Nat.mul_le_mul_left k (by omega)
        split <;> omega
    obtain ⟨h1, h2⟩ := runs_row (w := dw) hrun (by
      intro i hi s hs'
      rw [htr i hi, mem_seqStores] at hs'
      obtain ⟨j, e, hj⟩ := hs'
      have := (List.getElem?_eq_some_iff.mp hj).1
      have := hfit i hi
      omega)
    refine ⟨dw, out, rfl, by rw [h1]; simp, fun i hi => ?_⟩
    obtain ⟨z, hz⟩ := hdec i hi
    have hf := hfit i hi
    refine ⟨by rw [hz] at hf; simp only [List.length_append] at hf; omega, ?_⟩
    rw [h2 i hi, htr i hi, row_seqStores (n := n) (by simp) hi hf, hz]
    have hzero : ∃ k, (row dw i (List.replicate (n * dw) 0)).drop
        (pyReplace old.chars new.chars (decode (row w i src)) ++ List.replicate z 0).length = List.replicate k 0 := by
      simp only [row, List.drop_replicate, List.take_replicate]
      exact ⟨_, rfl⟩
    obtain ⟨k, hk⟩ := hzero
    rw [hk, List.append_assoc, ← List.replicate_add, decode_append_zeros]

/-- **C24** Ordinary rows and a `new` without NUL: the row of the result is exactly Python's result. -/
theorem replace_exact {src : Buf} {n w : Nat} {old new : Arg} {res : Except String (Nat × Buf)} (ho : old.Plain)
    (hne : old.chars ≠ []) (hn : 0 ∉ new.chars) (hs : src.length = n * w) (hr : Replace src w n old new res) :
    ∃ dw out, res = .ok (dw, out) ∧ out.length = n * dw ∧ ∀ i < n, Clean (row w i src) →
      decode (row dw i out) = pyReplace old.chars new.chars (decode (row w i src)) := by
  have hn' : new.chars = [] ∨ new.Plain := by
    by_cases h : new.chars = []
    · exact .inl h
    · exact .inr ⟨fun h' e => hn (e ▸ List.getLast_mem h'), fun _ => h⟩
  obtain ⟨dw, out, h1, h2, h3⟩ := replace_correct ho hne hn' hs hr
  refine ⟨dw, out, h1, h2, fun i hi hc => ?_⟩
  rw [(h3 i hi).2]
  refine decode_clean_self ?_
  have : ∀ (s : List Nat) k, 0 ∉ s → 0 ∉ replaceFrom old.chars new.chars k s := by
    intro s
    induction s with
    | nil => intro k _; simp [replaceFrom]
    | cons c s ih =>
      intro k h
      have hcs : 0 ∉ s := fun h' => h (by simp [h'])
      cases k with
      | succ k => rw [replaceFrom]; exact ih k hcs
      | zero =>
        rw [replaceFrom]
        split
        · intro hm
          rcases List.mem_append.mp hm with h' | h'
          · exact hn h'
          · exact ih _ hcs h'
        · intro hm
          rcases List.mem_cons.mp hm with h' | h'
          · exact h (by simp [← h'])
          · exact ih 0 hcs h'
  exact this _ 0 hc

/-- **C24** The empty string cannot be replaced. -/
theorem replace_empty {src : Buf} {n w : Nat} {new : Arg} {res : Except String (Nat × Buf)}
    (hr : Replace src w n ⟨true, []⟩ new res) : ∃ e, res = .error e := ⟨_, by simpa [Replace, Arg.isEmptyStr] using hr⟩

end Verif.Str
