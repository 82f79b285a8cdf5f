import Verif.Arrow.Numbers
import Verif.CatNew.Given
import Verif.Cat.Stack
import Mathlib.Tactic.FinCases
/-! # Categoricals to Arrow and back (C189 - C192) -/
namespace Verif.Arrow
open Verif.NpOps Verif.Cat
variable {S : Type} [LinearOrder S]

theorem wrap_id (w : Fin 4) {x : Int} (h1 : least true w ≤ x) (h2 : x ≤ greatest true w) : wrap w x = x := by
  unfold wrap
  have hb : ∀ w : Fin 4, bitsOf w = 8 ∨ bitsOf w = 16 ∨ bitsOf w = 32 ∨ bitsOf w = 64 := by decide
  have hb := hb w
  unfold least at h1
  unfold greatest at h2
  rw [if_pos rfl] at h1 h2
  rcases hb with hb | hb | hb | hb <;> rw [hb] at h1 h2 ⊢ <;> norm_num at h1 h2 ⊢ <;> rw [Int.bmod_def] <;> omega

theorem double (w : Fin 4) (h : w.val + 1 < 4) : greatest false w + 1 ≤ greatest true ⟨w.val + 1, h⟩ := by
  revert w; decide +kernel

theorem sign_bounds (w : Fin 4) : greatest true w ≤ greatest false w ∧ least true w ≤ 0 ∧ 0 < greatest true w ∧ (w = 3 → greatest true w = 2 ^ 63 - 1) ∧
    least false w = 0 := by
  revert w; decide +kernel

/-- indices become codes -/
theorem dictCodes_spec (count : Nat) (hc : count < 2 ^ 63) (ix : IntArr) : ∃ f : Int → Int, dictCodes count ix = .ok (ix.vals.map f) ∧
    ∀ k : Int, 0 ≤ k → k < (count : Int) → k ≤ greatest ix.sg ix.w → (ix.sg = true → k < greatest true ix.w ∨ (count : Int) - 1 ≤ greatest true ix.w) → f k = k + 1 := by
  obtain ⟨hb1, hb2, hb3, hb4, _⟩ := sign_bounds ix.w
  have hwide : greatest true ix.w ≤ (count : Int) - 1 → ∃ h : ix.w.val + 1 < 4, wider ix.w = .ok ⟨ix.w.val + 1, h⟩ := by
    intro h
    have : ix.w.val + 1 < 4 := by
      by_contra hn
      have h3 : ix.w = 3 := Fin.ext (by have := ix.w.isLt; show ix.w.val = 3; omega)
      have := hb4 h3
      have : (count : Int) < 2 ^ 63 := by exact_mod_cast hc
      omega
    exact ⟨this, by unfold wider; rw [dif_pos this]⟩
  unfold dictCodes
  by_cases hs : ix.sg = false
  · rw [if_pos hs]
    by_cases hcnt : greatest true ix.w ≤ (count : Int) - 1
    · rw [if_pos hcnt]
      obtain ⟨h, hw⟩ := hwide hcnt
      rw [hw]
      refine ⟨fun v => wrap ⟨ix.w.val + 1, h⟩ (v + 1), rfl, fun k h0 h1 h2 _ => ?_⟩
      rw [hs] at h2
      have := double ix.w h
      have := (sign_bounds ⟨ix.w.val + 1, h⟩).2.1
      exact wrap_id _ (by omega) (by omega)
    · rw [if_neg hcnt]
      refine ⟨fun v => wrap ix.w (wrap ix.w v + 1), rfl, fun k h0 h1 h2 _ => ?_⟩
      have e1 : wrap ix.w k = k := wrap_id _ (by omega) (by omega)
      show wrap ix.w (wrap ix.w k + 1) = k + 1
      rw [e1]
      exact wrap_id _ (by omega) (by omega)
  · rw [if_neg hs]
    have hs' : ix.sg = true := by simpa using hs
    by_cases hcnt : (count : Int) - 1 = greatest true ix.w
    · rw [if_pos hcnt]
      obtain ⟨h, hw⟩ := hwide (by omega)
      rw [hw]
      refine ⟨fun v => wrap ⟨ix.w.val + 1, h⟩ (v + 1), rfl, fun k h0 h1 h2 _ => ?_⟩
      have := double ix.w h
      have := (sign_bounds ⟨ix.w.val + 1, h⟩).2.1
      exact wrap_id _ (by omega) (by omega)
    · rw [if_neg hcnt]
      refine ⟨fun v => wrap ix.w (v + 1), rfl, fun k h0 h1 h2 h3 => ?_⟩
      have := h3 hs'
      exact wrap_id _ (by omega) (by omega)

/-- an Arrow dictionary array: the type of the indices can hold them, and they are positions in the dictionary -/
structure Dict.WF (d : Dict S) : Prop where
  fits : Fits d.sg d.w d.indices
  inside : ∀ k, some k ∈ d.indices → 0 ≤ k ∧ k < (d.values.length : Int)

/-- the codes that are meant: 0 for null, otherwise index + 1 -/
def codesOf (indices : List (Option Int)) : List Int := indices.map fun j => j.elim 0 (· + 1)

omit [LinearOrder S] in
theorem label_codes (cats : List S) (indices : List (Option Int)) (h : ∀ k, some k ∈ indices → 0 ≤ k) :
    (codesOf indices).map (label? 1 cats) = dictRows cats indices := by
  unfold codesOf dictRows
  rw [List.map_map]
  refine List.map_congr_left fun j hj => ?_
  cases j with
  | none => simp [label?]
  | some k =>
    have := h k hj
    show label? 1 cats (k + 1) = cats[k.toNat]?
    unfold label?
    rw [if_neg (by push_cast; omega)]
    congr 1
    push_cast
    omega

theorem group_codes {cats : List S} {codes : List Int} {filter : Option (List Bool)} (h : ∀ k ∈ codes, 0 ≤ k ∧ k ≤ (cats.length : Int))
    (hf : CatNew.combineFilter codes filter = codes) :
    ∃ g, CatNew.groupingOfCodes codes false cats filter 1 none false = .ok g ∧ g.codes = codes := by
  unfold CatNew.groupingOfCodes CatNew.flipUnsigned
  dsimp only
  rw [if_neg (by
    rw [Bool.not_eq_true, CatNew.not_outside]
    intro k hk
    have := h k hk
    exact ⟨this.1, by push_cast; omega⟩)]
  · refine ⟨_, rfl, ?_⟩
    dsimp only
    rw [if_neg (by simp), hf]; rfl

/-- **C190 (partial)** `from_arrow` of a dictionary array: every row shows the dictionary value of its index, and is filtered for null; the
categories are the dictionary. Missing: (1) signed indices if the dictionary has more values than the type of the indices and the greatest
index of the type occurs, (2) arrays with nulls and with the greatest index of an unsigned type; see the counterexamples. -/
theorem fromDictOne_rows_partial (cv : List S → Except Err (List S)) (d : Dict S) (hw : d.WF) {cats : List S} (hcv : cv d.values = .ok cats)
    (hlen : cats.length = d.values.length) (hc : d.values.length < 2 ^ 63)
    (h1 : d.sg = true → ∀ k, some k ∈ d.indices → k < greatest true d.w ∨ (d.values.length : Int) - 1 ≤ greatest true d.w)
    (h2 : none ∈ d.indices → some (missing d.sg d.w) ∉ d.indices) :
    ∃ p, fromDictOne cv d = .ok p ∧ p.labels = cats ∧ p.rows 1 = dictRows cats d.indices ∧ p.codes = codesOf d.indices ∧
      (∀ k ∈ p.codes, 0 ≤ k) ∧ ∀ k ∈ p.codes, k < ((1 : Nat) : Int) + p.labels.length := by
  have hcodes : ∀ k ∈ codesOf d.indices, 0 ≤ k ∧ k ≤ (cats.length : Int) := by
    intro k hk
    obtain ⟨j, hj, rfl⟩ := List.mem_map.1 hk
    cases j with
    | none => simp
    | some k =>
      have := hw.inside k hj
      rw [hlen]
      show 0 ≤ k + 1 ∧ k + 1 ≤ _
      omega
  have hflat : [d.indices].flatten = d.indices := by simp
  -- the array of the indices
  have hix : ∃ ix, fromArrowInt false true d.sg d.w [d.indices] = .ok ix ∧ ix.vals = fillNull (missing d.sg d.w) d.indices ∧ ix.sg = d.sg ∧
      (none ∈ d.indices → ix.w = d.w) ∧ (∀ k, some k ∈ d.indices → k ≤ greatest ix.sg ix.w ∧ k ≠ missing ix.sg ix.w ∧
        (ix.sg = true → k < greatest true ix.w ∨ (d.values.length : Int) - 1 ≤ greatest true ix.w)) := by
    unfold fromArrowInt
    rw [if_neg (by simp), hflat]
    by_cases hm : some (missing d.sg d.w) ∈ d.indices
    · have hsg : d.sg = false := by
        cases hs : d.sg with
        | false => rfl
        | true =>
          have := (hw.inside _ hm).1
          rw [hs] at this
          exfalso
          revert this
          generalize d.w = w
          revert w; decide +kernel
      have hw3 : d.w ≠ 3 := by
        intro e
        have := (hw.inside _ hm).2
        rw [hsg, e] at this
        have h64 : missing false 3 = 2 ^ 64 - 1 := by decide +kernel
        rw [h64] at this
        have : (d.values.length : Int) < 2 ^ 63 := by exact_mod_cast hc
        omega
      refine ⟨⟨d.sg, after d.w hw3, fillNull (missing d.sg d.w) d.indices⟩, (fromArrowOne_eq hw.fits _).2 ⟨by simp, Or.inr ⟨hm, rfl, rfl, hw3, rfl⟩⟩, rfl, rfl,
        fun hn => absurd hm (h2 hn), fun k hk => ⟨?_, missing_after _ _ hw3 k (hw.fits k hk), fun hs => ?_⟩⟩
      · have hle := (hw.fits k hk).2
        rw [hsg] at hle ⊢
        have : ∀ (w : Fin 4) (h : w ≠ 3), greatest false w ≤ greatest false (after w h) := by decide +kernel
        exact le_trans hle (this d.w hw3)
      · have hs : d.sg = true := hs
        rw [hsg] at hs; cases hs
    · refine ⟨⟨d.sg, d.w, fillNull (missing d.sg d.w) d.indices⟩, (fromArrowOne_eq hw.fits _).2 ⟨by simp, Or.inl ⟨hm, rfl⟩⟩, rfl, rfl, fun _ => rfl,
        fun k hk => ⟨(hw.fits k hk).2, fun e => hm (e ▸ hk), fun hs => h1 hs k hk⟩⟩
  obtain ⟨ix, hix1, hix2, hix3, hix4, hix5⟩ := hix
  obtain ⟨f, hf1, hf2⟩ := dictCodes_spec d.values.length hc ix
  have hval : ∀ k, some k ∈ d.indices → f k = k + 1 := fun k hk => hf2 k (hw.inside k hk).1 (hw.inside k hk).2 (hix5 k hk).1 (hix5 k hk).2.2
  have hzero : zeroAt (ix.vals.map f) (nullMask d.indices ix) = codesOf d.indices := by
    unfold nullMask
    by_cases hn : none ∈ d.indices
    · rw [if_pos hn, hix2]
      unfold zeroAt fillNull codesOf
      dsimp only
      rw [List.map_map, List.map_map, List.zipWith_map, List.zipWith_self]
      refine List.map_congr_left fun j hj => ?_
      cases j with
      | none => simp [hix3, hix4 hn]
      | some k => simp [(hix5 k hj).2.1, hval k hj]
    · rw [if_neg hn, hix2]
      unfold zeroAt fillNull codesOf
      dsimp only
      rw [List.map_map]
      refine List.map_congr_left fun j hj => ?_
      cases j with
      | none => exact absurd hj hn
      | some k => exact hval k hj
  have hfil : CatNew.combineFilter (codesOf d.indices) ((nullMask d.indices ix).map fun m => m.map (!·)) = codesOf d.indices := by
    unfold nullMask
    by_cases hn : none ∈ d.indices
    · rw [if_pos hn, hix2]
      unfold fillNull codesOf
      rw [Option.map_some]
      unfold CatNew.combineFilter
      dsimp only
      rw [List.map_map, List.map_map, List.zipWith_map, List.zipWith_self]
      refine List.map_congr_left fun j hj => ?_
      cases j with
      | none => simp
      | some k => simp [(hix5 k hj).2.1]
    · rw [if_neg hn]; rfl
  obtain ⟨g, hg1, hg2⟩ := group_codes hcodes hfil
  refine ⟨⟨codesOf d.indices, cats⟩, ?_, rfl, label_codes cats d.indices (fun k hk => (hw.inside k hk).1), rfl, fun k hk => (hcodes k hk).1, fun k hk => ?_⟩
  · unfold fromDictOne
    rw [hix1]
    dsimp only
    rw [hf1]
    dsimp only
    rw [hcv]
    dsimp only
    rw [hzero, hg1]
    dsimp only
    rw [hg2]
  · have := (hcodes k hk).2
    push_cast
    show k < 1 + (cats.length : Int)
    omega

/-- **C190** violated (1): int8 indices and 129 values: row 127 has code -128, which is refused. -/
theorem fromDict_signed_counterexample : ∃ d : Dict Nat, d.WF ∧ d.sg = true ∧ ∀ p, fromDictOne (fun l => .ok l) d ≠ .ok p := by
  refine ⟨⟨true, 0, [some 127], List.range 129⟩, ⟨?_, ?_⟩, rfl, ?_⟩
  · intro v hv; simp at hv; subst hv; decide +kernel
  · intro v hv; simp at hv; subst hv; decide +kernel
  · have : (match fromDictOne (S := Nat) (fun l => .ok l) ⟨true, 0, [some 127], List.range 129⟩ with
      | .ok _ => false
      | .error _ => true) = true := by decide +kernel
    intro p h
    rw [h] at this; cases this

/-- **C190** violated (2): uint8 indices 255 and null with 256 values: the null shows the last category. -/
theorem fromDict_nulls_counterexample : ∃ (d : Dict Nat) (p : Cat.Part Nat), d.WF ∧ fromDictOne (fun l => .ok l) d = .ok p ∧
    none ∈ dictRows d.values d.indices ∧ none ∉ p.rows 1 := by
  refine ⟨⟨false, 0, [some 255, none], List.range 256⟩, ⟨[256, 256], List.range 256⟩, ⟨?_, ?_⟩, ?_, by decide +kernel, by decide +kernel⟩
  · intro v hv; simp at hv; subst hv; decide +kernel
  · intro v hv; simp at hv; subst hv; decide +kernel
  · have : (match fromDictOne (S := Nat) (fun l => .ok l) ⟨false, 0, [some 255, none], List.range 256⟩ with
      | .ok p => decide (p.codes = [256, 256] ∧ p.labels = List.range 256)
      | .error _ => false) = true := by decide +kernel
    cases h : fromDictOne (S := Nat) (fun l => .ok l) ⟨false, 0, [some 255, none], List.range 256⟩ with
    | error e => rw [h] at this; simp at this
    | ok p =>
      rw [h] at this
      dsimp only at this
      rw [decide_eq_true_eq] at this
      obtain ⟨c, l⟩ := p
      obtain ⟨rfl, rfl⟩ := this
      rfl

example : (⟨false, 0, [some 255, some 0], List.range 256⟩ : Dict Nat).WF ∧ (⟨true, 1, [some 2, none], [5, 6, 7]⟩ : Dict Nat).WF := by
  refine ⟨⟨?_, ?_⟩, ⟨?_, ?_⟩⟩
  · intro v hv; simp at hv; rcases hv with rfl | rfl <;> decide +kernel
  · intro v hv; simp at hv; rcases hv with rfl | rfl <;> decide +kernel
  · intro v hv; simp at hv; subst hv; decide +kernel
  · intro v hv; simp at hv; subst hv; decide +kernel

theorem forall2_flatMap {A B C : Type} {R : A → B → Prop} {f : A → List C} {g : B → List C} {l : List A} {m : List B} (h : List.Forall₂ R l m)
    (hfg : ∀ a b, R a b → f a = g b) : l.flatMap f = m.flatMap g := by
  induction h with
  | nil => rfl
  | cons h1 _ ih => rw [List.flatMap_cons, List.flatMap_cons, ih, hfg _ _ h1]

/-- **C191 (partial)** A dictionary array in several chunks, each with its own dictionary: the rows of the chunks one after the other show the
values of their dictionaries, nulls are filtered, and the categories are different. Missing: besides what is missing for one chunk,
arrays without any chunk; see the counterexample. -/
theorem fromDict_rows_partial (cv : List S → Except Err (List S)) (crc : List S → Nat) (hcrc : ∀ a b, a.length = b.length → crc a = crc b → a = b)
    (g : List S → Cat.Grp) (hg : GroupOK g) (chunks : List (Dict S)) (hne : chunks ≠ []) (cats : Dict S → List S)
    (hw : ∀ d ∈ chunks, d.WF) (hcv : ∀ d ∈ chunks, cv d.values = .ok (cats d) ∧ (cats d).length = d.values.length ∧ (cats d).Nodup ∧ d.values.length < 2 ^ 63)
    (h1 : ∀ d ∈ chunks, d.sg = true → ∀ k, some k ∈ d.indices → k < greatest true d.w ∨ (d.values.length : Int) - 1 ≤ greatest true d.w)
    (h2 : ∀ d ∈ chunks, none ∈ d.indices → some (missing d.sg d.w) ∉ d.indices)
    (buf : List Int) (hbuf : buf.length = (chunks.flatMap fun d => d.indices).length) :
    ∃ p, fromDict cv crc g false chunks buf = .ok p ∧ p.rows 1 = (chunks.flatMap fun d => dictRows (cats d) d.indices) ∧ p.labels.Nodup := by
  have hone : ∀ d ∈ chunks, ∃ p, fromDictOne cv d = .ok p ∧ p.labels = cats d ∧ p.rows 1 = dictRows (cats d) d.indices ∧ p.codes = codesOf d.indices ∧
      (∀ k ∈ p.codes, 0 ≤ k) ∧ ∀ k ∈ p.codes, k < ((1 : Nat) : Int) + p.labels.length := fun d hd =>
    fromDictOne_rows_partial cv d (hw d hd) (hcv d hd).1 (hcv d hd).2.1 (hcv d hd).2.2.2 (h1 d hd) (h2 d hd)
  unfold fromDict
  rw [if_neg (by simp)]
  match chunks, hne with
  | [d], _ =>
    obtain ⟨p, hp1, hp2, hp3, _⟩ := hone d List.mem_cons_self
    refine ⟨p, hp1, ?_, ?_⟩
    · rw [hp3, List.flatMap_cons, List.flatMap_nil, List.append_nil]
    · rw [hp2]; exact (hcv d List.mem_cons_self).2.2.1
  | d1 :: d2 :: ds, _ =>
    dsimp only
    obtain ⟨parts, hparts⟩ := mapM_total (f := fromDictOne cv) (l := d1 :: d2 :: ds) fun d hd => by
      obtain ⟨p, hp, _⟩ := hone d hd
      exact ⟨p, hp⟩
    have hF := mapM_ok.1 hparts
    have hF2 : List.Forall₂ (fun d p => d ∈ d1 :: d2 :: ds ∧ fromDictOne cv d = .ok p) (d1 :: d2 :: ds) parts := by
      rw [List.forall₂_iff_get] at hF ⊢
      exact ⟨hF.1, fun i hi hi' => ⟨List.getElem_mem _, hF.2 i hi hi'⟩⟩
    have hpart : ∀ p ∈ parts, ∃ d ∈ d1 :: d2 :: ds, fromDictOne cv d = .ok p := by
      intro p hp
      obtain ⟨i, hi, rfl⟩ := List.getElem_of_mem hp
      have hi' : i < (d1 :: d2 :: ds).length := by rw [hF.length_eq]; exact hi
      have := (List.forall₂_iff_get.1 hF2).2 i hi' hi
      exact ⟨_, this⟩
    rw [hparts]
    dsimp only
    have hspec : ∀ d p, (d ∈ d1 :: d2 :: ds ∧ fromDictOne cv d = .ok p) → p.labels = cats d ∧ p.rows 1 = dictRows (cats d) d.indices ∧
        p.codes = codesOf d.indices ∧ (∀ k ∈ p.codes, 0 ≤ k) ∧ ∀ k ∈ p.codes, k < ((1 : Nat) : Int) + p.labels.length := by
      rintro d p ⟨hd, hp⟩
      obtain ⟨q, hq, h⟩ := hone d hd
      rw [hp] at hq; cases hq
      exact h
    obtain ⟨codes, labels, hh1, hh2, hh3, _⟩ := hstack_rows crc hcrc g hg (base := 1) (le_refl _) parts (by
        rintro rfl; cases hF) (fun p hp => by
        obtain ⟨d, hd, hdp⟩ := hpart p hp
        obtain ⟨e1, _, _, e4, e5⟩ := hspec d p ⟨hd, hdp⟩
        exact ⟨by rw [e1]; exact (hcv d hd).2.2.1, e4, e5⟩) buf (by
        rw [hbuf, List.length_flatMap, List.length_flatMap]
        have : ∀ {l : List (Dict S)} {m : List (Cat.Part S)}, List.Forall₂ (fun d p => d ∈ d1 :: d2 :: ds ∧ fromDictOne cv d = .ok p) l m →
            (l.map fun d => d.indices.length).sum = (m.map fun p => p.codes.length).sum := by
          intro l m h
          induction h with
          | nil => rfl
          | cons h _ ih =>
            rw [List.map_cons, List.map_cons, List.sum_cons, List.sum_cons, ih, (hspec _ _ h).2.2.1]
            simp [codesOf]
        exact this hF2)
    rw [hh1]
    refine ⟨⟨codes, labels⟩, rfl, ?_, hh3⟩
    show codes.map (label? 1 labels) = _
    rw [hh2]
    exact (forall2_flatMap hF2 fun d p h => ((hspec d p h).2.1).symm).symm

/-- **C191** violated: a ChunkedArray without chunks is refused. -/
theorem fromDict_empty_counterexample (cv : List S → Except Err (List S)) (crc : List S → Nat) (g : List S → Cat.Grp) (buf : List Int) :
    fromDict cv crc g false [] buf = .error .valueError := rfl

/-- a chunk with an empty dictionary: its rows are all null -/
example : (match fromDict (S := Nat) (fun l => .ok l) Cat.exCrc Cat.refGroup false [⟨true, 0, [some 0], [5]⟩, ⟨true, 0, [none], []⟩] [0, 0] with
    | .ok p => decide (p.codes = [1, 0] ∧ p.labels = [5])
    | .error _ => false) = true := by decide +kernel

/-! ## there and back -/

/-- a Categorical with base index 1 or 0: codes of categories, 0 for filtered rows with base index 1, in a type that holds them -/
structure ACat.WF (c : ACat S) : Prop where
  lo : ∀ k ∈ c.codes, 0 ≤ k
  hi : ∀ k ∈ c.codes, k < (c.base : Int) + c.labels.length
  fits : ∀ k ∈ c.codes, k ≤ greatest true c.w

/-- what the rows show -/
def ACat.rows (c : ACat S) : List (Option S) := c.codes.map (label? c.base c.labels)

omit [LinearOrder S] in
theorem arrowIndices_base1 {c : ACat S} (hb : c.base = 1) : arrowIndices c = c.codes.map fun k => if k = 0 then none else some (k - 1) := by
  unfold arrowIndices isFiltered ikeyOf
  dsimp only
  rw [if_pos hb, if_pos (by omega), if_neg (by omega), List.zipWith_map, List.zipWith_self]
  refine List.map_congr_left fun k _ => ?_
  rw [hb]
  by_cases h : k = 0 <;> simp [h]

/-- **C189 (partial)** `to_arrow` and `from_arrow` of a Categorical with base index 1: every row shows the same category, filtered rows stay
filtered, and the categories are the same in the same order, if the categories themselves come back (C184, C187). Missing: base index 0,
see `toDict_base0_exact` and the counterexample. -/
theorem cat_round_trip_partial (cvTo cvFrom : List S → Except Err (List S)) (c : ACat S) (hw : c.WF) (hb : c.base = 1) (hn : c.labels.length < 2 ^ 63)
    {values : List S} (hcv : cvTo c.labels = .ok values) (hl : values.length = c.labels.length) (hcv2 : cvFrom values = .ok c.labels) :
    ∃ d p, toDict cvTo c = .ok d ∧ fromDictOne cvFrom d = .ok p ∧ p.labels = c.labels ∧ p.codes = c.codes ∧ p.rows 1 = c.rows := by
  have hi : ∀ k, some k ∈ arrowIndices c → 0 ≤ k ∧ k < (c.labels.length : Int) ∧ k < greatest true c.w := by
    rw [arrowIndices_base1 hb]
    intro k hk
    obtain ⟨x, hx, hxk⟩ := List.mem_map.1 hk
    split_ifs at hxk with h0
    cases hxk
    have h1 := hw.lo x hx
    have h2 := hw.hi x hx
    have h3 := hw.fits x hx
    rw [hb] at h2
    push_cast at h2
    omega
  have hto : toDict cvTo c = .ok ⟨true, c.w, arrowIndices c, values⟩ := by
    unfold toDict
    rw [hcv]
    dsimp only
    rw [if_pos]
    rw [List.all_eq_true]
    intro j hj
    cases j with
    | none => rfl
    | some k =>
      have := hi k hj
      simp only [Option.all_some, decide_eq_true_eq]
      rw [hl]
      exact ⟨this.1, this.2.1⟩
  have hbnd := sign_bounds c.w
  have hwf : (⟨true, c.w, arrowIndices c, values⟩ : Dict S).WF := by
    refine ⟨fun k hk => ?_, fun k hk => ?_⟩
    · have := hi k hk
      show least true c.w ≤ k ∧ k ≤ greatest true c.w
      exact ⟨by omega, by omega⟩
    · have := hi k hk
      show 0 ≤ k ∧ k < (values.length : Int)
      rw [hl]; exact ⟨this.1, this.2.1⟩
  obtain ⟨p, hp1, hp2, hp3, hp4, _⟩ := fromDictOne_rows_partial cvFrom _ hwf hcv2 hl.symm (by show values.length < 2 ^ 63; rw [hl]; exact hn)
    (fun _ k hk => Or.inl (hi k hk).2.2) (fun _ hm => by
      have h0 : 0 ≤ missing true c.w := (hi _ hm).1
      have hneg : ∀ w : Fin 4, ¬ 0 ≤ missing true w := by decide +kernel
      exact hneg _ h0)
  have hcodes : codesOf (arrowIndices c) = c.codes := by
    rw [arrowIndices_base1 hb]
    unfold codesOf
    rw [List.map_map]
    conv_rhs => rw [← List.map_id c.codes]
    refine List.map_congr_left fun k _ => ?_
    by_cases h : k = 0 <;> simp [h]
  refine ⟨_, p, hto, hp1, hp2, by rw [hp4]; exact hcodes, ?_⟩
  unfold Cat.Part.rows ACat.rows
  rw [hp2, hp4, hb]
  show (codesOf (arrowIndices c)).map _ = _
  rw [hcodes]

example : (⟨1, 0, [1, 0, 2, 1], ['a', 'b']⟩ : ACat Char).WF := ⟨by decide, by decide, by decide +kernel⟩

/-- **C189** With base index 0 `to_arrow` writes the index of the next category, and raises exactly if some row has the last one. -/
theorem toDict_base0_exact (cvTo : List S → Except Err (List S)) (c : ACat S) (hw : c.WF) (hb : c.base = 0) {values : List S}
    (hcv : cvTo c.labels = .ok values) (hl : values.length = c.labels.length) :
    ((∃ d, toDict cvTo c = .ok d) ↔ (c.labels.length : Int) - 1 ∉ c.codes) ∧
      ∀ d, toDict cvTo c = .ok d → d.indices = c.codes.map fun k => some (k + 1) := by
  have hix : arrowIndices c = c.codes.map fun k => some (k + 1) := by
    unfold arrowIndices isFiltered ikeyOf
    dsimp only
    simp only [hb]
    rw [if_neg (by simp), if_pos trivial, if_neg (by simp), List.zipWith_map, List.zipWith_self]
    simp
  unfold toDict
  rw [hcv]
  dsimp only
  rw [hix]
  constructor
  · constructor
    · rintro ⟨d, hd⟩ hm
      split_ifs at hd with hall
      rw [List.all_eq_true] at hall
      have := hall (some ((c.labels.length : Int) - 1 + 1)) (List.mem_map.2 ⟨_, hm, rfl⟩)
      simp only [Option.all_some, decide_eq_true_eq] at this
      rw [hl] at this
      omega
    · intro hm
      rw [if_pos]
      · exact ⟨_, rfl⟩
      rw [List.all_eq_true]
      intro j hj
      obtain ⟨k, hk, rfl⟩ := List.mem_map.1 hj
      simp only [Option.all_some, decide_eq_true_eq]
      have h1 := hw.lo k hk
      have h2 := hw.hi k hk
      rw [hb] at h2
      push_cast at h2
      have h3 : k ≠ (c.labels.length : Int) - 1 := fun e => hm (e ▸ hk)
      rw [hl]
      omega
  · intro d hd
    split_ifs at hd
    cases hd
    rfl

/-- **C189** violated: rows a, a with categories a, b and base index 0 come back as b, b; rows with the last category cannot be written. -/
theorem cat_base0_counterexample : (∃ (c : ACat Char) (d : Dict Char) (p : Cat.Part Char), c.WF ∧ c.base = 0 ∧ toDict (fun l => .ok l) c = .ok d ∧
      fromDictOne (fun l => .ok l) d = .ok p ∧ c.rows = [some 'a', some 'a'] ∧ p.rows 1 = [some 'b', some 'b']) ∧
    ∃ c : ACat Char, c.WF ∧ c.base = 0 ∧ toDict (fun l => .ok l) c = .error .arrowInvalid := by
  refine ⟨⟨⟨0, 0, [0, 0], ['a', 'b']⟩, ⟨true, 0, [some 1, some 1], ['a', 'b']⟩, ⟨[2, 2], ['a', 'b']⟩, ⟨by decide, by decide, by decide +kernel⟩, rfl,
    by decide +kernel, ?_, by decide +kernel, by decide +kernel⟩,
    ⟨⟨0, 0, [0, 1], ['a', 'b']⟩, ⟨by decide, by decide, by decide +kernel⟩, rfl, by decide +kernel⟩⟩
  have : (match fromDictOne (S := Char) (fun l => .ok l) ⟨true, 0, [some 1, some 1], ['a', 'b']⟩ with
      | .ok p => decide (p.codes = [2, 2] ∧ p.labels = ['a', 'b'])
      | .error _ => false) = true := by decide +kernel
  cases h : fromDictOne (S := Char) (fun l => .ok l) ⟨true, 0, [some 1, some 1], ['a', 'b']⟩ with
  | error e => rw [h] at this; simp at this
  | ok p =>
    rw [h] at this
    dsimp only at this
    rw [decide_eq_true_eq] at this
    obtain ⟨cc, l⟩ := p
    obtain ⟨rfl, rfl⟩ := this
    rfl

/-- **C192** violated: a Categorical with several keys never comes back, and one with a key that is an array of numbers is not even written. -/
theorem multi_counterexample (kinds : List KeyKind) (h : 2 ≤ kinds.length) :
    (KeyKind.number ∈ kinds → toArrowMulti kinds = .error .notImplemented) ∧
      ∀ k r, toArrowMulti kinds = .ok k → fromArrowMulti k ≠ .ok r := by
  unfold toArrowMulti
  constructor
  · intro hm; rw [if_pos hm]
  · intro k r hk
    split_ifs at hk
    cases hk
    unfold fromArrowMulti
    rw [if_neg (by omega)]
    intro h; cases h

/-- **C192 (partial)** A dictionary of structs with one field is read like a dictionary of its values. -/
theorem multi_one_partial (k : KeyKind) : fromArrowMulti [k] = .ok [k] := rfl

end Verif.Arrow
