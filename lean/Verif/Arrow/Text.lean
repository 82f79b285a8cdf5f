import Verif.Arrow.Numbers
/-! # Text to Arrow and back (C187, C188) -/
namespace Verif.Arrow

theorem stripNul_eq (t : List Char) : stripNul t = withoutNuls t := rfl

theorem asciiB_iff {t : List Char} : asciiB t = true ↔ Ascii t := by
  unfold asciiB Ascii; simp

theorem mem_text {rows : List (Option (List Char))} : (present rows).all asciiB = true ↔ ∀ t, some t ∈ rows → Ascii t := by
  rw [List.all_eq_true]
  constructor
  · intro h t ht; exact asciiB_iff.1 (h t (mem_present.2 ht))
  · intro h t ht; exact asciiB_iff.2 (h t (mem_present.1 ht))

/-- **C188** Every row of an Arrow array of text, in any number of chunks, has the text of the Arrow array without NUL characters at its end;
null is the empty text. The result holds Unicode exactly if some character is not ASCII. -/
theorem fromArrowText_exact (chunks : List (List (Option (List Char)))) :
    ∃ r, fromArrowText false chunks = .ok r ∧ r.vals = (chunks.flatten.map fun t => withoutNuls (t.getD [])) ∧
      (r.unicode = true ↔ ∃ t, some t ∈ chunks.flatten ∧ ¬ Ascii t) := by
  have huni : ∀ rows : List (Option (List Char)), (fromTextOne rows).unicode = true ↔ ∃ t, some t ∈ rows ∧ ¬ Ascii t := by
    intro rows
    have : (fromTextOne rows).unicode = !((present rows).all asciiB) := rfl
    rw [this, Bool.not_eq_true', ← Bool.not_eq_true, mem_text]
    push Not
    rfl
  unfold fromArrowText
  rw [if_neg (by simp)]
  by_cases h : 1 < chunks.length ∧ none ∉ chunks.flatten
  · rw [if_pos h]
    refine ⟨_, rfl, ?_, ?_⟩
    · dsimp only
      clear h
      induction chunks with
      | nil => rfl
      | cons c cs ih =>
        rw [List.map_cons, List.flatMap_cons, ih, List.flatten_cons, List.map_append]
        congr 1
        show (fillNull [] c).map stripNul = _
        unfold fillNull
        rw [List.map_map]; rfl
    · dsimp only
      rw [List.any_eq_true]
      constructor
      · rintro ⟨x, hx, hu⟩
        obtain ⟨c, hc, rfl⟩ := List.mem_map.1 hx
        obtain ⟨t, ht, hna⟩ := (huni c).1 hu
        exact ⟨t, List.mem_flatten.2 ⟨c, hc, ht⟩, hna⟩
      · rintro ⟨t, ht, hna⟩
        obtain ⟨c, hc, htc⟩ := List.mem_flatten.1 ht
        exact ⟨_, List.mem_map.2 ⟨c, hc, rfl⟩, (huni c).2 ⟨t, htc, hna⟩⟩
  · rw [if_neg h]
    refine ⟨_, rfl, ?_, huni _⟩
    show (fillNull [] chunks.flatten).map stripNul = _
    unfold fillNull
    rw [List.map_map]; rfl

/-- **C188 (partial)** So texts that do not end with NUL are kept. -/
theorem fromArrowText_rows_partial (chunks : List (List (Option (List Char)))) (h : ∀ t, some t ∈ chunks.flatten → withoutNuls t = t) :
    ∃ r, fromArrowText false chunks = .ok r ∧ r.vals = chunks.flatten.map fun t => t.getD [] := by
  obtain ⟨r, h1, h2, _⟩ := fromArrowText_exact chunks
  refine ⟨r, h1, ?_⟩
  rw [h2]
  refine List.map_congr_left fun t ht => ?_
  cases t with
  | none => rfl
  | some t => exact h t ht

/-- **C188** violated: the NUL of `"a\0"` is lost. -/
theorem fromArrowText_counterexample : ∃ (rows : List (Option (List Char))) (r : TextArr), fromArrowText false [rows] = .ok r ∧
    r.vals ≠ rows.map fun t => t.getD [] :=
  ⟨[some ['a', Char.ofNat 0]], ⟨false, [['a']]⟩, by decide +kernel, by decide +kernel⟩

theorem toArrowText_ok {emptyToNull : Bool} {a : TextArr} (h : a.unicode = true ∨ ∀ t ∈ a.vals, Ascii t) :
    toArrowText emptyToNull a = .ok (a.vals.map fun t => if emptyToNull = true ∧ t = [] then none else some t) := by
  unfold toArrowText
  rw [if_neg]
  rintro ⟨h1, h2⟩
  rcases h with h | h
  · rw [h] at h1; cases h1
  · obtain ⟨t, ht, hna⟩ := List.any_eq_true.1 h2
    rw [Bool.not_eq_true', ← Bool.not_eq_true] at hna
    exact hna (asciiB_iff.2 (h t ht))

/-- **C187 (partial)** `to_arrow` and `from_arrow` give the same text in every row, whether or not empty texts are written as nulls and
however the Arrow array is cut into chunks in between. Missing: bytes that are not ASCII, which are refused (`toArrowText_refused`). Items
of numpy arrays do not end with NUL. -/
theorem text_round_trip_partial (a : TextArr) (hn : ∀ t ∈ a.vals, withoutNuls t = t) (ha : a.unicode = true ∨ ∀ t ∈ a.vals, Ascii t)
    (emptyToNull : Bool) : ∃ rows, toArrowText emptyToNull a = .ok rows ∧ rows.length = a.vals.length ∧
      ∀ chunks : List (List (Option (List Char))), chunks.flatten = rows → ∃ r, fromArrowText false chunks = .ok r ∧ r.vals = a.vals := by
  refine ⟨_, toArrowText_ok ha, by simp, fun chunks hc => ?_⟩
  obtain ⟨r, h1, h2⟩ := fromArrowText_rows_partial chunks (by
    rw [hc]
    intro t ht
    obtain ⟨x, hx, hxt⟩ := List.mem_map.1 ht
    split_ifs at hxt
    cases hxt
    exact hn t hx)
  refine ⟨r, h1, ?_⟩
  rw [h2, hc, List.map_map]
  conv_rhs => rw [← List.map_id a.vals]
  refine List.map_congr_left fun t _ => ?_
  by_cases h : emptyToNull = true ∧ t = []
  · simp [h]
  · rw [Function.comp, if_neg h]; rfl

example : (∀ t ∈ (⟨true, [['ä'], [], ['b', 'c']]⟩ : TextArr).vals, withoutNuls t = t) ∧
    toArrowText true ⟨true, [['ä'], [], ['b', 'c']]⟩ = .ok [some ['ä'], none, some ['b', 'c']] := by
  refine ⟨by decide +kernel, by decide +kernel⟩

/-- **C187** Arrays of bytes are refused exactly if some byte is not ASCII. -/
theorem toArrowText_refused (emptyToNull : Bool) (vals : List (List Char)) :
    (∃ e, toArrowText emptyToNull ⟨false, vals⟩ = .error e) ↔ ∃ t ∈ vals, ¬ Ascii t := by
  constructor
  · rintro ⟨e, h⟩
    by_contra hc
    push Not at hc
    rw [toArrowText_ok (Or.inr hc)] at h
    cases h
  · rintro ⟨t, ht, hna⟩
    refine ⟨.unicodeError, ?_⟩
    unfold toArrowText
    rw [if_pos]
    refine ⟨rfl, List.any_eq_true.2 ⟨t, ht, ?_⟩⟩
    rw [Bool.not_eq_true', ← Bool.not_eq_true, asciiB_iff]
    exact hna

/-- **C187** violated for other bytes. -/
theorem text_counterexample : ∃ a : TextArr, (∀ t ∈ a.vals, withoutNuls t = t) ∧ ∀ r, toArrowText true a ≠ .ok r :=
  ⟨⟨false, [[Char.ofNat 233]]⟩, by decide +kernel, fun r h => by
    obtain ⟨e, he⟩ := (toArrowText_refused true [[Char.ofNat 233]]).2 ⟨_, List.mem_cons_self, by unfold Ascii; decide +kernel⟩
    rw [he] at h; cases h⟩

/-! ## fixed-size binary items -/

/-- item `i` of an Arrow array of fixed-size items, null if it is not valid -/
def Fixed.row (f : Fixed) (i : Nat) : Option (List Char) :=
  if f.valid[i]? = some true then some ((f.buffer.drop ((f.offset + i) * f.width)).take f.width) else none

/-- the buffer is long enough -/
structure Fixed.WF (f : Fixed) : Prop where
  width : 0 < f.width
  long : (f.offset + f.valid.length) * f.width ≤ f.buffer.length

theorem flatMap_get {A : Type} (g : Nat → List A) (w n : Nat) (hg : ∀ i, i < n → (g i).length = w) (i : Nat) (hi : i < n) :
    (((List.range n).flatMap g).drop (i * w)).take w = g i := by
  induction n with
  | zero => omega
  | succ n ih =>
    have hlen : ((List.range n).flatMap g).length = n * w := by
      clear ih hi
      induction n with
      | zero => simp
      | succ m ih =>
        rw [List.range_succ, List.flatMap_append, List.length_append, ih (fun i h => hg i (by omega))]
        simp only [List.flatMap_cons, List.flatMap_nil, List.append_nil]
        rw [hg m (by omega)]; ring
    rw [List.range_succ, List.flatMap_append, List.flatMap_cons, List.flatMap_nil, List.append_nil]
    rcases Nat.lt_or_ge i n with h | h
    · have h1 : i * w + w ≤ n * w := by
        have : (i + 1) * w ≤ n * w := Nat.mul_le_mul_right w h
        linarith [Nat.succ_mul i w]
      rw [List.drop_append_of_le_length (by omega), List.take_append_of_le_length (by rw [List.length_drop]; omega)]
      exact ih (fun i h => hg i (by omega)) h
    · have : i = n := by omega
      subst this
      rw [← hlen, List.drop_left, List.take_of_length_le]
      rw [hg i (by omega)]

theorem flatMap_length {A : Type} (g : Nat → List A) (w n : Nat) (hg : ∀ i, i < n → (g i).length = w) : ((List.range n).flatMap g).length = n * w := by
  induction n with
  | zero => simp
  | succ m ih =>
    rw [List.range_succ, List.flatMap_append, List.length_append, ih (fun i h => hg i (by omega))]
    simp only [List.flatMap_cons, List.flatMap_nil, List.append_nil]
    rw [hg m (by omega)]; ring

theorem withoutNuls_zeros (n : Nat) : withoutNuls (List.replicate n (Char.ofNat 0)) = [] := by
  unfold withoutNuls
  rw [List.reverse_replicate]
  induction n with
  | zero => rfl
  | succ n ih => rw [List.replicate_succ, List.dropWhile_cons]; simpa using ih

/-- items of a buffer that holds nothing else -/
theorem fromBuffer_rows {width n : Nat} (hw : 0 < width) {buffer : List Char} (hl : buffer.length = n * width) :
    (fromBuffer width buffer).length = n ∧ ∀ i, i < n → (fromBuffer width buffer)[i]? = some (withoutNuls (itemAt width buffer i)) := by
  have hd : buffer.length / width = n := by rw [hl]; exact Nat.mul_div_cancel _ hw
  unfold fromBuffer
  rw [hd]
  refine ⟨by simp, fun i hi => ?_⟩
  rw [List.getElem?_map, List.getElem?_range hi]; rfl

theorem fillFixed_rows {f : Fixed} (h : f.WF) :
    (fillFixed f).buffer.length = f.valid.length * f.width ∧
      ∀ i, i < f.valid.length → withoutNuls (itemAt f.width (fillFixed f).buffer i) = withoutNuls ((f.row i).getD []) := by
  let g : Nat → List Char := fun i => if f.valid[i]? = some true then itemAt f.width f.buffer (f.offset + i) else List.replicate f.width (Char.ofNat 0)
  have hg : ∀ i, i < f.valid.length → (g i).length = f.width := by
    intro i hi
    show (if f.valid[i]? = some true then itemAt f.width f.buffer (f.offset + i) else List.replicate f.width (Char.ofNat 0)).length = f.width
    split_ifs
    · unfold itemAt
      rw [List.length_take, List.length_drop]
      have := h.long
      have h2 : (f.offset + i + 1) * f.width ≤ (f.offset + f.valid.length) * f.width := Nat.mul_le_mul_right _ (by omega)
      have h3 : (f.offset + i + 1) * f.width = (f.offset + i) * f.width + f.width := Nat.succ_mul _ _
      omega
    · simp
  refine ⟨flatMap_length g f.width f.valid.length hg, fun i hi => ?_⟩
  have : itemAt f.width (fillFixed f).buffer i = g i := flatMap_get g f.width f.valid.length hg i hi
  rw [this]
  show withoutNuls (if f.valid[i]? = some true then itemAt f.width f.buffer (f.offset + i) else List.replicate f.width (Char.ofNat 0)) = _
  unfold Fixed.row itemAt
  split_ifs
  · rfl
  · rw [withoutNuls_zeros]; rfl

/-- **C188 (partial)** `from_arrow` of fixed-size binary items: every row has the bytes of the Arrow array (NUL at the end is padding), null
is empty. Missing: slices without nulls, see the counterexample. -/
theorem fromArrowFixed_rows_partial (f : Fixed) (h : f.WF) (hs : false ∈ f.valid ∨ (f.offset = 0 ∧ f.buffer.length = f.valid.length * f.width)) :
    ∃ r, fromArrowFixed false f = .ok r ∧ r.length = f.valid.length ∧ ∀ i, i < f.valid.length → r[i]? = some (withoutNuls ((f.row i).getD [])) := by
  unfold fromArrowFixed
  rw [if_neg (by simp)]
  dsimp only
  by_cases hn : false ∈ f.valid
  · rw [if_pos hn]
    obtain ⟨h1, h2⟩ := fillFixed_rows h
    have hw : (fillFixed f).width = f.width := rfl
    rw [hw, if_neg (by rw [h1]; have := h.width; simp; omega)]
    obtain ⟨h3, h4⟩ := fromBuffer_rows h.width h1
    refine ⟨_, rfl, h3, fun i hi => ?_⟩
    rw [h4 i hi, h2 i hi]
  · rw [if_neg hn]
    obtain ⟨ho, hl⟩ := hs.resolve_left hn
    rw [if_neg (by rw [hl]; have := h.width; simp; omega)]
    obtain ⟨h3, h4⟩ := fromBuffer_rows h.width hl
    refine ⟨_, rfl, h3, fun i hi => ?_⟩
    rw [h4 i hi]
    have hv : f.valid[i]? = some true := by
      rw [List.getElem?_eq_getElem hi]
      cases hb : f.valid[i] with
      | true => rfl
      | false => exact absurd (hb ▸ List.getElem_mem hi) hn
    unfold Fixed.row itemAt
    rw [if_pos hv, ho, Nat.zero_add]; rfl

/-- **C188** violated: the second of two items, taken by a slice, comes with the first one. -/
theorem fromArrowFixed_counterexample : ∃ (f : Fixed) (r : List (List Char)), f.WF ∧ fromArrowFixed false f = .ok r ∧ r.length ≠ f.valid.length :=
  ⟨⟨1, ['a', 'b'], 1, [true]⟩, [['a'], ['b']], ⟨by decide, by decide⟩, by decide +kernel, by decide⟩

example : (⟨2, ['a', 'b', 'c', 'd'], 1, [false]⟩ : Fixed).WF ∧ (⟨2, ['a', 'b', 'c', 'd'], 0, [true, true]⟩ : Fixed).WF := ⟨⟨by decide, by decide⟩, ⟨by decide, by decide⟩⟩

theorem withoutNuls_append {t : List Char} (h : withoutNuls t = t) (n : Nat) : withoutNuls (t ++ List.replicate n (Char.ofNat 0)) = t := by
  unfold withoutNuls at h ⊢
  rw [List.reverse_append, List.reverse_replicate]
  have : ∀ (l : List Char), (List.replicate n (Char.ofNat 0) ++ l).dropWhile (fun c => c == Char.ofNat 0) = l.dropWhile fun c => c == Char.ofNat 0 := by
    intro l
    induction n with
    | zero => rfl
    | succ n ih => rw [List.replicate_succ, List.cons_append, List.dropWhile_cons]; simpa using ih
  rw [this, h]

theorem flatMap_range {A B : Type} (l : List A) (g : A → List B) : l.flatMap g = (List.range l.length).flatMap fun i => (l[i]?).elim [] g := by
  induction l with
  | nil => rfl
  | cons a l ih => rw [List.flatMap_cons, List.length_cons, List.range_succ_eq_map, List.flatMap_cons, List.flatMap_map]; simp [ih]

/-- **C187** With `preserve_fixed_bytes=True` every array of bytes comes back, ASCII or not. -/
theorem fixed_round_trip (emptyToNull : Bool) (width : Nat) (hw : 0 < width) (vals : List (List Char)) (hl : ∀ t ∈ vals, t.length ≤ width)
    (hn : ∀ t ∈ vals, withoutNuls t = t) : fromArrowFixed false (toArrowFixed emptyToNull width vals) = .ok vals := by
  let pad : List Char → List Char := fun t => t ++ List.replicate (width - t.length) (Char.ofNat 0)
  let g : Nat → List Char := fun i => (vals[i]?).elim [] pad
  have hg : ∀ i, i < vals.length → (g i).length = width := by
    intro i hi
    show ((vals[i]?).elim [] pad).length = width
    rw [List.getElem?_eq_getElem hi]
    show (vals[i] ++ List.replicate (width - vals[i].length) (Char.ofNat 0)).length = width
    rw [List.length_append, List.length_replicate]
    have := hl vals[i] (List.getElem_mem hi)
    omega
  have hbuf : (toArrowFixed emptyToNull width vals).buffer = (List.range vals.length).flatMap g := flatMap_range vals pad
  have hblen : (toArrowFixed emptyToNull width vals).buffer.length = vals.length * width := by rw [hbuf]; exact flatMap_length g width _ hg
  have hvl : (toArrowFixed emptyToNull width vals).valid.length = vals.length := by unfold toArrowFixed; simp
  have hwf : (toArrowFixed emptyToNull width vals).WF := ⟨hw, by
    rw [hblen, hvl]
    show (0 + vals.length) * width ≤ vals.length * width
    rw [Nat.zero_add]⟩
  obtain ⟨r, h1, h2, h3⟩ := fromArrowFixed_rows_partial _ hwf (Or.inr ⟨rfl, by rw [hblen, hvl]; rfl⟩)
  rw [h1]
  congr 1
  refine List.ext_getElem? fun i => ?_
  rw [hvl] at h2 h3
  rcases Nat.lt_or_ge i vals.length with hi | hi
  · rw [h3 i hi, List.getElem?_eq_getElem hi]
    congr 1
    unfold Fixed.row
    have hitem : ((toArrowFixed emptyToNull width vals).buffer.drop (((toArrowFixed emptyToNull width vals).offset + i) * (toArrowFixed emptyToNull width vals).width)).take
        (toArrowFixed emptyToNull width vals).width = pad vals[i] := by
      rw [hbuf]
      show (((List.range vals.length).flatMap g).drop ((0 + i) * width)).take width = _
      rw [Nat.zero_add, flatMap_get g width _ hg i hi]
      show (vals[i]?).elim [] pad = _
      rw [List.getElem?_eq_getElem hi]; rfl
    rw [hitem]
    have hv : (toArrowFixed emptyToNull width vals).valid[i]? = some (!(emptyToNull && vals[i].isEmpty)) := by
      unfold toArrowFixed
      rw [List.getElem?_map, List.getElem?_eq_getElem hi]; rfl
    rw [hv]
    split_ifs with hc
    · exact withoutNuls_append (hn _ (List.getElem_mem hi)) _
    · simp at hc
      rw [hc.2]; rfl
  · rw [List.getElem?_eq_none (by omega), List.getElem?_eq_none hi]

example : fromArrowFixed false (toArrowFixed true 2 [['a'], [], ['b', Char.ofNat 233]]) = .ok [['a'], [], ['b', Char.ofNat 233]] := by decide +kernel

end Verif.Arrow
