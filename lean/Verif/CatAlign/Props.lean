import Verif.CatAlign.Model
/-! # Categoricals with common categories, and keys of two sides (C308, C309) -/
namespace Verif.CatAlign
open Verif.Cat
variable {L : Type} [DecidableEq L]

theorem slices_map {α β : Type} (f : α → β) (a : List α) (s : Nat) (ts : List Nat) :
    slices (a.map f) s ts = (slices a s ts).map (List.map f) := by
  induction ts generalizing s with
  | nil => rfl
  | cons t ts ih => simp [slices, slice, ih, List.map_take, List.map_drop]

theorem slices_length {α : Type} (a : List α) (s : Nat) (ts : List Nat) : (slices a s ts).length = ts.length := by
  induction ts generalizing s with
  | nil => rfl
  | cons t ts ih => simp [slices, ih]

theorem mem_slices {α : Type} {a : List α} {s : Nat} {ts : List Nat} {x : List α} (h : x ∈ slices a s ts) : ∀ k ∈ x, k ∈ a := by
  induction ts generalizing s with
  | nil => cases h
  | cons t ts ih =>
    rcases List.mem_cons.1 h with rfl | h
    · intro k hk; exact List.mem_of_mem_take (List.mem_of_mem_drop hk)
    · exact ih h

/-- C308: Categoricals of one base index are aligned: all results have the same different categories, and every result shows
row by row what the Categorical showed; codes are those of categories or filtered rows -/
theorem align_partial (crc : List L → Nat) (hcrc : ∀ a b, a.length = b.length → crc a = crc b → a = b) (g : List L → Grp)
    (hg : GroupOK g) {base : Nat} (hb : base ≤ 1) (cats : List (C L)) (hne : cats ≠ []) (hbase : ∀ c ∈ cats, c.base = base)
    (hwf : ∀ c ∈ cats, c.part.WF base) (buf : List Int) (hbuf : buf.length = (cats.flatMap fun c => c.part.codes).length) :
    ∃ (out : List (C L)) (labels : List L), align crc g buf cats = .ok out ∧ labels.Nodup ∧
      (∀ c ∈ out, c.base = base ∧ c.part.labels = labels ∧ c.part.WF base) ∧
      out.map (fun c => c.part.rows base) = cats.map (fun c => c.part.rows base) := by
  obtain ⟨c0, cs, rfl⟩ := List.exists_cons_of_ne_nil hne
  unfold align
  by_cases he : categoriesEqual crc (c0 :: cs) = true
  · rw [if_pos he]
    refine ⟨_, c0.part.labels, rfl, (hwf c0 (by simp)).nodup, ?_, rfl⟩
    intro c hc
    refine ⟨hbase c hc, ?_, hwf c hc⟩
    rcases List.mem_cons.1 hc with rfl | hc
    · rfl
    · simp only [categoriesEqual, List.all_eq_true, Bool.and_eq_true, decide_eq_true_eq] at he
      exact (hcrc _ _ (he c hc).1 (he c hc).2).symm
  · have ho : oneBase (c0 :: cs) = true := by
      simp only [oneBase, List.all_eq_true, decide_eq_true_eq]
      intro d hd
      rw [hbase c0 (by simp), hbase d (by simp [hd])]
    rw [if_neg he, ho]
    dsimp only [Bool.not_true]
    rw [if_neg (by simp)]
    obtain ⟨codes, labels, h1, h2, h3, h4⟩ := hstack_rows crc hcrc g hg hb ((c0 :: cs).map C.part) (by simp)
      (by intro p hp; obtain ⟨c, hc, rfl⟩ := List.mem_map.1 hp; exact hwf c hc) buf
      (by rw [hbuf, List.flatMap_map])
    rw [hbase c0 (by simp), h1]
    dsimp only
    refine ⟨_, labels, rfl, h3, ?_, ?_⟩
    · intro c hc
      obtain ⟨s, hs, rfl⟩ := List.mem_map.1 hc
      refine ⟨rfl, rfl, h3, fun k hk => (h4 k (mem_slices hs k hk)).1, fun k hk => (h4 k (mem_slices hs k hk)).2⟩
    · rw [List.map_map]
      have hlen : ((c0 :: cs).map fun c => c.part.codes.length) =
          (((c0 :: cs).map C.part).map fun p => (p.rows base).length) := by
        rw [List.map_map]
        refine List.map_congr_left fun c _ => ?_
        simp [Part.rows]
      have := slices_flatMap (fun p : Part L => p.rows base) ((c0 :: cs).map C.part) []
      simp only [List.nil_append, List.length_nil] at this
      rw [← h2, slices_map, ← hlen] at this
      rw [List.map_map] at this
      exact this

/-- the categories of one result -/
theorem label_inj {base : Nat} (hb : base ≤ 1) {labels : List L} (hn : labels.Nodup) {k k' : Int} (h0 : 0 ≤ k) (h0' : 0 ≤ k')
    (h1 : k < base + labels.length) (h1' : k' < base + labels.length) : label? base labels k = label? base labels k' ↔ k = k' := by
  constructor
  · intro h
    unfold label? at h
    by_cases hk : k < base <;> by_cases hk' : k' < base
    · omega
    · rw [if_pos hk, if_neg hk', List.getElem?_eq_getElem (by omega)] at h; cases h
    · rw [if_neg hk, if_pos hk', List.getElem?_eq_getElem (by omega)] at h; cases h
    · rw [if_neg hk, if_neg hk', List.getElem?_eq_getElem (by omega), List.getElem?_eq_getElem (by omega)] at h
      have := (List.Nodup.getElem_inj_iff hn).1 (Option.some.inj h)
      omega
  · rintro rfl; rfl

/-- C308: after `align` rows of two of the Categoricals have the same code exactly if they showed the same label, or both are filtered -/
theorem codes_partial (crc : List L → Nat) (hcrc : ∀ a b, a.length = b.length → crc a = crc b → a = b) (g : List L → Grp)
    (hg : GroupOK g) {base : Nat} (hb : base ≤ 1) (cats : List (C L)) (hne : cats ≠ []) (hbase : ∀ c ∈ cats, c.base = base)
    (hwf : ∀ c ∈ cats, c.part.WF base) (buf : List Int) (hbuf : buf.length = (cats.flatMap fun c => c.part.codes).length) :
    ∃ (out : List (C L)), align crc g buf cats = .ok out ∧ out.length = cats.length ∧
      ∀ (m n i j : Nat) (c d c' d' : C L), cats[m]? = some c → cats[n]? = some d → out[m]? = some c' → out[n]? = some d' →
        (c'.part.codes[i]? = d'.part.codes[j]? ↔ (c.part.rows base)[i]? = (d.part.rows base)[j]?) := by
  obtain ⟨out, labels, h1, h2, h3, h4⟩ := align_partial crc hcrc g hg hb cats hne hbase hwf buf hbuf
  refine ⟨out, h1, by simpa using congrArg List.length h4, ?_⟩
  intro m n i j c d c' d' hc hd hc' hd'
  have hrow : ∀ (m : Nat) (c c' : C L), cats[m]? = some c → out[m]? = some c' → c'.part.rows base = c.part.rows base := by
    intro m c c' hc hc'
    have := congrArg (fun l => l[m]?) h4
    simp only [List.getElem?_map, hc, hc', Option.map_some, Option.some.injEq] at this
    exact this
  rw [← hrow m c c' hc hc', ← hrow n d d' hd hd']
  obtain ⟨-, hl, hw⟩ := h3 c' (List.mem_of_getElem? hc')
  obtain ⟨-, hl', hw'⟩ := h3 d' (List.mem_of_getElem? hd')
  unfold Part.rows
  rw [hl, hl', List.getElem?_map, List.getElem?_map]
  cases hi : c'.part.codes[i]? with
  | none => cases hj : d'.part.codes[j]? <;> simp
  | some k =>
    cases hj : d'.part.codes[j]? with
    | none => simp
    | some k' =>
      have m1 := List.mem_of_getElem? hi
      have m2 := List.mem_of_getElem? hj
      have := label_inj hb h2 (hw.lo k m1) (hw'.lo k' m2) (by rw [← hl]; exact hw.hi k m1) (by rw [← hl']; exact hw'.hi k' m2)
      simp only [Option.map_some, Option.some.injEq]
      exact this.symm

def exCats : List (C Nat) := exParts.map fun p => ⟨1, p⟩

example : exCats ≠ [] ∧ (∀ c ∈ exCats, c.base = 1) ∧ (∀ c ∈ exCats, c.part.WF 1) := by
  refine ⟨by decide, by decide, ?_⟩
  intro c hc
  simp only [exCats, exParts, List.map_cons, List.map_nil, List.mem_cons, List.not_mem_nil, or_false] at hc
  rcases hc with rfl | rfl | rfl <;> exact ⟨by decide, by decide, by decide⟩

/-- C308: Categoricals with the same categories and different base indices are returned as they are: one label has two codes, and one code
two labels -/
theorem base_counterexample : ∃ (c d : C Nat), c.part.WF c.base ∧ d.part.WF d.base ∧
    c.part.rows c.base = [some 5, some 6] ∧ d.part.rows d.base = [some 5, some 6] ∧
    (align exCrc refGroup [] [c, d]).toOption.map (fun l => l.map fun c => c.part.codes) = some [[0, 1], [1, 2]] :=
  ⟨⟨0, ⟨[0, 1], [5, 6]⟩⟩, ⟨1, ⟨[1, 2], [5, 6]⟩⟩, ⟨by decide, by decide, by decide⟩, ⟨by decide, by decide, by decide⟩, by decide,
    by decide, by decide⟩

/-! ## keys -/

/-- one column of the keys: both are arrays, or the Categoricals are of one base index -/
structure PairOK (mk : List L → C L) (base : Nat) (buf : List Int) (a b : Col L) : Prop where
  le : base ≤ 1
  left : (a.toCat mk).base = base ∧ (a.toCat mk).part.WF base
  right : (b.toCat mk).base = base ∧ (b.toCat mk).part.WF base
  buf : buf.length = (a.toCat mk).part.codes.length + (b.toCat mk).part.codes.length

theorem toCat_rows {mk : List L → C L} (hmk : MkOK mk) (a : Col L) (base : Nat) (h : (a.toCat mk).base = base) (i : Nat) :
    ((a.toCat mk).part.rows base)[i]? = a.shows i := by
  cases a with
  | arr v =>
    simp only [Col.toCat] at h ⊢
    obtain rfl : base = 1 := by rw [← h, hmk.base]
    rw [hmk.rows, List.getElem?_map]; rfl
  | cat c =>
    simp only [Col.toCat] at h ⊢
    subst h
    simp [Part.rows, Col.shows]

theorem pair_partial (crc : List L → Nat) (hcrc : ∀ a b, a.length = b.length → crc a = crc b → a = b) (g : List L → Grp)
    (hg : GroupOK g) (mk : List L → C L) (hmk : MkOK mk) (buf : List Int) (a b : Col L)
    (h : (∃ x y, a = .arr x ∧ b = .arr y) ∨ ∃ base, PairOK mk base buf a b) :
    ∃ p : NKey L × NKey L, normalizePair crc g mk buf a b = .ok p ∧ ∀ i j : Nat, p.1.eqAt p.2 i j ↔ a.shows i = b.shows j := by
  have arrs : ∀ x y : List L, ∃ p : NKey L × NKey L, normalizePair crc g mk buf (.arr x) (.arr y) = .ok p ∧
      ∀ i j : Nat, p.1.eqAt p.2 i j ↔ (Col.arr x).shows i = (Col.arr y).shows j := by
    intro x y
    refine ⟨_, rfl, fun i j => ?_⟩
    simp only [NKey.eqAt, Col.shows]
    cases x[i]? <;> cases y[j]? <;> simp
  rcases h with ⟨x, y, rfl, rfl⟩ | ⟨base, h⟩
  · exact arrs x y
  · obtain ⟨out, h1, h2, h3⟩ := codes_partial crc hcrc g hg h.le [a.toCat mk, b.toCat mk] (by simp)
      (by intro c hc; simp only [List.mem_cons, List.not_mem_nil, or_false] at hc; rcases hc with rfl | rfl; exact h.left.1; exact h.right.1)
      (by intro c hc; simp only [List.mem_cons, List.not_mem_nil, or_false] at hc; rcases hc with rfl | rfl; exact h.left.2; exact h.right.2)
      buf (by simp [h.buf])
    obtain ⟨c, d, rfl⟩ : ∃ c d, out = [c, d] := by
      match out, h2 with
      | [c, d], _ => exact ⟨c, d, rfl⟩
    have hp : (∃ x y, a = .arr x ∧ b = .arr y) ∨
        normalizePair crc g mk buf a b = .ok (.codes c.part.codes, .codes d.part.codes) := by
      cases a with
      | arr x =>
        cases b with
        | arr y => exact .inl ⟨x, y, rfl, rfl⟩
        | cat e => right; simp only [normalizePair]; rw [h1]
      | cat e => right; simp only [normalizePair]; rw [h1]
    rcases hp with ⟨x, y, rfl, rfl⟩ | hp
    · exact arrs x y
    · refine ⟨_, hp, fun i j => ?_⟩
      have := h3 0 1 i j _ _ c d rfl rfl rfl rfl
      rw [toCat_rows hmk a base h.left.1, toCat_rows hmk b base h.right.1] at this
      exact this

/-- C309: with as many columns on both sides, and Categoricals of one base index, rows of the two sides are equal after
`normalize_keys` exactly if they show the same in every column -/
theorem keys_partial (crc : List L → Nat) (hcrc : ∀ a b, a.length = b.length → crc a = crc b → a = b) (g : List L → Grp)
    (hg : GroupOK g) (mk : List L → C L) (hmk : MkOK mk) (bufs : List (List Int)) (as bs : List (Col L))
    (hl : as.length = bs.length) (hbl : bufs.length = as.length)
    (h : ∀ (t : Nat) (buf : List Int) (a b : Col L), bufs[t]? = some buf → as[t]? = some a → bs[t]? = some b →
      (∃ x y, a = .arr x ∧ b = .arr y) ∨ ∃ base, PairOK mk base buf a b) :
    ∃ ps : List (NKey L × NKey L), normalizeKeys crc g mk bufs as bs = .ok ps ∧
      ∀ i j : Nat, (∀ p ∈ ps, p.1.eqAt p.2 i j) ↔
        ∀ (t : Nat) (a b : Col L), as[t]? = some a → bs[t]? = some b → a.shows i = b.shows j := by
  induction as generalizing bs bufs with
  | nil =>
    obtain rfl : bs = [] := List.length_eq_zero_iff.1 hl.symm
    obtain rfl : bufs = [] := List.length_eq_zero_iff.1 hbl
    exact ⟨[], rfl, by simp⟩
  | cons a as ih =>
    cases bs with
    | nil => simp at hl
    | cons b bs =>
      cases bufs with
      | nil => simp at hbl
      | cons buf bufs =>
        obtain ⟨p, hp, hpe⟩ := pair_partial crc hcrc g hg mk hmk buf a b (h 0 buf a b rfl rfl rfl)
        obtain ⟨ps, hps, hpse⟩ := ih bufs bs (by simpa using hl) (by simpa using hbl)
          (fun t bf x y h1 h2 h3 => h (t + 1) bf x y (by simpa using h1) (by simpa using h2) (by simpa using h3))
        refine ⟨p :: ps, by simp only [normalizeKeys, hp, hps], fun i j => ?_⟩
        rw [List.forall_mem_cons, hpe, hpse]
        constructor
        · rintro ⟨h1, h2⟩ t x y hx hy
          cases t with
          | zero => cases hx; cases hy; exact h1
          | succ t => exact h2 t x y (by simpa using hx) (by simpa using hy)
        · intro h'
          exact ⟨h' 0 a b rfl rfl, fun t x y hx hy => h' (t + 1) x y (by simpa using hx) (by simpa using hy)⟩

/-- a Categorical made from an array, by first occurrence -/
def exMk (v : List Nat) : C Nat := ⟨1, ⟨v.map fun x => (v.eraseDups.idxOf x : Int) + 1, v.eraseDups⟩⟩

theorem exMk_ok : MkOK exMk := by
  have hlt : ∀ (v : List Nat) (x : Nat), x ∈ v → v.eraseDups.idxOf x < v.eraseDups.length := fun v x hx =>
    List.idxOf_lt_length_iff.2 (List.mem_eraseDups.2 hx)
  refine ⟨fun _ => rfl, fun v => ⟨nodup_eraseDups v, ?_, ?_⟩, fun v => ?_⟩
  · intro k hk
    obtain ⟨x, -, rfl⟩ := List.mem_map.1 hk
    omega
  · intro k hk
    obtain ⟨x, hx, rfl⟩ := List.mem_map.1 hk
    have := hlt v x hx
    simp only [exMk]
    omega
  · simp only [Part.rows, exMk, List.map_map]
    refine List.map_congr_left fun x hx => ?_
    simp only [Function.comp, label?]
    rw [if_neg (by omega)]
    have : ((v.eraseDups.idxOf x : Int) + 1 - ((1 : Nat) : Int)).toNat = v.eraseDups.idxOf x := by omega
    rw [this]
    exact get_idxOf (List.mem_eraseDups.2 hx)

/-- C309: two columns on one side and one on the other: the second column is silently ignored -/
theorem count_counterexample : ∃ (ps : List (NKey Nat × NKey Nat)),
    normalizeKeys exCrc refGroup exMk [[], []] [.arr [1], .arr [2]] [.arr [1]] = .ok ps ∧ ps.length = 1 ∧
    ∀ p ∈ ps, p.1.eqAt p.2 0 0 := by
  refine ⟨_, rfl, rfl, ?_⟩
  intro p hp
  simp only [List.mem_singleton] at hp
  subst hp
  rfl

/-- C309: Categoricals with the same categories and different base indices: row "6" of the first side equals row "5" of the
second, and not row "6" -/
theorem keys_base_counterexample : ∃ (c d : C Nat) (ps : List (NKey Nat × NKey Nat)),
    c.part.rows c.base = [some 5, some 6] ∧ d.part.rows d.base = [some 5, some 6] ∧
    normalizeKeys exCrc refGroup exMk [[]] [.cat c] [.cat d] = .ok ps ∧
    (∀ p ∈ ps, p.1.eqAt p.2 1 0) ∧ ¬ ∀ p ∈ ps, p.1.eqAt p.2 1 1 := by
  refine ⟨⟨0, ⟨[0, 1], [5, 6]⟩⟩, ⟨1, ⟨[1, 2], [5, 6]⟩⟩, [(.codes [0, 1], .codes [1, 2])], by decide, by decide, rfl, ?_, ?_⟩
  · intro p hp
    simp only [List.mem_singleton] at hp
    subst hp
    rfl
  · intro h
    have := h _ (List.mem_singleton.2 rfl)
    simp [NKey.eqAt] at this

end Verif.CatAlign
