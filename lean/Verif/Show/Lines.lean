import Verif.Show.Fit
/-! # Lines of a table shown (C316, C317) -/
namespace Verif.Show

/-- a line with a cell for every column, padded to its width -/
def LineOf (cols : List Shown) (txt : Shown → Text) (line : Text) : Prop :=
  ∃ p : Shown → Text, line = beside (cols.map p) ∧ ∀ c ∈ cols, Padded c.width (txt c) (p c)

theorem align_padded (t : Text) (w : Nat) (j : Just) (h : t.length ≤ w) : Padded w t (align t w j) := by
  cases j
  · exact ⟨by simp [align]; omega, 0, w - t.length, by simp [align]⟩
  · exact ⟨by simp [align]; omega, w - t.length, 0, by simp [align]⟩
  · exact ⟨by simp [align]; omega, _, _, rfl⟩

theorem foldl_join (sep p : Text) (r : List Text) : r.foldl (fun s q => s ++ sep ++ q) p = p ++ (r.flatMap fun q => sep ++ q) := by
  induction r generalizing p with
  | nil => simp
  | cons q r ih => rw [List.foldl_cons, ih]; simp

theorem joinWith_eq (l : List Text) : joinWith spacer l = beside l := by
  induction l with
  | nil => rfl
  | cons p r ih =>
    cases r with
    | nil => rfl
    | cons q r =>
      rw [beside, ← ih]
      simp only [joinWith, foldl_join, List.flatMap_cons]
      simp [spacer]

theorem foldl_min {A : Type} (m : Nat) (ls : List (List A)) (h : ∀ l ∈ ls, l.length = m) :
    ls.foldl (fun k x => min k x.length) m = m := by
  induction ls with
  | nil => rfl
  | cons l ls ih =>
    rw [List.foldl_cons, h l (by simp), Nat.min_self]
    exact ih fun x hx => h x (by simp [hx])

theorem zipAll_eq {A : Type} (m : Nat) (ls : List (List A)) (hne : ls ≠ []) (h : ∀ l ∈ ls, l.length = m) :
    zipAll ls = (List.range m).map fun i => ls.filterMap (·[i]?) := by
  cases ls with
  | nil => exact absurd rfl hne
  | cons l r =>
    unfold zipAll
    dsimp only
    rw [h l (by simp), foldl_min m r fun x hx => h x (by simp [hx])]

/-- the rows of one part of the table -/
theorem part_eq {m : Nat} (cs : List Shown) (f : Shown → List Text) (hne : cs ≠ []) (h : ∀ c ∈ cs, (f c).length = m) :
    zipAll (cs.map f) = (List.range m).map fun i => cs.map fun c => (f c).getD i [] := by
  rw [zipAll_eq m _ (by simpa using hne) (by simpa using h)]
  refine List.map_congr_left fun i hi => ?_
  rw [List.mem_range] at hi
  rw [List.filterMap_map]
  clear hne
  induction cs with
  | nil => rfl
  | cons c cs ih =>
    have hc := h c (by simp)
    rw [List.filterMap_cons, Function.comp, List.getElem?_eq_getElem (by omega), List.map_cons, ih fun x hx => h x (by simp [hx])]
    simp [hc, hi]

theorem lines_body {m : Nat} (left main right : List Shown) (f : Shown → List Text) (hl : left ≠ [])
    (h : ∀ c ∈ left ++ main ++ right, (f c).length = m) :
    dataLines [zipAll (left.map f), zipAll (main.map f), zipAll (right.map f)] =
      (List.range m).map fun i => beside ((left ++ main ++ right).map fun c => (f c).getD i []) := by
  have hL := part_eq left f hl fun c hc => h c (by simp [hc])
  have part : ∀ cs : List Shown, (∀ c ∈ cs, (f c).length = m) → cs ≠ [] → zipAll (cs.map f) = (List.range m).map fun i => cs.map fun c => (f c).getD i [] :=
    fun cs hc hne => part_eq cs f hne hc
  have hz : zipAll (([] : List Shown).map f) = [] := rfl
  unfold dataLines
  cases m with
  | zero =>
    have h0 : ∀ cs : List Shown, (∀ c ∈ cs, (f c).length = 0) → zipAll (cs.map f) = [] := by
      intro cs hc
      by_cases hne : cs = []
      · subst hne; rfl
      · rw [part cs hc hne]; rfl
    rw [h0 left fun c hc => h c (by simp [hc]), h0 main fun c hc => h c (by simp [hc]), h0 right fun c hc => h c (by simp [hc])]
    rfl
  | succ m =>
    have hlen : ∀ cs : List Shown, ((List.range (m + 1)).map fun i => cs.map fun c => (f c).getD i []).length = m + 1 := by simp
    have key : ∀ P : List (List Shown), P ≠ [] →
        (zipAll (P.map fun cs => (List.range (m + 1)).map fun i => cs.map fun c => (f c).getD i [])).map (fun row => joinWith spacer row.flatten) =
          (List.range (m + 1)).map fun i => beside (P.flatten.map fun c => (f c).getD i []) := by
      intro P hP
      rw [zipAll_eq (m + 1) _ (by simpa using hP) (by simp), List.map_map]
      refine List.map_congr_left fun i hi => ?_
      rw [List.mem_range] at hi
      simp only [Function.comp, joinWith_eq]
      congr 1
      rw [List.filterMap_map]
      clear hP
      induction P with
      | nil => rfl
      | cons cs P ih =>
        rw [List.filterMap_cons, Function.comp, List.getElem?_eq_getElem (by simpa using hi)]
        simp only [List.getElem_map, List.getElem_range, List.flatten_cons, List.map_append]
        rw [ih]
    rw [hL]
    by_cases hm : main = [] <;> by_cases hr : right = []
    · subst hm; subst hr
      simp only [hz]
      have := key [left] (by simp)
      simpa using this
    · subst hm
      rw [part right (fun c hc => h c (by simp [hc])) hr, hz]
      have := key [left, right] (by simp)
      simpa using this
    · subst hr
      rw [part main (fun c hc => h c (by simp [hc])) hm, hz]
      have := key [left, main] (by simp)
      simpa using this
    · rw [part main (fun c hc => h c (by simp [hc])) hm, part right (fun c hc => h c (by simp [hc])) hr]
      have := key [left, main, right] (by simp)
      simpa using this

theorem longest_loop (l : List Text) (k : Nat) : k ≤ l.foldl (fun m t => max m t.length) k ∧
    ∀ t ∈ l, t.length ≤ l.foldl (fun m t => max m t.length) k := by
  induction l generalizing k with
  | nil => simp
  | cons a l ih =>
    rw [List.foldl_cons]
    obtain ⟨h1, h2⟩ := ih (max k a.length)
    refine ⟨by omega, ?_⟩
    intro t ht
    rw [List.mem_cons] at ht
    rcases ht with rfl | ht
    · omega
    · exact h2 t ht

/-- a column is wide enough for all its texts -/
def Wide (c : Shown) : Prop :=
  c.header.length ≤ c.width ∧ (∀ t ∈ c.cells, t.length ≤ c.width) ∧ ∀ f, c.foot = some f → ∀ t ∈ f, t.length ≤ c.width

theorem build_wide (mask : List Nat) (rb : Option Nat) (masked : Bool) (c : Col) : Wide (buildColumn mask rb masked c) := by
  unfold buildColumn Wide maxWidth
  dsimp only
  generalize columnCells mask rb masked c.data = cells
  have hc : ∀ t ∈ cells, t.length ≤ if cells.length > 0 then longest cells else c.header.length := by
    intro t ht
    rw [if_pos (List.length_pos_of_mem ht)]
    exact (longest_loop cells 0).2 t ht
  cases hf : c.foot with
  | none =>
    refine ⟨by dsimp only; omega, fun t ht => ?_, fun f hf => by cases hf⟩
    have := hc t ht
    dsimp only; omega
  | some f =>
    refine ⟨by dsimp only; omega, fun t ht => ?_, fun f' hf' t ht => ?_⟩
    · have := hc t ht
      dsimp only; omega
    · cases hf'
      have := (longest_loop f 0).2 t ht
      unfold longest at *
      dsimp only; omega

/-- C316: a table is the line of headers, a border, the lines of the rows and those of the footers; every line has one cell per column, below each
other: every cell is padded to the width of its column -/
theorem lines_exact (left main right : List Shown) (hl : left ≠ []) (m : Nat)
    (h : ∀ c ∈ left ++ main ++ right, c.cells.length = m ∧ Wide c) :
    ∃ head border : Text, ∃ body : List Text,
      tableLines left main right false = [head, border] ++ body ∧
      LineOf (left ++ main ++ right) Shown.header head ∧
      border = beside ((left ++ main ++ right).map fun c => List.replicate c.width '-') ∧
      body.length = m ∧ ∀ i (hi : i < body.length), LineOf (left ++ main ++ right) (fun c => c.cells.getD i []) body[i] := by
  have hb := lines_body left main right plainCells hl (m := m) (by
    intro c hc; simpa [plainCells] using (h c hc).1)
  refine ⟨beside (headerCells (left ++ main ++ right)), _,
    (List.range m).map fun i => beside ((left ++ main ++ right).map fun c => (plainCells c).getD i []), ?_, ?_, rfl, ?_, ?_⟩
  · unfold tableLines
    simp only [Bool.false_eq_true, false_and, if_false, List.append_nil]
    rw [hb, joinWith_eq, joinWith_eq]
  · exact ⟨fun c => align c.header c.width c.just, rfl, fun c hc => align_padded _ _ _ (h c hc).2.1⟩
  · simp
  · intro i hi
    simp only [List.length_map, List.length_range] at hi
    rw [List.getElem_map, List.getElem_range]
    refine ⟨_, rfl, fun c hc => ?_⟩
    have h1 := (h c hc).1
    simp only [plainCells, List.getD_eq_getElem?_getD, List.getElem?_map]
    rw [List.getElem?_eq_getElem (by omega)]
    exact align_padded _ _ _ ((h c hc).2.2.1 _ (List.getElem_mem _))

/-- C316: the same with footers: if every column has as many, their lines come below a second border -/
theorem footer_exact (left main right : List Shown) (hl : left ≠ []) (k : Nat) (hk : 0 < k)
    (h : ∀ c ∈ left ++ main ++ right, Wide c ∧ ∃ f, c.foot = some f ∧ f.length = k) :
    ∃ (border : Text) (foot : List Text), tableLines left main right true = tableLines left main right false ++ border :: foot ∧
      border = beside ((left ++ main ++ right).map fun c => List.replicate c.width '-') ∧
      foot.length = k ∧ ∀ i (hi : i < foot.length), LineOf (left ++ main ++ right) (fun c => (c.foot.getD []).getD i []) foot[i] := by
  let f : Shown → List Text := fun c => match c.foot with
    | none => [[]]
    | some f => f.map fun t => align t c.width .right
  have hf : ∀ c ∈ left ++ main ++ right, f c = (c.foot.getD []).map fun t => align t c.width .right := by
    intro c hc
    obtain ⟨_, g, hg, _⟩ := h c hc
    simp [f, hg]
  have hlen : ∀ c ∈ left ++ main ++ right, (f c).length = k := by
    intro c hc
    obtain ⟨_, g, hg, hgk⟩ := h c hc
    rw [hf c hc, hg]; simpa using hgk
  have he : footerCells (left ++ main ++ right) = (List.range k).map fun i => (left ++ main ++ right).map fun c => (f c).getD i [] :=
    part_eq _ f (by simp [hl]) hlen
  refine ⟨joinWith spacer ((left ++ main ++ right).map fun c => List.replicate c.width '-'),
    (footerCells (left ++ main ++ right)).map (joinWith spacer), ?_, ?_, ?_, ?_⟩
  · have hne : (true = true) ∧ (footerCells (left ++ main ++ right)).length ≠ 0 := ⟨rfl, by rw [he]; simp; omega⟩
    unfold tableLines
    dsimp only
    rw [if_pos hne, if_neg (by simp)]
    simp
  · rw [joinWith_eq]
  · rw [he]; simp
  · intro i hi
    rw [List.length_map, he] at hi
    simp only [List.length_map, List.length_range] at hi
    simp only [he, List.getElem_map, List.getElem_range, joinWith_eq]
    refine ⟨_, rfl, fun c hc => ?_⟩
    obtain ⟨hw, g, hg, hgk⟩ := h c hc
    have hfg : f c = g.map fun t => align t c.width .right := by rw [hf c hc, hg]; rfl
    dsimp only
    rw [hfg, hg]
    simp only [Option.getD_some, List.getD_eq_getElem?_getD, List.getElem?_map]
    rw [List.getElem?_eq_getElem (by omega)]
    exact align_padded g[i] c.width .right (hw.2.2 g hg _ (List.getElem_mem _))

theorem beside_length (ps : List Text) : (beside ps).length = lineWidth (ps.map List.length) := by
  induction ps with
  | nil => rfl
  | cons p r ih =>
    cases r with
    | nil => simp [beside, lineWidth]
    | cons q r =>
      rw [beside, List.length_append, List.length_append, ih]
      simp [lineWidth]
      omega

/-- C316: so all lines are as long as the border -/
theorem length_exact (cols : List Shown) (txt : Shown → Text) (line : Text) (h : LineOf cols txt line) :
    line.length = (beside (cols.map fun c => List.replicate c.width '-')).length := by
  obtain ⟨p, rfl, hp⟩ := h
  rw [beside_length, beside_length, List.map_map, List.map_map]
  congr 1
  refine List.map_congr_left fun c hc => ?_
  simp [(hp c hc).1]

example : tableLines [buildColumn [] none true ⟨['#'], [['0'], ['1']], none, .right⟩] [buildColumn [0, 1] none false ⟨['a', 'b'], [['x'], ['y', 'y', 'y']], none, .left⟩] [] false =
    ["#   ab ".toList, "-   ---".toList, "0   x  ".toList, "1   yyy".toList] := by decide +kernel

/-! ## repeated keys -/

theorem repeated_loop (l : List Text) (done : List Text) (a : Text) :
    (l.foldl (fun (s : List Text × Text) t => if t = s.2 then (s.1 ++ [['.']], s.2) else (s.1 ++ [t], t)) (done, a)).1 =
      done ++ (List.zipWith (fun prev t => if t = prev then ['.'] else t) (a :: l) l) := by
  induction l generalizing done a with
  | nil => simp
  | cons t l ih =>
    rw [List.foldl_cons]
    by_cases h : t = a
    · subst h
      rw [if_pos rfl, ih]
      simp
    · rw [if_neg h, ih]
      simp [h]

/-- C317: the first key column shows a dot exactly where its text is the one of the line above -/
theorem repeated_exact (cells : List Text) :
    (fixRepeated cells).length = cells.length ∧ (fixRepeated cells)[0]? = cells[0]? ∧
      ∀ i (a b : Text), cells[i]? = some a → cells[i + 1]? = some b → (fixRepeated cells)[i + 1]? = some (if b = a then ['.'] else b) := by
  cases cells with
  | nil => exact ⟨rfl, rfl, fun i a b h => by simp at h⟩
  | cons x l =>
    have e : fixRepeated (x :: l) = x :: List.zipWith (fun prev t => if t = prev then ['.'] else t) (x :: l) l := by
      rw [fixRepeated, repeated_loop]; rfl
    rw [e]
    refine ⟨by simp, rfl, ?_⟩
    intro i a b ha hb
    rw [List.getElem?_cons_succ] at hb ⊢
    rw [List.getElem?_zipWith, ha, hb]

/-- C317: so if different keys have different texts and none is a dot, the keys can be read from what is shown -/
theorem repeated_partial {K : Type} (show_ : K → Text) (inj : ∀ k k', show_ k = show_ k' → k = k') (nodot : ∀ k, show_ k ≠ ['.'])
    (keys : List K) (i : Nat) (a b : K) (ha : keys[i]? = some a) (hb : keys[i + 1]? = some b) :
    ((fixRepeated (keys.map show_))[i + 1]? = some ['.'] ↔ a = b) ∧ (a ≠ b → (fixRepeated (keys.map show_))[i + 1]? = some (show_ b)) := by
  have := (repeated_exact (keys.map show_)).2.2 i (show_ a) (show_ b) (by simp [ha]) (by simp [hb])
  rw [this]
  by_cases h : a = b
  · subst h; simp
  · have h2 : ¬ show_ b = show_ a := fun hh => h (inj _ _ hh).symm
    rw [if_neg h2]
    exact ⟨⟨fun hh => absurd (Option.some.inj hh) (nodot b), fun hh => absurd hh h⟩, fun _ => rfl⟩

example : ∃ f : Bool → Text, (∀ k k', f k = f k' → k = k') ∧ ∀ k, f k ≠ ['.'] :=
  ⟨fun b => if b then ['x'] else ['y'], by decide, by decide⟩

/-- thousandths, shown with two digits -/
def twoDigits (n : Nat) : Text := (toString (n / 1000)).toList ++ '.' :: (toString (n / 100 % 10)).toList ++ (toString (n / 10 % 10)).toList

/-- C317: numbers are shown with few digits, so a dot may stand for a different key: 1.001 and 1.002 -/
theorem rounded_counterexample : (1001 : Nat) ≠ 1002 ∧ fixRepeated ([1001, 1002].map twoDigits) = ["1.00".toList, ['.']] := by
  decide +kernel

end Verif.Show
