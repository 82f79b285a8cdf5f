import Verif.Bin.Lemmas

/-! # Properties of `quantile`, `cut` and `qcut` (C62, C63, C64) -/
namespace Verif.Bin

/-! ## C62 `quantile` -/

/-- C62.  With the default interpolation, every fraction between 0 and 1 gives the linearly
interpolated quantile of the finite values; NaN and infinities do not take part.  Without finite
values the results are NaN. -/
theorem binQuantile_correct (x : List Fl) (ls : List Nat) (h : IsLexsort x ls) (q : List Rat)
    (hq : ∀ p ∈ q, 0 ≤ p ∧ p ≤ 1) :
    ∃ out : List Fl, quantile .fraction x ls q = .ok out ∧ out.length = q.length ∧
      ∀ (i : Nat) (p : Rat), q[i]? = some p →
        (finites x = [] ∧ out[i]? = some .nan) ∨
        (∃ y, out[i]? = some (.fin y) ∧ IsQuantile (finites x) p y) := by
  have hall : ∀ p ∈ q, ∃ b, score .fraction x ls p = .ok b := by
    intro p hp
    by_cases hf : finites x = []
    · exact ⟨_, score_nan _ ls hf p⟩
    · obtain ⟨y, hy, -⟩ := score_fraction h hf (hq p hp)
      exact ⟨_, hy⟩
  obtain ⟨out, ho⟩ := Verif.Quantile.mapM_ok_of hall
  have hg := Verif.Quantile.mapM_ok_get ho
  refine ⟨out, ho, hg.1, ?_⟩
  intro i p hp
  have hp' : p ∈ q := List.mem_of_getElem? hp
  obtain ⟨b, hs, hb⟩ := hg.2 i p hp
  by_cases hf : finites x = []
  · left
    rw [score_nan _ ls hf p] at hs
    injection hs with e
    exact ⟨hf, by rw [hb, e]⟩
  · right
    obtain ⟨y, hy, hI⟩ := score_fraction h hf (hq p hp')
    rw [hy] at hs
    injection hs with e
    exact ⟨y, by rw [hb, e], hI⟩


/-- C62, the other two interpolation methods: where the position is a whole number they agree
with the default, everywhere else they raise instead of returning a neighbour. -/
theorem binQuantile_lower_higher_exact (m : Method) (hm : m = .lower ∨ m = .higher) (x : List Fl) (ls : List Nat)
    (p : Rat) (hf : finites x ≠ []) :
    score m x ls p =
      if p * (((finites x).length : Rat) - 1) - (p * (((finites x).length : Rat) - 1)).floor = 0
      then score .fraction x ls p else .error "IndexError" := by
  have hd : dataLen x ≠ 0 := by rw [dataLen_eq]; simpa using hf
  unfold score
  rw [if_neg hd, if_neg hd, dataLen_eq]
  rcases hm with rfl | rfl <;> (split <;> simp_all)

/-- the documentation says that `lower` and `higher` return one of the two neighbours -/
theorem binQuantile_lower_counterexample :
    ¬ ∀ (x : List Fl) (ls : List Nat) (p : Rat), IsLexsort x ls → 0 ≤ p → p ≤ 1 → ∃ v, score .lower x ls p = .ok v := by
  intro h
  obtain ⟨v, hv⟩ := h [.fin 1, .fin 2] [0, 1] (1 / 2) ⟨by decide, by simp [leSort]⟩ (by norm_num) (by norm_num)
  have : score .lower [.fin 1, .fin 2] [0, 1] (1 / 2) = .error "IndexError" := by decide +kernel
  rw [this] at hv
  cases hv

example : IsLexsort [.fin 3, .nan, .ninf, .fin 1, .fin 2] [2, 3, 4, 0, 1] := ⟨by decide, by simp [leSort]; norm_num⟩
example : quantile .fraction [.fin 3, .nan, .ninf, .fin 1, .fin 2] [2, 3, 4, 0, 1] [0, 1 / 4, 1 / 2, 1] =
    .ok [.fin 1, .fin (3 / 2), .fin 2, .fin 3] := by decide +kernel

/-! ## Bins -/

theorem ascending_notnan {l : List Fl} (h : Ascending l) (h2 : 2 ≤ l.length) : ∀ e ∈ l, e ≠ .nan := by
  intro e he
  obtain ⟨i, hi⟩ := List.getElem?_of_mem he
  obtain ⟨hi', rfl⟩ := List.getElem?_eq_some_iff.1 hi
  by_cases h0 : i = 0
  · exact (Fl.le_notnan (List.pairwise_iff_getElem.1 h i 1 hi' (by omega) (by omega))).1
  · exact (Fl.le_notnan (List.pairwise_iff_getElem.1 h 0 i (by omega) hi' (by omega))).2

theorem prefix_count {l : List Fl} (h : Ascending l) (v : Fl) :
    ∀ (i : Nat) (e : Fl), l[i]? = some e → (e.lt v = true ↔ i < l.countP fun e => e.lt v) := by
  induction l with
  | nil => intro i e h; simp at h
  | cons a l ih =>
    intro i e hi
    have hl : Ascending l := (List.pairwise_cons.1 h).2
    have ha := (List.pairwise_cons.1 h).1
    by_cases hav : a.lt v = true
    · rw [List.countP_cons_of_pos (by simpa using hav)]
      cases i with
      | zero =>
        simp only [List.getElem?_cons_zero, Option.some.injEq] at hi
        subst hi; simp [hav]
      | succ i =>
        simp only [List.getElem?_cons_succ] at hi
        rw [ih hl i e hi]; omega
    · rw [List.countP_cons_of_neg (by simpa using hav)]
      have hz : l.countP (fun e => e.lt v) = 0 := by
        rw [List.countP_eq_zero]
        intro b hb hbv
        exact hav (Fl.lt_of_le_lt (ha b hb) hbv)
      rw [hz]
      simp only [Nat.not_lt_zero, iff_false]
      cases i with
      | zero =>
        simp only [List.getElem?_cons_zero, Option.some.injEq] at hi
        subst hi; exact hav
      | succ i =>
        simp only [List.getElem?_cons_succ] at hi
        intro hev
        exact hav (Fl.lt_of_le_lt (ha e (List.mem_of_getElem? hi)) hev)

theorem cutSearch_outside {edges : List Fl} {v : Fl} (h : Outside edges v) : cutSearch true edges v = 0 := by
  unfold cutSearch
  simp only [↓reduceIte]
  cases hh : edges.head? with
  | none => rfl
  | some a =>
    cases hl : edges.getLast? with
    | none => rfl
    | some b =>
      have : (a.le v && v.le b) = false := by
        rcases h with rfl | ⟨e, he, hv⟩ | ⟨e, he, hv⟩
        · cases a <;> simp [Fl.le]
        · rw [hh] at he
          injection he with he
          subst he
          rw [(Fl.lt_iff.1 hv).2.2]; rfl
        · rw [hl] at he
          injection he with he
          subst he
          rw [(Fl.lt_iff.1 hv).2.2]; simp
      simp [this]

theorem cutSearch_inside {edges : List Fl} (h : Ascending edges) (h2 : 2 ≤ edges.length) {v : Fl}
    (hv : ¬ Outside edges v) : InBin edges v (cutSearch true edges v) := by
  have hnn := ascending_notnan h h2
  have hvn : v ≠ .nan := fun e => hv (Or.inl e)
  have hh : edges.head? = some (edges[0]'(by omega)) := by
    rw [List.head?_eq_getElem?, List.getElem?_eq_getElem]
  have hl : edges.getLast? = some (edges[edges.length - 1]'(by omega)) := by
    rw [List.getLast?_eq_getElem?, List.getElem?_eq_getElem]
  have e0 : (edges[0]'(by omega)).le v = true :=
    Fl.le_of_not_lt hvn (hnn _ (List.getElem_mem _)) (by
      by_contra hc
      exact hv (Or.inr (Or.inl ⟨_, hh, by simpa using hc⟩)))
  have e1 : v.le (edges[edges.length - 1]'(by omega)) = true :=
    Fl.le_of_not_lt (hnn _ (List.getElem_mem _)) hvn (by
      by_contra hc
      exact hv (Or.inr (Or.inr ⟨_, hl, by simpa using hc⟩)))
  have hcs : cutSearch true edges v = max 1 (edges.countP fun e => e.lt v) := by
    unfold cutSearch
    simp [hh, hl, e0, e1]
  have hp := prefix_count h v
  rw [hcs]
  generalize hc : (edges.countP fun e => e.lt v) = c at *
  have hclt : c < edges.length := by
    by_contra hge
    have := (hp (edges.length - 1) _ (List.getElem?_eq_getElem (by omega))).2 (by omega)
    rw [Fl.not_lt_of_le e1] at this
    cases this
  by_cases h0 : c = 0
  · subst h0
    refine ⟨by simp, edges[0]'(by omega), edges[1]'(by omega), List.getElem?_eq_getElem _,
      List.getElem?_eq_getElem _, ?_, Or.inr ⟨by simp, ?_⟩⟩
    · have : (edges[0]'(by omega)).lt v = false := by
        by_contra hcc
        have := (hp 0 _ (List.getElem?_eq_getElem (by omega))).1 (by simpa using hcc)
        omega
      have hv0 := Fl.le_of_not_lt (hnn _ (List.getElem_mem _)) hvn this
      exact Fl.le_trans hv0 (List.pairwise_iff_getElem.1 h 0 1 (by omega) (by omega) (by omega))
    · have : (edges[0]'(by omega)).lt v = false := by
        by_contra hcc
        have := (hp 0 _ (List.getElem?_eq_getElem (by omega))).1 (by simpa using hcc)
        omega
      exact Fl.le_antisymm e0 (Fl.le_of_not_lt (hnn _ (List.getElem_mem _)) hvn this)
  · rw [Nat.max_eq_right (by omega)]
    refine ⟨by omega, edges[c - 1]'(by omega), edges[c]'hclt, List.getElem?_eq_getElem _,
      List.getElem?_eq_getElem _, ?_, Or.inl ?_⟩
    · have : (edges[c]'hclt).lt v = false := by
        by_contra hcc
        have := (hp c _ (List.getElem?_eq_getElem hclt)).1 (by simpa using hcc)
        omega
      exact Fl.le_of_not_lt (hnn _ (List.getElem_mem _)) hvn this
    · exact (hp (c - 1) _ (List.getElem?_eq_getElem (by omega))).2 (by omega)

theorem inBin_lt {edges : List Fl} {v : Fl} {c : Nat} (h : InBin edges v c) : c < edges.length := by
  obtain ⟨-, lo, hi, -, h2, -⟩ := h
  exact (List.getElem?_eq_some_iff.1 h2).1

/-- with different edges a value lies in one bin only -/
theorem inBin_unique {edges : List Fl} (h : Ascending edges) (hn : edges.Nodup) {v : Fl} {c d : Nat}
    (hc : InBin edges v c) (hd : InBin edges v d) : c = d := by
  have key : ∀ {c d : Nat}, InBin edges v c → InBin edges v d → ¬ c < d := by
    rintro c d ⟨hc1, lo, hi, hlo, hhi, hv, -⟩ ⟨hd1, lo', hi', hlo', hhi', hv', hl'⟩ hlt
    rcases hl' with hl' | ⟨h1, -⟩
    · obtain ⟨a1, rfl⟩ := List.getElem?_eq_some_iff.1 hhi
      obtain ⟨a2, rfl⟩ := List.getElem?_eq_some_iff.1 hlo'
      have hle : (edges[c]'a1).le (edges[d - 1]'a2) = true := by
        rcases Nat.lt_or_ge c (d - 1) with hx | hx
        · exact List.pairwise_iff_getElem.1 h c (d - 1) a1 a2 hx
        · have : c = d - 1 := by omega
          subst this
          exact Fl.le_self (Fl.le_notnan hv).2
      have := Fl.lt_of_lt_le (Fl.lt_of_le_lt hle hl') hv
      rw [Fl.lt_self] at this
      cases this
    · omega
  rcases Nat.lt_trichotomy c d with h' | h' | h'
  · exact absurd h' (key hc hd)
  · exact h'
  · exact absurd h' (key hd hc)

theorem checkEdges_spec {edges e : List Fl} {drop : Bool} (h : checkEdges edges drop = .ok e) (ha : Ascending edges) :
    Ascending e ∧ (∀ a, a ∈ e ↔ a ∈ edges) ∧ (e.Nodup ∨ (e = edges ∧ edges.length = 2)) := by
  unfold checkEdges at h
  split at h
  · rename_i hc
    cases drop with
    | false => simp at h
    | true =>
      simp only [↓reduceIte, Except.ok.injEq] at h
      subst h
      exact ⟨List.Pairwise.sublist (List.dedup_sublist _) ha, fun a => List.mem_dedup, Or.inl (List.nodup_dedup _)⟩
  · rename_i hc
    injection h with h
    subst h
    refine ⟨ha, fun a => Iff.rfl, ?_⟩
    by_cases h2 : edges.length = 2
    · exact Or.inr ⟨rfl, h2⟩
    · left
      have hle : ¬ (uniqueEdges edges).length < edges.length := fun hlt => hc ⟨hlt, h2⟩
      have := List.Sublist.eq_of_length_le (List.dedup_sublist edges) (by
        unfold uniqueEdges at hle; omega)
      rw [← this]; exact List.nodup_dedup _

theorem checkEdges_nodup {edges : List Fl} (drop : Bool) (h : edges.Nodup) : checkEdges edges drop = .ok edges := by
  unfold checkEdges uniqueEdges
  rw [List.dedup_eq_self.2 h, if_neg (by simp)]

theorem formatLabels_get {L : Type} (rnd : Nat → Fl → Fl) (edges : List Fl) (precision : Nat) (b : Bool) (c : Nat)
    (h1 : 1 ≤ c) (h2 : c < edges.length) :
    (formatLabels (L := L) rnd edges precision b)[c - 1 + (if b then 1 else 0)]? = binLabel rnd edges precision .auto c := by
  unfold formatLabels binLabel
  have e1 : edges[c - 1]? = some (edges[c - 1]'(by omega)) := List.getElem?_eq_getElem _
  have e2 : edges[c]? = some (edges[c]'h2) := List.getElem?_eq_getElem _
  simp only [e1, e2]
  have hz : ((edges.map (rnd (inferPrecision rnd precision edges))).zip
      (edges.map (rnd (inferPrecision rnd precision edges))).tail)[c - 1]? =
      some (rnd (inferPrecision rnd precision edges) (edges[c - 1]'(by omega)),
        rnd (inferPrecision rnd precision edges) (edges[c]'h2)) := by
    rw [List.getElem?_zip_eq_some]
    constructor
    · rw [List.getElem?_map, e1]; rfl
    · rw [List.getElem?_tail, show c - 1 + 1 = c by omega, List.getElem?_map, e2]; rfl
  cases b with
  | false => simp [hz]
  | true => simp [hz]

theorem makeLabels_get {L : Type} {rnd : Nat → Fl → Fl} {edges : List Fl} {precision : Nat} {b : Bool}
    {labels : Labels L} {ls : Option (List (Label L))} (h : makeLabels rnd edges precision b labels = .ok ls)
    (codes : List Nat) {c : Nat} (h1 : 1 ≤ c) (h2 : c < edges.length) :
    labelOf ⟨codes, edges, ls⟩ (c + (if b then 1 else 0)) = binLabel rnd edges precision labels c := by
  unfold labelOf
  cases labels with
  | none => simp only [makeLabels, Except.ok.injEq] at h; subst h; rfl
  | auto =>
    simp only [makeLabels, Except.ok.injEq] at h
    subst h
    simp only
    rw [if_neg (by omega)]
    have := formatLabels_get (L := L) rnd edges precision b c h1 h2
    rw [← this]
    congr 1
    cases b <;> simp; omega
  | given l =>
    simp only [makeLabels] at h
    split at h
    · cases h
    · injection h with h
      subst h
      simp only
      rw [if_neg (by omega)]
      cases b with
      | false => simp [binLabel]
      | true =>
        obtain ⟨d, rfl⟩ : ∃ d, c = d + 1 := ⟨c - 1, by omega⟩
        simp [binLabel]

theorem makeLabels_clipped {L : Type} {rnd : Nat → Fl → Fl} {edges : List Fl} {precision : Nat}
    {labels : Labels L} {ls : List (Label L)} (h : makeLabels rnd edges precision true labels = .ok (some ls))
    (codes : List Nat) : labelOf ⟨codes, edges, some ls⟩ 1 = some .clipped := by
  unfold labelOf
  cases labels with
  | none => simp [makeLabels] at h
  | auto =>
    simp only [makeLabels, Except.ok.injEq, Option.some.injEq] at h
    subst h; simp [formatLabels]
  | given l =>
    simp only [makeLabels] at h
    split at h
    · cases h
    · simp only [↓reduceIte, Except.ok.injEq, Option.some.injEq] at h
      subst h; simp

theorem applyFilter_pass {x : List Fl} {filter : Option (List Bool)} {i : Nat} {v : Fl} (hx : x[i]? = some v)
    (hp : Passes filter i) : (applyFilter x filter)[i]? = some v := by
  cases filter with
  | none => exact hx
  | some f =>
    have := hp f rfl
    simp [applyFilter, List.getElem?_zipWith, hx, this]

theorem applyFilter_block {x : List Fl} {f : List Bool} {i : Nat} {v : Fl} (hx : x[i]? = some v)
    (hf : f[i]? = some false) : (applyFilter x (some f))[i]? = some .nan := by
  simp [applyFilter, List.getElem?_zipWith, hx, hf]

theorem ascending_of_check {l : List Fl} (hn : ∀ e ∈ l, e ≠ .nan)
    (h : ((l.zip l.tail).any fun p => p.2.lt p.1) = false) : Ascending l := by
  induction l with
  | nil => exact List.Pairwise.nil
  | cons a l ih =>
    cases l with
    | nil => exact List.pairwise_singleton _ _
    | cons b t =>
      have h' : (b.lt a = false) ∧ (((b :: t).zip (b :: t).tail).any fun p => p.2.lt p.1) = false := by
        simpa [List.any_cons] using h
      have hb := ih (fun e he => hn e (List.mem_cons_of_mem _ he)) h'.2
      have hab : a.le b = true := Fl.le_of_not_lt (hn b (by simp)) (hn a (by simp)) h'.1
      refine List.pairwise_cons.2 ⟨?_, hb⟩
      intro e he
      rcases List.mem_cons.1 he with rfl | he
      · exact hab
      · exact Fl.le_trans hab ((List.pairwise_cons.1 hb).1 e he)

/-! ## `linspace` -/

theorem linspace_get (mn mx : Rat) (k i : Nat) (h : i ≤ k) :
    (linspace mn mx k)[i]? = some (.fin (mn + i * ((mx - mn) / k))) := by
  unfold linspace
  rw [List.getElem?_map, List.getElem?_range (by omega)]; rfl

theorem linspace_length (mn mx : Rat) (k : Nat) : (linspace mn mx k).length = k + 1 := by simp [linspace]

theorem linspace_lt {mn mx : Rat} {k : Nat} (hk : 1 ≤ k) (h : mn < mx) :
    (linspace mn mx k).Pairwise fun a b => a.lt b = true := by
  unfold linspace
  rw [List.pairwise_map]
  have hkp : (0 : Rat) < k := by exact_mod_cast hk
  have hd : 0 < (mx - mn) / k := div_pos (by linarith) hkp
  refine List.pairwise_lt_range.imp ?_
  intro a b hab
  have hab' : (a : Rat) < b := by exact_mod_cast hab
  simp only [Fl.lt, Fl.le, Bool.not_eq_eq_eq_not, Bool.not_true, decide_eq_false_iff_not, not_le, add_lt_add_iff_left]
  exact mul_lt_mul_of_pos_right hab' hd

theorem linspace_asc {mn mx : Rat} {k : Nat} (hk : 1 ≤ k) (h : mn < mx) : Ascending (linspace mn mx k) :=
  (linspace_lt hk h).imp Fl.lt_le

theorem linspace_nodup {mn mx : Rat} {k : Nat} (hk : 1 ≤ k) (h : mn < mx) : (linspace mn mx k).Nodup :=
  (linspace_lt hk h).imp fun {a b} hab e => by
    subst e; rw [Fl.lt_self] at hab; cases hab

theorem widen_lt (m : Rat) : widen m false < m ∧ m < widen m true := by
  unfold widen
  have : (0 : Rat) < (if m ≠ 0 then |m| / 1000 else 1 / 1000) := by
    split
    · rename_i h
      have := abs_pos.2 h
      positivity
    · norm_num
  simp only [Bool.false_eq_true, ↓reduceIte]
  constructor <;> linarith

theorem minR_spec {l : List Rat} (h : l ≠ []) : ∃ m, minR l = some m ∧ m ∈ l ∧ ∀ v ∈ l, m ≤ v := by
  unfold minR
  have key : ∀ (l : List Rat) (a : Rat), ∃ m, l.foldl (fun m v => match m with | none => some v | some a => some (min a v)) (some a) = some m ∧
      (m = a ∨ m ∈ l) ∧ m ≤ a ∧ ∀ v ∈ l, m ≤ v := by
    intro l
    induction l with
    | nil => intro a; exact ⟨a, rfl, Or.inl rfl, le_rfl, by simp⟩
    | cons b l ih =>
      intro a
      obtain ⟨m, h1, h2, h3, h4⟩ := ih (min a b)
      refine ⟨m, h1, ?_, h3.trans (min_le_left _ _), ?_⟩
      · rcases h2 with h2 | h2
        · rcases min_choice a b with e | e
          · left; rw [h2, e]
          · right; rw [h2, e]; simp
        · right; exact List.mem_cons_of_mem _ h2
      · intro v hv
        rcases List.mem_cons.1 hv with rfl | hv
        · exact h3.trans (min_le_right _ _)
        · exact h4 v hv
  cases l with
  | nil => exact absurd rfl h
  | cons a l =>
    obtain ⟨m, h1, h2, h3, h4⟩ := key l a
    refine ⟨m, h1, ?_, ?_⟩
    · rcases h2 with rfl | h2
      · simp
      · exact List.mem_cons_of_mem _ h2
    · intro v hv
      rcases List.mem_cons.1 hv with rfl | hv
      · exact h3
      · exact h4 v hv

theorem maxR_spec {l : List Rat} (h : l ≠ []) : ∃ m, maxR l = some m ∧ m ∈ l ∧ ∀ v ∈ l, v ≤ m := by
  unfold maxR
  have key : ∀ (l : List Rat) (a : Rat), ∃ m, l.foldl (fun m v => match m with | none => some v | some a => some (max a v)) (some a) = some m ∧
      (m = a ∨ m ∈ l) ∧ a ≤ m ∧ ∀ v ∈ l, v ≤ m := by
    intro l
    induction l with
    | nil => intro a; exact ⟨a, rfl, Or.inl rfl, le_rfl, by simp⟩
    | cons b l ih =>
      intro a
      obtain ⟨m, h1, h2, h3, h4⟩ := ih (max a b)
      refine ⟨m, h1, ?_, (le_max_left _ _).trans h3, ?_⟩
      · rcases h2 with h2 | h2
        · rcases max_choice a b with e | e
          · left; rw [h2, e]
          · right; rw [h2, e]; simp
        · right; exact List.mem_cons_of_mem _ h2
      · intro v hv
        rcases List.mem_cons.1 hv with rfl | hv
        · exact (le_max_right _ _).trans h3
        · exact h4 v hv
  cases l with
  | nil => exact absurd rfl h
  | cons a l =>
    obtain ⟨m, h1, h2, h3, h4⟩ := key l a
    refine ⟨m, h1, ?_, ?_⟩
    · rcases h2 with rfl | h2
      · simp
      · exact List.mem_cons_of_mem _ h2
    · intro v hv
      rcases List.mem_cons.1 hv with rfl | hv
      · exact h3
      · exact h4 v hv

/-- equal-width edges around all finite values -/
theorem cutEdges_count {x : List Fl} {k : Nat} (hk : 1 ≤ k) (hf : finites x ≠ []) (hi : infCount x + ninfCount x = 0) :
    ∃ mn mx, cutEdges x (.count k) = .ok (linspace mn mx k) ∧ mn < mx ∧ (∀ v ∈ finites x, mn ≤ v ∧ v ≤ mx) ∧
      ((∃ u ∈ finites x, ∃ w ∈ finites x, u ≠ w) → mn ∈ finites x ∧ mx ∈ finites x) := by
  obtain ⟨a, ha, ham, hal⟩ := minR_spec hf
  obtain ⟨b, hb, hbm, hbl⟩ := maxR_spec hf
  have hx : x.length ≠ 0 := by
    intro h0
    have : x = [] := List.length_eq_zero_iff.1 h0
    subst this; exact hf rfl
  have hab : a ≤ b := hal b hbm
  by_cases e : a = b
  · refine ⟨widen a false, widen b true, ?_, ?_, ?_, ?_⟩
    · simp only [cutEdges]
      rw [if_neg (by omega), if_neg hx, if_neg (by omega), ha, hb]
      simp [e]
    · subst e; exact (widen_lt a).1.trans (widen_lt a).2
    · intro v hv
      exact ⟨(widen_lt a).1.le.trans (hal v hv), (hbl v hv).trans (widen_lt b).2.le⟩
    · rintro ⟨u, hu, w, hw, hne⟩
      exfalso
      subst e
      have h1 := _root_.le_antisymm (hbl u hu) (hal u hu)
      have h2 := _root_.le_antisymm (hbl w hw) (hal w hw)
      exact hne (h1.trans h2.symm)
  · refine ⟨a, b, ?_, lt_of_le_of_ne hab e, fun v hv => ⟨hal v hv, hbl v hv⟩, fun _ => ⟨ham, hbm⟩⟩
    simp only [cutEdges]
    rw [if_neg (by omega), if_neg hx, if_neg (by omega), ha, hb]
    simp [e]

/-! ## C63 `cut` -/

theorem cut_parts {L : Type} {rnd : Nat → Fl → Fl} {x : List Fl} {bins : Bins} {labels : Labels L} {right : Bool}
    {precision : Nat} {filter : Option (List Bool)} {drop : Bool} {r : Cut L}
    (h : cut rnd x bins labels right precision filter drop = .ok r) :
    ∃ e ls, cutEdges (applyFilter x filter) bins = .ok e ∧ checkEdges e drop = .ok r.edges ∧
      makeLabels rnd r.edges precision false labels = .ok ls ∧
      r = ⟨(applyFilter x filter).map (cutSearch right r.edges), r.edges, ls⟩ := by
  unfold cut at h
  simp only at h
  split at h
  · cases h
  · rename_i e he
    split at h
    · cases h
    · rename_i e' he'
      split at h
      · cases h
      · rename_i ls hls
        injection h with h
        subst h
        exact ⟨e, ls, he, he', hls, rfl⟩

/-- C63.  `cut` with given edges (at least two different ones left) and the default `right`: the
edges are the given ones in ascending order; a value that passes the filter gets the bin it lies
in, with the label of that bin; NaN, values outside the edges and rows that do not pass the filter
are filtered. -/
theorem cut_correct {L : Type} (rnd : Nat → Fl → Fl) (x edges : List Fl) (labels : Labels L) (precision : Nat)
    (filter : Option (List Bool)) (drop : Bool) (r : Cut L)
    (h : cut rnd x (.edges edges) labels true precision filter drop = .ok r)
    (hn : ∀ e ∈ edges, e ≠ .nan) (h2 : 2 ≤ r.edges.length) :
    Ascending r.edges ∧ (∀ e, e ∈ r.edges ↔ e ∈ edges) ∧ (r.edges.Nodup ∨ r.edges = edges) ∧
    (∀ (i : Nat) (v : Fl), x[i]? = some v → Passes filter i →
      (Outside r.edges v ∧ r.codes[i]? = some 0) ∨
      ∃ c, r.codes[i]? = some c ∧ InBin r.edges v c ∧ labelOf r c = binLabel rnd r.edges precision labels c) ∧
    (∀ (i : Nat) (v : Fl) (f : List Bool), x[i]? = some v → filter = some f → f[i]? = some false →
      r.codes[i]? = some 0) := by
  obtain ⟨e, ls, he, hc, hl, hr⟩ := cut_parts h
  have hasc : Ascending e ∧ e = edges := by
    simp only [cutEdges] at he
    split at he
    · cases he
    · rename_i hany
      injection he with he
      subst he
      exact ⟨ascending_of_check hn (by simpa using hany), rfl⟩
  obtain ⟨ha, rfl⟩ := hasc
  obtain ⟨a1, a2, a3⟩ := checkEdges_spec hc ha
  have hcodes : ∀ (i : Nat) (v : Fl), (applyFilter x filter)[i]? = some v → r.codes[i]? = some (cutSearch true r.edges v) := by
    intro i v hv
    rw [hr]
    simp [hv]
  refine ⟨a1, a2, a3.imp id (fun h => h.1), ?_, ?_⟩
  · intro i v hv hp
    have := hcodes i v (applyFilter_pass hv hp)
    by_cases ho : Outside r.edges v
    · left; rw [this, cutSearch_outside ho]; exact ⟨ho, rfl⟩
    · right
      have hin := cutSearch_inside a1 h2 ho
      refine ⟨_, this, hin, ?_⟩
      have := makeLabels_get hl ((applyFilter x filter).map (cutSearch true r.edges)) hin.1 (inBin_lt hin)
      rw [← hr] at this
      exact this
  · intro i v f hv hf hb
    subst hf
    rw [hcodes i .nan (applyFilter_block hv hb), cutSearch_outside (Or.inl rfl)]

/-- C63.  `cut` with a number of bins: that many bins of equal width from the smallest to the
largest value, and every number that passes the filter is in one of them. -/
theorem cut_count_correct {L : Type} (rnd : Nat → Fl → Fl) (x : List Fl) (k : Nat) (hk : 1 ≤ k) (precision : Nat)
    (filter : Option (List Bool)) (drop : Bool) (hf : finites (applyFilter x filter) ≠ [])
    (hi : Fl.pinf ∉ applyFilter x filter ∧ Fl.ninf ∉ applyFilter x filter) :
    ∃ (r : Cut L) (mn mx : Rat), cut rnd x (.count k) .auto true precision filter drop = .ok r ∧ mn < mx ∧
      r.edges.length = k + 1 ∧
      (∀ i : Nat, i ≤ k → r.edges[i]? = some (.fin (mn + i * ((mx - mn) / k)))) ∧
      ((∃ u ∈ finites (applyFilter x filter), ∃ w ∈ finites (applyFilter x filter), u ≠ w) →
        mn ∈ finites (applyFilter x filter) ∧ mx ∈ finites (applyFilter x filter)) ∧
      (∀ (i : Nat) (v : Rat), x[i]? = some (.fin v) → Passes filter i → mn ≤ v ∧ v ≤ mx ∧
        ∃ c, r.codes[i]? = some c ∧ 1 ≤ c ∧ c ≤ k ∧ InBin r.edges (.fin v) c ∧
          labelOf r c = binLabel rnd r.edges precision .auto c) := by
  have hi' : infCount (applyFilter x filter) + ninfCount (applyFilter x filter) = 0 := by
    unfold infCount ninfCount
    rw [List.countP_eq_zero.2, List.countP_eq_zero.2]
    · intro a ha; simp; rintro rfl; exact hi.2 ha
    · intro a ha; simp; rintro rfl; exact hi.1 ha
  obtain ⟨mn, mx, he, hlt, hall, hmm⟩ := cutEdges_count hk hf hi'
  have hasc := linspace_asc hk hlt
  have hlen := linspace_length mn mx k
  refine ⟨⟨(applyFilter x filter).map (cutSearch true (linspace mn mx k)), linspace mn mx k,
    some (formatLabels rnd (linspace mn mx k) precision false)⟩, mn, mx, ?_, hlt, hlen,
    fun i h => linspace_get mn mx k i h, hmm, ?_⟩
  · unfold cut
    simp [he, checkEdges_nodup drop (linspace_nodup hk hlt), makeLabels]
  · intro i v hv hp
    have hv' := applyFilter_pass hv hp
    have hm : v ∈ finites (applyFilter x filter) := mem_finites.2 (List.mem_of_getElem? hv')
    obtain ⟨b1, b2⟩ := hall v hm
    have hno : ¬ Outside (linspace mn mx k) (.fin v) := by
      rintro (h | ⟨e, he, hl⟩ | ⟨e, he, hl⟩)
      · cases h
      · rw [List.head?_eq_getElem?, linspace_get mn mx k 0 (by omega)] at he
        injection he with he
        subst he
        simp [Fl.lt, Fl.le] at hl
        linarith
      · rw [List.getLast?_eq_getElem?, hlen, show k + 1 - 1 = k by omega, linspace_get mn mx k k le_rfl] at he
        injection he with he
        subst he
        have hkp : (k : Rat) ≠ 0 := by positivity
        have : mn + k * ((mx - mn) / k) = mx := by field_simp; ring
        rw [this] at hl
        simp [Fl.lt, Fl.le] at hl
        linarith
    have hin := cutSearch_inside hasc (by omega) hno
    refine ⟨b1, b2, cutSearch true (linspace mn mx k) (.fin v), by simp [hv'], hin.1, ?_, hin, ?_⟩
    · have := inBin_lt hin; omega
    · exact makeLabels_get (b := false) (labels := .auto) (by rfl) _ hin.1 (inBin_lt hin)

/-- C63: what `cut` refuses -/
theorem cut_refuses {L : Type} (rnd : Nat → Fl → Fl) (x : List Fl) (labels : Labels L) (right : Bool) (precision : Nat)
    (filter : Option (List Bool)) (drop : Bool) :
    (∀ (edges : List Fl) (i : Nat) (a b : Fl), edges[i]? = some a → edges[i + 1]? = some b → b.lt a = true →
      ∃ e, cut rnd x (.edges edges) labels right precision filter drop = .error e) ∧
    (∀ k : Int, k < 1 → ∃ e, cut rnd x (.count k) labels right precision filter drop = .error e) ∧
    (∀ edges : List Fl, ¬ edges.Nodup → edges.length ≠ 2 →
      ∃ e, cut rnd x (.edges edges) labels right precision filter false = .error e) ∧
    (∀ (edges : List Fl) (l : List L), l.length + 1 ≠ edges.length → edges ≠ [] →
      ∃ e, cut rnd x (.edges edges) (.given l) right precision filter false = .error e) := by
  refine ⟨?_, ?_, ?_, ?_⟩
  · intro edges i a b ha hb hlt
    have : ((edges.zip edges.tail).any fun p => p.2.lt p.1) = true := by
      rw [List.any_eq_true]
      refine ⟨(a, b), ?_, hlt⟩
      apply List.mem_of_getElem? (i := i)
      rw [List.getElem?_zip_eq_some]
      exact ⟨ha, by rw [List.getElem?_tail]; exact hb⟩
    unfold cut
    simp [cutEdges, this]
  · intro k hk
    unfold cut
    simp [cutEdges, hk]
  · intro edges hd h2
    have hlt : (uniqueEdges edges).length < edges.length := by
      by_contra hc
      have := List.Sublist.eq_of_length_le (List.dedup_sublist edges) (by unfold uniqueEdges at hc; omega)
      exact hd (by rw [← this]; exact List.nodup_dedup _)
    unfold cut cutEdges
    simp only
    split
    · exact ⟨_, rfl⟩
    · rename_i e he
      split at he
      · cases he
      · injection he with he
        subst he
        simp [checkEdges, hlt, h2]
  · intro edges l hl hne
    cases hc : cut rnd x (.edges edges) (.given l) right precision filter false with
    | error e => exact ⟨e, rfl⟩
    | ok r =>
      exfalso
      obtain ⟨e, ls, he, hce, hml, -⟩ := cut_parts hc
      have hee : e = edges := by
        unfold cutEdges at he
        simp only at he
        split at he
        · cases he
        · injection he with he; exact he.symm
      subst hee
      have hre : r.edges = e := by
        unfold checkEdges at hce
        split at hce
        · simp at hce
        · injection hce with hce; exact hce.symm
      rw [hre] at hml
      simp only [makeLabels] at hml
      split at hml
      · cases hml
      · rename_i hx
        have : e.length ≠ 0 := by simpa using hne
        omega

/-- two equal edges are accepted though duplicates should raise -/
theorem cut_duplicates_counterexample :
    ¬ ∀ (x edges : List Fl), ¬ edges.Nodup →
      ∃ e, cut (L := Nat) (fun _ v => v) x (.edges edges) .auto true 3 none false = .error e := by
  intro h
  obtain ⟨e, he⟩ := h [.fin 1] [.fin 1, .fin 1] (by decide)
  simp [cut, cutEdges, checkEdges, makeLabels, applyFilter, Fl.lt, Fl.le] at he

/-- `right=False`: the value 1 is an upper edge of bin 1, and values above the last edge get a bin
number without a label -/
theorem cut_right_false_counterexample :
    (∃ r : Cut Nat, cut (fun _ v => v) [.fin 1, .fin 5] (.edges [.fin 0, .fin 1, .fin 2]) .auto false 3 none false = .ok r ∧
      r.codes = [1, 3] ∧ labelOf r 3 = none) := by
  refine ⟨_, rfl, by decide +kernel, by decide +kernel⟩

example : ∃ r : Cut Nat, cut (fun _ v => v) [.fin (-1), .fin 0, .fin 1, .fin 2, .fin 3, .nan, .pinf]
    (.edges [.fin 0, .fin 1, .fin 2]) (.given [7, 8]) true 3 none false = .ok r ∧ 2 ≤ r.edges.length ∧
    r.codes = [0, 1, 1, 2, 0, 0, 0] := ⟨_, rfl, by decide, by decide +kernel⟩

/-! ## C64 `qcut` -/

theorem fractions_count {k : Nat} (hk : 1 ≤ k) :
    (fractions (.count k)).Pairwise (· ≤ ·) ∧ (∀ p ∈ fractions (.count k), 0 ≤ p ∧ p ≤ 1) ∧
    0 ∈ fractions (.count k) ∧ 1 ∈ fractions (.count k) := by
  have hkp : (0 : Rat) < k := by exact_mod_cast hk
  unfold fractions
  refine ⟨?_, ?_, ?_, ?_⟩
  · rw [List.pairwise_map]
    refine List.pairwise_lt_range.imp ?_
    intro a b h
    have : (a : Rat) ≤ b := by exact_mod_cast h.le
    exact div_le_div_of_nonneg_right this hkp.le
  · intro p hp
    obtain ⟨i, hi, rfl⟩ := List.mem_map.1 hp
    have hik : i ≤ k := by simp at hi; omega
    have : (i : Rat) ≤ k := by exact_mod_cast hik
    exact ⟨by positivity, (div_le_one hkp).2 this⟩
  · exact List.mem_map.2 ⟨0, by simp, by simp⟩
  · exact List.mem_map.2 ⟨k, by simp, by field_simp⟩

theorem qcut_parts {L : Type} {rnd : Nat → Fl → Fl} {special : Fl → Nat} {lex : List Fl → List Nat} {x : List Fl}
    {q : Quants} {labels : Labels L} {precision : Nat} {filter : Option (List Bool)} {drop : Bool} {r : Cut L}
    (h : qcut rnd special lex x q labels precision filter drop = .ok r) :
    ∃ e ls, quantile .fraction (applyFilter x filter) (lex (applyFilter x filter)) (fractions q) = .ok e ∧
      checkEdges e drop = .ok r.edges ∧ makeLabels rnd r.edges precision true labels = .ok ls ∧
      r = ⟨(applyFilter x filter).map (cutSorted special r.edges), r.edges, ls⟩ := by
  unfold qcut at h
  simp only at h
  split at h
  · cases h
  · rename_i e he
    split at h
    · cases h
    · rename_i e' he'
      split at h
      · cases h
      · rename_i ls hls
        injection h with h
        subst h
        exact ⟨e, ls, he, he', hls, rfl⟩

/-- the quantiles of ascending fractions are ascending edges -/
theorem quantile_ascending {x : List Fl} {ls : List Nat} (h : IsLexsort x ls) (hf : finites x ≠ []) {q : List Rat}
    (hq : q.Pairwise (· ≤ ·)) (h01 : ∀ p ∈ q, 0 ≤ p ∧ p ≤ 1) {e : List Fl} (he : quantile .fraction x ls q = .ok e) :
    Ascending e ∧ e.length = q.length ∧
      ∀ (i : Nat) (p : Rat), q[i]? = some p → ∃ y, e[i]? = some (.fin y) ∧ IsQuantile (finites x) p y := by
  obtain ⟨out, ho, hlen, hget⟩ := binQuantile_correct x ls h q h01
  rw [he] at ho
  injection ho with ho
  subst ho
  have hget' : ∀ (i : Nat) (p : Rat), q[i]? = some p → ∃ y, e[i]? = some (.fin y) ∧ IsQuantile (finites x) p y := by
    intro i p hp
    rcases hget i p hp with ⟨h0, -⟩ | h1
    · exact absurd h0 hf
    · exact h1
  refine ⟨?_, hlen, hget'⟩
  unfold Ascending
  rw [List.pairwise_iff_getElem]
  intro i j hi hj hij
  obtain ⟨y, hy, hY⟩ := hget' i _ (List.getElem?_eq_getElem (by omega))
  obtain ⟨z, hz, hZ⟩ := hget' j _ (List.getElem?_eq_getElem (by omega))
  have e1 : e[i] = .fin y := by
    rw [List.getElem?_eq_getElem hi] at hy; injection hy
  have e2 : e[j] = .fin z := by
    rw [List.getElem?_eq_getElem hj] at hz; injection hz
  rw [e1, e2]
  have := isQuantile_mono hf (List.pairwise_iff_getElem.1 hq i j (by omega) (by omega) hij) hY hZ
  simpa [Fl.le] using this

/-- C64.  `qcut`: the edges are the quantiles of the finite values that pass the filter; a number
that passes the filter and lies between the edges has the label of the bin it lies in, one outside
has the label `Clipped`. -/
theorem qcut_correct {L : Type} (rnd : Nat → Fl → Fl) (special : Fl → Nat) (lex : List Fl → List Nat)
    (hlex : ∀ x, IsLexsort x (lex x)) (x : List Fl) (q : Quants) (labels : Labels L) (precision : Nat)
    (filter : Option (List Bool)) (drop : Bool) (r : Cut L)
    (h : qcut rnd special lex x q labels precision filter drop = .ok r)
    (hq : (fractions q).Pairwise (· ≤ ·)) (h01 : ∀ p ∈ fractions q, 0 ≤ p ∧ p ≤ 1)
    (hf : finites (applyFilter x filter) ≠ []) (h2 : 2 ≤ r.edges.length) :
    Ascending r.edges ∧
    (∀ p ∈ fractions q, ∃ y, .fin y ∈ r.edges ∧ IsQuantile (finites (applyFilter x filter)) p y) ∧
    (∀ e ∈ r.edges, ∃ p ∈ fractions q, ∃ y, e = .fin y ∧ IsQuantile (finites (applyFilter x filter)) p y) ∧
    (∀ (i : Nat) (v : Rat), x[i]? = some (.fin v) → Passes filter i →
      (Outside r.edges (.fin v) ∧ r.codes[i]? = some 1 ∧ (r.labels ≠ none → labelOf r 1 = some .clipped)) ∨
      ∃ c, r.codes[i]? = some (c + 1) ∧ InBin r.edges (.fin v) c ∧
        labelOf r (c + 1) = binLabel rnd r.edges precision labels c) := by
  obtain ⟨e, ls, he, hc, hl, hr⟩ := qcut_parts h
  obtain ⟨ha, hlen, hget⟩ := quantile_ascending (hlex _) hf hq h01 he
  obtain ⟨a1, a2, a3⟩ := checkEdges_spec hc ha
  refine ⟨a1, ?_, ?_, ?_⟩
  · intro p hp
    obtain ⟨i, hi⟩ := List.getElem?_of_mem hp
    obtain ⟨y, hy, hY⟩ := hget i p hi
    exact ⟨y, (a2 _).2 (List.mem_of_getElem? hy), hY⟩
  · intro ed hed
    obtain ⟨i, hi⟩ := List.getElem?_of_mem ((a2 _).1 hed)
    have hil := (List.getElem?_eq_some_iff.1 hi).1
    have hqi := List.getElem?_eq_getElem (l := fractions q) (i := i) (by omega)
    obtain ⟨y, hy, hY⟩ := hget i _ hqi
    refine ⟨_, List.mem_of_getElem? hqi, y, ?_, hY⟩
    rw [hi] at hy; injection hy
  · intro i v hv hp
    have hcode : r.codes[i]? = some (cutSearch true r.edges (.fin v) + 1) := by
      rw [hr]
      simp [applyFilter_pass hv hp, cutSorted]
    by_cases ho : Outside r.edges (.fin v)
    · left
      rw [hcode, cutSearch_outside ho]
      refine ⟨ho, rfl, ?_⟩
      intro hne
      cases ls with
      | none => rw [hr] at hne; exact absurd rfl hne
      | some ls =>
        have := makeLabels_clipped hl ((applyFilter x filter).map (cutSorted special r.edges))
        rw [← hr] at this
        exact this
    · right
      have hin := cutSearch_inside a1 h2 ho
      refine ⟨_, hcode, hin, ?_⟩
      have := makeLabels_get hl ((applyFilter x filter).map (cutSorted special r.edges)) hin.1 (inBin_lt hin)
      rw [← hr] at this
      exact this

/-- C64.  `qcut` into a number of bins never clips a number that passes the filter. -/
theorem qcut_count_correct {L : Type} (rnd : Nat → Fl → Fl) (special : Fl → Nat) (lex : List Fl → List Nat)
    (hlex : ∀ x, IsLexsort x (lex x)) (x : List Fl) (k : Nat) (hk : 1 ≤ k) (labels : Labels L) (precision : Nat)
    (filter : Option (List Bool)) (drop : Bool) (r : Cut L)
    (h : qcut rnd special lex x (.count k) labels precision filter drop = .ok r)
    (h2 : 2 ≤ r.edges.length) (i : Nat) (v : Rat) (hv : x[i]? = some (.fin v)) (hp : Passes filter i) :
    ∃ c, r.codes[i]? = some (c + 1) ∧ InBin r.edges (.fin v) c ∧
      labelOf r (c + 1) = binLabel rnd r.edges precision labels c := by
  obtain ⟨f1, f2, f3, f4⟩ := fractions_count hk
  have hm : v ∈ finites (applyFilter x filter) := mem_finites.2 (List.mem_of_getElem? (applyFilter_pass hv hp))
  have hf : finites (applyFilter x filter) ≠ [] := fun e => by rw [e] at hm; cases hm
  obtain ⟨a1, a2, -, a4⟩ := qcut_correct rnd special lex hlex x (.count k) labels precision filter drop r h f1 f2 hf h2
  rcases a4 i v hv hp with ⟨ho, -⟩ | h
  · exfalso
    obtain ⟨y0, hy0, hq0⟩ := a2 0 f3
    obtain ⟨y1, hy1, hq1⟩ := a2 1 f4
    have b0 := isQuantile_zero hq0 v hm
    have b1 := isQuantile_one hq1 v hm
    rcases ho with h | ⟨e, he, hl⟩ | ⟨e, he, hl⟩
    · cases h
    · have hle : e.le (.fin y0) = true := by
        obtain ⟨j, hj⟩ := List.getElem?_of_mem hy0
        rw [List.head?_eq_getElem?] at he
        obtain ⟨j', rfl | hj'⟩ : ∃ j', j = 0 ∨ 0 < j := ⟨0, by omega⟩
        · rw [hj] at he; injection he with he; subst he; simp [Fl.le]
        · obtain ⟨u1, rfl⟩ := List.getElem?_eq_some_iff.1 he
          obtain ⟨u2, u3⟩ := List.getElem?_eq_some_iff.1 hj
          rw [← u3]
          exact List.pairwise_iff_getElem.1 a1 0 j u1 u2 hj'
      have := Fl.lt_of_lt_le hl hle
      simp [Fl.lt, Fl.le] at this
      linarith
    · have hle : (Fl.fin y1).le e = true := by
        obtain ⟨j, hj⟩ := List.getElem?_of_mem hy1
        rw [List.getLast?_eq_getElem?] at he
        obtain ⟨u2, u3⟩ := List.getElem?_eq_some_iff.1 hj
        obtain ⟨u1, u4⟩ := List.getElem?_eq_some_iff.1 he
        rcases Nat.lt_or_ge j (r.edges.length - 1) with hlt | hge
        · rw [← u3, ← u4]
          exact List.pairwise_iff_getElem.1 a1 j _ u2 u1 hlt
        · have : j = r.edges.length - 1 := by omega
          subst this
          rw [hj] at he; injection he with he; subst he; simp [Fl.le]
      have := Fl.lt_of_le_lt hle hl
      simp [Fl.lt, Fl.le] at this
      linarith
  · exact h

/-- C64: with labels made from the edges and `duplicates="drop"`, `qcut` never raises -/
theorem qcut_drop_ok {L : Type} (rnd : Nat → Fl → Fl) (special : Fl → Nat) (lex : List Fl → List Nat)
    (hlex : ∀ x, IsLexsort x (lex x)) (x : List Fl) (k : Nat) (hk : 1 ≤ k) (precision : Nat)
    (filter : Option (List Bool)) :
    ∃ r : Cut L, qcut rnd special lex x (.count k) .auto precision filter true = .ok r := by
  obtain ⟨f1, f2, -, -⟩ := fractions_count hk
  obtain ⟨out, ho, -, -⟩ := binQuantile_correct (applyFilter x filter) _ (hlex _) (fractions (.count k)) f2
  unfold qcut
  simp only [ho, checkEdges]
  split <;> simp_all [makeLabels]
  rename_i heq
  split at heq <;> simp at heq

instance (a b : Fl) : Decidable (leSort a b) := by
  cases a <;> cases b <;> unfold leSort <;> infer_instance

/-- a sort that meets the contract -/
def exLex (x : List Fl) : List Nat :=
  List.insertionSort (fun (i j : Nat) => leSort (x.getD i .nan) (x.getD j .nan)) (List.range x.length)

theorem exLex_ok (x : List Fl) : IsLexsort x (exLex x) := by
  refine ⟨List.perm_insertionSort _ _, ?_⟩
  haveI : Std.Total (fun (i j : Nat) => leSort (x.getD i .nan) (x.getD j .nan)) := ⟨fun i j => by
    cases x.getD i .nan <;> cases x.getD j .nan <;> simp [leSort]
    exact le_total _ _⟩
  haveI : IsTrans Nat (fun (i j : Nat) => leSort (x.getD i .nan) (x.getD j .nan)) := ⟨fun i j k => by
    cases x.getD i .nan <;> cases x.getD j .nan <;> cases x.getD k .nan <;> simp [leSort]
    exact fun h h' => h.trans h'⟩
  refine (List.pairwise_insertionSort (fun (i j : Nat) => leSort (x.getD i .nan) (x.getD j .nan)) (List.range x.length)).imp ?_
  intro i j h a b ha hb
  simpa [List.getD_eq_getElem?_getD, ha, hb] using h

example : ∃ r : Cut Nat, qcut (fun _ v => v) (fun _ => 0) exLex
    [.fin 4, .fin 1, .nan, .fin 3, .fin 2, .fin 0] (.count 4) .auto 3 none false = .ok r ∧
    r.codes = [5, 2, 0, 4, 3, 2] ∧
    labelOf r 2 = some (.between (.fin 0) (.fin 1)) ∧ 2 ≤ r.edges.length :=
  ⟨⟨[5, 2, 0, 4, 3, 2], [.fin 0, .fin 1, .fin 2, .fin 3, .fin 4], some [.clipped, .between (.fin 0) (.fin 1),
    .between (.fin 1) (.fin 2), .between (.fin 2) (.fin 3), .between (.fin 3) (.fin 4)]⟩,
    by decide +kernel, by decide +kernel, by decide +kernel, by decide +kernel⟩

end Verif.Bin
