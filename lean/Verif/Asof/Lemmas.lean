import Verif.Asof.Spec

/-! Loop invariant of the backward kernel. -/
namespace Verif.Asof
section
variable {α : Type} [LinearOrder α]

theorem kle_iff (a b : Option α) : kle a b = true ↔ ∃ x y, a = some x ∧ b = some y ∧ x ≤ y := by
  cases a <;> cases b <;> simp [kle]

theorem klt_iff (a b : Option α) : klt a b = true ↔ ∃ x y, a = some x ∧ b = some y ∧ x < y := by
  cases a <;> cases b <;> simp [klt]

theorem lessThan_some (e : Bool) (y x : α) : lessThan e (some y) (some x) = true ↔ Before e y x := by
  cases e <;> simp [lessThan, kle, klt, Before]

theorem kle_trans {a b c : Option α} (h1 : kle a b = true) (h2 : kle b c = true) : kle a c = true := by
  cases a <;> cases b <;> cases c <;> simp_all [kle]
  exact le_trans h1 h2

theorem kle_refl_of_right {a b : Option α} (h : kle a b = true) : kle b b = true := by
  cases a <;> cases b <;> simp_all [kle]

theorem lessThan_kle {e : Bool} {y a b : Option α} (h1 : lessThan e y a = true) (h2 : kle a b = true) :
    lessThan e y b = true := by
  cases y <;> cases a <;> cases b <;> cases e <;> simp_all [kle, klt, lessThan]
  · exact lt_of_lt_of_le h1 h2
  · exact le_trans h1 h2

theorem kle_lessThan {e : Bool} {y a b : Option α} (h1 : kle y a = true) (h2 : lessThan e a b = true) :
    lessThan e y b = true := by
  cases y <;> cases a <;> cases b <;> cases e <;> simp_all [kle, klt, lessThan]
  · exact lt_of_le_of_lt h1 h2
  · exact le_trans h1 h2

/-- the first `n` keys are valid, at least `lo` and ascending -/
def AscF (lo : α) (N : Nat → Option α) (n : Nat) : Prop :=
  (∀ t, t < n → kle (some lo) (N t) = true) ∧ ∀ t t', t ≤ t' → t' < n → kle (N t) (N t') = true

/-- the part of the right side that the loop looks at is ascending -/
def AscV (r : Run α) (lo : α) : Prop :=
  AscF lo r.H 1 ∧
    ∀ v, v ≤ r.hlen → (∀ t, t < v → lessThan r.exact (r.H t) (r.N (r.nlen - 1)) = true) → AscF lo r.H v

/-- what a write for needle `t` knows without any sortedness -/
def Local (r : Run α) (t : Nat) (res : Option Nat) : Prop :=
  (∃ h, h < r.hlen ∧ lessThan r.exact (r.H h) (r.N t) = true ∧
    (h + 1 < r.hlen → lessThan r.exact (r.H (h + 1)) (r.N t) = false) ∧
    res = if r.tol (r.N t) (r.H h) then some (r.hIdx h) else none) ∨
  (lessThan r.exact (r.H 0) (r.N t) = false ∧ res = none)

structure Inv (r : Run α) (loN loH : α) (s : St α) : Prop where
  nb : s.nbad = none
  hb : s.hbad = none
  hi : s.i ≤ r.nlen
  hh : s.h < r.hlen
  np_lo : kle (some loN) s.np = true
  np_ge : ∀ t, t < s.i → kle (some loN) (r.N t) = true ∧ kle (r.N t) s.np = true
  n_asc : ∀ t t', t ≤ t' → t' < s.i → kle (r.N t) (r.N t') = true
  hp_lo : kle (some loH) s.hp = true
  hp_ge : ∀ t, t < s.h → kle (some loH) (r.H t) = true ∧ kle (r.H t) s.hp = true
  h_asc : ∀ t t', t ≤ t' → t' < s.h → kle (r.H t) (r.H t') = true
  bef : s.h = 0 ∨ ∀ t, t ≤ s.h → lessThan r.exact (r.H t) s.np = true
  len : s.w.length = s.i
  wr : ∀ t, t < s.i → ∃ res, s.w[t]? = some (r.nIdx t, res) ∧ Local r t res
  n_ok : AscF loN r.N r.nlen → s.i < r.nlen → kle s.np (r.N s.i) = true
  h_ok : AscF loN r.N r.nlen → AscV r loH → kle s.hp (r.H s.h) = true
  stop : s.i = r.nlen → 0 < r.nlen → s.np = r.N (r.nlen - 1) ∧ s.hp = r.H s.h ∧
    ((s.h + 1 < r.hlen → lessThan r.exact (r.H (s.h + 1)) (r.N (r.nlen - 1)) = false) ∨
      s.h = 0 ∧ lessThan r.exact (r.H 0) (r.N (r.nlen - 1)) = false)

def Flagged (r : Run α) (loN loH : α) (s : St α) : Prop :=
  (s.nbad ≠ none ∨ s.hbad ≠ none) ∧ (s.i = r.nlen ∨ s.h = r.hlen) ∧
    ¬ (AscF loN r.N r.nlen ∧ AscV r loH)

theorem bwdStep_inv (r : Run α) (loN loH : α) (s : St α) (hI : Inv r loN loH s) (hlt : s.i < r.nlen) :
    (Inv r loN loH (bwdStep r s) ∧ (bwdStep r s).i + (bwdStep r s).h = s.i + s.h + 1) ∨
      Flagged r loN loH (bwdStep r s) := by
  unfold bwdStep
  by_cases h1 : kle s.np (r.N s.i) = true
  case neg =>
    right
    simp only [h1, Bool.not_false, if_true]
    exact ⟨Or.inl (by simp), Or.inl rfl, fun h => h1 (hI.n_ok h.1 hlt)⟩
  by_cases h2 : kle s.hp (r.H s.h) = true
  case neg =>
    right
    simp only [h1, h2, Bool.not_false, Bool.not_true, if_true]
    exact ⟨Or.inr (by simp), Or.inr rfl, fun h => h2 (hI.h_ok h.1 h.2)⟩
  left
  have hnp_lo : kle (some loN) (r.N s.i) = true := kle_trans hI.np_lo h1
  have hnp_ge : ∀ t, t < s.i → kle (some loN) (r.N t) = true ∧ kle (r.N t) (r.N s.i) = true :=
    fun t ht => ⟨(hI.np_ge t ht).1, kle_trans (hI.np_ge t ht).2 h1⟩
  have hnp_ge' : ∀ t, t < s.i + 1 → kle (some loN) (r.N t) = true ∧ kle (r.N t) (r.N s.i) = true := by
    intro t ht
    rcases Nat.lt_succ_iff_lt_or_eq.mp ht with h | h
    · exact hnp_ge t h
    · subst h; exact ⟨hnp_lo, kle_refl_of_right h1⟩
  have hn_asc' : ∀ t t', t ≤ t' → t' < s.i + 1 → kle (r.N t) (r.N t') = true := by
    intro t t' h h'
    rcases Nat.lt_succ_iff_lt_or_eq.mp h' with h'' | h''
    · exact hI.n_asc t t' h h''
    · subst h''; exact (hnp_ge' t (by omega)).2
  have hhp_lo : kle (some loH) (r.H s.h) = true := kle_trans hI.hp_lo h2
  have hhp_ge : ∀ t, t < s.h → kle (some loH) (r.H t) = true ∧ kle (r.H t) (r.H s.h) = true :=
    fun t ht => ⟨(hI.hp_ge t ht).1, kle_trans (hI.hp_ge t ht).2 h2⟩
  have hhp_ge' : ∀ t, t < s.h + 1 → kle (some loH) (r.H t) = true ∧ kle (r.H t) (r.H s.h) = true := by
    intro t ht
    rcases Nat.lt_succ_iff_lt_or_eq.mp ht with h | h
    · exact hhp_ge t h
    · subst h; exact ⟨hhp_lo, kle_refl_of_right h2⟩
  have hh_asc' : ∀ t t', t ≤ t' → t' < s.h + 1 → kle (r.H t) (r.H t') = true := by
    intro t t' h h'
    rcases Nat.lt_succ_iff_lt_or_eq.mp h' with h'' | h''
    · exact hI.h_asc t t' h h''
    · subst h''; exact (hhp_ge' t (by omega)).2
  have hbef : s.h = 0 ∨ ∀ t, t ≤ s.h → lessThan r.exact (r.H t) (r.N s.i) = true := by
    rcases hI.bef with h | h
    · exact Or.inl h
    · exact Or.inr fun t ht => lessThan_kle (h t ht) h1
  have hn_ok' : AscF loN r.N r.nlen → s.i + 1 < r.nlen → kle (r.N s.i) (r.N (s.i + 1)) = true :=
    fun h hl => h.2 _ _ (by omega) hl
  have hh_ok' : kle (r.H s.h) (r.H s.h) = true := kle_refl_of_right h2
  simp only [h1, h2, Bool.not_true, Bool.false_eq_true, if_false]
  by_cases h3 : lessThan r.exact (r.H s.h) (r.N s.i) = true
  · simp only [h3, if_true]
    by_cases h4 : s.h + 1 < r.hlen ∧ lessThan r.exact (r.H (s.h + 1)) (r.N s.i) = true
    · simp only [h4.1, h4.2, decide_true, Bool.and_true, if_true]
      have hb : ∀ t, t ≤ s.h + 1 → lessThan r.exact (r.H t) (r.N s.i) = true := by
        intro t ht
        rcases Nat.le_succ_iff.mp ht with h | h
        · rcases hbef with h0 | h0
          · have : t = s.h := by omega
            rw [this]; exact h3
          · exact h0 t h
        · subst h; exact h4.2
      refine ⟨{ nb := hI.nb, hb := hI.hb, hi := hI.hi, hh := h4.1, np_lo := hnp_lo, np_ge := hnp_ge
                n_asc := hI.n_asc, hp_lo := hhp_lo, hp_ge := hhp_ge', h_asc := hh_asc'
                bef := Or.inr hb, len := hI.len, wr := hI.wr
                n_ok := fun h _ => kle_refl_of_right h1
                h_ok := ?_, stop := fun h => by simp at h; omega }, by show s.i + (s.h + 1) = _; omega⟩
      intro hn hv
      have := hv.2 (s.h + 2) (by omega) fun t ht =>
        lessThan_kle (hb t (by omega)) (hn.2 s.i (r.nlen - 1) (by omega) (by omega))
      exact this.2 s.h (s.h + 1) (by omega) (by omega)
    · have h5 : (decide (s.h + 1 < r.hlen) && lessThan r.exact (r.H (s.h + 1)) (r.N s.i)) = false := by
        by_cases hq : s.h + 1 < r.hlen
        · simp only [hq, true_and] at h4; simp [h4]
        · simp [hq]
      have h6 : s.h + 1 < r.hlen → lessThan r.exact (r.H (s.h + 1)) (r.N s.i) = false := by
        intro hq; simpa [hq] using h5
      simp only [h5, Bool.false_eq_true, if_false]
      have hb : ∀ t, t ≤ s.h → lessThan r.exact (r.H t) (r.N s.i) = true := by
        intro t ht
        rcases hbef with h0 | h0
        · have : t = s.h := by omega
          rw [this]; exact h3
        · exact h0 t ht
      refine ⟨{ nb := hI.nb, hb := hI.hb, hi := hlt, hh := hI.hh, np_lo := hnp_lo, np_ge := hnp_ge'
                n_asc := hn_asc', hp_lo := hhp_lo, hp_ge := hhp_ge, h_asc := hI.h_asc
                bef := Or.inr hb, len := by simp [hI.len], wr := ?_
                n_ok := hn_ok'
                h_ok := fun _ _ => hh_ok', stop := ?_ }, by show s.i + 1 + s.h = _; omega⟩
      · intro t ht
        rcases Nat.lt_succ_iff_lt_or_eq.mp ht with h | h
        · obtain ⟨res, e1, e2⟩ := hI.wr t h
          exact ⟨res, by simp only []; rw [List.getElem?_append_left (by rw [hI.len]; exact h)]; exact e1, e2⟩
        · subst h
          exact ⟨_, by simp [← hI.len], Or.inl ⟨s.h, hI.hh, h3, h6, rfl⟩⟩
      · intro he _
        have : r.nlen - 1 = s.i := by simp at he; omega
        rw [this]
        exact ⟨rfl, rfl, Or.inl h6⟩
  · have h3' : lessThan r.exact (r.H s.h) (r.N s.i) = false := by simpa using h3
    simp only [h3', Bool.false_eq_true, if_false]
    have h0 : s.h = 0 := by
      rcases hbef with h0 | h0
      · exact h0
      · exact absurd (h0 s.h le_rfl) h3
    have h00 : s.h < 1 := by omega
    simp only [h00, if_true]
    rw [h0] at h3'
    refine ⟨{ nb := hI.nb, hb := hI.hb, hi := hlt, hh := hI.hh, np_lo := hnp_lo, np_ge := hnp_ge'
              n_asc := hn_asc', hp_lo := hhp_lo, hp_ge := hhp_ge, h_asc := hI.h_asc
              bef := Or.inl h0, len := by simp [hI.len], wr := ?_
              n_ok := hn_ok'
              h_ok := fun _ _ => hh_ok', stop := ?_ }, by show s.i + 1 + s.h = _; omega⟩
    · intro t ht
      rcases Nat.lt_succ_iff_lt_or_eq.mp ht with h | h
      · obtain ⟨res, e1, e2⟩ := hI.wr t h
        exact ⟨res, by simp only []; rw [List.getElem?_append_left (by rw [hI.len]; exact h)]; exact e1, e2⟩
      · subst h
        exact ⟨none, by simp [← hI.len], Or.inr ⟨h3', rfl⟩⟩
    · intro he _
      have : r.nlen - 1 = s.i := by simp at he; omega
      rw [this]
      exact ⟨rfl, rfl, Or.inr ⟨h0, h3'⟩⟩

/-- The loop has exited after `nlen + hlen` iterations: all needles are done, or a flag
is set. -/
theorem bwdLoop_exit (r : Run α) (loN loH : α) : ∀ (fuel : Nat) (s : St α), Inv r loN loH s →
    (r.nlen - s.i) + (r.hlen - s.h) ≤ fuel →
    (Inv r loN loH (bwdLoop r fuel s) ∧ (bwdLoop r fuel s).i = r.nlen) ∨
      Flagged r loN loH (bwdLoop r fuel s)
  | 0, s, hI, hf => by have := hI.hh; have := hI.hi; omega
  | fuel + 1, s, hI, hf => by
    unfold bwdLoop
    by_cases hlt : s.i < r.nlen
    · simp only [hlt, hI.hh, and_self, if_true]
      rcases bwdStep_inv r loN loH s hI hlt with ⟨hI', hm⟩ | hF
      · have := hI'.hi
        have := hI'.hh
        exact bwdLoop_exit r loN loH fuel _ hI' (by omega)
      · right
        have hex : ¬ ((bwdStep r s).i < r.nlen ∧ (bwdStep r s).h < r.hlen) := by
          have := hF.2.1; omega
        have : bwdLoop r fuel (bwdStep r s) = bwdStep r s := by
          cases fuel with
          | zero => rfl
          | succ k => simp [bwdLoop, hex]
        rw [this]; exact hF
    · simp only [hlt, false_and, if_false]
      exact Or.inl ⟨hI, le_antisymm hI.hi (by omega)⟩

/-- initial state -/
def St.init (i h : Nat) (np hp : α) : St α := ⟨i, h, some np, some hp, [], none, none⟩

/-- Outcome of the backward loop for a nonempty right side. -/
theorem bwdLoop_cases (r : Run α) (loN loH : α) (hpos : 0 < r.hlen) :
    let s := bwdLoop r (r.nlen + r.hlen) (St.init 0 0 loN loH)
    (s.nbad = none ∧ s.hbad = none ∧ s.i = r.nlen ∧ AscF loN r.N r.nlen ∧ (0 < r.nlen → AscV r loH) ∧
      s.w.length = r.nlen ∧
      ∀ t, t < r.nlen → ∃ res, s.w[t]? = some (r.nIdx t, res) ∧ Local r t res) ∨
    ((s.nbad ≠ none ∨ s.hbad ≠ none) ∧ 0 < r.nlen ∧ ¬ (AscF loN r.N r.nlen ∧ AscV r loH)) := by
  set s0 : St α := St.init 0 0 loN loH with hs0
  have hI0 : Inv r loN loH s0 := by
    refine { nb := rfl, hb := rfl, hi := Nat.zero_le _, hh := hpos, np_lo := by simp [s0, St.init, kle]
             np_ge := by simp [s0, St.init], n_asc := by simp [s0, St.init], hp_lo := by simp [s0, St.init, kle]
             hp_ge := by simp [s0, St.init], h_asc := by simp [s0, St.init], bef := Or.inl rfl, len := rfl
             wr := by simp [s0, St.init], n_ok := fun h hl => h.1 0 hl
             h_ok := fun _ hv => hv.1.1 0 (by omega), stop := fun h h' => by simp [s0, St.init] at h; omega }
  have hfl0 : r.nlen = 0 → bwdLoop r (r.nlen + r.hlen) s0 = s0 := by
    intro h0
    cases hf : r.nlen + r.hlen with
    | zero => rfl
    | succ k => simp [bwdLoop, h0]
  intro s
  rcases bwdLoop_exit r loN loH (r.nlen + r.hlen) s0 hI0 (by simp [s0, St.init]) with ⟨hI, he⟩ | hF
  · left
    change Inv r loN loH s at hI
    change s.i = r.nlen at he
    have hlen := hI.len
    rw [he] at hlen
    refine ⟨hI.nb, hI.hb, he, ⟨fun t ht => (hI.np_ge t (by omega)).1, fun t t' h h' => hI.n_asc t t' h (by omega)⟩,
      ?_, hlen, fun t ht => hI.wr t (by omega)⟩
    intro hn
    obtain ⟨e1, e2, e3⟩ := hI.stop he hn
    have hlo := hI.hp_lo
    have hge := hI.hp_ge
    rw [e2] at hlo hge
    have hall : ∀ v, v ≤ s.h + 1 → AscF loH r.H v := by
      intro v hv
      refine ⟨fun t ht => ?_, fun t t' h h' => ?_⟩
      · rcases Nat.lt_succ_iff_lt_or_eq.mp (show t < s.h + 1 by omega) with h | h
        · exact (hge t h).1
        · rw [h]; exact hlo
      · rcases Nat.lt_succ_iff_lt_or_eq.mp (show t' < s.h + 1 by omega) with h'' | h''
        · exact hI.h_asc t t' h h''
        · rw [h'']
          rcases Nat.lt_succ_iff_lt_or_eq.mp (show t < s.h + 1 by omega) with h3 | h3
          · exact (hge t h3).2
          · rw [h3]; exact kle_refl_of_right hlo
    refine ⟨hall 1 (by omega), fun v hv hall' => hall v ?_⟩
    by_contra hcon
    rcases e3 with h | ⟨h, h'⟩
    · have := hall' (s.h + 1) (by omega)
      rw [h (by omega)] at this; simp at this
    · have := hall' 0 (by omega)
      rw [h'] at this; simp at this
  · right
    have hnz : 0 < r.nlen := by
      rcases Nat.eq_zero_or_pos r.nlen with h0 | h0
      · rw [hfl0 h0] at hF
        simp [Flagged, s0, St.init] at hF
      · exact h0
    exact ⟨hF.1, hnz, hF.2.2⟩

/-- An empty right side: every needle gets no row. -/
theorem bwdKernel_empty (r : Run α) (loN loH : α) (h0 : r.hlen = 0) :
    (bwdKernel r loN loH).nbad = none ∧ (bwdKernel r loN loH).hbad = none ∧
      (bwdKernel r loN loH).w = (List.range r.nlen).map fun t => (r.nIdx t, none) := by
  have hl : ∀ (fuel : Nat) (s : St α), bwdLoop r fuel s = s := by
    intro fuel s
    cases fuel <;> simp [bwdLoop, h0]
  unfold bwdKernel
  simp only [hl, h0]
  split
  · simp [List.range_eq_range']
  · simp_all

end
end Verif.Asof
