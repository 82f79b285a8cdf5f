import Verif.Asof.Lemmas
import Verif.Merge.Lemmas
import Mathlib.Order.OrderDual

/-! Both kernels, position by position. -/
namespace Verif.Asof
section
variable {α : Type} [LinearOrder α]

/-- position of the chosen row for needle `t`, backward -/
def BestB (r : Run α) (t : Nat) (res : Option Nat) : Prop :=
  (∃ h, h < r.hlen ∧ lessThan r.exact (r.H h) (r.N t) = true ∧
    (∀ h', h' < r.hlen → lessThan r.exact (r.H h') (r.N t) = true → h' ≤ h) ∧
    res = if r.tol (r.N t) (r.H h) then some (r.hIdx h) else none) ∨
  ((∀ h, h < r.hlen → lessThan r.exact (r.H h) (r.N t) = false) ∧ res = none)

/-- position of the chosen row for needle `t`, forward -/
def BestF (r : Run α) (t : Nat) (res : Option Nat) : Prop :=
  (∃ h, h < r.hlen ∧ greaterThan r.exact (r.H h) (r.N t) = true ∧
    (∀ h', h' < r.hlen → greaterThan r.exact (r.H h') (r.N t) = true → h ≤ h') ∧
    res = if r.tol (r.N t) (r.H h) then some (r.hIdx h) else none) ∨
  ((∀ h, h < r.hlen → greaterThan r.exact (r.H h) (r.N t) = false) ∧ res = none)

/-- all keys valid, at most `hi`, ascending -/
def AscTo (hi : α) (N : Nat → Option α) (n : Nat) : Prop :=
  (∀ t, t < n → kle (N t) (some hi) = true) ∧ ∀ t t', t ≤ t' → t' < n → kle (N t) (N t') = true

/-- the part of the right side that the forward loop looks at -/
def AscVTo (r : Run α) (hi : α) : Prop :=
  (kle (r.H (r.hlen - 1)) (some hi) = true) ∧
    ∀ v, v ≤ r.hlen → (∀ t, v ≤ t → t < r.hlen → greaterThan r.exact (r.H t) (r.N 0) = true) →
      (∀ t, v ≤ t → t < r.hlen → kle (r.H t) (some hi) = true) ∧
      ∀ t t', v ≤ t → t ≤ t' → t' < r.hlen → kle (r.H t) (r.H t') = true

theorem local_best (r : Run α) (loH : α) (t : Nat) (res : Option Nat) (h : AscF loH r.H r.hlen)
    (hl : Local r t res) : BestB r t res := by
  rcases hl with ⟨j, hj, h1, h2, h3⟩ | ⟨h1, h2⟩
  · refine Or.inl ⟨j, hj, h1, fun h' hh' hb => ?_, h3⟩
    by_contra hc
    have := kle_lessThan (h.2 (j + 1) h' (by omega) hh') hb
    rw [h2 (by omega)] at this; simp at this
  · refine Or.inr ⟨fun j hj => ?_, h2⟩
    cases hb : lessThan r.exact (r.H j) (r.N t) with
    | false => rfl
    | true =>
      have := kle_lessThan (h.2 0 j (by omega) hj) hb
      rw [h1] at this; simp at this

/-- the writes cover exactly the needles, with results satisfying `P` -/
def Covers (r : Run α) (w : List (Nat × Option Nat)) (P : Nat → Option Nat → Prop) : Prop :=
  (w.map Prod.fst).Perm ((List.range r.nlen).map r.nIdx) ∧
    ∀ t, t < r.nlen → ∃ res, (r.nIdx t, res) ∈ w ∧ P t res

theorem covers_of_seq (r : Run α) (w : List (Nat × Option Nat)) (P : Nat → Option Nat → Prop)
    (hlen : w.length = r.nlen)
    (h : ∀ t, t < r.nlen → ∃ res, w[t]? = some (r.nIdx t, res) ∧ P t res) : Covers r w P := by
  refine ⟨?_, fun t ht => ?_⟩
  · apply List.Perm.of_eq
    apply List.ext_getElem?
    intro t
    by_cases ht : t < r.nlen
    · obtain ⟨res, e, _⟩ := h t ht
      simp [e, ht]
    · rw [List.getElem?_eq_none (by simp; omega), List.getElem?_eq_none (by simp; omega)]
  · obtain ⟨res, e, hp⟩ := h t ht
    exact ⟨res, List.mem_of_getElem? e, hp⟩

/-- no flag set -/
def St.clean (s : St α) : Prop := s.nbad = none ∧ s.hbad = none

theorem bwd_ascV_of_asc (r : Run α) (loH : α) (hpos : 0 < r.hlen) (h : AscF loH r.H r.hlen) : AscV r loH :=
  ⟨⟨fun t ht => h.1 t (by omega), fun t t' a b => h.2 t t' a (by omega)⟩,
    fun v hv _ => ⟨fun t ht => h.1 t (by omega), fun t t' a b => h.2 t t' a (by omega)⟩⟩

/-- Sorted input: no flag, every needle gets its best position. -/
theorem bwdKernel_sorted (r : Run α) (loN loH : α) (hN : AscF loN r.N r.nlen) (hH : AscF loH r.H r.hlen) :
    (bwdKernel r loN loH).clean ∧ Covers r (bwdKernel r loN loH).w (BestB r) := by
  rcases Nat.eq_zero_or_pos r.hlen with h0 | hpos
  · obtain ⟨e1, e2, e3⟩ := bwdKernel_empty r loN loH h0
    refine ⟨⟨e1, e2⟩, ?_⟩
    rw [e3]
    refine ⟨by rw [List.map_map]; exact List.Perm.of_eq rfl, fun t ht => ⟨none, ?_, Or.inr ⟨?_, rfl⟩⟩⟩
    · exact List.mem_map.mpr ⟨t, List.mem_range.mpr ht, rfl⟩
    · intro h hh; omega
  · rcases bwdLoop_cases r loN loH hpos with ⟨a, b, c, _, _, d, e⟩ | ⟨_, _, h⟩
    · have hK : bwdKernel r loN loH = bwdLoop r (r.nlen + r.hlen) (St.init 0 0 loN loH) := by
        unfold bwdKernel
        simp only [St.init] at c ⊢
        simp [c]
      rw [hK]
      refine ⟨⟨a, b⟩, covers_of_seq r _ _ d fun t ht => ?_⟩
      obtain ⟨res, e1, e2⟩ := e t ht
      exact ⟨res, e1, local_best r loH t res hH e2⟩
    · exact absurd ⟨hN, bwd_ascV_of_asc r loH hpos hH⟩ h

/-- Exactly when a flag is set, for nonempty sides. -/
theorem bwdKernel_clean_iff (r : Run α) (loN loH : α) (hpos : 0 < r.hlen) (hn : 0 < r.nlen) :
    (bwdKernel r loN loH).clean ↔ AscF loN r.N r.nlen ∧ AscV r loH := by
  have hflag : (bwdKernel r loN loH).clean ↔
      (bwdLoop r (r.nlen + r.hlen) (St.init 0 0 loN loH)).clean := by
    unfold bwdKernel St.clean
    simp only [St.init]
    split <;> rfl
  rw [hflag]
  rcases bwdLoop_cases r loN loH hpos with ⟨a, b, c, d, e, _⟩ | ⟨a, _, h⟩
  · exact ⟨fun _ => ⟨d, e hn⟩, fun _ => ⟨a, b⟩⟩
  · refine ⟨fun hc => ?_, fun hc => absurd hc h⟩
    rcases a with a | a
    · exact absurd hc.1 a
    · exact absurd hc.2 a

/-! ## Forward = backward on the reversed, order-reversed problem -/

/-- the mirror image of a run -/
def Run.rev (r : Run α) : Run αᵒᵈ :=
  ⟨r.exact, r.tol, r.nlen, r.hlen, fun t => r.nIdx (r.nlen - 1 - t), fun t => r.hIdx (r.hlen - 1 - t),
    r.nkey, r.hkey⟩

theorem rev_N (r : Run α) (t : Nat) : r.rev.N t = r.N (r.nlen - 1 - t) := rfl
theorem rev_H (r : Run α) (t : Nat) : r.rev.H t = r.H (r.hlen - 1 - t) := rfl

theorem kle_dual (a b : Option α) : kle (α := αᵒᵈ) a b = kle b a := by
  cases a <;> cases b <;> rfl

theorem klt_dual (a b : Option α) : klt (α := αᵒᵈ) a b = klt b a := by
  cases a <;> cases b <;> rfl

theorem lessThan_dual (e : Bool) (a b : Option α) : lessThan (α := αᵒᵈ) e a b = greaterThan e a b := by
  cases e
  · exact klt_dual a b
  · exact kle_dual a b

/-- the mirror image of a state -/
def St.rev (r : Run α) (s : St α) : St αᵒᵈ :=
  ⟨r.nlen - s.i, r.hlen - s.h, s.np, s.hp, s.w, s.nbad, s.hbad⟩

theorem fwdStep_rev (r : Run α) (s : St α) (h1 : 0 < s.i) (h2 : s.i ≤ r.nlen) (h3 : 0 < s.h)
    (h4 : s.h ≤ r.hlen) : (fwdStep r s).rev r = bwdStep r.rev (s.rev r) := by
  have eN : r.rev.N (s.rev r).i = r.N (s.i - 1) := by
    show r.N (r.nlen - 1 - (r.nlen - s.i)) = _
    congr 1; omega
  have eH : r.rev.H (s.rev r).h = r.H (s.h - 1) := by
    show r.H (r.hlen - 1 - (r.hlen - s.h)) = _
    congr 1; omega
  have eH1 : r.rev.H ((s.rev r).h + 1) = r.H (s.h - 1 - 1) := by
    show r.H (r.hlen - 1 - (r.hlen - s.h + 1)) = _
    congr 1; omega
  have enI : r.rev.nIdx (s.rev r).i = r.nIdx (s.i - 1) := by
    show r.nIdx (r.nlen - 1 - (r.nlen - s.i)) = _
    congr 1; omega
  have ehI : r.rev.hIdx (s.rev r).h = r.hIdx (s.h - 1) := by
    show r.hIdx (r.hlen - 1 - (r.hlen - s.h)) = _
    congr 1; omega
  have c1 : ((s.rev r).h + 1 < r.rev.hlen) = (s.h - 1 > 0) := by
    show (r.hlen - s.h + 1 < r.hlen) = _
    apply propext; omega
  have c2 : ((s.rev r).h < 1) = (s.h - 1 + 1 = r.hlen) := by
    show (r.hlen - s.h < 1) = _
    apply propext; omega
  have ei : (s.rev r).i + 1 = r.nlen - (s.i - 1) := by
    show r.nlen - s.i + 1 = _
    omega
  have eh : (s.rev r).h + 1 = r.hlen - (s.h - 1) := by
    show r.hlen - s.h + 1 = _
    omega
  have k1 : kle (α := αᵒᵈ) (s.rev r).np (r.rev.N (s.rev r).i) = kle (r.N (s.i - 1)) s.np := by
    rw [eN]; exact kle_dual (α := α) s.np _
  have k2 : kle (α := αᵒᵈ) (s.rev r).hp (r.rev.H (s.rev r).h) = kle (r.H (s.h - 1)) s.hp := by
    rw [eH]; exact kle_dual (α := α) s.hp _
  have k3 : lessThan (α := αᵒᵈ) r.rev.exact (r.rev.H (s.rev r).h) (r.rev.N (s.rev r).i) =
      greaterThan r.exact (r.H (s.h - 1)) (r.N (s.i - 1)) := by
    rw [eN, eH]; exact lessThan_dual (α := α) _ _ _
  have k4 : lessThan (α := αᵒᵈ) r.rev.exact (r.rev.H ((s.rev r).h + 1)) (r.rev.N (s.rev r).i) =
      greaterThan r.exact (r.H (s.h - 1 - 1)) (r.N (s.i - 1)) := by
    rw [eN, eH1]; exact lessThan_dual (α := α) _ _ _
  unfold bwdStep
  simp only [k1, k2, k3, k4, c1, c2]
  simp only [eN, eH, enI, ehI, ei, eh]
  unfold fwdStep
  by_cases a1 : kle (r.N (s.i - 1)) s.np = true
  case neg => simp only [a1]; rfl
  by_cases a2 : kle (r.H (s.h - 1)) s.hp = true
  case neg => simp only [a1, a2]; rfl
  simp only [a1, a2, Bool.not_true, Bool.false_eq_true, if_false]
  split
  · split <;> rfl
  · split <;> rfl

theorem fwdStep_bounds (r : Run α) (s : St α) (h2 : s.i ≤ r.nlen) (h4 : s.h ≤ r.hlen) :
    (fwdStep r s).i ≤ r.nlen ∧ (fwdStep r s).h ≤ r.hlen := by
  unfold fwdStep
  dsimp only
  repeat' split
  all_goals constructor <;> dsimp only <;> omega

theorem fwdLoop_rev (r : Run α) : ∀ (fuel : Nat) (s : St α), s.i ≤ r.nlen → s.h ≤ r.hlen →
    (fwdLoop r fuel s).rev r = bwdLoop r.rev fuel (s.rev r) ∧
      (fwdLoop r fuel s).i ≤ r.nlen ∧ (fwdLoop r fuel s).h ≤ r.hlen
  | 0, s, h2, h4 => ⟨rfl, h2, h4⟩
  | fuel + 1, s, h2, h4 => by
    unfold fwdLoop bwdLoop
    by_cases hc : 0 < s.i ∧ 0 < s.h
    · have hc' : (s.rev r).i < r.rev.nlen ∧ (s.rev r).h < r.rev.hlen := by
        show r.nlen - s.i < r.nlen ∧ r.hlen - s.h < r.hlen
        omega
      rw [if_pos hc, if_pos hc', ← fwdStep_rev r s hc.1 h2 hc.2 h4]
      have := fwdStep_bounds r s h2 h4
      exact fwdLoop_rev r fuel _ this.1 this.2
    · have hc' : ¬ ((s.rev r).i < r.rev.nlen ∧ (s.rev r).h < r.rev.hlen) := by
        show ¬ (r.nlen - s.i < r.nlen ∧ r.hlen - s.h < r.hlen)
        omega
      rw [if_neg hc, if_neg hc']
      exact ⟨rfl, h2, h4⟩

theorem fwdLoop_init_rev (r : Run α) (hiN hiH : α) :
    (fwdLoop r (r.nlen + r.hlen) (St.init r.nlen r.hlen hiN hiH)).rev r =
      bwdLoop r.rev (r.rev.nlen + r.rev.hlen) (St.init (α := αᵒᵈ) 0 0 hiN hiH) := by
  have := (fwdLoop_rev r (r.nlen + r.hlen) (St.init r.nlen r.hlen hiN hiH) le_rfl le_rfl).1
  rw [this]
  congr 1
  simp [St.rev, St.init]
  rfl

theorem ascF_rev (r : Run α) (hiN : α) :
    AscF (α := αᵒᵈ) hiN r.rev.N r.rev.nlen ↔ AscTo hiN r.N r.nlen := by
  have hk : ∀ a b : Option α, kle (α := αᵒᵈ) a b = kle b a := kle_dual
  constructor
  · rintro ⟨h1, h2⟩
    refine ⟨fun t ht => ?_, fun t t' h h' => ?_⟩
    · have := h1 (r.nlen - 1 - t) (show _ < r.nlen by omega)
      rw [rev_N, show r.nlen - 1 - (r.nlen - 1 - t) = t by omega] at this
      exact (hk (some hiN) _).symm.trans this
    · have := h2 (r.nlen - 1 - t') (r.nlen - 1 - t) (by omega) (show _ < r.nlen by omega)
      rw [rev_N, rev_N, show r.nlen - 1 - (r.nlen - 1 - t) = t by omega,
        show r.nlen - 1 - (r.nlen - 1 - t') = t' by omega] at this
      exact (hk _ _).symm.trans this
  · rintro ⟨h1, h2⟩
    refine ⟨fun t ht => ?_, fun t t' h h' => ?_⟩
    · exact (hk (some hiN) _).trans (h1 _ (by have : t < r.nlen := ht; omega))
    · exact (hk _ _).trans (h2 _ _ (by omega) (by have : t' < r.nlen := h'; omega))

theorem ascFH_rev (r : Run α) (hiH : α) :
    AscF (α := αᵒᵈ) hiH r.rev.H r.rev.hlen ↔ AscTo hiH r.H r.hlen := by
  have := ascF_rev ⟨r.exact, r.tol, r.hlen, r.nlen, r.hIdx, r.nIdx, r.hkey, r.nkey⟩ hiH
  exact this

theorem ascV_rev (r : Run α) (hiH : α) (hpos : 0 < r.hlen) :
    AscV (α := αᵒᵈ) r.rev hiH ↔ AscVTo r hiH := by
  have hk : ∀ a b : Option α, kle (α := αᵒᵈ) a b = kle b a := kle_dual
  have hg : ∀ a b : Option α, lessThan (α := αᵒᵈ) r.exact a b = greaterThan r.exact a b := lessThan_dual _
  have hlast : r.rev.N (r.rev.nlen - 1) = r.N 0 := by
    rw [rev_N]; congr 1; show r.nlen - 1 - (r.nlen - 1) = 0; omega
  constructor
  · rintro ⟨h1, h2⟩
    refine ⟨(hk (some hiH) _).symm.trans (h1.1 0 (by omega)), fun v hv hall => ?_⟩
    have := h2 (r.hlen - v) (show r.hlen - v ≤ r.hlen by omega) fun t ht => by
      rw [hlast, rev_H]
      exact (hg _ _).trans (hall _ (by omega) (by omega))
    refine ⟨fun t a b => ?_, fun t t' a b c => ?_⟩
    · have := this.1 (r.hlen - 1 - t) (by omega)
      rw [rev_H, show r.hlen - 1 - (r.hlen - 1 - t) = t by omega] at this
      exact (hk (some hiH) _).symm.trans this
    · have := this.2 (r.hlen - 1 - t') (r.hlen - 1 - t) (by omega) (by omega)
      rw [rev_H, rev_H, show r.hlen - 1 - (r.hlen - 1 - t) = t by omega,
        show r.hlen - 1 - (r.hlen - 1 - t') = t' by omega] at this
      exact (hk _ _).symm.trans this
  · rintro ⟨h1, h2⟩
    have hl : kle (α := αᵒᵈ) (some hiH) (r.rev.H 0) = true := (hk (some hiH) _).trans h1
    refine ⟨⟨fun t ht => ?_, fun t t' a b => ?_⟩, fun v hv hall => ?_⟩
    · rw [show t = 0 by omega]; exact hl
    · rw [show t = 0 by omega, show t' = 0 by omega]; exact kle_refl_of_right hl
    · have hv' : v ≤ r.hlen := hv
      have := h2 (r.hlen - v) (by omega) fun t a b => by
        have := hall (r.hlen - 1 - t) (by omega)
        rw [hlast, rev_H, show r.hlen - 1 - (r.hlen - 1 - t) = t by omega] at this
        exact (hg _ _).symm.trans this
      refine ⟨fun t ht => ?_, fun t t' a b => ?_⟩
      · exact (hk (some hiH) _).trans (this.1 _ (by omega) (by omega))
      · exact (hk _ _).trans (this.2 _ _ (by omega) (by omega) (by omega))

theorem best_rev (r : Run α) (t : Nat) (res : Option Nat) :
    BestB (α := αᵒᵈ) r.rev t res → BestF r (r.nlen - 1 - t) res := by
  have hg : ∀ a b : Option α, lessThan (α := αᵒᵈ) r.exact a b = greaterThan r.exact a b := lessThan_dual _
  rintro (⟨h, hh, h1, h2, h3⟩ | ⟨h1, h2⟩)
  · have hh' : h < r.hlen := hh
    refine Or.inl ⟨r.hlen - 1 - h, by omega, (hg _ _).symm.trans h1, fun h' a b => ?_, h3⟩
    have := h2 (r.hlen - 1 - h') (show _ < r.hlen by omega) (by
      rw [rev_H, show r.hlen - 1 - (r.hlen - 1 - h') = h' by omega]
      exact (hg _ _).trans b)
    omega
  · refine Or.inr ⟨fun h hh => ?_, h2⟩
    have := h1 (r.hlen - 1 - h) (show _ < r.hlen by omega)
    rw [rev_H, show r.hlen - 1 - (r.hlen - 1 - h) = h by omega] at this
    exact (hg _ _).symm.trans this

theorem covers_rev (r : Run α) (w : List (Nat × Option Nat))
    (h : Covers (α := αᵒᵈ) r.rev w (BestB (α := αᵒᵈ) r.rev)) : Covers r w (BestF r) := by
  refine ⟨h.1.trans ?_, fun t ht => ?_⟩
  · have : (List.range r.rev.nlen).map r.rev.nIdx = ((List.range r.nlen).map r.nIdx).reverse := by
      apply List.ext_getElem
      · simp [Run.rev]
      · intro i h1 h2
        simp [Run.rev]
    rw [this]
    exact List.reverse_perm _
  · obtain ⟨res, h1, h2⟩ := h.2 (r.nlen - 1 - t) (show _ < r.nlen by omega)
    have h1' : (r.nIdx (r.nlen - 1 - (r.nlen - 1 - t)), res) ∈ w := h1
    have h2' := best_rev r _ _ h2
    rw [show r.nlen - 1 - (r.nlen - 1 - t) = t by omega] at h1' h2'
    exact ⟨res, h1', h2'⟩

/-- Sorted input: no flag, every needle gets its best position. -/
theorem fwdKernel_sorted (r : Run α) (hiN hiH : α) (hN : AscTo hiN r.N r.nlen) (hH : AscTo hiH r.H r.hlen) :
    (fwdKernel r hiN hiH).clean ∧ ∃ w, Covers r w (BestF r) ∧
      ((fwdKernel r hiN hiH).w = w ∨
        (r.hlen = 0 ∧ (fwdKernel r hiN hiH).w = (List.range (r.nlen - 1)).map fun t => (r.nIdx t, none))) := by
  rcases Nat.eq_zero_or_pos r.hlen with h0 | hpos
  · have hl : ∀ (fuel : Nat) (s : St α), s.h = 0 → fwdLoop r fuel s = s := by
      intro fuel s hs
      cases fuel <;> simp [fwdLoop, hs]
    have hw : (fwdKernel r hiN hiH).w = (List.range (r.nlen - 1)).map fun t => (r.nIdx t, none) := by
      unfold fwdKernel
      rw [hl _ _ (by simp [h0])]
      simp only [h0]
      split
      · simp
      · simp_all
    have hc : (fwdKernel r hiN hiH).clean := by
      unfold fwdKernel
      rw [hl _ _ (by simp [h0])]
      dsimp only
      by_cases hz : 0 < r.nlen
      · rw [if_pos hz]; exact ⟨rfl, rfl⟩
      · rw [if_neg hz]; exact ⟨rfl, rfl⟩
    refine ⟨hc, (List.range r.nlen).map fun t => (r.nIdx t, none), ?_, Or.inr ⟨h0, hw⟩⟩
    refine ⟨by rw [List.map_map]; exact List.Perm.of_eq rfl, fun t ht => ⟨none, ?_, Or.inr ⟨?_, rfl⟩⟩⟩
    · exact List.mem_map.mpr ⟨t, List.mem_range.mpr ht, rfl⟩
    · intro h hh; omega
  · have hrev := fwdLoop_init_rev r hiN hiH
    have hbound := fwdLoop_rev r (r.nlen + r.hlen) (St.init r.nlen r.hlen hiN hiH) le_rfl le_rfl
    rcases bwdLoop_cases (α := αᵒᵈ) r.rev hiN hiH hpos with ⟨a, b, c, _, _, d, e⟩ | ⟨_, _, h⟩
    · rw [← hrev] at a b c d e
      have hi0 : (fwdLoop r (r.nlen + r.hlen) (St.init r.nlen r.hlen hiN hiH)).i = 0 := by
        have h1 : r.nlen - (fwdLoop r (r.nlen + r.hlen) (St.init r.nlen r.hlen hiN hiH)).i = r.nlen := c
        have := hbound.2.1
        omega
      have hK : fwdKernel r hiN hiH = fwdLoop r (r.nlen + r.hlen) (St.init r.nlen r.hlen hiN hiH) := by
        unfold fwdKernel
        simp only [St.init] at hi0 ⊢
        simp [hi0]
      rw [hK]
      refine ⟨⟨a, b⟩, _, covers_rev r _ (covers_of_seq (α := αᵒᵈ) r.rev _ _ d fun t ht => ?_), Or.inl rfl⟩
      obtain ⟨res, e1, e2⟩ := e t ht
      exact ⟨res, e1, local_best (α := αᵒᵈ) r.rev hiH t res ((ascFH_rev r hiH).mpr hH) e2⟩
    · exact absurd ⟨(ascF_rev r hiN).mpr hN,
        bwd_ascV_of_asc (α := αᵒᵈ) r.rev hiH hpos ((ascFH_rev r hiH).mpr hH)⟩ h

/-- Exactly when a flag is set, for nonempty sides. -/
theorem fwdKernel_clean_iff (r : Run α) (hiN hiH : α) (hpos : 0 < r.hlen) (hn : 0 < r.nlen) :
    (fwdKernel r hiN hiH).clean ↔ AscTo hiN r.N r.nlen ∧ AscVTo r hiH := by
  have hrev := fwdLoop_init_rev r hiN hiH
  have hflag : (fwdKernel r hiN hiH).clean ↔
      ((fwdLoop r (r.nlen + r.hlen) (St.init r.nlen r.hlen hiN hiH)).rev r).clean := by
    unfold fwdKernel St.clean
    simp only [St.init, St.rev]
    split <;> rfl
  rw [hflag, hrev, ← ascF_rev, ← ascV_rev r hiH hpos]
  rcases bwdLoop_cases (α := αᵒᵈ) r.rev hiN hiH hpos with ⟨a, b, c, d, e, _⟩ | ⟨a, _, h⟩
  · exact ⟨fun _ => ⟨d, e hn⟩, fun _ => ⟨a, b⟩⟩
  · refine ⟨fun hc => ?_, fun hc => absurd hc h⟩
    rcases a with a | a
    · exact absurd hc.1 a
    · exact absurd hc.2 a

end
end Verif.Asof
