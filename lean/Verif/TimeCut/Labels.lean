import Verif.TimeCut.Props
import Mathlib.Tactic.IntervalCases
/-!
# C132: the buckets of `cut_time` have different names
-/
namespace Verif.TimeCut
open Verif.TimeCut.Spec

theorem digit_toNat (d : Nat) : (digit d).toNat = 48 + d % 10 := by
  have h : d % 10 < 10 := Nat.mod_lt _ (by omega)
  unfold digit
  generalize d % 10 = x at h
  interval_cases x <;> rfl

theorem digit_inj {d d' : Nat} (h : digit d = digit d') : d % 10 = d' % 10 := by
  have := congrArg Char.toNat h
  rw [digit_toNat, digit_toNat] at this
  omega

theorem two_inj {n n' : Nat} (h : two n = two n') (hn : n < 100) (hn' : n' < 100) : n = n' := by
  simp only [two, List.cons.injEq, and_true] at h
  have h1 := digit_inj h.1
  have h2 := digit_inj h.2
  omega

theorem six_inj {n n' : Nat} (h : six n = six n') (hn : n < 1000000) (hn' : n' < 1000000) : n = n' := by
  simp only [six, List.cons.injEq, and_true] at h
  obtain ⟨h1, h2, h3, h4, h5, h6⟩ := h
  have h1 := digit_inj h1
  have h2 := digit_inj h2
  have h3 := digit_inj h3
  have h4 := digit_inj h4
  have h5 := digit_inj h5
  have h6 := digit_inj h6
  omega

/-- what the format shows of a time -/
def shows : Clock → Int
  | .min => 60000000000
  | .sec => 1000000000
  | .micro => 1000

theorem clockText_inj {c : Clock} {t t' : Int} (h : clockText c t = clockText c t') (hd : shows c ∣ t) (hd' : shows c ∣ t') :
    t % 86400000000000 = t' % 86400000000000 := by
  have e1 : day = 86400000000000 := by decide
  have c1 : shows c ∣ t % 86400000000000 := by cases c <;> simp only [shows] at * <;> omega
  have c2 : shows c ∣ t' % 86400000000000 := by cases c <;> simp only [shows] at * <;> omega
  unfold clockText at h
  rw [e1] at h
  have b1 := Int.emod_nonneg t (show (86400000000000 : Int) ≠ 0 by decide)
  have b2 := Int.emod_lt_of_pos t (show (0 : Int) < 86400000000000 by decide)
  have b3 := Int.emod_nonneg t' (show (86400000000000 : Int) ≠ 0 by decide)
  have b4 := Int.emod_lt_of_pos t' (show (0 : Int) < 86400000000000 by decide)
  generalize t % 86400000000000 = u at *
  generalize t' % 86400000000000 = v at *
  obtain ⟨n, rfl⟩ := Int.eq_ofNat_of_zero_le b1
  obtain ⟨m, rfl⟩ := Int.eq_ofNat_of_zero_le b3
  simp only [Int.toNat_natCast] at h
  have hhm : ∀ {n m : Nat} {x y : List Char}, n < 86400000000000 → m < 86400000000000 →
      two (n / 1000 / 3600000000) ++ [':'] ++ two (n / 1000 / 60000000 % 60) ++ x =
        two (m / 1000 / 3600000000) ++ [':'] ++ two (m / 1000 / 60000000 % 60) ++ y →
      n / 60000000000 = m / 60000000000 ∧ x = y := by
    intro n m x y h1 h2 h
    obtain ⟨h, hxy⟩ := List.append_inj h (by simp [two])
    obtain ⟨h, hm⟩ := List.append_inj h (by simp [two])
    obtain ⟨h, -⟩ := List.append_inj h (by simp [two])
    have hm := two_inj hm (by omega) (by omega)
    have h := two_inj h (by omega) (by omega)
    exact ⟨by omega, hxy⟩
  cases c with
  | min =>
    obtain ⟨h, -⟩ := hhm (n := n) (m := m) (x := []) (y := []) (by omega) (by omega) (by simpa using h)
    simp only [shows] at *
    omega
  | sec =>
    obtain ⟨h, h'⟩ := hhm (n := n) (m := m) (x := [':'] ++ two (n / 1000 / 1000000 % 60)) (y := [':'] ++ two (m / 1000 / 1000000 % 60)) (by omega) (by omega) (by simpa using h)
    have h' := two_inj (List.append_cancel_left h') (by omega) (by omega)
    simp only [shows] at *
    omega
  | micro =>
    obtain ⟨h, h'⟩ := hhm (n := n) (m := m) (x := [':'] ++ (two (n / 1000 / 1000000 % 60) ++ (['.'] ++ six (n / 1000 % 1000000))))
      (y := [':'] ++ (two (m / 1000 / 1000000 % 60) ++ (['.'] ++ six (m / 1000 % 1000000)))) (by omega) (by omega) (by simpa using h)
    obtain ⟨h1, h2⟩ := List.append_inj (List.append_cancel_left h') (by simp [two])
    have h1 := two_inj h1 (by omega) (by omega)
    have h2 := six_inj (List.append_cancel_left h2) (by omega) (by omega)
    simp only [shows] at *
    omega

theorem clockText_len (c : Clock) (t : Int) : 5 ≤ (clockText c t).length := by
  unfold clockText; cases c <;> simp [two, six]

theorem clockText_head (c : Clock) (t : Int) : ∃ d, (clockText c t).head? = some (digit d) := by
  unfold clockText; cases c <;> exact ⟨_, rfl⟩

theorem clockText_word (c : Clock) (t : Int) (s : List Char) : clockText c t ≠ 'p' :: s := by
  intro h
  obtain ⟨d, hd⟩ := clockText_head c t
  rw [h] at hd
  have := congrArg Char.toNat (Option.some.inj hd)
  rw [digit_toNat] at this
  have e : ('p').toNat = 112 := rfl
  omega

theorem shows_clockShort {e : List Int} (h : ∀ t ∈ e, (1000 : Int) ∣ t) : ∀ t ∈ e, shows (clockShort e) ∣ t := by
  have es : second = 1000000000 := by decide
  have em : minute = 60000000000 := by decide
  intro t ht
  unfold clockShort
  split
  · exact h t ht
  · rename_i h1
    simp only [List.any_eq_true, not_exists, not_and, bne_iff_ne, ne_eq, not_not] at h1
    split
    · exact Int.dvd_of_emod_eq_zero (by have := h1 t ht; rw [es] at this; exact this)
    · rename_i h2
      simp only [List.any_eq_true, not_exists, not_and, bne_iff_ne, ne_eq, not_not] at h2
      exact Int.dvd_of_emod_eq_zero (by have := h2 t ht; rw [em] at this; exact this)

/-- **C132** with the usual labels and edges of whole microseconds within one day, no two buckets have the same name -/
theorem names_distinct {a : Args} {e : List Int} {times : List (Option Int)} {r : List Nat × List (List Char)} (h : IsResult a e times r)
    (hf : a.fmt = none) (hs : (withEnds a e).Pairwise (· < ·)) (hb : ∀ t ∈ withEnds a e, 0 ≤ t ∧ t ≤ 86400000000000 ∧ (1000 : Int) ∣ t) :
    r.2.Nodup := by
  set E := withEnds a e with hE
  set c := clockShort E with hc
  have ht : textOf a E = clockText c := by unfold textOf; rw [hf]; rfl
  have hshow := shows_clockShort (fun t ht => (hb t ht).2.2)
  have hnames := h.names
  have hends := h.ends
  have hcount := h.count
  rw [← hE] at hnames hends hcount
  rw [ht] at hnames hends
  obtain ⟨hpre, hpost⟩ := hends (fun t => le_trans (by omega) (clockText_len c t))
  -- what each name is
  have hcase : ∀ k, k < r.2.length → (∃ s, r.2[k]? = some ('p' :: 'r' :: s) ∧ a.pre = true ∧ k = 0) ∨
      (∃ s, r.2[k]? = some ('p' :: 'o' :: s) ∧ a.post = true ∧ k + 1 = r.2.length) ∨
      (∃ t, r.2[k]? = some (clockText c t) ∧ Named (a.label = .right) E k t) := by
    intro k hk
    by_cases h1 : a.pre = true ∧ k = 0
    · obtain ⟨h1, rfl⟩ := h1
      exact Or.inl ⟨['e'], hpre h1, h1, rfl⟩
    · by_cases h2 : a.post = true ∧ k + 1 = r.2.length
      · have := hpost h2.1
        rw [List.getLast?_eq_getElem?] at this
        exact Or.inr (Or.inl ⟨['s', 't'], by rw [← this]; congr 1; omega, h2⟩)
      · obtain ⟨t, ht⟩ : ∃ t, Named (a.label = .right) E k t := by
          unfold Named
          split
          · exact ⟨E[k + 1], List.getElem?_eq_getElem (by omega)⟩
          · exact ⟨E[k], List.getElem?_eq_getElem (by omega)⟩
        exact Or.inr (Or.inr ⟨t, hnames k t hk ht h1 h2, ht⟩)
  have hlt : ∀ (i j : Nat) (x y : Int), i < j → E[i]? = some x → E[j]? = some y → x < y := by
    intro i j x y hij hx hy
    obtain ⟨a1, b1⟩ := List.getElem?_eq_some_iff.1 hx
    obtain ⟨a2, b2⟩ := List.getElem?_eq_some_iff.1 hy
    rw [← b1, ← b2]
    exact List.pairwise_iff_getElem.1 hs i j a1 a2 hij
  rw [List.Nodup, List.pairwise_iff_getElem]
  intro i j hi hj hij heq
  have heq' : r.2[i]? = r.2[j]? := by rw [List.getElem?_eq_getElem hi, List.getElem?_eq_getElem hj, heq]
  rcases hcase i hi with ⟨s, e1, -, -⟩ | ⟨s, e1, -, e2⟩ | ⟨t, e1, n1⟩
  · rcases hcase j hj with ⟨s', e1', -, rfl⟩ | ⟨s', e1', -, -⟩ | ⟨t', e1', -⟩
    · omega
    · rw [e1, e1'] at heq'; simp at heq'
    · rw [e1, e1'] at heq'; exact clockText_word c t' _ (Option.some.inj heq').symm
  · omega
  · rcases hcase j hj with ⟨s', e1', -, rfl⟩ | ⟨s', e1', -, -⟩ | ⟨t', e1', n2⟩
    · omega
    · rw [e1, e1'] at heq'; exact clockText_word c t _ (Option.some.inj heq')
    · rw [e1, e1'] at heq'
      unfold Named at n1 n2
      have m1 := List.mem_of_getElem? n1
      have m2 := List.mem_of_getElem? n2
      have hmod := clockText_inj (Option.some.inj heq') (hshow t m1) (hshow t' m2)
      have hlt' : t < t' := hlt _ _ t t' (by split <;> omega) n1 n2
      have b1 := hb t m1
      have b2 := hb t' m2
      by_cases hr : a.label = .right
      · have : E[0]? = some (E[0]'(by omega)) := List.getElem?_eq_getElem (by omega)
        have h0 := hb _ (List.mem_of_getElem? this)
        have := hlt 0 _ _ t (by simp only [hr, decide_true, if_true]; omega) this n1
        omega
      · simp only [hr, decide_false, Bool.false_eq_true, if_false] at n2
        have : E[r.2.length]? = some (E[r.2.length]'(by omega)) := List.getElem?_eq_getElem (by omega)
        have h0 := hb _ (List.mem_of_getElem? this)
        have := hlt j _ t' _ hj n2 this
        omega

end Verif.TimeCut
