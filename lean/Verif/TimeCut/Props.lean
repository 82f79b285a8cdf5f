import Verif.TimeCut.Model
import Verif.TimeCut.Spec
import Verif.Arr.Props
import Mathlib.Tactic.Ring
import Mathlib.Tactic.Linarith
/-! # Cutting times of day, rounding times -/
namespace Verif.TimeCut
open Spec

/-! ## The edges -/

theorem loop_run (size stop : Int) (hs : 0 < size) (now : Int) : ∀ fuel : Nat, (stop - now).toNat < fuel →
    ∃ n : Nat, loop size stop fuel now = some ((List.range n).map fun k : Nat => now + (k : Int) * size) ∧
      (∀ k : Nat, k < n → now + k * size < stop) ∧ stop ≤ now + n * size := by
  intro fuel
  induction fuel generalizing now with
  | zero => intro h; omega
  | succ fuel ih =>
    intro h
    unfold loop
    split
    · rename_i hlt
      obtain ⟨n, h1, h2, h3⟩ := ih (now + size) (by omega)
      refine ⟨n + 1, ?_, ?_, ?_⟩
      · rw [h1, Option.map_some, List.range_succ_eq_map, List.map_cons, List.map_map]
        congr 2
        · simp
        · apply List.map_congr_left
          intro k _
          simp only [Function.comp, Nat.cast_succ]
          ring
      · intro k hk
        cases k with
        | zero => simpa using hlt
        | succ k =>
          have := h2 k (by omega)
          push_cast
          linarith [add_mul (k : Int) 1 size]
      · push_cast
        linarith [add_mul (n : Int) 1 size]
    · rename_i hlt
      refine ⟨0, rfl, fun k hk => by omega, by simpa using hlt⟩

/-- A bucket of no length: the loop never ends. -/
theorem loop_forever (size stop : Int) (hs : size ≤ 0) (now : Int) (hn : now < stop) (fuel : Nat) : loop size stop fuel now = none := by
  induction fuel generalizing now with
  | zero => rfl
  | succ fuel ih =>
    unfold loop
    rw [if_pos hn, ih (now + size) (by omega)]
    rfl

theorem tupleNs_usual {t : List Int} {n : Int} (h : tupleNs t = some n) (hu : Usual t) :
    ∃ h m s ms, (t = [h, m] ∧ s = 0 ∧ ms = 0 ∨ t = [h, m, s] ∧ ms = 0 ∨ t = [h, m, s, ms]) ∧ n = sinceMidnight h m s ms := by
  obtain ⟨hh, m, s, ms, hc, -⟩ := hu
  refine ⟨hh, m, s, ms, hc, ?_⟩
  rcases hc with ⟨rfl, rfl, rfl⟩ | ⟨rfl, rfl⟩ | rfl <;> simp only [tupleNs, Option.some.injEq] at h <;> subst h <;> unfold sinceMidnight <;> ring

theorem tupleNs_some {t : List Int} (hu : Usual t) : ∃ n, tupleNs t = some n := by
  obtain ⟨hh, m, s, ms, hc, -⟩ := hu
  rcases hc with ⟨rfl, -, -⟩ | ⟨rfl, -⟩ | rfl <;> exact ⟨_, rfl⟩

/-- tuples in their ranges are ordered like the times -/
theorem tupLe_ns {p q : List Int} {m n : Int} (hp : Usual p) (hq : Usual q) (hm : tupleNs p = some m) (hn : tupleNs q = some n)
    (h : tupLe p q = true) : m ≤ n := by
  obtain ⟨h1, m1, s1, t1, c1, b1⟩ := hp
  obtain ⟨h2, m2, s2, t2, c2, b2⟩ := hq
  rcases c1 with ⟨rfl, rfl, rfl⟩ | ⟨rfl, rfl⟩ | rfl <;> rcases c2 with ⟨rfl, rfl, rfl⟩ | ⟨rfl, rfl⟩ | rfl <;>
    simp only [tupleNs, Option.some.injEq] at hm hn <;> simp [tupLe] at h <;> omega

theorem tupLe_total (p q : List Int) : tupLe p q = true ∨ tupLe q p = true := by
  induction p generalizing q with
  | nil => simp [tupLe]
  | cons a p ih =>
    cases q with
    | nil => simp [tupLe]
    | cons b q =>
      simp only [tupLe, Bool.or_eq_true, decide_eq_true_eq, Bool.and_eq_true]
      rcases lt_trichotomy a b with h | h | h
      · exact Or.inl (Or.inl h)
      · rcases ih q with h' | h'
        · exact Or.inl (Or.inr ⟨h, h'⟩)
        · exact Or.inr (Or.inr ⟨h.symm, h'⟩)
      · exact Or.inr (Or.inl h)

theorem tupLe_trans (p q r : List Int) (h1 : tupLe p q = true) (h2 : tupLe q r = true) : tupLe p r = true := by
  induction p generalizing q r with
  | nil => simp [tupLe]
  | cons a p ih =>
    cases q with
    | nil => simp [tupLe] at h1
    | cons b q =>
      cases r with
      | nil => simp [tupLe] at h2
      | cons c r =>
        simp only [tupLe, Bool.or_eq_true, decide_eq_true_eq, Bool.and_eq_true] at *
        rcases h1 with h1 | ⟨h1, h1'⟩ <;> rcases h2 with h2 | ⟨h2, h2'⟩
        · left; omega
        · left; omega
        · left; omega
        · exact Or.inr ⟨by omega, ih q r h1' h2'⟩

/-! ## The codes -/

/-- contract of `searchsorted`: the number of edges before a time; an invalid time is before or after all -/
structure SearchOK (ss : List Int → Option Int → Nat) : Prop where
  valid : ∀ (e : List Int) (t : Int), e.Pairwise (· ≤ ·) → ss e (some t) = e.countP (fun x => decide (x < t))
  invalid : ∀ (e : List Int), ss e none = 0 ∨ e.length ≤ ss e none

theorem countP_sorted {e : List Int} (hs : e.Pairwise (· ≤ ·)) (t : Int) (k : Nat) :
    k < e.countP (fun x => decide (x < t)) ↔ ∃ x, e[k]? = some x ∧ x < t := by
  induction e generalizing k with
  | nil => simp
  | cons a e ih =>
    rw [List.pairwise_cons] at hs
    rw [List.countP_cons]
    by_cases ha : a < t
    · simp only [ha, decide_true, if_true]
      cases k with
      | zero => simp [ha]
      | succ k => rw [List.getElem?_cons_succ, ← ih hs.2]; omega
    · have h0 : e.countP (fun x => decide (x < t)) = 0 := by
        rw [List.countP_eq_zero]
        intro x hx
        have := hs.1 x hx
        simp; omega
      simp only [ha, decide_false, Bool.false_eq_true, if_false, h0]
      constructor
      · intro h; omega
      · rintro ⟨x, hx, hlt⟩
        have : x ∈ a :: e := List.mem_of_getElem? hx
        rcases List.mem_cons.1 this with rfl | h
        · exact absurd hlt ha
        · have := hs.1 x h; omega

theorem codes_cut {ss : List Int → Option Int → Nat} (hss : SearchOK ss) {e : List Int} (hs : e.Pairwise (· ≤ ·)) (hne : e ≠ [])
    (times : List (Option Int)) : IsCut e times (times.map fun v => let c := ss e v; if e.length ≤ c then 0 else c) := by
  refine ⟨by simp, fun i v hv => ⟨_, by rw [List.getElem?_map, hv]; rfl, ?_⟩⟩
  cases v with
  | none =>
    have : (if e.length ≤ ss e none then 0 else ss e none) = 0 := by
      rcases hss.invalid e with h | h
      · split
        · rfl
        · exact h
      · rw [if_pos h]
    simp only [this]
    refine ⟨fun k => ⟨fun h => by omega, ?_⟩, ⟨(fun _ t h => by cases h), fun _ => trivial⟩⟩
    rintro ⟨t, h, -⟩; cases h
  | some t =>
    simp only [hss.valid e t hs]
    set c := e.countP (fun x => decide (x < t)) with hc
    have hcs := countP_sorted hs t
    have hle : c ≤ e.length := List.countP_le_length
    have hlast : e.length ≤ c ↔ ∀ hi, e.getLast? = some hi → hi < t := by
      rw [List.getLast?_eq_getElem?]
      have hpos : 0 < e.length := List.length_pos_iff.2 hne
      have hg : e[e.length - 1]? = some (e[e.length - 1]) := List.getElem?_eq_getElem (by omega)
      constructor
      · intro h hi hhi
        obtain ⟨x, h1, h2⟩ := (hcs (e.length - 1)).1 (by omega)
        rw [h1] at hhi; cases hhi; exact h2
      · intro h
        have := (hcs (e.length - 1)).2 ⟨_, hg, h _ hg⟩
        omega
    have hfirst : c = 0 ↔ ∀ lo, e.head? = some lo → t ≤ lo := by
      rw [List.head?_eq_getElem?]
      have hpos : 0 < e.length := List.length_pos_iff.2 hne
      have hg : e[0]? = some e[0] := List.getElem?_eq_getElem hpos
      constructor
      · intro h lo hlo
        by_contra hlt
        have := (hcs 0).2 ⟨lo, hlo, by omega⟩
        omega
      · intro h
        by_contra hne'
        obtain ⟨x, h1, h2⟩ := (hcs 0).1 (by omega)
        have := h x h1
        omega
    constructor
    · intro k
      constructor
      · intro h
        have h' : c = k + 1 ∧ c < e.length := by
          split at h
          · omega
          · exact ⟨h, by omega⟩
        obtain ⟨x, h1, h2⟩ := (hcs k).1 (by omega)
        have hy : e[k + 1]? = some (e[k + 1]'(by omega)) := List.getElem?_eq_getElem (by omega)
        refine ⟨t, rfl, x, _, h1, hy, h2, ?_⟩
        by_contra hlt
        have := (hcs (k + 1)).2 ⟨_, hy, by omega⟩
        omega
      · rintro ⟨t', ht, lo, hi, h1, h2, h3, h4⟩
        cases ht
        have ha := (hcs k).2 ⟨lo, h1, h3⟩
        have hb : ¬ k + 1 < c := by
          intro hlt
          obtain ⟨y, h5, h6⟩ := (hcs (k + 1)).1 hlt
          rw [h2] at h5; cases h5
          omega
        have hk := (List.getElem?_eq_some_iff.1 h2).1
        rw [if_neg (by omega)]
        omega
    · constructor
      · intro h t' ht
        cases ht
        split at h
        · rename_i hl; exact Or.inr (hlast.1 hl)
        · exact Or.inl (hfirst.1 h)
      · intro h
        rcases h t rfl with h | h
        · have := hfirst.2 h
          split
          · rfl
          · exact this
        · rw [if_pos (hlast.2 h)]

/-! ## Labels -/

theorem putLabel_ok {l : List (List Char)} {i : Nat} (h : i < l.length) (s : List Char) :
    putLabel l i s = .ok (l.set i (s.take (widthOf l))) := by unfold putLabel; rw [if_pos h]

theorem width_le (l : List (List Char)) (s : List Char) (h : s ∈ l) : s.length ≤ widthOf l := by
  have aux : ∀ (l : List (List Char)) (w : Nat), w ≤ l.foldl (fun (w : Nat) (s : List Char) => max w s.length) w ∧
      ∀ s ∈ l, s.length ≤ l.foldl (fun (w : Nat) (s : List Char) => max w s.length) w := by
    intro l
    induction l with
    | nil => intro w; simp
    | cons a l ih =>
      intro w
      obtain ⟨h1, h2⟩ := ih (max w a.length)
      refine ⟨le_trans (le_max_left _ _) h1, fun s hs => ?_⟩
      rcases List.mem_cons.1 hs with rfl | hs
      · exact le_trans (le_max_right _ _) h1
      · exact h2 s hs
  exact (aux l 0).2 s h

theorem take_width {l : List (List Char)} (s : List Char) (h : ∃ t ∈ l, s.length ≤ t.length) : s.take (widthOf l) = s := by
  obtain ⟨t, ht, hle⟩ := h
  exact List.take_of_length_le (le_trans hle (width_le l t ht))

/-- the text for an edge -/
abbrev textOf (a : Args) (e : List Int) : Int → List Char := a.fmt.getD (clockText (clockShort e))

/-- The names of the buckets: the edge, except for the buckets before and after. -/
theorem labels_ok (a : Args) (e : List Int) (hl : a.label ≠ .other) (hn : 2 ≤ e.length) (hpp : a.pre = true → a.post = true → 3 ≤ e.length) :
    ∃ l, labels a e = .ok l ∧ l.length + 1 = e.length ∧
      (∀ (k : Nat) (t : Int), k < l.length → Named (a.label = .right) e k t →
        ¬ (a.pre = true ∧ k = 0) → ¬ (a.post = true ∧ k + 1 = l.length) → l[k]? = some (textOf a e t)) ∧
      ((∀ t, 4 ≤ (textOf a e t).length) → (a.pre = true → l[0]? = some ['p', 'r', 'e']) ∧ (a.post = true → l.getLast? = some ['p', 'o', 's', 't'])) := by
  set text := textOf a e with htext
  set shown := if a.label = .right then e.tail else e.dropLast with hshown
  have hlen : shown.length + 1 = e.length := by
    rw [hshown]; split <;> simp <;> omega
  have hget : ∀ (k : Nat) (t : Int), k < shown.length → Named (a.label = .right) e k t → shown[k]? = some t := by
    intro k t hk hnm
    unfold Named at hnm
    rw [hshown]
    by_cases h : a.label = .right
    · simpa [h, List.getElem?_tail] using hnm
    · rw [hshown, if_neg h] at hk
      simp only [h, decide_false, Bool.false_eq_true, if_false] at hnm ⊢
      rw [List.getElem?_dropLast, if_pos (by simpa using hk)]
      exact hnm
  have hm : shownEdges a.label e = some shown := by
    rw [hshown]
    unfold shownEdges
    cases h : a.label with
    | left => simp
    | right => simp
    | other => exact absurd h hl
  have hpos : 0 < (shown.map text).length := by rw [List.length_map]; omega
  have hw : ∀ (i : Nat) (s : List Char), s.length ≤ 4 → (∀ t, 4 ≤ (text t).length) → ∀ l : List (List Char), i < shown.length → l[i]? = (shown.map text)[i]? →
      s.take (widthOf l) = s := by
    intro i s hs h4 l hi hli
    rw [List.getElem?_map, List.getElem?_eq_getElem hi] at hli
    exact take_width s ⟨_, List.mem_of_getElem? hli, le_trans hs (h4 _)⟩
  unfold labels
  simp only []
  rw [hm]
  change ∃ l, withPrePost a (shown.map text) = .ok l ∧ _
  unfold withPrePost
  by_cases hpre : a.pre = true
  · rw [if_pos hpre, putLabel_ok hpos]
    simp only []
    by_cases hpost : a.post = true
    · rw [if_pos hpost, putLabel_ok (by rw [List.length_set]; omega)]
      have h3 := hpp hpre hpost
      refine ⟨_, rfl, by simpa using hlen, fun k t hk hnm hp hq => ?_, fun h4 => ⟨fun _ => ?_, fun _ => ?_⟩⟩
      · simp only [List.length_set, List.length_map] at hk hq ⊢
        rw [List.getElem?_set_ne (by intro h; exact hq ⟨hpost, by omega⟩), List.getElem?_set_ne (by intro h; exact hp ⟨hpre, h.symm⟩),
          List.getElem?_map, hget k t hk hnm]; rfl
      · simp only [List.length_set, List.length_map]
        rw [List.getElem?_set_ne (by omega), List.getElem?_set_self hpos, hw 0 _ (by simp) h4 _ (by omega) rfl]
      · rw [List.getLast?_eq_getElem?]
        simp only [List.length_set, List.length_map]
        rw [List.getElem?_set_self (by simp; omega), hw 1 _ (by simp) h4 _ (by omega) (by rw [List.getElem?_set_ne (by omega)])]
    · rw [if_neg hpost]
      refine ⟨_, rfl, by simpa using hlen, fun k t hk hnm hp _ => ?_, fun h4 => ⟨fun _ => ?_, fun h => absurd h hpost⟩⟩
      · rw [List.length_set, List.length_map] at hk
        rw [List.getElem?_set_ne (by intro h; exact hp ⟨hpre, h.symm⟩), List.getElem?_map, hget k t hk hnm]; rfl
      · rw [List.getElem?_set_self hpos, hw 0 _ (by simp) h4 _ (by omega) rfl]
  · rw [if_neg hpre]
    simp only []
    by_cases hpost : a.post = true
    · rw [if_pos hpost, putLabel_ok (by omega)]
      refine ⟨_, rfl, by simpa using hlen, fun k t hk hnm _ hp => ?_, fun h4 => ⟨fun h => absurd h hpre, fun _ => ?_⟩⟩
      · rw [List.length_set, List.length_map] at hk hp
        rw [List.getElem?_set_ne (by rw [List.length_map]; intro h; exact hp ⟨hpost, by omega⟩), List.getElem?_map, hget k t hk hnm]; rfl
      · rw [List.getLast?_eq_getElem?]
        simp only [List.length_set, List.length_map]
        rw [List.getElem?_set_self (by simp; omega), hw 0 _ (by simp) h4 _ (by omega) rfl]
    · rw [if_neg hpost]
      refine ⟨_, rfl, by simpa using hlen, fun k t hk hnm _ _ => ?_, fun _ => ⟨fun h => absurd h hpre, fun h => absurd h hpost⟩⟩
      rw [List.getElem?_map, hget k t (by simpa using hk) hnm]; rfl

/-! ## `cut_time` -/

/-- the edges of all buckets, with those before and after -/
abbrev withEnds (a : Args) (e : List Int) : List Int := (if a.pre then [0] else []) ++ e ++ (if a.post then [86400000000000] else [])

theorem withEnds_sorted {a : Args} {e : List Int} (hs : e.Pairwise (· ≤ ·)) (h0 : a.pre = true → ∀ t ∈ e, 0 ≤ t)
    (h1 : a.post = true → ∀ t ∈ e, t ≤ 86400000000000) : (withEnds a e).Pairwise (· ≤ ·) := by
  have he : (e ++ (if a.post then [86400000000000] else [])).Pairwise (· ≤ ·) := by
    rw [List.pairwise_append]
    refine ⟨hs, by split <;> simp, fun p hp q hq => ?_⟩
    split at hq
    · rename_i h; rw [List.mem_singleton.1 hq]; exact h1 h p hp
    · cases hq
  unfold withEnds
  rw [List.append_assoc, List.pairwise_append]
  refine ⟨by split <;> simp, he, fun p hp q hq => ?_⟩
  split at hp
  · rename_i h
    rw [List.mem_singleton.1 hp]
    rcases List.mem_append.1 hq with hq | hq
    · exact h0 h q hq
    · split at hq
      · rw [List.mem_singleton.1 hq]; decide
      · cases hq
  · cases hp

/-- the result of `cut_time` with the given edges -/
structure IsResult (a : Args) (e : List Int) (times : List (Option Int)) (r : List Nat × List (List Char)) : Prop where
  codes : IsCut (withEnds a e) times r.1
  count : r.2.length + 1 = (withEnds a e).length
  names : ∀ (k : Nat) (t : Int), k < r.2.length → Named (a.label = .right) (withEnds a e) k t →
    ¬ (a.pre = true ∧ k = 0) → ¬ (a.post = true ∧ k + 1 = r.2.length) → r.2[k]? = some (textOf a (withEnds a e) t)
  ends : (∀ t, 4 ≤ (textOf a (withEnds a e) t).length) →
    (a.pre = true → r.2[0]? = some ['p', 'r', 'e']) ∧ (a.post = true → r.2.getLast? = some ['p', 'o', 's', 't'])

theorem cutTime_of_points {ss : List Int → Option Int → Nat} (hss : SearchOK ss) {a : Args} {e : List Int} {fuel : Nat} (he : cutPoints fuel a = .ok e)
    (hs : e.Pairwise (· ≤ ·)) (hn : 2 ≤ e.length) (hl : a.label ≠ .other) (h0 : a.pre = true → ∀ t ∈ e, 0 ≤ t)
    (h1 : a.post = true → ∀ t ∈ e, t ≤ 86400000000000) (times : List (Option Int)) :
    ∃ r, cutTime ss fuel a times = .ok r ∧ IsResult a e times r := by
  have hee : addEnds a e = withEnds a e := rfl
  have hlen : 2 ≤ (withEnds a e).length := by unfold withEnds; rw [List.length_append, List.length_append]; omega
  obtain ⟨l, e1, e2, e3, e4⟩ := labels_ok a (withEnds a e) hl hlen (fun h h' => by simp [withEnds, h, h']; omega)
  refine ⟨_, by unfold cutTime; rw [he]; simp only []; rw [hee, e1], ⟨?_, e2, e3, e4⟩⟩
  exact codes_cut hss (withEnds_sorted hs h0 h1) (by intro h; rw [h] at hlen; simp at hlen) times

/-- **C130** `cut_time` with buckets of one length: the edges go from the start in steps of that length to the end; every
time is in the bucket it lies in, and the buckets are called after their edges. -/
theorem cutTime_span {ss : List Int → Option Int → Nat} (hss : SearchOK ss) {a : Args} {size : Int} (hb : a.buckets = .span size) (hz : 0 < size)
    {p q : List Int} {s t : Int} (hstart : (if a.nyc then some (a.start.getD [9, 30]) else a.start) = some p)
    (hstop : (if a.nyc then some (a.stop.getD [16, 15]) else a.stop) = some q) (hp : tupleNs p = some s) (hq : tupleNs q = some t)
    (hnyc : ¬ (a.nyc = true ∧ a.start.isSome = true ∧ a.stop.isSome = true)) (hst : s < t) (hl : a.label ≠ .other)
    (h0 : a.pre = true → 0 ≤ s) (h1 : a.post = true → t ≤ 86400000000000) (times : List (Option Int)) :
    ∃ (N : Nat) (e : List Int), IsGrid s t size e ∧ ∀ fuel, N ≤ fuel → ∃ r, cutTime ss fuel a times = .ok r ∧ IsResult a e times r := by
  have hrun := fun fuel hf => loop_run size t hz s fuel hf
  obtain ⟨n, -, hlt, hge⟩ := hrun ((t - s).toNat + 1) (by omega)
  have huniq : ∀ {n' : Nat}, (∀ k : Nat, k < n' → s + k * size < t) → t ≤ s + n' * size → n' = n := by
    intro n' a1 a2
    rcases lt_trichotomy n' n with h | h | h
    · have := hlt n' h; omega
    · exact h
    · have := a1 n h; omega
  set e := (List.range n).map (fun k : Nat => s + (k : Int) * size) ++ [t] with he
  have hgrid : IsGrid s t size e := by
    refine ⟨n, by simp [he], fun k hk => ⟨?_, hlt k hk⟩, ?_, hge⟩
    · rw [he, List.getElem?_append_left (by simpa using hk), List.getElem?_map, List.getElem?_range hk]; rfl
    · rw [he, List.getElem?_append_right (by simp)]; simp
  have hn : 0 < n := by
    rcases Nat.eq_zero_or_pos n with h | h
    · subst h; simp at hge; omega
    · exact h
  have hmem : ∀ x ∈ e, s ≤ x ∧ x ≤ t := by
    intro x hx
    rw [he, List.mem_append] at hx
    rcases hx with hx | hx
    · obtain ⟨k, hk, rfl⟩ := List.mem_map.1 hx
      have := hlt k (by simpa using hk)
      have hk0 : 0 ≤ (k : Int) * size := mul_nonneg (by omega) hz.le
      exact ⟨by omega, by omega⟩
    · rw [List.mem_singleton.1 hx]; exact ⟨hst.le, le_refl _⟩
  have hsorted : e.Pairwise (· ≤ ·) := by
    rw [he, List.pairwise_append]
    refine ⟨?_, by simp, fun x hx y hy => ?_⟩
    · rw [List.pairwise_map]
      refine List.Pairwise.imp ?_ List.pairwise_lt_range
      intro i j hij
      have : (i : Int) * size ≤ (j : Int) * size := mul_le_mul_of_nonneg_right (by omega) hz.le
      omega
    · rw [List.mem_singleton.1 hy]
      exact (hmem x (by rw [he]; exact List.mem_append_left _ hx)).2
  refine ⟨(t - s).toNat + 1, e, hgrid, fun fuel hf => ?_⟩
  refine cutTime_of_points hss ?_ hsorted (by simp [he]; omega) hl (fun h x hx => le_trans (h0 h) (hmem x hx).1)
    (fun h x hx => le_trans (hmem x hx).2 (h1 h)) times
  obtain ⟨n', r1, r2, r3⟩ := hrun fuel (by omega)
  obtain rfl := huniq r2 r3
  unfold cutPoints
  rw [hb]
  simp only []
  rw [if_neg (by simp only [Bool.and_eq_true, not_and]; exact fun h => fun h' => hnyc ⟨h.1, h.2, h'⟩), hstart, hstop]
  simp only []
  rw [hp, hq]
  simp only []
  rw [r1]

theorem mapM_tupleNs {l : List (List Int)} (h : ∀ t ∈ l, Usual t) : ∃ e, l.mapM tupleNs = some e ∧ e.length = l.length ∧
    ∀ (k : Nat) (t : List Int), l[k]? = some t → (tupleNs t).isSome = true ∧ e[k]? = tupleNs t := by
  induction l with
  | nil => exact ⟨[], rfl, rfl, fun k t h => by simp at h⟩
  | cons a l ih =>
    obtain ⟨e, h1, h2, h3⟩ := ih (fun t ht => h t (List.mem_cons_of_mem _ ht))
    obtain ⟨n, hn⟩ := tupleNs_some (h a (by simp))
    refine ⟨n :: e, by rw [List.mapM_cons, hn, h1]; rfl, by simp [h2], fun k t hk => ?_⟩
    cases k with
    | zero =>
      simp only [List.getElem?_cons_zero, Option.some.injEq] at hk
      subst hk
      simp [hn]
    | succ k => simpa using h3 k t hk

/-- **C130** `cut_time` with a list of edges, in any order. -/
theorem cutTime_list {ss : List Int → Option Int → Nat} (hss : SearchOK ss) {a : Args} {l : List (List Int)} (hb : a.buckets = .edges l)
    (hu : ∀ t ∈ l, Usual t) (hn : 2 ≤ l.length) (hl : a.label ≠ .other)
    (h1 : a.post = true → ∀ t ∈ l, ∀ n, tupleNs t = some n → n ≤ 86400000000000) (fuel : Nat) (times : List (Option Int)) :
    ∃ e, e.Pairwise (· ≤ ·) ∧ (∀ n, n ∈ e ↔ ∃ t ∈ l, tupleNs t = some n) ∧ e.length = l.length ∧
      ∃ r, cutTime ss fuel a times = .ok r ∧ IsResult a e times r := by
  set l' := l.insertionSort (fun p q => tupLe p q = true) with hl'
  have hperm : l'.Perm l := List.perm_insertionSort _ _
  have hu' : ∀ t ∈ l', Usual t := fun t ht => hu t (hperm.mem_iff.1 ht)
  obtain ⟨e, e1, e2, e3⟩ := mapM_tupleNs hu'
  have hback : ∀ (k : Nat) (n : Int), e[k]? = some n → ∃ t, l'[k]? = some t ∧ tupleNs t = some n := by
    intro k n hk
    have hlt : k < l'.length := by rw [← e2]; exact (List.getElem?_eq_some_iff.1 hk).1
    exact ⟨l'[k], List.getElem?_eq_getElem hlt, by rw [← (e3 k _ (List.getElem?_eq_getElem hlt)).2]; exact hk⟩
  have : Std.Total (fun p q : List Int => tupLe p q = true) := ⟨tupLe_total⟩
  have : IsTrans (List Int) (fun p q => tupLe p q = true) := ⟨tupLe_trans⟩
  have hs : l'.Pairwise (fun p q => tupLe p q = true) := List.pairwise_insertionSort _ _
  have hsorted : e.Pairwise (· ≤ ·) := by
    rw [List.pairwise_iff_getElem]
    intro i j hi hj hij
    obtain ⟨p, hp, hp'⟩ := hback i _ (List.getElem?_eq_getElem hi)
    obtain ⟨q, hq, hq'⟩ := hback j _ (List.getElem?_eq_getElem hj)
    obtain ⟨a1, b1⟩ := List.getElem?_eq_some_iff.1 hp
    obtain ⟨a2, b2⟩ := List.getElem?_eq_some_iff.1 hq
    have := List.pairwise_iff_getElem.1 hs i j a1 a2 hij
    rw [b1, b2] at this
    exact tupLe_ns (hu' p (List.mem_of_getElem? hp)) (hu' q (List.mem_of_getElem? hq)) hp' hq' this
  have hmem : ∀ n, n ∈ e ↔ ∃ t ∈ l, tupleNs t = some n := by
    intro n
    constructor
    · intro h
      obtain ⟨k, hk⟩ := List.getElem?_of_mem h
      obtain ⟨t, ht, hn⟩ := hback k n hk
      exact ⟨t, hperm.mem_iff.1 (List.mem_of_getElem? ht), hn⟩
    · rintro ⟨t, ht, hn⟩
      obtain ⟨k, hk⟩ := List.getElem?_of_mem (hperm.mem_iff.2 ht)
      have := (e3 k t hk).2
      rw [hn] at this
      exact List.mem_of_getElem? this
  refine ⟨e, hsorted, hmem, by rw [e2, hperm.length_eq], ?_⟩
  refine cutTime_of_points hss ?_ hsorted (by rw [e2, hperm.length_eq]; exact hn) hl (fun _ n hn => ?_) (fun h n hn => ?_) times
  · unfold cutPoints
    rw [hb]
    simp only []
    rw [← hl', e1]
  · obtain ⟨t, ht, hn⟩ := (hmem n).1 hn
    obtain ⟨hh, m, s, ms, hc, b1, b2, b3, b4, b5, b6, b7⟩ := hu t ht
    rcases hc with ⟨rfl, rfl, rfl⟩ | ⟨rfl, rfl⟩ | rfl <;> simp only [tupleNs, Option.some.injEq] at hn <;> omega
  · obtain ⟨t, ht, hn⟩ := (hmem n).1 hn
    exact h1 h t ht n hn

/-- In a grid every time after the start and up to the end is in exactly one bucket, and the buckets have the length asked
for, the last one at most. -/
theorem grid_cover {s t size : Int} {e : List Int} (h : IsGrid s t size e) (hz : 0 < size) (hst : s < t) :
    (∀ v, s < v → v ≤ t → ∃ k, InBucket e v k ∧ ∀ k', InBucket e v k' → k' = k) ∧
    ∀ (k : Nat) (lo hi : Int), e[k]? = some lo → e[k + 1]? = some hi → lo < hi ∧ hi - lo ≤ size ∧ (hi ≠ t → hi - lo = size) := by
  obtain ⟨n, hlen, hk, hlast, hge⟩ := h
  have hn : 0 < n := by
    rcases Nat.eq_zero_or_pos n with h | h
    · subst h; simp at hge; omega
    · exact h
  have hedge : ∀ (k : Nat) (lo hi : Int), e[k]? = some lo → e[k + 1]? = some hi → lo = s + k * size ∧ k < n ∧ (hi = s + (k + 1) * size ∧ k + 1 < n ∨ hi = t ∧ k + 1 = n) := by
    intro k lo hi h1 h2
    have hlt := (List.getElem?_eq_some_iff.1 h2).1
    have hkn : k < n := by omega
    have e1 := (hk k hkn).1
    rw [h1] at e1; cases e1
    refine ⟨rfl, hkn, ?_⟩
    rcases Nat.lt_or_ge (k + 1) n with h | h
    · have e2 := (hk (k + 1) h).1
      rw [h2] at e2; cases e2
      exact Or.inl ⟨by push_cast; rfl, h⟩
    · have : k + 1 = n := by omega
      rw [this, hlast] at h2; cases h2
      exact Or.inr ⟨rfl, this⟩
  constructor
  · intro v hv1 hv2
    -- the largest `k` with `s + k * size < v`
    have hex : ∃ k : Nat, s + k * size < v ∧ v ≤ s + (k + 1) * size := by
      have hd := Int.mul_ediv_add_emod (v - s - 1) size
      have hm1 := Int.emod_nonneg (v - s - 1) hz.ne'
      have hm2 := Int.emod_lt_of_pos (v - s - 1) hz
      have hq : 0 ≤ (v - s - 1) / size := Int.ediv_nonneg (by omega) hz.le
      refine ⟨((v - s - 1) / size).toNat, ?_, ?_⟩
      · rw [Int.toNat_of_nonneg hq, mul_comm]; omega
      · rw [Int.toNat_of_nonneg hq, add_mul, mul_comm]; omega
    obtain ⟨k, hk1, hk2⟩ := hex
    have hkn : k < n := by
      by_contra h
      have : (n : Int) * size ≤ (k : Int) * size := mul_le_mul_of_nonneg_right (by omega) hz.le
      omega
    have hlo := (hk k hkn).1
    have hhi : ∃ hi, e[k + 1]? = some hi ∧ v ≤ hi := by
      rcases Nat.lt_or_ge (k + 1) n with h | h
      · exact ⟨_, (hk (k + 1) h).1, by push_cast; exact hk2⟩
      · have : k + 1 = n := by omega
        exact ⟨t, by rw [this]; exact hlast, hv2⟩
    obtain ⟨hi, hhi, hvhi⟩ := hhi
    refine ⟨k, ⟨_, hi, hlo, hhi, hk1, hvhi⟩, ?_⟩
    rintro k' ⟨lo', hi', h1, h2, h3, h4⟩
    obtain ⟨e1, e2, e3⟩ := hedge k' lo' hi' h1 h2
    subst e1
    have hk'le : k' ≤ k := by
      by_contra h
      have : ((k : Int) + 1) * size ≤ (k' : Int) * size := mul_le_mul_of_nonneg_right (by omega) hz.le
      omega
    rcases e3 with ⟨e3, e4⟩ | ⟨e3, e4⟩
    · subst e3
      by_contra h
      have : ((k' : Int) + 1) * size ≤ (k : Int) * size := mul_le_mul_of_nonneg_right (by omega) hz.le
      omega
    · omega
  · intro k lo hi h1 h2
    obtain ⟨e1, e2, e3⟩ := hedge k lo hi h1 h2
    have hkt := (hk k e2).2
    have hexp : ((k : Int) + 1) * size = k * size + size := by ring
    rcases e3 with ⟨e3, e4⟩ | ⟨e3, e4⟩
    · subst e1; subst e3
      exact ⟨by omega, by omega, fun _ => by omega⟩
    · subst e1; subst e3
      have : (n : Int) * size = k * size + size := by rw [← hexp, ← e4]; push_cast; rfl
      exact ⟨by omega, by omega, fun h => absurd rfl h⟩

end Verif.TimeCut
