import Verif.Tz.Spec
import Mathlib.Data.List.Chain
/-!
# Counting switches
-/
namespace Verif.Tz
open Verif.Calendar

/-- the wall clock cutoffs `c` belong to the switches `r`: an end is one hour of daylight saving later on the wall clock, a
start is given `g` after the wall clock time of the switch -/
structure Rel (h off g : Int) (c r : List Int) : Prop where
  pos : 0 < h
  g0 : g = 0 ∨ g = h
  len : c.length = r.length
  rel : ∀ (i : Nat) (a : Int), r[i]? = some a → c[i]? = some (a - off + if i % 2 = 1 then h else g)
  gap : r.Pairwise fun a b => a + 3 * h ≤ b

variable {h off g : Int} {c r : List Int}

theorem Rel.lt (hR : Rel h off g c r) {i j : Nat} {a b : Int} (hij : i < j) (hi : r[i]? = some a) (hj : r[j]? = some b) : a + 3 * h ≤ b := by
  obtain ⟨hi', ha⟩ := List.getElem?_eq_some_iff.1 hi
  obtain ⟨hj', hb⟩ := List.getElem?_eq_some_iff.1 hj
  have := List.pairwise_iff_getElem.1 hR.gap i j hi' hj' hij
  rw [ha, hb] at this
  exact this

theorem Rel.sorted (hR : Rel h off g c r) : r.Pairwise (· < ·) :=
  hR.gap.imp fun hab => by have := hR.pos; omega

/-- entries of `c` come from entries of `r` -/
theorem Rel.back (hR : Rel h off g c r) {i : Nat} {b : Int} (hi : c[i]? = some b) :
    ∃ a, r[i]? = some a ∧ b = a - off + if i % 2 = 1 then h else g := by
  obtain ⟨hi', _⟩ := List.getElem?_eq_some_iff.1 hi
  have hr : i < r.length := hR.len ▸ hi'
  refine ⟨r[i], List.getElem?_eq_getElem hr, ?_⟩
  have := hR.rel i r[i] (List.getElem?_eq_getElem hr)
  rw [hi] at this
  exact Option.some.inj this

/-- the number of switches up to `u` -/
theorem right_spec (hs : r.Pairwise (· < ·)) (u : Int) :
    searchRight r u ≤ r.length ∧ ∀ (i : Nat) (a : Int), r[i]? = some a → (a ≤ u ↔ i < searchRight r u) := searchRight_spec r hs u

theorem searchLeft_eq {s : List Int} {x : Int} {n : Nat} (hn : n ≤ s.length)
    (hp : ∀ (i : Nat) (a : Int), s[i]? = some a → (a < x ↔ i < n)) : searchLeft s x = n := by
  unfold searchLeft
  exact filter_prefix s n hn fun i a hi => by rw [decide_eq_true_iff]; exact hp i a hi

/-- before a switch as good as after it, except at a switch itself -/
theorem left_of_notMem (hs : r.Pairwise (· < ·)) {u : Int} (hu : u ∉ r) : searchLeft r u = searchRight r u := by
  obtain ⟨h1, h2⟩ := right_spec hs u
  refine searchLeft_eq h1 fun i a hi => ?_
  rw [← h2 i a hi]
  have : a ≠ u := fun he => hu (he ▸ List.mem_of_getElem? hi)
  omega

theorem left_right_at (hs : r.Pairwise (· < ·)) {i : Nat} {u : Int} (hi : r[i]? = some u) :
    searchLeft r u = i ∧ searchRight r u = i + 1 := by
  obtain ⟨hil, hiu⟩ := List.getElem?_eq_some_iff.1 hi
  have hcmp : ∀ (j : Nat) (a : Int), r[j]? = some a → (a < u ↔ j < i) := by
    intro j a hj
    obtain ⟨hjl, hja⟩ := List.getElem?_eq_some_iff.1 hj
    rcases Nat.lt_trichotomy j i with hlt | heq | hgt
    · have := List.pairwise_iff_getElem.1 hs j i hjl hil hlt
      rw [hja, hiu] at this
      exact ⟨fun _ => hlt, fun _ => this⟩
    · subst heq
      rw [hi] at hj
      have := Option.some.inj hj
      omega
    · have := List.pairwise_iff_getElem.1 hs i j hil hjl hgt
      rw [hja, hiu] at this
      omega
  refine ⟨searchLeft_eq (by omega) hcmp, ?_⟩
  obtain ⟨h1, h2⟩ := right_spec hs u
  have e1 := (h2 i u hi).1 (by omega)
  by_contra hne
  have hlt : i + 1 < searchRight r u := by omega
  have hil1 : i + 1 < r.length := by omega
  have := (h2 (i + 1) r[i + 1] (List.getElem?_eq_getElem hil1)).2 hlt
  have hh := List.pairwise_iff_getElem.1 hs i (i + 1) hil hil1 (by omega)
  omega

open Classical in
/-- The cutoffs before the wall clock time of `u` in daylight saving time. -/
theorem cut_dst (hR : Rel h off g c r) (u : Int) (hodd : searchRight r u % 2 = 1) :
    searchLeft c (u - off + h) = if g = h ∧ ∃ i : Nat, i % 2 = 0 ∧ r[i]? = some u then searchRight r u - 1 else searchRight r u := by
  obtain ⟨h1, h2⟩ := right_spec hR.sorted u
  have hp := hR.pos
  have hg := hR.g0
  generalize hk : searchRight r u = k at *
  by_cases hex : g = h ∧ ∃ i : Nat, i % 2 = 0 ∧ r[i]? = some u
  · rw [if_pos hex]
    obtain ⟨hgh, i, hi0, hi⟩ := hex
    have hik := (left_right_at hR.sorted hi).2
    rw [hk] at hik
    refine searchLeft_eq (by rw [hR.len]; omega) fun j b hj => ?_
    obtain ⟨a, hja, rfl⟩ := hR.back hj
    rcases Nat.lt_trichotomy j i with hlt | heq | hgt
    · have := hR.lt hlt hja hi
      constructor
      · intro _; omega
      · intro _; split <;> omega
    · subst heq
      rw [hi] at hja
      have hau := Option.some.inj hja
      rw [if_neg (by omega)]
      omega
    · have := hR.lt hgt hi hja
      constructor
      · intro hx; split at hx <;> omega
      · intro hx; omega
  · rw [if_neg hex]
    refine searchLeft_eq (by rw [hR.len]; omega) fun j b hj => ?_
    obtain ⟨a, hja, rfl⟩ := hR.back hj
    have hju := h2 j a hja
    by_cases hlt : j < k
    · have hau := hju.2 hlt
      simp only [hlt, iff_true]
      by_cases hj1 : j % 2 = 1
      · rw [if_pos hj1]
        have hjr : j + 1 < r.length := by omega
        have hg1 := hR.lt (Nat.lt_succ_self j) hja (List.getElem?_eq_getElem hjr)
        have hau1 := (h2 (j + 1) r[j + 1] (List.getElem?_eq_getElem hjr)).2 (by omega)
        have : a + 3 * h ≤ u := by
          have : r[j.succ]? = some r[j + 1] := List.getElem?_eq_getElem hjr
          omega
        omega
      · rw [if_neg hj1]
        rcases hg with hg | hg
        · omega
        · have : a ≠ u := fun he => hex ⟨hg, j, by omega, he ▸ hja⟩
          omega
    · simp only [hlt, iff_false]
      have hau : ¬ a ≤ u := fun hx => hlt (hju.1 hx)
      by_cases hj1 : j % 2 = 1
      · rw [if_pos hj1]; omega
      · rw [if_neg hj1]
        have hkl : k < r.length := by
          obtain ⟨hjl, _⟩ := List.getElem?_eq_some_iff.1 hja
          omega
        have hgp := hR.lt (show k < j by omega) (List.getElem?_eq_getElem hkl) hja
        have hku : ¬ r[k] ≤ u := fun hx => by
          have := (h2 k r[k] (List.getElem?_eq_getElem hkl)).1 hx
          omega
        rcases hg with hg | hg <;> omega

open Classical in
/-- The cutoffs before the wall clock time of `u` in standard time. -/
theorem cut_std (hR : Rel h off g c r) (u : Int) (heven : searchRight r u % 2 = 0) :
    searchLeft c (u - off) =
      if ∃ (i : Nat) (a : Int), i % 2 = 1 ∧ r[i]? = some a ∧ a ≤ u ∧ u ≤ a + h then searchRight r u - 1 else searchRight r u := by
  obtain ⟨h1, h2⟩ := right_spec hR.sorted u
  have hp := hR.pos
  have hg := hR.g0
  generalize hk : searchRight r u = k at *
  by_cases hex : ∃ (i : Nat) (a : Int), i % 2 = 1 ∧ r[i]? = some a ∧ a ≤ u ∧ u ≤ a + h
  · rw [if_pos hex]
    obtain ⟨i, a, hi1, hi, hau, hua⟩ := hex
    have hik : i < k := (h2 i a hi).1 hau
    have hki : k = i + 1 := by
      by_contra hne
      have hil : i + 1 < r.length := by omega
      have hle := (h2 (i + 1) r[i + 1] (List.getElem?_eq_getElem hil)).2 (by omega)
      have := hR.lt (Nat.lt_succ_self i) hi (List.getElem?_eq_getElem hil)
      have e : r[i + 1] ≤ u := hle
      omega
    refine searchLeft_eq (by rw [hR.len]; omega) fun j b hj => ?_
    obtain ⟨a', hja, rfl⟩ := hR.back hj
    rcases Nat.lt_trichotomy j i with hlt | heq | hgt
    · have := hR.lt hlt hja hi
      constructor
      · intro _; omega
      · intro _; split <;> rcases hg with hg | hg <;> omega
    · subst heq
      rw [hi] at hja
      have := Option.some.inj hja
      rw [if_pos hi1]
      omega
    · have := hR.lt hgt hi hja
      constructor
      · intro hx; split at hx <;> rcases hg with hg | hg <;> omega
      · intro hx; omega
  · rw [if_neg hex]
    refine searchLeft_eq (by rw [hR.len]; omega) fun j b hj => ?_
    obtain ⟨a, hja, rfl⟩ := hR.back hj
    have hju := h2 j a hja
    by_cases hlt : j < k
    · have hau := hju.2 hlt
      simp only [hlt, iff_true]
      by_cases hj1 : j % 2 = 1
      · rw [if_pos hj1]
        have : ¬ u ≤ a + h := fun hx => hex ⟨j, a, hj1, hja, hau, hx⟩
        omega
      · rw [if_neg hj1]
        have hjr : j + 1 < r.length := by omega
        have hg1 := hR.lt (Nat.lt_succ_self j) hja (List.getElem?_eq_getElem hjr)
        have hau1 : r[j + 1] ≤ u := (h2 (j + 1) r[j + 1] (List.getElem?_eq_getElem hjr)).2 (by omega)
        rcases hg with hg | hg <;> omega
    · simp only [hlt, iff_false]
      have hau : ¬ a ≤ u := fun hx => hlt (hju.1 hx)
      split <;> rcases hg with hg | hg <;> omega

/-! ## The tables -/

/-- closed form of day numbers -/
def fastDay (y m d : Nat) : Int :=
  ((365 * y + (y + 3) / 4 + (y + 399) / 400 - (y + 99) / 100 : Nat) : Int) + daysBeforeMonth y m + d - 1 - 719528

theorem dayNumber_eq_fast (y m d : Nat) : dayNumber y m d = fastDay y m d := by
  unfold dayNumber fastDay
  rw [daysBeforeYear_closed, daysBeforeYear_closed]
  omega

def fastNanos (e : Entry) : Int := fastDay e.y e.m e.d * nanosPerDay + e.h * nanosPerHour + e.mi * nanosPerMinute

theorem nanos_eq_fast : Entry.nanos = fastNanos := by
  funext e
  unfold Entry.nanos fastNanos
  rw [dayNumber_eq_fast]

/-- decidable check of `Rel` -/
def relCheck (off g : Int) (c r : List Entry) : Bool :=
  decide (c.length = r.length) &&
  ((r.map fastNanos).zipIdx.map fun p => p.1 - off + if p.2 % 2 = 1 then nanosPerHour else g) == c.map fastNanos &&
  decide ((r.map fastNanos).IsChain fun a b => a + 3 * nanosPerHour ≤ b)

theorem rel_of_check {off g : Int} {c r : List Entry} (hg : g = 0 ∨ g = nanosPerHour) (hc : relCheck off g c r = true) :
    Rel nanosPerHour off g (c.map Entry.nanos) (r.map Entry.nanos) := by
  unfold relCheck at hc
  rw [Bool.and_eq_true, Bool.and_eq_true, decide_eq_true_iff, decide_eq_true_iff, beq_iff_eq] at hc
  obtain ⟨⟨h1, h2⟩, h3⟩ := hc
  have hpos : (0 : Int) < nanosPerHour := by decide
  rw [nanos_eq_fast]
  refine ⟨hpos, hg, by simpa using h1, ?_, ?_⟩
  · intro i a hi
    rw [← h2, List.getElem?_map, List.getElem?_zipIdx, hi]
    simp
  · have : IsTrans Int fun a b => a + 3 * nanosPerHour ≤ b := ⟨fun a b c hab hbc => by omega⟩
    exact List.isChain_iff_pairwise.1 h3

theorem rel_nyc : Rel nanosPerHour (Zone.offset .nyc) 0 (nycCutoffs.map Entry.nanos) (nycReverse.map Entry.nanos) :=
  rel_of_check (Or.inl rfl) (by decide +kernel)
theorem rel_dublin : Rel nanosPerHour (Zone.offset .dublin) nanosPerHour (dublinCutoffs.map Entry.nanos) (dublinReverse.map Entry.nanos) :=
  rel_of_check (Or.inr rfl) (by decide +kernel)
theorem rel_sydney : Rel nanosPerHour (Zone.offset .sydney) 0 (sydneyCutoffs.map Entry.nanos) (sydneyReverse.map Entry.nanos) :=
  rel_of_check (Or.inl rfl) (by decide +kernel)
theorem rel_hongKong : Rel nanosPerHour (Zone.offset .hongKong) 0 (hongKongCutoffs.map Entry.nanos) (hongKongReverse.map Entry.nanos) :=
  rel_of_check (Or.inl rfl) (by decide +kernel)
theorem rel_seoul : Rel nanosPerHour (Zone.offset .seoul) 0 (seoulCutoffs.map Entry.nanos) (seoulReverse.map Entry.nanos) :=
  rel_of_check (Or.inl rfl) (by decide +kernel)

end Verif.Tz
