import Verif.Tz.Lemmas
/-!
# C33: local time to UTC and back
-/
namespace Verif.Tz
open Verif.Calendar

/-! ## The model in terms of counting -/

def cuts (z : Zone) : List Int := (initFromTz z).1.getD []

/-- how far after the switch the wall clock cutoff of a start is given: one hour in the Dublin table -/
def lag : Zone → Int
  | .dublin => nanosPerHour
  | _ => 0

theorem zone_rel (z : Zone) : Rel nanosPerHour z.offset (lag z) (cuts z) (switches z) := by
  have hpos : (0 : Int) < nanosPerHour := by decide
  have hnil : ∀ off, Rel nanosPerHour off 0 [] [] := fun off => ⟨hpos, Or.inl rfl, rfl, by simp, by simp⟩
  cases z with
  | nyc => exact rel_nyc
  | dublin => exact rel_dublin
  | sydney => exact rel_sydney
  | hongKong => exact rel_hongKong
  | seoul => exact rel_seoul
  | tokyo => exact hnil _
  | kolkata => exact hnil _
  | gmt => exact hnil _
  | utc => exact hnil _

theorem fixDst_eq (f z : Zone) (u : Int) :
    (TimeZone.init f z).fixDst u = u - z.offset + if searchLeft (switches z) u % 2 = 1 then nanosPerHour else 0 := by
  unfold TimeZone.fixDst TimeZone.maskDst TimeZone.init
  cases z <;> simp only [initToTz, switches, Option.orElse_some, decide_eq_true_eq] <;>
    first
    | (split <;> omega)
    | (simp [searchLeft, Zone.offset])

theorem toUtc_eq (z t : Zone) (x : Int) (hx : x ≠ 0) :
    (TimeZone.init z t).toUtc x = x + z.offset - if searchLeft (cuts z) x % 2 = 1 then nanosPerHour else 0 := by
  have hm : (TimeZone.init z t).maskDst x (TimeZone.init z t).dstCutoffs = decide (searchLeft (cuts z) x % 2 = 1) := by
    cases z <;> rfl
  have hf : (TimeZone.init z t).fromTz = z := rfl
  have ho : (TimeZone.init z t).fixOffset = z.offset := by cases z <;> rfl
  have hg : z = .gmt ∨ z = .utc → searchLeft (cuts z) x = 0 ∧ z.offset = 0 := by
    rintro (rfl | rfl) <;> exact ⟨rfl, rfl⟩
  unfold TimeZone.toUtc
  rw [hm, hf, ho]
  by_cases hz : z = .gmt ∨ z = .utc
  · obtain ⟨h0, h1⟩ := hg hz
    rw [if_neg (by rintro ⟨a, b⟩; rcases hz with h | h <;> contradiction), h0, h1, if_neg (by omega)]
    omega
  · rw [if_pos ⟨fun h => hz (Or.inl h), fun h => hz (Or.inr h)⟩, if_neg hx]
    by_cases hd : searchLeft (cuts z) x % 2 = 1
    · rw [if_pos hd, if_pos (decide_eq_true hd)]
    · rw [if_neg hd, if_neg (by rw [decide_eq_true_iff]; exact hd)]
      omega

theorem toUtc_zero (z t : Zone) : (TimeZone.init z t).toUtc 0 = 0 := by
  unfold TimeZone.toUtc
  cases z <;> simp [TimeZone.init]

theorem wall_eq (z : Zone) (u : Int) :
    wall z u = u - z.offset + if searchRight (switches z) u % 2 = 1 then nanosPerHour else 0 := rfl

/-! ## Each direction -/

/-- **C33** The displayed time is the wall clock, except exactly at a switch, where it is still the one before the switch. -/
theorem fixDst_exact (f z : Zone) (u : Int) :
    (¬ StartsDst z u → ¬ EndsDst z u → (TimeZone.init f z).fixDst u = wall z u) ∧
    (StartsDst z u → (TimeZone.init f z).fixDst u = wall z u - nanosPerHour) ∧
    (EndsDst z u → (TimeZone.init f z).fixDst u = wall z u + nanosPerHour) := by
  have hs := (zone_rel z).sorted
  rw [fixDst_eq, wall_eq]
  refine ⟨fun h1 h2 => ?_, ?_, ?_⟩
  · have hu : u ∉ switches z := by
      intro hm
      obtain ⟨i, hi⟩ := List.mem_iff_getElem?.1 hm
      rcases Nat.mod_two_eq_zero_or_one i with h | h
      · exact h1 ⟨i, h, hi⟩
      · exact h2 ⟨i, h, hi⟩
    rw [left_of_notMem hs hu]
  · rintro ⟨i, hi0, hi⟩
    obtain ⟨e1, e2⟩ := left_right_at hs hi
    rw [e1, e2, if_neg (by omega), if_pos (by omega)]
    omega
  · rintro ⟨i, hi0, hi⟩
    obtain ⟨e1, e2⟩ := left_right_at hs hi
    rw [e1, e2, if_pos (by omega), if_neg (by omega)]
    omega

/-- the hour that occurs twice, both ends included -/
def RepeatedHour (z : Zone) (u : Int) : Prop := ∃ a, EndsDst z a ∧ a ≤ u ∧ u ≤ a + nanosPerHour

/-- **C33** A wall clock time that occurs leads to its instant, except in the repeated hour (where it leads to the first of the two
instants), and at the very start of daylight saving time in Dublin (one hour late). -/
theorem toUtc_exact (z t : Zone) (u : Int) (hx : wall z u ≠ 0) :
    (¬ RepeatedHour z u → ¬ (z = .dublin ∧ StartsDst z u) → (TimeZone.init z t).toUtc (wall z u) = u) ∧
    (RepeatedHour z u → (TimeZone.init z t).toUtc (wall z u) = u - nanosPerHour) ∧
    (z = .dublin → StartsDst z u → (TimeZone.init z t).toUtc (wall z u) = u + nanosPerHour) := by
  have hR := zone_rel z
  have hlag : lag z = nanosPerHour ↔ z = .dublin := by
    have : (0 : Int) ≠ nanosPerHour := by decide
    cases z <;> simp [lag, this]
  have hpos : (0 : Int) < nanosPerHour := by decide
  rw [toUtc_eq z t _ hx]
  by_cases hodd : searchRight (switches z) u % 2 = 1
  · have hw : wall z u = u - z.offset + nanosPerHour := by rw [wall_eq, if_pos hodd]
    have hnr : ¬ RepeatedHour z u := by
      rintro ⟨a, ⟨i, hi1, hi⟩, ha, hb⟩
      obtain ⟨h1, h2⟩ := right_spec hR.sorted u
      have hik := (h2 i a hi).1 ha
      have hne : searchRight (switches z) u ≠ i + 1 := by omega
      have hil : i + 1 < (switches z).length := by omega
      have hle := (h2 (i + 1) _ (List.getElem?_eq_getElem hil)).2 (by omega)
      have := hR.lt (Nat.lt_succ_self i) hi (List.getElem?_eq_getElem hil)
      have e : (switches z)[i + 1] ≤ u := hle
      omega
    rw [hw, cut_dst hR u hodd]
    refine ⟨fun _ hnd => ?_, fun hr => absurd hr hnr, fun hz hst => ?_⟩
    · rw [if_neg (show ¬ (lag z = nanosPerHour ∧ ∃ i : Nat, i % 2 = 0 ∧ (switches z)[i]? = some u) from
        fun hc => hnd ⟨hlag.1 hc.1, hc.2⟩), if_pos hodd]
      omega
    · rw [if_pos (show (lag z = nanosPerHour ∧ ∃ i : Nat, i % 2 = 0 ∧ (switches z)[i]? = some u) from ⟨hlag.2 hz, hst⟩), if_neg (by omega)]
      omega
  · have hw : wall z u = u - z.offset := by rw [wall_eq, if_neg hodd]; omega
    have hiff : (∃ (i : Nat) (a : Int), i % 2 = 1 ∧ (switches z)[i]? = some a ∧ a ≤ u ∧ u ≤ a + nanosPerHour) ↔ RepeatedHour z u := by
      constructor
      · rintro ⟨i, a, h1, h2, h3, h4⟩; exact ⟨a, ⟨i, h1, h2⟩, h3, h4⟩
      · rintro ⟨a, ⟨i, h1, h2⟩, h3, h4⟩; exact ⟨i, a, h1, h2, h3, h4⟩
    have hns : ¬ StartsDst z u := by
      rintro ⟨i, hi0, hi⟩
      have := (left_right_at hR.sorted hi).2
      omega
    rw [hw, cut_std hR u (by omega)]
    refine ⟨fun hnr _ => ?_, fun hr => ?_, fun _ hst => absurd hst hns⟩
    · rw [if_neg (mt hiff.1 hnr), if_neg hodd]
      omega
    · rw [if_pos (hiff.2 hr)]
      have hk0 : searchRight (switches z) u ≠ 0 := by
        obtain ⟨a, ⟨i, hi1, hi⟩, ha, _⟩ := hr
        have := ((right_spec hR.sorted u).2 i a hi).1 ha
        omega
      rw [if_pos (by omega)]
      omega

/-! ## Round trips -/

theorem repeated_not_start {z : Zone} {u : Int} (hr : RepeatedHour z u) : ¬ StartsDst z u := by
  rintro ⟨j, hj0, hj⟩
  obtain ⟨a, ⟨i, hi1, hi⟩, ha, hb⟩ := hr
  have hR := zone_rel z
  have hpos := hR.pos
  rcases Nat.lt_trichotomy i j with h | h | h
  · have := hR.lt h hi hj; omega
  · omega
  · have := hR.lt h hj hi; omega

/-- **C33** A wall clock time that occurs is displayed again after conversion to UTC, unless it is the first instant of daylight
saving time. -/
theorem local_round_trip_partial (z : Zone) (u : Int) (hx : wall z u ≠ 0) (hs : ¬ StartsDst z u) :
    (TimeZone.init z z).fixDst ((TimeZone.init z z).toUtc (wall z u)) = wall z u := by
  have hR := zone_rel z
  have hpos := hR.pos
  obtain ⟨t1, t2, -⟩ := toUtc_exact z z u hx
  by_cases hr : RepeatedHour z u
  · rw [t2 hr, fixDst_eq]
    obtain ⟨a, ⟨i, hi1, hi⟩, ha, hb⟩ := hr
    obtain ⟨h1, h2⟩ := right_spec hR.sorted u
    -- the first occurrence of the hour: still in daylight saving time
    have hil : i ≤ (switches z).length := by
      obtain ⟨h, _⟩ := List.getElem?_eq_some_iff.1 hi; omega
    have hleft : searchLeft (switches z) (u - nanosPerHour) = i := by
      refine searchLeft_eq hil fun j b hj => ?_
      rcases Nat.lt_trichotomy j i with h | h | h
      · have := hR.lt h hj hi; omega
      · subst h; rw [hi] at hj; have := Option.some.inj hj; omega
      · have := hR.lt h hi hj; omega
    have hright : searchRight (switches z) u = i + 1 := by
      have hik := (h2 i a hi).1 ha
      by_contra hne
      have hil : i + 1 < (switches z).length := by omega
      have hle := (h2 (i + 1) _ (List.getElem?_eq_getElem hil)).2 (by omega)
      have := hR.lt (Nat.lt_succ_self i) hi (List.getElem?_eq_getElem hil)
      have e : (switches z)[i + 1] ≤ u := hle
      omega
    rw [hleft, if_pos hi1, wall_eq, hright, if_neg (by omega)]
    omega
  · rw [t1 hr (fun h => hs h.2)]
    refine (fixDst_exact z z u).1 hs (fun he => hr ⟨u, he, by omega, by omega⟩)

/-- **C33** What happens at the first instant of daylight saving time: the displayed time is an hour early (Dublin: an hour late). -/
theorem local_round_trip_start (z : Zone) (u : Int) (hx : wall z u ≠ 0) (hs : StartsDst z u) :
    (TimeZone.init z z).fixDst ((TimeZone.init z z).toUtc (wall z u)) =
      if z = .dublin then wall z u + nanosPerHour else wall z u - nanosPerHour := by
  have hR := zone_rel z
  have hpos := hR.pos
  obtain ⟨t1, t2, t3⟩ := toUtc_exact z z u hx
  by_cases hz : z = .dublin
  · rw [if_pos hz, t3 hz hs]
    obtain ⟨i, hi0, hi⟩ := hs
    have hw : wall z u = u - z.offset + nanosPerHour := by
      rw [wall_eq, (left_right_at hR.sorted hi).2, if_pos (by omega)]
    have hleft : searchLeft (switches z) (u + nanosPerHour) = i + 1 := by
      have hil : i < (switches z).length := by
        obtain ⟨h, _⟩ := List.getElem?_eq_some_iff.1 hi; exact h
      refine searchLeft_eq (by omega) fun j b hj => ?_
      rcases Nat.lt_trichotomy j i with h | h | h
      · have := hR.lt h hj hi; omega
      · subst h; rw [hi] at hj; have := Option.some.inj hj; omega
      · have := hR.lt h hi hj; omega
    rw [fixDst_eq, hleft, if_pos (by omega), hw]
    omega
  · rw [if_neg hz, t1 (fun h => repeated_not_start h hs) (fun h => hz h.1)]
    exact (fixDst_exact z z u).2.1 hs

/-- the hour after the end of daylight saving time: the second of the two, without its first instant -/
def SecondHour (z : Zone) (u : Int) : Prop := ∃ a, EndsDst z a ∧ a < u ∧ u ≤ a + nanosPerHour

/-- **C33** A UTC instant displayed and converted back is the same instant, except in the hour after the end of daylight saving
time, where it is an hour early. -/
theorem utc_round_trip_exact (z : Zone) (u : Int) (hx : (TimeZone.init z z).fixDst u ≠ 0) :
    (¬ SecondHour z u → (TimeZone.init z z).toUtc ((TimeZone.init z z).fixDst u) = u) ∧
    (SecondHour z u → (TimeZone.init z z).toUtc ((TimeZone.init z z).fixDst u) = u - nanosPerHour) := by
  have hR := zone_rel z
  have hpos := hR.pos
  obtain ⟨f1, f2, f3⟩ := fixDst_exact z z u
  have hsr : SecondHour z u → RepeatedHour z u := fun ⟨a, h1, h2, h3⟩ => ⟨a, h1, by omega, h3⟩
  by_cases hs : StartsDst z u
  · -- still standard time
    have hst := hs
    obtain ⟨i, hi0, hi⟩ := hs
    obtain ⟨e1, e2⟩ := left_right_at hR.sorted hi
    have hnr : ¬ RepeatedHour z u := fun hr => repeated_not_start hr hst
    refine ⟨fun _ => ?_, fun h => absurd (hsr h) hnr⟩
    rw [toUtc_eq _ _ _ hx, fixDst_eq, e1, if_neg (by omega)]
    have hil : i ≤ (cuts z).length := by
      obtain ⟨h, _⟩ := List.getElem?_eq_some_iff.1 hi; rw [hR.len]; omega
    have hc : searchLeft (cuts z) (u - z.offset + 0) = i := by
      refine searchLeft_eq hil fun j b hj => ?_
      obtain ⟨a, hja, rfl⟩ := hR.back hj
      have hg := hR.g0
      rcases Nat.lt_trichotomy j i with h | h | h
      · have := hR.lt h hja hi
        constructor
        · intro _; exact h
        · intro _; split <;> rcases hg with hg | hg <;> omega
      · subst h; rw [hi] at hja; have := Option.some.inj hja
        rw [if_neg (by omega)]
        rcases hg with hg | hg <;> omega
      · have := hR.lt h hi hja
        constructor
        · intro hx; split at hx <;> rcases hg with hg | hg <;> omega
        · intro hx; omega
    rw [hc, if_neg (by omega)]
    omega
  · by_cases he : EndsDst z u
    · obtain ⟨i, hi0, hi⟩ := he
      obtain ⟨e1, e2⟩ := left_right_at hR.sorted hi
      have hns : ¬ SecondHour z u := by
        rintro ⟨a, ⟨j, hj1, hj⟩, ha, hb⟩
        rcases Nat.lt_trichotomy j i with h | h | h
        · have := hR.lt h hj hi; omega
        · subst h; rw [hi] at hj; have := Option.some.inj hj; omega
        · have := hR.lt h hi hj; omega
      refine ⟨fun _ => ?_, fun h => absurd h hns⟩
      rw [toUtc_eq _ _ _ hx, fixDst_eq, e1, if_pos hi0]
      have hil : i ≤ (cuts z).length := by
        obtain ⟨h, _⟩ := List.getElem?_eq_some_iff.1 hi; rw [hR.len]; omega
      have hc : searchLeft (cuts z) (u - z.offset + nanosPerHour) = i := by
        refine searchLeft_eq hil fun j b hj => ?_
        obtain ⟨a, hja, rfl⟩ := hR.back hj
        have hg := hR.g0
        rcases Nat.lt_trichotomy j i with h | h | h
        · have := hR.lt h hja hi
          constructor
          · intro _; exact h
          · intro _; split <;> rcases hg with hg | hg <;> omega
        · subst h; rw [hi] at hja; have := Option.some.inj hja
          rw [if_pos hi0]
          omega
        · have := hR.lt h hi hja
          constructor
          · intro hx; split at hx <;> rcases hg with hg | hg <;> omega
          · intro hx; omega
      rw [hc, if_pos hi0]
      omega
    · have hw := f1 hs he
      rw [hw] at hx ⊢
      obtain ⟨t1, t2, -⟩ := toUtc_exact z z u hx
      refine ⟨fun hns => t1 ?_ (fun h => hs h.2), fun h => t2 (hsr h)⟩
      rintro ⟨a, h1, h2, h3⟩
      rcases Int.lt_or_eq_of_le h2 with h | h
      · exact hns ⟨a, h1, h, h3⟩
      · exact he (h ▸ h1)

/-- **C33** From the wall clock of one zone to the wall clock of another. -/
theorem convert_correct_partial (a b : Zone) (u : Int) (hx : wall a u ≠ 0) (hr : ¬ RepeatedHour a u) (hd : ¬ (a = .dublin ∧ StartsDst a u))
    (hs : ¬ StartsDst b u) (he : ¬ EndsDst b u) :
    (TimeZone.init a b).fixDst ((TimeZone.init a b).toUtc (wall a u)) = wall b u := by
  rw [(toUtc_exact a b u hx).1 hr hd]
  exact (fixDst_exact a b u).1 hs he

/-! ## `is_dst`, `tz_offset`, changing the zone -/

/-- **C33** `tz_offset` is the difference between the displayed and the UTC time, for every object and every instant. -/
theorem tzOffset_correct (tz : TimeZone) (u : Int) : tz.fixDst u = u + tz.tzOffset u := by
  unfold TimeZone.fixDst TimeZone.tzOffset
  cases tz.dstReverse with
  | none => dsimp only; omega
  | some r => dsimp only; split <;> omega

/-- **C33** `is_dst` of a zone with daylight saving time, except exactly at a switch. -/
theorem isDst_correct_partial (f z : Zone) (hz : (initToTz z).1 ≠ none) (u : Int) (hs : ¬ StartsDst z u) (he : ¬ EndsDst z u) :
    (TimeZone.init f z).isDst u = true ↔ inDst z u := by
  have hR := zone_rel z
  have hu : u ∉ switches z := by
    intro hm
    obtain ⟨i, hi⟩ := List.mem_iff_getElem?.1 hm
    rcases Nat.mod_two_eq_zero_or_one i with h | h
    · exact hs ⟨i, h, hi⟩
    · exact he ⟨i, h, hi⟩
  have hl := left_of_notMem hR.sorted hu
  have hsw : (initToTz z).1 = some (switches z) := by
    cases z <;> first | rfl | (exact absurd rfl hz)
  unfold TimeZone.isDst TimeZone.maskDst TimeZone.init inDst
  rw [hsw]
  simp only [Option.orElse_some, decide_eq_true_eq]
  rw [hl]
  rfl

/-- `copy` gives the same object, and changing the display zone the object that would have been created for it. -/
theorem copy_eq (tz : TimeZone) : tz.copy = tz := rfl
theorem setTimezone_eq (a b z : Zone) : (TimeZone.init a b).setTimezone z = TimeZone.init a z := rfl

/-! ## Examples and counterexamples -/

/-- New York, 2019-03-10 03:00, the first instant of daylight saving time, is displayed as 02:00. -/
theorem local_round_trip_nyc_counterexample :
    ∃ l, l = Entry.nanos ⟨2019, 3, 10, 3, 0⟩ ∧ (∃ u, wall .nyc u = l) ∧
      (TimeZone.init .nyc .nyc).fixDst ((TimeZone.init .nyc .nyc).toUtc l) = Entry.nanos ⟨2019, 3, 10, 2, 0⟩ := by
  have hsr : switches .nyc = nycReverse.map fastNanos := by unfold switches; rw [nanos_eq_fast]
  have hcr : cuts .nyc = nycCutoffs.map fastNanos := by unfold cuts initFromTz; rw [nanos_eq_fast]; rfl
  refine ⟨fastNanos ⟨2019, 3, 10, 3, 0⟩, by rw [nanos_eq_fast], ⟨fastNanos ⟨2019, 3, 10, 7, 0⟩, ?_⟩, ?_⟩
  · rw [wall_eq, hsr]
    decide +kernel
  · rw [toUtc_eq _ _ _ (by decide +kernel), fixDst_eq, hsr, hcr, nanos_eq_fast]
    decide +kernel

/-- Dublin, 2019-03-31 02:00, the first instant of daylight saving time, is displayed as 03:00. -/
theorem local_round_trip_dublin_counterexample :
    ∃ l, l = Entry.nanos ⟨2019, 3, 31, 2, 0⟩ ∧ (∃ u, wall .dublin u = l) ∧
      (TimeZone.init .dublin .dublin).fixDst ((TimeZone.init .dublin .dublin).toUtc l) = Entry.nanos ⟨2019, 3, 31, 3, 0⟩ := by
  have hsr : switches .dublin = dublinReverse.map fastNanos := by unfold switches; rw [nanos_eq_fast]
  have hcr : cuts .dublin = dublinCutoffs.map fastNanos := by unfold cuts initFromTz; rw [nanos_eq_fast]; rfl
  refine ⟨fastNanos ⟨2019, 3, 31, 2, 0⟩, by rw [nanos_eq_fast], ⟨fastNanos ⟨2019, 3, 31, 1, 0⟩, ?_⟩, ?_⟩
  · rw [wall_eq, hsr]
    decide +kernel
  · rw [toUtc_eq _ _ _ (by decide +kernel), fixDst_eq, hsr, hcr, nanos_eq_fast]
    decide +kernel

/-- 2019-11-03 07:00 UTC is 02:00 standard time in New York, unambiguous; it is converted back to 06:00 UTC. -/
theorem utc_round_trip_counterexample :
    ∃ u, u = Entry.nanos ⟨2019, 11, 3, 7, 0⟩ ∧ (∀ v, wall .nyc v = wall .nyc u → v = u) ∧
      (TimeZone.init .nyc .nyc).toUtc ((TimeZone.init .nyc .nyc).fixDst u) = u - nanosPerHour := by
  have hsr : switches .nyc = nycReverse.map fastNanos := by unfold switches; rw [nanos_eq_fast]
  refine ⟨fastNanos ⟨2019, 11, 3, 7, 0⟩, by rw [nanos_eq_fast], ?_, ?_⟩
  · intro v hv
    have hR := zone_rel .nyc
    have hw : wall .nyc (fastNanos ⟨2019, 11, 3, 7, 0⟩) = fastNanos ⟨2019, 11, 3, 7, 0⟩ - Zone.offset .nyc := by
      rw [wall_eq, hsr]
      rw [if_neg (by decide +kernel)]
      omega
    rw [hw, wall_eq] at hv
    by_cases hd : searchRight (switches .nyc) v % 2 = 1
    · exfalso
      rw [if_pos hd] at hv
      have hv' : v = fastNanos ⟨2019, 11, 3, 6, 0⟩ := by
        have : fastNanos ⟨2019, 11, 3, 7, 0⟩ = fastNanos ⟨2019, 11, 3, 6, 0⟩ + nanosPerHour := by decide +kernel
        omega
      rw [hv', hsr] at hd
      exact absurd hd (by decide +kernel)
    · rw [if_neg hd] at hv
      omega
  · unfold TimeZone.init initFromTz initToTz
    rw [nanos_eq_fast]
    decide +kernel

/-- `is_dst` of an object displayed in GMT answers for the zone it was created from. -/
theorem isDst_gmt_counterexample :
    ∃ u, u = Entry.nanos ⟨2019, 7, 1, 12, 0⟩ ∧ (TimeZone.init .nyc .gmt).isDst u = true ∧ ¬ inDst .gmt u ∧
      (TimeZone.init .gmt .gmt).isDst u = false := by
  refine ⟨fastNanos ⟨2019, 7, 1, 12, 0⟩, by rw [nanos_eq_fast], ?_, by decide +kernel, by decide +kernel⟩
  unfold TimeZone.init initFromTz initToTz
  rw [nanos_eq_fast]
  decide +kernel

/-- The tables end in 2040: 2041-07-01 12:00 in New York is taken for standard time. -/
theorem nyc_2041_standard : ¬ inDst .nyc (Entry.nanos ⟨2041, 7, 1, 12, 0⟩) := by
  unfold inDst switches
  rw [nanos_eq_fast]
  decide +kernel

example : ∃ u, wall .nyc u ≠ 0 ∧ ¬ RepeatedHour .nyc u ∧ ¬ StartsDst .nyc u ∧ ¬ EndsDst .nyc u ∧ inDst .nyc u := by
  have hsr : switches .nyc = nycReverse.map fastNanos := by unfold switches; rw [nanos_eq_fast]
  have hno : fastNanos ⟨2019, 7, 1, 12, 0⟩ ∉ switches .nyc := by rw [hsr]; decide +kernel
  refine ⟨fastNanos ⟨2019, 7, 1, 12, 0⟩, ?_, ?_, ?_, ?_, ?_⟩
  · rw [wall_eq, hsr]; decide +kernel
  · rintro ⟨a, ⟨i, _, hi⟩, h1, h2⟩
    have hall : ∀ x ∈ nycReverse.map fastNanos, ¬ (x ≤ fastNanos ⟨2019, 7, 1, 12, 0⟩ ∧ fastNanos ⟨2019, 7, 1, 12, 0⟩ ≤ x + nanosPerHour) := by
      decide +kernel
    rw [hsr] at hi
    exact hall a (List.mem_of_getElem? hi) ⟨h1, h2⟩
  · rintro ⟨i, _, hi⟩; exact hno (List.mem_of_getElem? hi)
  · rintro ⟨i, _, hi⟩; exact hno (List.mem_of_getElem? hi)
  · unfold inDst; rw [hsr]; decide +kernel

end Verif.Tz
