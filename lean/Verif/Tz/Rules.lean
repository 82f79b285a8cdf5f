import Verif.Tz.Props
/-!
# C50: the daylight saving tables follow the rules in law

An independent specification: daylight saving time of a year by the weekday rules in force (United States: Uniform Time Act and
its amendments; Ireland: the EU summer time rules; New South Wales: the rule since 2008), and the proof that the tables of
`riptable/rt_timezone.py` say the same for every instant of the years they cover.
-/
namespace Verif.Tz
open Verif.Calendar

/-! ## Specification -/

/-- day 0, 1970-01-01, was a Thursday; so day 3 was a Sunday -/
def IsSunday (n : Int) : Prop := n % 7 = 3

/-- the first Sunday on or after a day -/
def sundayFrom (n : Int) : Int := n + (3 - n) % 7

theorem sundayFrom_spec (n : Int) : IsSunday (sundayFrom n) ∧ n ≤ sundayFrom n ∧ ∀ k, IsSunday k → n ≤ k → sundayFrom n ≤ k := by
  unfold IsSunday sundayFrom
  refine ⟨by omega, by omega, fun k hk hn => by omega⟩

/-- the first Sunday of a month on or after its `d`-th -/
def firstSunday (y m d : Nat) : Int := sundayFrom (dayNumber y m d)

/-- the last Sunday of a month: the first one among its last seven days -/
def lastSunday (y m : Nat) : Int := sundayFrom (dayNumber y m (monthLen y m) - 6)

theorem lastSunday_spec (y m : Nat) :
    IsSunday (lastSunday y m) ∧ lastSunday y m ≤ dayNumber y m (monthLen y m) ∧
      ∀ k, IsSunday k → k ≤ dayNumber y m (monthLen y m) → k ≤ lastSunday y m := by
  unfold lastSunday IsSunday sundayFrom
  refine ⟨by omega, by omega, fun k hk hn => by omega⟩

/-- an hour of a day, in nanoseconds since 1970-01-01 00:00 -/
def at_ (day : Int) (hour : Int) : Int := day * nanosPerDay + hour * nanosPerHour

/-- the day clocks go forward in New York -/
def usStartDay (y : Nat) : Int :=
  if y = 1974 then dayNumber 1974 1 6
  else if y = 1975 then dayNumber 1975 2 23
  else if y ≤ 1986 then lastSunday y 4
  else if y ≤ 2006 then firstSunday y 4 1
  else firstSunday y 3 8

/-- the day clocks go back in New York -/
def usEndDay (y : Nat) : Int := if y ≤ 2006 then lastSunday y 10 else firstSunday y 11 1

/-- at 2:00 on the clock, five (standard) and four (daylight saving) hours behind UTC -/
def usDst (y : Nat) (u : Int) : Prop := at_ (usStartDay y) 7 ≤ u ∧ u < at_ (usEndDay y) 6

/-- Ireland: last Sunday in March to the last Sunday in October (earlier: Sunday from 23, then 22 October), 1:00 UTC -/
def ieEndDay (y : Nat) : Int := if y ≤ 1989 then firstSunday y 10 23 else if y ≤ 1995 then firstSunday y 10 22 else lastSunday y 10
def ieDst (y : Nat) (u : Int) : Prop := at_ (lastSunday y 3) 1 ≤ u ∧ u < at_ (ieEndDay y) 1

/-- New South Wales since 2008: first Sunday in October to the first Sunday in April, 2:00 standard time (ten hours ahead) -/
def nswDst (y : Nat) (u : Int) : Prop := at_ (firstSunday y 10 1) (2 - 10) ≤ u ∧ u < at_ (firstSunday (y + 1) 4 1) (2 - 10)

/-! ## From a table to intervals -/

/-- in an interval iff an odd number of its ends has been passed -/
theorem odd_iff {r : List Int} (hs : r.Pairwise (· < ·)) {lo hi : Nat} {s e : Nat → Int}
    (hget : ∀ j, lo ≤ j → j < hi → r[2 * j]? = some (s j) ∧ r[2 * j + 1]? = some (e j)) {u : Int}
    (hl : 2 * lo ≤ searchRight r u) (hh : searchRight r u ≤ 2 * hi) :
    searchRight r u % 2 = 1 ↔ ∃ j, lo ≤ j ∧ j < hi ∧ s j ≤ u ∧ u < e j := by
  obtain ⟨h1, h2⟩ := right_spec hs u
  constructor
  · intro hodd
    refine ⟨searchRight r u / 2, by omega, by omega, ?_, ?_⟩
    · have hg := (hget (searchRight r u / 2) (by omega) (by omega)).1
      exact (h2 _ _ hg).2 (by omega)
    · have hg := (hget (searchRight r u / 2) (by omega) (by omega)).2
      have := mt (h2 _ _ hg).1 (by omega)
      omega
  · rintro ⟨j, hj1, hj2, hsj, hej⟩
    obtain ⟨g1, g2⟩ := hget j hj1 hj2
    have a1 := (h2 _ _ g1).1 hsj
    have a2 := mt (h2 _ _ g2).2 (by omega)
    omega

/-! ## Faster evaluation -/

def fastFirst (y m d : Nat) : Int := sundayFrom (fastDay y m d)
def fastLast (y m : Nat) : Int := sundayFrom (fastDay y m (monthLen y m) - 6)

theorem firstSunday_fast (y m d : Nat) : firstSunday y m d = fastFirst y m d := by unfold firstSunday fastFirst; rw [dayNumber_eq_fast]
theorem lastSunday_fast (y m : Nat) : lastSunday y m = fastLast y m := by unfold lastSunday fastLast; rw [dayNumber_eq_fast]

/-! ## Theorems -/

/-- **C50** New York, all instants: daylight saving time by the table iff by the rules, for 1970 to 2040. -/
theorem nyc_rule (u : Int) : inDst .nyc u ↔ ∃ y, 1970 ≤ y ∧ y ≤ 2040 ∧ usDst y u := by
  have hsr : switches .nyc = nycReverse.map fastNanos := by unfold switches; rw [nanos_eq_fast]
  have hlen : (switches .nyc).length = 142 := by rw [hsr]; decide +kernel
  have hget : ∀ j, 0 ≤ j → j < 71 → (switches .nyc)[2 * j]? = some (at_ (usStartDay (1970 + j)) 7) ∧
      (switches .nyc)[2 * j + 1]? = some (at_ (usEndDay (1970 + j)) 6) := by
    intro j _ hj
    rw [hsr]
    unfold usStartDay usEndDay
    simp only [firstSunday_fast, lastSunday_fast, dayNumber_eq_fast]
    revert j
    decide +kernel
  have hR := (zone_rel .nyc).sorted
  have hb := (right_spec hR u).1
  have := odd_iff hR hget (u := u) (by omega) (by omega)
  unfold inDst
  rw [show ((switches .nyc).filter (· ≤ u)).length = searchRight (switches .nyc) u from rfl, this]
  constructor
  · rintro ⟨j, _, hj, h1, h2⟩
    exact ⟨1970 + j, by omega, by omega, h1, h2⟩
  · rintro ⟨y, hy1, hy2, h1, h2⟩
    obtain ⟨j, rfl⟩ : ∃ j, y = 1970 + j := ⟨y - 1970, by omega⟩
    exact ⟨j, by omega, by omega, h1, h2⟩

/-- **C50** Dublin, all instants from the end of daylight saving time in 1980. -/
theorem dublin_rule (u : Int) (hu : at_ (dayNumber 1980 10 26) 1 ≤ u) : inDst .dublin u ↔ ∃ y, 1981 ≤ y ∧ y ≤ 2040 ∧ ieDst y u := by
  have hsr : switches .dublin = dublinReverse.map fastNanos := by unfold switches; rw [nanos_eq_fast]
  have hlen : (switches .dublin).length = 138 := by rw [hsr]; decide +kernel
  have hget : ∀ j, 9 ≤ j → j < 69 → (switches .dublin)[2 * j]? = some (at_ (lastSunday (1972 + j) 3) 1) ∧
      (switches .dublin)[2 * j + 1]? = some (at_ (ieEndDay (1972 + j)) 1) := by
    intro j hj9 hj
    rw [hsr]
    unfold ieEndDay
    simp only [firstSunday_fast, lastSunday_fast]
    revert j
    decide +kernel
  have hR := (zone_rel .dublin).sorted
  have hb := (right_spec hR u).1
  have h17 : (switches .dublin)[17]? = some (at_ (dayNumber 1980 10 26) 1) := by
    rw [hsr, dayNumber_eq_fast]; decide +kernel
  have hlo := ((right_spec hR u).2 17 _ h17).1 hu
  have := odd_iff hR hget (u := u) (by omega) (by omega)
  unfold inDst
  rw [show ((switches .dublin).filter (· ≤ u)).length = searchRight (switches .dublin) u from rfl, this]
  constructor
  · rintro ⟨j, hj9, hj, h1, h2⟩
    exact ⟨1972 + j, by omega, by omega, h1, h2⟩
  · rintro ⟨y, hy1, hy2, h1, h2⟩
    obtain ⟨j, rfl⟩ : ∃ j, y = 1972 + j := ⟨y - 1972, by omega⟩
    exact ⟨j, by omega, by omega, h1, h2⟩

/-- **C50** Sydney, all instants from the end of daylight saving time in 2008 to the start in 2040. -/
theorem sydney_rule (u : Int) (hu : at_ (firstSunday 2008 4 1) (-8) ≤ u) (hu' : u < at_ (firstSunday 2040 10 1) (-8)) :
    inDst .sydney u ↔ ∃ y, 2008 ≤ y ∧ y ≤ 2039 ∧ nswDst y u := by
  have hsr : switches .sydney = sydneyReverse.map fastNanos := by unfold switches; rw [nanos_eq_fast]
  have hget : ∀ j, 39 ≤ j → j < 71 → (switches .sydney)[2 * j]? = some (at_ (firstSunday (1969 + j) 10 1) (2 - 10)) ∧
      (switches .sydney)[2 * j + 1]? = some (at_ (firstSunday (1969 + j + 1) 4 1) (2 - 10)) := by
    intro j hj9 hj
    rw [hsr]
    simp only [firstSunday_fast]
    revert j
    decide +kernel
  have hR := (zone_rel .sydney).sorted
  have h77 : (switches .sydney)[77]? = some (at_ (firstSunday 2008 4 1) (-8)) := by
    rw [hsr, firstSunday_fast]; decide +kernel
  have h142 : (switches .sydney)[142]? = some (at_ (firstSunday 2040 10 1) (-8)) := by
    rw [hsr, firstSunday_fast]; decide +kernel
  have hlo := ((right_spec hR u).2 77 _ h77).1 hu
  have hhi := mt ((right_spec hR u).2 142 _ h142).2 (by omega)
  have := odd_iff hR hget (u := u) (by omega) (by omega)
  unfold inDst
  rw [show ((switches .sydney).filter (· ≤ u)).length = searchRight (switches .sydney) u from rfl, this]
  constructor
  · rintro ⟨j, hj9, hj, h1, h2⟩
    exact ⟨1969 + j, by omega, by omega, h1, h2⟩
  · rintro ⟨y, hy1, hy2, h1, h2⟩
    obtain ⟨j, rfl⟩ : ∃ j, y = 1969 + j := ⟨y - 1969, by omega⟩
    exact ⟨j, by omega, by omega, h1, h2⟩

/-- **C50** After 2040 the tables leave daylight saving time out: 2041-07-01 12:00 UTC is in it by the rules in New York. -/
theorem nyc_2041_counterexample : ∃ u, usDst 2041 u ∧ ¬ inDst .nyc u := by
  refine ⟨at_ (dayNumber 2041 7 1) 12, ?_, ?_⟩
  · unfold usDst usStartDay usEndDay
    simp only [firstSunday_fast, lastSunday_fast, dayNumber_eq_fast]
    decide +kernel
  · rw [nyc_rule]
    rintro ⟨y, h1, h2, h3⟩
    have hlt : at_ (usEndDay y) 6 ≤ at_ (dayNumber 2041 7 1) 12 := by
      have : ∀ j, j < 71 → at_ (usEndDay (1970 + j)) 6 ≤ at_ (dayNumber 2041 7 1) 12 := by
        unfold usEndDay
        simp only [firstSunday_fast, lastSunday_fast, dayNumber_eq_fast]
        decide +kernel
      have := this (y - 1970) (by omega)
      rwa [show 1970 + (y - 1970) = y by omega] at this
    have := h3.2
    omega

/-- After October 2040 Sydney stays in daylight saving time: 2041-07-01 12:00 UTC, in the southern winter. -/
theorem sydney_2041_counterexample : inDst .sydney (at_ (dayNumber 2041 7 1) 12) := by
  unfold inDst switches
  rw [nanos_eq_fast, dayNumber_eq_fast]
  decide +kernel

example : usDst 2019 (at_ (dayNumber 2019 3 10) 7) ∧ ¬ usDst 2019 (at_ (dayNumber 2019 3 10) 7 - 1) ∧
    ieDst 2019 (at_ (dayNumber 2019 3 31) 1) ∧ nswDst 2019 (at_ (dayNumber 2020 1 1) 0) := by
  unfold usDst ieDst nswDst usStartDay usEndDay ieEndDay
  simp only [firstSunday_fast, lastSunday_fast, dayNumber_eq_fast]
  decide +kernel

end Verif.Tz
