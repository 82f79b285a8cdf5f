import Verif.Basic
/-!
# The Gregorian calendar

A small independent specification: leap years, lengths of years and months, and the number of a day counted from 1970-01-01.
-/
namespace Verif.Calendar

/-- Gregorian leap years -/
def leap (y : Nat) : Bool := (y % 4 = 0 ∧ y % 100 ≠ 0) ∨ y % 400 = 0

def yearLen (y : Nat) : Nat := if leap y then 366 else 365

def monthLen (y m : Nat) : Nat :=
  if m = 2 then (if leap y then 29 else 28) else if m = 4 ∨ m = 6 ∨ m = 9 ∨ m = 11 then 30 else 31

/-- days of the years 0, …, y - 1 -/
def daysBeforeYear (y : Nat) : Nat := ((List.range y).map yearLen).sum

/-- days of the months 1, …, m - 1 -/
def daysBeforeMonth (y m : Nat) : Nat := ((List.range (m - 1)).map fun k => monthLen y (k + 1)).sum

/-- number of a day; 1970-01-01 is day 0 -/
def dayNumber (y m d : Nat) : Int :=
  (daysBeforeYear y : Int) + daysBeforeMonth y m + d - 1 - daysBeforeYear 1970

def ValidDate (y m d : Nat) : Prop := 1 ≤ m ∧ m ≤ 12 ∧ 1 ≤ d ∧ d ≤ monthLen y m

/-! ## The specification determines the fields -/

theorem daysBeforeYear_succ (y : Nat) : daysBeforeYear (y + 1) = daysBeforeYear y + yearLen y := by
  simp [daysBeforeYear, List.range_succ]

theorem daysBeforeMonth_succ (y m : Nat) (hm : 1 ≤ m) : daysBeforeMonth y (m + 1) = daysBeforeMonth y m + monthLen y m := by
  unfold daysBeforeMonth
  obtain ⟨k, rfl⟩ : ∃ k, m = k + 1 := ⟨m - 1, by omega⟩
  simp [List.range_succ]

theorem daysBeforeYear_closed (y : Nat) : daysBeforeYear y = 365 * y + (y + 3) / 4 + (y + 399) / 400 - (y + 99) / 100 := by
  induction y with
  | zero => rfl
  | succ y ih =>
    rw [daysBeforeYear_succ, ih]
    unfold yearLen leap
    by_cases h : (y % 4 = 0 ∧ y % 100 ≠ 0) ∨ y % 400 = 0
    · rw [if_pos (by simpa using h)]
      omega
    · rw [if_neg (by simpa using h)]
      omega

theorem daysBeforeYear_mono {y y' : Nat} (h : y ≤ y') : daysBeforeYear y ≤ daysBeforeYear y' := by
  induction h with
  | refl => exact Nat.le_refl _
  | step _ ih => rw [daysBeforeYear_succ]; omega

theorem daysBeforeMonth_mono (y : Nat) {m m' : Nat} (h1 : 1 ≤ m) (h : m ≤ m') : daysBeforeMonth y m ≤ daysBeforeMonth y m' := by
  induction h with
  | refl => exact Nat.le_refl _
  | step hn ih => rw [Nat.succ_eq_add_one, daysBeforeMonth_succ y _ (Nat.le_trans h1 hn)]; omega

/-- the months fill the year -/
theorem daysBeforeMonth_13 (y : Nat) : daysBeforeMonth y 13 = yearLen y := by
  unfold daysBeforeMonth yearLen monthLen
  cases leap y <;> rfl

theorem day_in_year {y m d : Nat} (h : ValidDate y m d) : daysBeforeMonth y m + d ≤ yearLen y := by
  obtain ⟨h1, h2, h3, h4⟩ := h
  have := daysBeforeMonth_succ y m h1
  have := daysBeforeMonth_mono y (m := m + 1) (m' := 13) (by omega) (by omega)
  rw [daysBeforeMonth_13] at this
  omega

/-- A day number belongs to one date only. -/
theorem dayNumber_injective {y m d y' m' d' : Nat} (h : ValidDate y m d) (h' : ValidDate y' m' d')
    (he : dayNumber y m d = dayNumber y' m' d') : y = y' ∧ m = m' ∧ d = d' := by
  have hy := day_in_year h
  have hy' := day_in_year h'
  obtain ⟨h1, h2, h3, h4⟩ := h
  obtain ⟨h1', h2', h3', h4'⟩ := h'
  unfold dayNumber at he
  have hyy : y = y' := by
    rcases Nat.lt_trichotomy y y' with hlt | heq | hlt
    · have := daysBeforeYear_mono (Nat.succ_le_of_lt hlt)
      rw [Nat.succ_eq_add_one, daysBeforeYear_succ] at this
      omega
    · exact heq
    · have := daysBeforeYear_mono (Nat.succ_le_of_lt hlt)
      rw [Nat.succ_eq_add_one, daysBeforeYear_succ] at this
      omega
  subst hyy
  have hmm : m = m' := by
    rcases Nat.lt_trichotomy m m' with hlt | heq | hlt
    · have := daysBeforeMonth_mono y (m := m + 1) (by omega) hlt
      rw [daysBeforeMonth_succ y m h1] at this
      omega
    · exact heq
    · have := daysBeforeMonth_mono y (m := m' + 1) (by omega) hlt
      rw [daysBeforeMonth_succ y m' h1'] at this
      omega
  subst hmm
  exact ⟨rfl, rfl, by omega⟩

/-- The next day: day numbers advance by one through the calendar. -/
theorem dayNumber_next {y m d : Nat} (h : ValidDate y m d) :
    dayNumber y m d + 1 =
      (if d < monthLen y m then dayNumber y m (d + 1) else if m < 12 then dayNumber y (m + 1) 1 else dayNumber (y + 1) 1 1) := by
  obtain ⟨h1, h2, h3, h4⟩ := h
  unfold dayNumber
  split
  · push_cast; omega
  · split
    · rw [daysBeforeMonth_succ y m h1]
      push_cast; omega
    · have hm : m = 12 := by omega
      subst hm
      have h13 := daysBeforeMonth_13 y
      rw [daysBeforeMonth_succ y 12 h1] at h13
      have h11 : daysBeforeMonth (y + 1) 1 = 0 := rfl
      have h12 := daysBeforeYear_succ y
      rw [h11, h12]
      push_cast; omega

example : dayNumber 1970 1 1 = 0 ∧ dayNumber 2000 2 29 = 11016 ∧ dayNumber 1969 12 31 = -1 := by
  unfold dayNumber; rw [daysBeforeYear_closed, daysBeforeYear_closed, daysBeforeYear_closed]; decide

end Verif.Calendar
