import Verif.Stats.Model
/-! # Specifications for `rt_stats.py` -/
namespace Verif.Stats

/-- Contract of `np.linalg.solve`: what it returns solves the equations. -/
def Solves {p : Nat} (solve : (Fin p → Fin p → ℚ) → (Fin p → ℚ) → Option (Fin p → ℚ)) : Prop :=
  ∀ A c b, solve A c = some b → ∀ i, ∑ j, A i j * b j = c i

/-- The squared error of a prediction in a row; a row with a NaN does not count. -/
def errorAt {p : Nat} (predict : (Fin p → ℚ) → ℚ) (r : Raw p) (e : ℚ) : Prop :=
  (∃ (x : Fin p → ℚ) (y : ℚ), (∀ i, r.x i = some (x i)) ∧ r.y = some y ∧ e = (y - predict x) ^ 2) ∨
  (((∃ i, r.x i = none) ∨ r.y = none) ∧ e = 0)

/-- The sum of the squared errors of a prediction. -/
inductive TotalError {p : Nat} (predict : (Fin p → ℚ) → ℚ) : List (Raw p) → ℚ → Prop where
  | nil : TotalError predict [] 0
  | cons {r : Raw p} {l : List (Raw p)} {e s : ℚ} (h : errorAt predict r e) (hs : TotalError predict l s) : TotalError predict (r :: l) (e + s)

/-- A column whose values are not all equal. -/
def Varies (l : List ℚ) : Prop := ∃ a ∈ l, ∃ b ∈ l, a ≠ b

/-- The part of rows in which two labels differ. -/
def errorRate (l : List (ℤ × ℤ)) : ℚ := ((l.filter fun p => p.1 ≠ p.2).length : ℚ) / l.length

end Verif.Stats
