import Mathlib.Algebra.Ring.Defs
import Mathlib.Algebra.BigOperators.Group.List.Defs
/-!
# What an exponentially decayed sum is

A column of values observed at times, and for every two times `a`, `b` the weight `w a b` of something seen at `b` when looked at
from `a`: `exp(-rate * (a - b))`.
-/
namespace Verif.Ema.Spec

variable {R T : Type} [CommRing R]

/-- The laws of `w a b = exp(-rate * (a - b))` that matter: no time passed is weight one, and decays compose. -/
structure Weight (w : T → T → R) : Prop where
  self : ∀ a, w a a = 1
  comp : ∀ a b c, w a b * w b c = w a c

/-- The observations, decayed to time `t` and added up. -/
def decayedSum (w : T → T → R) (obs : List (R × T)) (t : T) : R := (obs.map fun o => o.1 * w t o.2).sum

/-- The observations of rows that are in the mask. -/
def masked (mask : List Bool) (obs : List (R × T)) : List (R × T) :=
  ((mask.zip obs).filter fun p => p.1).map fun p => p.2

end Verif.Ema.Spec
