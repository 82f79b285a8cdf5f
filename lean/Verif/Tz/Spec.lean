import Verif.Tz.Model
/-!
# Specification of wall clock time

A zone switches between standard and daylight saving time at a sequence of instants: it is in daylight saving time from an
even-numbered switch (included) to the next odd-numbered one (excluded).
-/
namespace Verif.Tz

/-- the switch instants (UTC) of a zone, alternately to and from daylight saving time -/
def switches : Zone → List Int
  | .nyc => nycReverse.map Entry.nanos
  | .dublin => dublinReverse.map Entry.nanos
  | .sydney => sydneyReverse.map Entry.nanos
  | .hongKong => hongKongReverse.map Entry.nanos
  | .seoul => seoulReverse.map Entry.nanos
  | _ => []

/-- in daylight saving time: an odd number of switches have happened -/
def inDst (z : Zone) (u : Int) : Prop := ((switches z).filter (· ≤ u)).length % 2 = 1

instance (z : Zone) (u : Int) : Decidable (inDst z u) := by unfold inDst; infer_instance

/-- the wall clock of a zone at an instant -/
def wall (z : Zone) (u : Int) : Int := u - z.offset + if inDst z u then nanosPerHour else 0

/-- an instant at which the clocks go forward / back -/
def StartsDst (z : Zone) (u : Int) : Prop := ∃ i : Nat, i % 2 = 0 ∧ (switches z)[i]? = some u
def EndsDst (z : Zone) (u : Int) : Prop := ∃ i : Nat, i % 2 = 1 ∧ (switches z)[i]? = some u

end Verif.Tz
