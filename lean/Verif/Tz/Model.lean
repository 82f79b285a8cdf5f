import Verif.Tz.Tables
/-!
# Model of `TimeZone` (`riptable/rt_timezone.py:1002-1317`)
-/
namespace Verif.Tz

/-- the supported zones, after `normalize_tz_to_tzdb_name` (`:1064-1079`) -/
inductive Zone
  | nyc | dublin | sydney | hongKong | tokyo | seoul | kolkata | gmt | utc
deriving DecidableEq

/-- `*_OFFSET_NS` -/
def Zone.offset : Zone → Int
  | .nyc => 5 * nanosPerHour
  | .dublin => 0 * nanosPerHour
  | .sydney => -10 * nanosPerHour
  | .hongKong => -8 * nanosPerHour
  | .tokyo => -9 * nanosPerHour
  | .seoul => -9 * nanosPerHour
  | .kolkata => -(5 * nanosPerHour + 30 * nanosPerMinute)
  | .gmt => 0
  | .utc => 0

/-- `_init_from_tz` (`:1083-1116`): wall clock cutoffs and offset -/
def initFromTz : Zone → Option (List Int) × Int
  | .nyc => (some (nycCutoffs.map Entry.nanos), Zone.offset .nyc)
  | .dublin => (some (dublinCutoffs.map Entry.nanos), Zone.offset .dublin)
  | .sydney => (some (sydneyCutoffs.map Entry.nanos), Zone.offset .sydney)
  | .hongKong => (some (hongKongCutoffs.map Entry.nanos), Zone.offset .hongKong)
  | .tokyo => (none, Zone.offset .tokyo)
  | .seoul => (some (seoulCutoffs.map Entry.nanos), Zone.offset .seoul)
  | .kolkata => (none, Zone.offset .kolkata)
  | .gmt => (none, 0)
  | .utc => (none, 0)

/-- `_init_to_tz` (`:1119-1162`): UTC cutoffs and offset -/
def initToTz : Zone → Option (List Int) × Int
  | .nyc => (some (nycReverse.map Entry.nanos), Zone.offset .nyc)
  | .dublin => (some (dublinReverse.map Entry.nanos), Zone.offset .dublin)
  | .sydney => (some (sydneyReverse.map Entry.nanos), Zone.offset .sydney)
  | .hongKong => (some (hongKongReverse.map Entry.nanos), Zone.offset .hongKong)
  | .tokyo => (none, Zone.offset .tokyo)
  | .seoul => (some (seoulReverse.map Entry.nanos), Zone.offset .seoul)
  | .kolkata => (none, Zone.offset .kolkata)
  | .gmt => (none, 0)
  | .utc => (none, 0)

/-- a `TimeZone` object -/
structure TimeZone where
  fromTz : Zone
  toTz : Zone
  dstCutoffs : Option (List Int)
  fixOffset : Int
  dstReverse : Option (List Int)
  offset : Int

/-- `__init__` (`:1052-1062`) -/
def TimeZone.init (fromTz toTz : Zone) : TimeZone :=
  ⟨fromTz, toTz, (initFromTz fromTz).1, (initFromTz fromTz).2, (initToTz toTz).1, (initToTz toTz).2⟩

/-- `_set_timezone` (`:1171-1177`) -/
def TimeZone.setTimezone (tz : TimeZone) (z : Zone) : TimeZone :=
  { tz with dstReverse := (initToTz z).1, offset := (initToTz z).2, toTz := z }

/-- `copy` (`:1222-1234`) -/
def TimeZone.copy (tz : TimeZone) : TimeZone :=
  { TimeZone.init tz.fromTz tz.toTz with
    dstCutoffs := tz.dstCutoffs, fixOffset := tz.fixOffset, dstReverse := tz.dstReverse, offset := tz.offset }

/-- `searchsorted(cutoffs, x)`, left side, on an ascending array -/
def searchLeft (s : List Int) (x : Int) : Nat := (s.filter (· < x)).length

/-- `_mask_dst` (`:1180-1195`); without `cutoffs` the ones of `from_tz` are taken -/
def TimeZone.maskDst (tz : TimeZone) (x : Int) (cutoffs : Option (List Int)) : Bool :=
  match cutoffs.orElse fun _ => tz.dstCutoffs with
  | none => false
  | some c => searchLeft c x % 2 = 1

/-- `_is_dst` (`:1198-1199`), the property `is_dst` -/
def TimeZone.isDst (tz : TimeZone) (x : Int) : Bool := tz.maskDst x tz.dstReverse

/-- `_tz_offset` (`:1202-1213`) in nanoseconds instead of hours -/
def TimeZone.tzOffset (tz : TimeZone) (x : Int) : Int :=
  match tz.dstReverse with
  | none => -1 * tz.offset
  | some r => if tz.maskDst x (some r) then -1 * tz.offset + nanosPerHour else -1 * tz.offset

/-- `fix_dst` (`:1237-1291`): UTC to the wall clock of `to_tz` -/
def TimeZone.fixDst (tz : TimeZone) (x : Int) : Int :=
  match tz.dstReverse with
  | none => x - tz.offset
  | some r =>
    let isDst := tz.maskDst x (some r)
    let x := x - tz.offset
    if isDst then x + nanosPerHour else x

/-- `to_utc` (`:1294-1317`): wall clock of `from_tz` to UTC; 0 is the invalid and stays -/
def TimeZone.toUtc (tz : TimeZone) (x : Int) : Int :=
  if tz.fromTz ≠ .gmt ∧ tz.fromTz ≠ .utc then
    let isDst := tz.maskDst x tz.dstCutoffs
    let y := x + tz.fixOffset
    let y := if isDst then y - nanosPerHour else y
    if x = 0 then 0 else y
  else x

end Verif.Tz
