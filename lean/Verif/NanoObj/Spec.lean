import Verif.Tz.Model
/-!
# DateTimeNano objects: specification

The calls that make DateTimeNano objects and set their time zones, and the time zone in which each object is to be displayed. Objects are
numbered in the order in which they are made; `set_timezone` makes none. Nothing here refers to the model.
-/
namespace Verif.NanoObj
open Verif.Tz (Zone)

/-- a call -/
inductive Call where
  /-- `DateTimeNano(vals, from_tz=f, to_tz=t)` -/
  | make (vals : List Int) (f t : Zone)
  /-- `d.view()`, `d.reshape(…)` and other functions of numpy -/
  | view (i : Nat)
  /-- `d[…]` with slices, masks or positions, `d.copy()`, `d.shift(…)`, `d.repeat(…)`, `d.tile(…)`: the instants are a function of those of
  `d` -/
  | index (i : Nat) (g : List Int → List Int)
  /-- `d[k]`, a scalar -/
  | item (i k : Nat)
  /-- `d.min()`, `d.max()`, `d.fill_invalid(inplace=False)`, `d + …`, `d - …` with a DateTimeNano as result -/
  | derive (i : Nat) (g : List Int → List Int)
  /-- `d.astimezone(z)` -/
  | astz (i : Nat) (z : Zone)
  /-- `d.set_timezone(z)` -/
  | setTz (i : Nat) (z : Zone)
  /-- `hstack([…])` -/
  | hstack (js : List Nat)

/-- the zones of display as they should be: a result is displayed like the object it comes from, `set_timezone` changes one object -/
def zoneStep (zs : List Zone) : Call → List Zone
  | .make _ _ t => zs ++ [t]
  | .view i => zs ++ [zs.getD i .utc]
  | .index i _ => zs ++ [zs.getD i .utc]
  | .item i _ => zs ++ [zs.getD i .utc]
  | .derive i _ => zs ++ [zs.getD i .utc]
  | .astz _ z => zs ++ [z]
  | .setTz i z => zs.set i z
  | .hstack js => zs ++ [zs.getD (js.headD 0) .utc]

/-- the zone in which every object should be displayed after some calls -/
def ownZones (calls : List Call) : List Zone := calls.foldl zoneStep []

/-- for every object the first object of its family: views and scalars belong to the family of what they were taken from, and so does the
result of `hstack` of one object -/
def familyStep (fs : List Nat) : Call → List Nat
  | .view i => fs ++ [fs.getD i 0]
  | .item i _ => fs ++ [fs.getD i 0]
  | .hstack [i] => fs ++ [fs.getD i 0]
  | .setTz _ _ => fs
  | _ => fs ++ [fs.length]

/-- the families after some calls -/
def families (calls : List Call) : List Nat := calls.foldl familyStep []

/-- all objects of the family of `i` -/
def setFamily (fs : List Nat) (i : Nat) (z : Zone) (zs : List Zone) : List Zone :=
  List.zipWith (fun f y => if f = fs.getD i 0 then z else y) fs zs

/-- zones of display when `set_timezone` changes all the family -/
def sharedStep (s : List Nat × List Zone) (c : Call) : List Nat × List Zone :=
  (familyStep s.1 c, match c with
    | .setTz i z => setFamily s.1 i z s.2
    | c => zoneStep s.2 c)

def sharedZones (calls : List Call) : List Zone := (calls.foldl sharedStep ([], [])).2

/-- whenever `set_timezone` is called, the object is alone in its family -/
def Alone (calls : List Call) : Prop :=
  ∀ before i z after, calls = before ++ .setTz i z :: after → ∀ j ≠ i, (families before)[j]? ≠ (families before)[i]?

end Verif.NanoObj
