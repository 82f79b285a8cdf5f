import Verif.Pickle.Model
/-! # What an array shows -/
namespace Verif.Pickle
open Verif.Tz (Zone TimeZone)

/-- Contract of the compressor. -/
def Lossless {B : Type} (comp : Data → B) (dec : B → Data) : Prop := ∀ d, dec (comp d) = d

/-- Same class, type and elements; for dates and times the same display length; for DateTimeNano the same zone and the same clock on the wall. -/
inductive SameContent : Arr → Arr → Prop where
  | fast (d : Data) (n n' : Option String) : SameContent (.fast d n) (.fast d n')
  | span (c : Cls) (hc : c ≠ .nano) (t : NT) (l : List Int) (n n' : Option String) (disp : Nat) (tz tz' : TimeZone) (e e' : List String) :
      SameContent (.dated c t l n disp tz e) (.dated c t l n' disp tz' e')
  | nano (t : NT) (l : List Int) (n n' : Option String) (disp : Nat) (tz tz' : TimeZone) (e e' : List String) (hz : tz.toTz = tz'.toTz)
      (hw : ∀ x ∈ l, tz.fixDst x = tz'.fixDst x) : SameContent (.dated .nano t l n disp tz e) (.dated .nano t l n' disp tz' e')

/-- An array as the constructors and `set_timezone` leave it: its class has one type, and the zone has its own table. -/
def Made : Arr → Prop
  | .fast _ _ => True
  | .dated .nano t _ _ _ tz _ => t = .int64 ∧ ∃ f z z', tz = TimeZone.init f z ∨ tz = (TimeZone.init f z').setTimezone z
  | .dated .timeSpan t _ _ _ _ _ => t = .float64
  | .dated _ t _ _ _ _ _ => t = .int32

/-- Unicode texts. -/
def IsUnicode : Arr → Prop
  | .fast (.uni _) _ => True
  | _ => False

def rows : Arr → Nat
  | .fast (.num _ l) _ => l.length
  | .fast (.bytes l) _ => l.length
  | .fast (.uni l) _ => l.length
  | .dated _ _ l _ _ _ _ => l.length

def nameOf : Arr → Option String
  | .fast _ n => n
  | .dated _ _ _ n _ _ _ => n

def extraOf : Arr → List String
  | .fast _ _ => []
  | .dated _ _ _ _ _ _ e => e

/-- Zone a DateTimeNano says it came from (`info`, `to_arrow`). -/
def originOf : Arr → Option Zone
  | .dated .nano _ _ _ _ tz _ => some tz.fromTz
  | _ => none

end Verif.Pickle
