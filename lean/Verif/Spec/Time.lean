import Verif.Model.Time
/-!
# What the texts of ASN.1 times mean

Nothing here refers to the parser. Days are counted one year and one month at a time.
-/
namespace Apk.Spec

/-- Gregorian leap years. -/
def Leap (y : Nat) : Prop := 4 ∣ y ∧ (100 ∣ y → 400 ∣ y)

instance (y : Nat) : Decidable (Leap y) := inferInstanceAs (Decidable (_ ∧ _))

/-- Number of days of a year. -/
def yearLength (y : Nat) : Nat := if Leap y then 366 else 365

/-- Number of days of a month. -/
def monthLength (y m : Nat) : Nat :=
  if m = 2 then (if Leap y then 29 else 28) else if m = 4 ∨ m = 6 ∨ m = 9 ∨ m = 11 then 30 else 31

/-- Days before January 1 of a year, counted from year 0. -/
def daysToYear : Nat → Nat
  | 0 => 0
  | y + 1 => daysToYear y + yearLength y

/-- Days of a year before the first of a month. -/
def daysToMonth (y : Nat) : Nat → Nat
  | 0 => 0
  | 1 => 0
  | m + 2 => daysToMonth y (m + 1) + monthLength y (m + 1)

/-- A date and time of day that exist. There are no leap seconds. -/
structure RealCivil (c : Civil) : Prop where
  month : 1 ≤ c.month ∧ c.month ≤ 12
  day : 1 ≤ c.day ∧ c.day ≤ monthLength c.year c.month
  hour : c.hour < 24
  min : c.min < 60
  sec : c.sec < 60

/-- Seconds since January 1, year 0 in UTC. -/
def secondsOf (c : Civil) : Nat :=
  ((daysToYear c.year + daysToMonth c.year c.month + (c.day - 1)) * 24 + c.hour) * 3600 + c.min * 60 + c.sec

/-- Unix seconds of a date and time of day in UTC. -/
def unixUtc (c : Civil) : Int := (secondsOf c : Int) - secondsOf ⟨1970, 1, 1, 0, 0, 0⟩

/-- Two decimal digits. -/
def dd (n : Nat) : Bytes := [UInt8.ofNat (48 + n / 10), UInt8.ofNat (48 + n % 10)]

/-- The zone: `Z`, or a sign, hours and minutes, not both zero. -/
inductive ZoneText : Bytes → TZone → Prop
  | z : ZoneText (b!"Z") .utc
  | plus (h m : Nat) : h ≤ 24 → m < 60 → 0 < h + m → ZoneText (b!"+" ++ dd h ++ dd m) (.num (3600 * h + 60 * m))
  | minus (h m : Nat) : h ≤ 24 → m < 60 → 0 < h + m → ZoneText (b!"-" ++ dd h ++ dd m) (.num (-(3600 * h + 60 * m)))

/-- Everything after the year and before the zone; seconds may be left out of a UTCTime if they are zero. -/
def clockText (c : Civil) (withSeconds : Bool) : Bytes :=
  dd c.month ++ dd c.day ++ dd c.hour ++ dd c.min ++ (if withSeconds then dd c.sec else [])

/-- `s` is a UTCTime for the date and time `c` in the zone `z`: years 1950 to 2049, two digits. -/
def UtcText (s : Bytes) (c : Civil) (z : TZone) : Prop :=
  ∃ zs secs, RealCivil c ∧ 1950 ≤ c.year ∧ c.year < 2050 ∧ ZoneText zs z ∧ (secs = false → c.sec = 0) ∧
    s = dd (c.year % 100) ++ clockText c secs ++ zs

/-- `s` is a GeneralizedTime: years 0 to 9999, four digits. -/
def GenText (s : Bytes) (c : Civil) (z : TZone) : Prop :=
  ∃ zs, RealCivil c ∧ c.year < 10000 ∧ ZoneText zs z ∧ s = dd (c.year / 100) ++ dd (c.year % 100) ++ clockText c true ++ zs

/-- The offset of a zone in seconds east of UTC. -/
def zoneSeconds : TZone → Int
  | .utc => 0
  | .num o => o

/-- The instant: date and time minus the offset. -/
def instant (c : Civil) (z : TZone) : Int := unixUtc c - zoneSeconds z

/-- The instant reported for a UTCTime. The two-digit years 50 to 68 are first taken for 2050 to 2068; if the offset then happens to
    be the one of the local time zone of the process, the time a century earlier is computed with the rules of that zone. -/
def utcInstant (te : TimeEnv) (c : Civil) : TZone → Int
  | .utc => unixUtc c
  | .num off =>
    if c.year < 1969 ∧ te.localOffset (unixUtc { c with year := c.year + 100 } - off) = off then te.localUnix (unixUtc c)
    else unixUtc c - off

end Apk.Spec
