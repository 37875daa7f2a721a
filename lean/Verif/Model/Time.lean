import Verif.Model.Unmarshal
/-!
# Times (internal/asn1andr/asn1.go:341-382, marshal.go:354-452)

`time.Parse` and `time.Time.Format` of the Go standard library (1.24) are modelled for the three layouts that are used, as far
as these are concerned: two- and four-digit years, month, day, hour, minute, second and the zone `Z0700`.
-/
namespace Apk

/-- The parts of the three layouts. -/
inductive TChunk where
  | year2 | year4 | month | day | hour | minute | second | zone
deriving DecidableEq, Repr

/-- asn1.go:344 `"0601021504Z0700"`. -/
def layoutUtcShort : List TChunk := [.year2, .month, .day, .hour, .minute, .zone]
/-- asn1.go:347 `"060102150405Z0700"`. -/
def layoutUtcLong : List TChunk := [.year2, .month, .day, .hour, .minute, .second, .zone]
/-- asn1.go:370 `"20060102150405Z0700"`. -/
def layoutGen : List TChunk := [.year4, .month, .day, .hour, .minute, .second, .zone]

/-- Date and time of day. -/
structure Civil where
  year : Nat := 0
  month : Nat := 0
  day : Nat := 0
  hour : Nat := 0
  min : Nat := 0
  sec : Nat := 0
deriving DecidableEq, Repr

/-- The zone of a time: UTC (the letter `Z`) or an offset in seconds. -/
inductive TZone where
  | utc
  | num (off : Int)
deriving DecidableEq, Repr

/-- What `time.Parse` collects. -/
structure TFields extends Civil where
  zone : TZone := .utc
deriving DecidableEq, Repr

/-- A decimal digit. -/
def isDig (c : UInt8) : Bool := decide (48 ≤ c.toNat ∧ c.toNat ≤ 57)

/-- Go time `getnum`. -/
def getnum (fixed : Bool) : Bytes → Option (Nat × Bytes)
  | [] => none
  | [a] => if isDig a && !fixed then some (a.toNat - 48, []) else none
  | a :: b :: r =>
    if isDig a then
      (if isDig b then some ((a.toNat - 48) * 10 + (b.toNat - 48), r)
       else if fixed then none else some (a.toNat - 48, b :: r))
    else none

/-- Go time `leadingInt` when all bytes have to be used; the empty text is zero. -/
def timeDigits (s : Bytes) : Option Nat :=
  if s.all isDig then some (s.foldl (fun n c => n * 10 + (c.toNat - 48)) 0) else none

/-- Go time `atoi`: an optional sign and digits. -/
def timeAtoi : Bytes → Option Int
  | [] => some 0
  | c :: r =>
    if c = 45 then (timeDigits r).map (fun n : Nat => -(n : Int))
    else if c = 43 then (timeDigits r).map Int.ofNat
    else (timeDigits (c :: r)).map Int.ofNat

/-- A fraction of a second that the layout does not have is skipped: a period or comma followed by at least one digit. -/
def skipFraction : Bytes → Bytes
  | c :: d :: r => if (c = 46 ∨ c = 44) ∧ isDig d then r.dropWhile isDig else c :: d :: r
  | s => s

/-- The zone `Z0700`. -/
def parseZone : Bytes → Option (TZone × Bytes)
  | 90 :: r => some (.utc, r)
  | sign :: h1 :: h2 :: m1 :: m2 :: r =>
    match getnum true [h1, h2], getnum true [m1, m2] with
    | some (h, _), some (m, _) =>
      if 24 < h ∨ 60 < m then none
      else if sign = 43 then some (.num ((h * 60 + m) * 60), r)
      else if sign = 45 then some (.num (-((h * 60 + m) * 60)), r)
      else none
    | _, _ => none
  | _ => none

/-- One part of a layout in `time.Parse`. -/
def parseChunk (f : TFields) (s : Bytes) : TChunk → Option (TFields × Bytes)
  | .year2 =>
    if s.length < 2 then none
    else (timeAtoi (s.take 2)).map (fun y =>
      ({ f with year := (if y ≥ 69 then y + 1900 else y + 2000).toNat }, s.drop 2))
  | .year4 =>
    if s.length < 4 ∨ (s.head?.map isDig).getD false = false then none
    else (timeAtoi (s.take 4)).map (fun y => ({ f with year := y.toNat }, s.drop 4))
  | .month => (getnum true s).bind (fun p => if p.1 = 0 ∨ 12 < p.1 then none else some ({ f with month := p.1 }, p.2))
  | .day => (getnum true s).map (fun p => ({ f with day := p.1 }, p.2))
  | .hour => (getnum false s).bind (fun p => if 24 ≤ p.1 then none else some ({ f with hour := p.1 }, p.2))
  | .minute => (getnum true s).bind (fun p => if 60 ≤ p.1 then none else some ({ f with min := p.1 }, p.2))
  | .second => (getnum true s).bind (fun p => if 60 ≤ p.1 then none else some ({ f with sec := p.1 }, skipFraction p.2))
  | .zone => (parseZone s).map (fun p => ({ f with zone := p.1 }, p.2))

/-- The parts of a layout one after the other; nothing may be left. -/
def parseChunks : List TChunk → TFields → Bytes → Option TFields
  | [], f, s => if s = [] then some f else none
  | c :: cs, f, s =>
    match parseChunk f s c with
    | none => none
    | some (f', s') => parseChunks cs f' s'

/-- Go time `isLeap`. -/
def isLeap (y : Nat) : Bool := decide (y % 4 = 0 ∧ (y % 100 ≠ 0 ∨ y % 400 = 0))

/-- Go time `daysBefore`: days before a month in a common year, for months 1 to 13. -/
def daysBefore : List Nat := [0, 31, 59, 90, 120, 151, 181, 212, 243, 273, 304, 334, 365]

/-- Go time `daysIn`. -/
def daysIn (m y : Nat) : Nat :=
  if m = 2 ∧ isLeap y = true then 29 else daysBefore.getD m 0 - daysBefore.getD (m - 1) 0

/-- Go `time.Parse` with one of the layouts. -/
def timeParse (layout : List TChunk) (s : Bytes) : Option TFields :=
  match parseChunks layout {} s with
  | none => none
  | some f => if f.day < 1 ∨ daysIn f.month f.year < f.day then none else some f

/-- marshal.go:354-356 `appendTwoDigits`, and Go time `appendInt` with width 2 of a value below 100. -/
def twoDigits (v : Nat) : Bytes := [UInt8.ofNat (48 + v / 10 % 10), UInt8.ofNat (48 + v % 10)]

/-- marshal.go:358-365 `appendFourDigits`, and Go time `appendInt` with width 4 of a value below 10000. -/
def fourDigits (v : Nat) : Bytes :=
  [UInt8.ofNat (48 + v / 1000 % 10), UInt8.ofNat (48 + v / 100 % 10), UInt8.ofNat (48 + v / 10 % 10), UInt8.ofNat (48 + v % 10)]

/-- Formatting of the zone `Z0700`; offsets are multiples of 60 here. -/
def formatZone (off : Int) : Bytes :=
  if off = 0 then [90]
  else (if off < 0 then 45 else 43) :: (twoDigits (off.natAbs / 60 / 60) ++ twoDigits (off.natAbs / 60 % 60))

/-- The offset of a zone. -/
def TZone.off : TZone → Int
  | .utc => 0
  | .num o => o

/-- One part of a layout in `time.Time.Format`. The date and time of day of a parsed time in its own zone are the parsed ones
    (`time.Date` and `Time.Date`, `Time.Clock` are inverse to each other: `C82_date_of_instant`). -/
def formatChunk (f : TFields) : TChunk → Bytes
  | .year2 => twoDigits (f.year % 100)
  | .year4 => fourDigits f.year
  | .month => twoDigits f.month
  | .day => twoDigits f.day
  | .hour => twoDigits f.hour
  | .minute => twoDigits f.min
  | .second => twoDigits f.sec
  | .zone => formatZone f.zone.off

/-- Go `time.Time.Format`. -/
def timeFormat (layout : List TChunk) (f : TFields) : Bytes := (layout.map (formatChunk f)).flatten

/-- Days from January 1, year 0 to a date: the closed formula for the leap years and the table of months (Go time
    `daysSinceEpoch` and `Date`). -/
def dayNumber (y m d : Nat) : Nat :=
  365 * y + (y + 3) / 4 - (y + 99) / 100 + (y + 399) / 400 + daysBefore.getD (m - 1) 0 +
    (if isLeap y = true ∧ 3 ≤ m then 1 else 0) + (d - 1)

/-- Unix seconds of a date and time of day in UTC. -/
def civilUnix (c : Civil) : Int :=
  ((dayNumber c.year c.month c.day : Int) - 719528) * 86400 + (c.hour * 3600 + c.min * 60 + c.sec : Nat)

/-- The time zone of the process (`time.Local`), unknown to the program. -/
structure TimeEnv where
  /-- the offset in force at a Unix time -/
  localOffset : Int → Int
  /-- `time.Date(..., time.Local)`: the Unix time at which clocks show a date and time, given as `civilUnix` -/
  localUnix : Int → Int

/-- asn1.go:359-362: `AddDate(-100, 0, 0)` of a parsed time. `time.Parse` puts a time with a numeric zone into `time.Local` if the
    offset fits that zone at that time, and `AddDate` keeps the location. (February 29 of 2052 to 2068 exists in 1952 to 1968.) -/
def minusCentury (te : TimeEnv) (f : TFields) : Int :=
  let old := civilUnix { f.toCivil with year := f.year - 100 }
  match f.zone with
  | .utc => old
  | .num off => if te.localOffset (civilUnix f.toCivil - off) = off then te.localUnix old else old - off

/-- asn1.go:351-362, after `time.Parse` succeeded. -/
def finishUtc (te : TimeEnv) (layout : List TChunk) (s : Bytes) (f : TFields) : Option Int :=
  if timeFormat layout f ≠ s then none
  else if f.year ≥ 2050 then some (minusCentury te f)
  else some (civilUnix f.toCivil - f.zone.off)

/-- asn1.go:341-365 `parseUTCTime`, in Unix seconds. -/
def goUtcTime (te : TimeEnv) (s : Bytes) : Option Int :=
  match timeParse layoutUtcShort s with
  | some f => finishUtc te layoutUtcShort s f
  | none =>
    match timeParse layoutUtcLong s with
    | some f => finishUtc te layoutUtcLong s f
    | none => none

/-- asn1.go:369-382 `parseGeneralizedTime`. -/
def goGenTime (s : Bytes) : Option Int :=
  match timeParse layoutGen s with
  | none => none
  | some f => if timeFormat layoutGen f ≠ s then none else some (civilUnix f.toCivil - f.zone.off)

/-! ## Encoding -/

/-- A `time.Time` to be encoded: date and time of day in its zone, and the offset of the zone in seconds. -/
structure ZTime extends Civil where
  off : Int := 0
deriving DecidableEq, Repr

/-- marshal.go:420-452 `appendTimeCommon`. Go's division truncates. -/
def appendTimeCommon (t : ZTime) : Bytes :=
  twoDigits t.month ++ twoDigits t.day ++ twoDigits t.hour ++ twoDigits t.min ++ twoDigits t.sec ++
    (if t.off.natAbs / 60 = 0 then [90]
     else (if 0 < t.off then 43 else 45) :: (twoDigits (t.off.natAbs / 60 / 60) ++ twoDigits (t.off.natAbs / 60 % 60)))

/-- marshal.go:394-407 `appendUTCTime`; `none` is an error. -/
def appendUTCTime (t : ZTime) : Option Bytes :=
  if 1950 ≤ t.year ∧ t.year < 2000 then some (twoDigits (t.year - 1900) ++ appendTimeCommon t)
  else if 2000 ≤ t.year ∧ t.year < 2050 then some (twoDigits (t.year - 2000) ++ appendTimeCommon t)
  else none

/-- marshal.go:409-418 `appendGeneralizedTime`; years are not negative here. -/
def appendGeneralizedTime (t : ZTime) : Option Bytes :=
  if 9999 < t.year then none else some (fourDigits t.year ++ appendTimeCommon t)

/-- marshal.go:367-370 `outsideUTCRange`. -/
def outsideUTCRange (t : ZTime) : Bool := decide (t.year < 1950 ∨ 2050 ≤ t.year)

/-- marshal.go:465-471 and :658-661: the tag and the contents of a time; `generalized` says that the field asks for that form. -/
def encodeTime (generalized : Bool) (t : ZTime) : Option (Nat × Bytes) :=
  if generalized || outsideUTCRange t then (appendGeneralizedTime t).map (fun b => (24, b))
  else (appendUTCTime t).map (fun b => (23, b))

end Apk
