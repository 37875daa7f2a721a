import Verif.Model.Time
import Verif.Model.Strings
import Verif.Model.V3
/-! # Dates of instants (Go time `Date`, `Clock`, `Format`) and the descriptions of certificates that print them -/
namespace Apk

/-- Go time `Time.Date` of a day, counted from March 1, year 0: centuries, years of a century and days of a year that starts in
    March (`absDays.split`), month and day (`absYday.split`). Not part of the repository; the divisions are those of the library,
    without its shifted epoch (divisions of integers round down here) and with the products it uses instead of divisions by
    1461, 153 and 5 undone. The month of the result counts from 1. -/
def dateOfDay (n : Int) : Int × Nat × Nat :=
  let d := 4 * n + 3
  let century := d / 146097
  let cd := 4 * (d % 146097 / 4) + 3
  let cyear := cd / 1461
  let yday := (cd % 1461 / 4).toNat
  let z := 5 * yday + 461
  let janFeb := 306 ≤ yday
  (100 * century + cyear + (if janFeb then 1 else 0), if janFeb then z / 153 - 12 else z / 153, 1 + z % 153 / 5)

/-- Go time: year, month, day, hour, minute and second at an offset (in seconds east of UTC) of a Unix time. -/
def fieldsAt (t off : Int) : Int × Nat × Nat × Nat × Nat × Nat :=
  let s := t + off
  let (y, m, d) := dateOfDay (s / 86400 + 719468)
  let r := (s % 86400).toNat
  (y, m, d, r / 3600, r % 3600 / 60, r % 60)

/-- The fields of a UTC time as `ZTime`/`Civil` has them, if the year is not negative. -/
def civilAt (t off : Int) : Option Civil :=
  match fieldsAt t off with
  | (y, m, d, h, mi, s) => if y < 0 then none else some ⟨y.toNat, m, d, h, mi, s⟩

/-- Go time `appendInt`: a sign, and at least `width` digits. -/
def appendIntW (x : Int) (width : Nat) : Bytes :=
  (if x < 0 then [45] else []) ++
    (List.replicate (width - (digitsRev 10 x.natAbs x.natAbs).length) 0 ++ (digitsRev 10 x.natAbs x.natAbs).reverse).map hexDigit

/-- Go time `appendFormatRFC3339` (layout `2006-01-02T15:04:05Z07:00`). -/
def rfc3339 (t off : Int) : Bytes :=
  match fieldsAt t off with
  | (y, m, d, h, mi, s) =>
    appendIntW y 4 ++ b!"-" ++ appendIntW m 2 ++ b!"-" ++ appendIntW d 2 ++ b!"T" ++
      appendIntW h 2 ++ b!":" ++ appendIntW mi 2 ++ b!":" ++ appendIntW s 2 ++
      (if off = 0 then b!"Z"
       else (if Int.tdiv off 60 < 0 then b!"-" else b!"+") ++ appendIntW ((Int.tdiv off 60).natAbs / 60 : Nat) 2 ++ b!":" ++
         appendIntW ((Int.tdiv off 60).natAbs % 60 : Nat) 2)

/-- certinfo.go:93-99 `CertInfo.String`; the offsets are those of the locations of the two times (0 is UTC). -/
def certInfoString (d : CertDesc) (offFrom offTo : Int) : Bytes :=
  b!"Cert " ++ d.sha1 ++ b!", valid from " ++ rfc3339 d.validFrom offFrom ++ b!" to " ++ rfc3339 d.validTo offTo ++
    b!", Subject: " ++ d.subject ++ b!", Issuer: " ++ d.issuer

/-- Go time `Time.String` of a time in UTC without fractions of a second and without monotonic clock reading
    (layout `2006-01-02 15:04:05.999999999 -0700 MST`). -/
def timeStringUtc (t : Int) : Bytes :=
  match fieldsAt t 0 with
  | (y, m, d, h, mi, s) =>
    appendIntW y 4 ++ b!"-" ++ appendIntW m 2 ++ b!"-" ++ appendIntW d 2 ++ b!" " ++
      appendIntW h 2 ++ b!":" ++ appendIntW mi 2 ++ b!":" ++ appendIntW s 2 ++ b!" +0000 UTC"

/-- signingblock/schemev3lineage.go:91-123 `Dump`: the texts of the successive calls of `Fprintf`, for a certificate whose times are in
    UTC. `none`: the program dies in the `String` method of the flags; `depth` bounds its nested calls (`capsEval`). -/
def dumpNode (h : HashEnv) (depth : Nat) (n : LNode) : Option (List Bytes) :=
  match capsEval depth n.flags with
  | none => none
  | some caps => some
    [b!"Cert " ++ hexEncode (h.sha1 n.cert.raw) ++ b!":\n",
     b!"  ValidFrom: " ++ timeStringUtc n.cert.notBefore ++ b!"\n  ValidTo: " ++ timeStringUtc n.cert.notAfter ++ b!"\n",
     b!"  Issuer: " ++ pkixNameToString n.cert.issuer ++ b!"\n  Subject: " ++ pkixNameToString n.cert.subject ++ b!"\n",
     b!"ParentSigAlgorithm: " ++ algoString n.parentAlgo ++ b!"\n",
     b!"SigAlgorithm: " ++ algoString n.algo ++ b!"\n",
     b!"Signature: " ++ hexEncode (h.sha1 n.signature) ++ b!"\n",
     b!"Flags: 0x" ++ fmtHexMin 4 n.flags ++ b!" (" ++ caps ++ b!")\n"]

/-- What `Dump` has written, and whether it returns an error, when the writer accepts `k` calls and fails from then on. -/
def dumpTo (k : Nat) (texts : List Bytes) : Bytes × Bool := ((texts.take k).flatten, decide (k < texts.length))

end Apk
