import Verif.Spec.Time
import Verif.Spec.Text
import Verif.Spec.Rendering
/-! # Specification of the printed descriptions of certificates and lineage nodes -/
namespace Apk.Spec

/-- A date, year 0 to 9999: `2015-08-05`. -/
def dateText (c : Civil) : Bytes := dd (c.year / 100) ++ dd (c.year % 100) ++ b!"-" ++ dd c.month ++ b!"-" ++ dd c.day

/-- A time of day: `08:01:53`. -/
def clockTextColons (c : Civil) : Bytes := dd c.hour ++ b!":" ++ dd c.min ++ b!":" ++ dd c.sec

/-- A zone that is a whole number of minutes from UTC, as in RFC 3339. -/
inductive RfcZone : Int → Bytes → Prop
  | z : RfcZone 0 (b!"Z")
  | east (h m : Nat) : h < 100 → m < 60 → 0 < h + m → RfcZone (3600 * h + 60 * m) (b!"+" ++ dd h ++ b!":" ++ dd m)
  | west (h m : Nat) : h < 100 → m < 60 → 0 < h + m → RfcZone (-(3600 * h + 60 * m)) (b!"-" ++ dd h ++ b!":" ++ dd m)

/-- `s` is the RFC 3339 text of the instant `t` in a zone `off` seconds east of UTC: `2015-08-05T08:01:53Z`. -/
def Rfc3339 (t off : Int) (s : Bytes) : Prop :=
  ∃ c z, RealCivil c ∧ c.year < 10000 ∧ unixUtc c - off = t ∧ RfcZone off z ∧ s = dateText c ++ b!"T" ++ clockTextColons c ++ z

/-- `s` is the text of the instant `t` in UTC that Go prints by default: `2015-08-05 08:01:53 +0000 UTC`. -/
def PlainUtc (t : Int) (s : Bytes) : Prop :=
  ∃ c, RealCivil c ∧ c.year < 10000 ∧ unixUtc c = t ∧ s = dateText c ++ b!" " ++ clockTextColons c ++ b!" +0000 UTC"

/-- An instant within the years 0 to 9999 at an offset. -/
def FourDigitYear (t off : Int) : Prop := ∃ c, RealCivil c ∧ c.year < 10000 ∧ unixUtc c - off = t

/-- Description of a certificate in one line: fingerprint, validity (each time in a zone of its own), subject, issuer. -/
def DescribesCert (sha1 : Bytes) (notBefore offFrom notAfter offTo : Int) (subject issuer : PName) (s : Bytes) : Prop :=
  ∃ a b, Rfc3339 notBefore offFrom a ∧ Rfc3339 notAfter offTo b ∧
    s = b!"Cert " ++ hexText sha1 ++ b!", valid from " ++ a ++ b!" to " ++ b ++ b!", Subject: " ++ nameText subject ++
      b!", Issuer: " ++ nameText issuer

/-- Description of a certificate of a signing lineage and of its place there, in nine lines; `caps` is the text of the capabilities. -/
def DescribesNode (sha1 sigSha1 : Bytes) (n : LNode) (caps s : Bytes) : Prop :=
  ∃ a b p g f, PlainUtc n.cert.notBefore a ∧ PlainUtc n.cert.notAfter b ∧ AlgoText n.parentAlgo p ∧ AlgoText n.algo g ∧
    NumeralText 16 4 n.flags f ∧
    s = b!"Cert " ++ hexText sha1 ++ b!":\n" ++
      b!"  ValidFrom: " ++ a ++ b!"\n" ++
      b!"  ValidTo: " ++ b ++ b!"\n" ++
      b!"  Issuer: " ++ nameText n.cert.issuer ++ b!"\n" ++
      b!"  Subject: " ++ nameText n.cert.subject ++ b!"\n" ++
      b!"ParentSigAlgorithm: " ++ p ++ b!"\n" ++
      b!"SigAlgorithm: " ++ g ++ b!"\n" ++
      b!"Signature: " ++ hexText sigSha1 ++ b!"\n" ++
      b!"Flags: 0x" ++ f ++ b!" (" ++ caps ++ b!")\n"

end Apk.Spec
