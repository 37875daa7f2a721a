import Verif.Model.CertFull
import Verif.Model.Marshal
/-!
# The extensions of a certificate written from a template (internal/x509andr/x509.go:1492-1730)

The template is given by the fields of a parsed certificate that come from extensions (`ExtFields`, Model/CertFull); `ExtraExtensions`
and the authority key identifier are arguments. Extensions are written with `encoding/asn1`, whose `Marshal` is Model/Marshal with
sorted sets (no sets occur here). Simplified: key usages and numbers of purposes are not negative.
-/
namespace Apk

/-- pkix.Extension: identifier, critical, value. -/
abbrev Ext := List Nat × Bool × Bytes

/-- `encoding/asn1` for types without times. -/
def stdMar (env : AsnEnv) : MarEnv := ⟨true, env.utf8Valid, fun _ _ => none⟩

/-- x509.go:1492-1497 `reverseBitsInAByte`. -/
def reverseBits (b : UInt8) : UInt8 :=
  let b1 := b >>> 4 ||| b <<< 4
  let b2 := (b1 >>> 2 &&& (0x33 : UInt8)) ||| (b1 <<< 2 &&& (0xcc : UInt8))
  (b2 >>> 1 &&& (0x55 : UInt8)) ||| (b2 <<< 1 &&& (0xaa : UInt8))

/-- x509.go:1508-1513: the lowest bit of a byte that is set. -/
def lowestBit (b : UInt8) : Option Nat := (List.range 8).find? (fun bit => (b >>> UInt8.ofNat bit) &&& 1 = 1)

/-- x509.go:1505-1514: the loop over the bytes, from the last one on. -/
def bitLengthFrom : List UInt8 → Nat → Nat
  | [], _ => 0
  | b :: bs, n =>
    match lowestBit b with
    | some k => n - k
    | none => bitLengthFrom bs (n - 8)

/-- x509.go:1502-1517 `asn1BitLength`. -/
def asn1BitLength (b : Bytes) : Nat := bitLengthFrom b.reverse (b.length * 8)

/-- x509.go:1539-1546 `oidInExtensions`. -/
def oidInExtensions (oid : List Nat) (exts : List Ext) : Bool := exts.any (fun e => decide (e.1 = oid))

/-- net.IP.To4 (Go 1.x): the four bytes of an IPv4 address, also of one written as an IPv6 address; `none` is nil. -/
def ipTo4 (ip : Bytes) : Option Bytes :=
  if ip.length = 4 then some ip
  else if ip.length = 16 ∧ ip.take 12 = [0, 0, 0, 0, 0, 0, 0, 0, 0, 0, 255, 255] then some (ip.drop 12)
  else none

/-- x509.go:1560-1566. -/
def ipBytes (ip : Bytes) : Bytes :=
  match ipTo4 ip with
  | some b => b
  | none => ip

/-- A context specific primitive RawValue (x509.go:1554, :1557, :1566, :1664, :1670, :1719). -/
def ctxRaw (tag : Nat) (b : Bytes) : RawVal := ⟨2, tag, false, b, []⟩

/-- x509.go:1550-1569 `marshalSANs`. -/
def marshalSANs (env : AsnEnv) (dns mail ip : List Bytes) : Except MErr Bytes :=
  marshal (stdMar env) (.slice false .rawValue)
    ((dns.map (ctxRaw 2) ++ mail.map (ctxRaw 1) ++ ip.map (fun i => ctxRaw 7 (ipBytes i)) : List RawVal))

/-- One of the steps of `buildExtensions`: nothing, an error, or an extension. -/
def oneExt (on : Bool) (id : List Nat) (critical : Bool) (value : Except MErr Bytes) : Go (Option (List Ext)) :=
  if on then
    match value with
    | .error _ => .ok none
    | .ok b => .ok (some [(id, critical, b)])
  else .ok (some [])

/-- One step after the other. -/
def extsThen (x y : Go (Option (List Ext))) : Go (Option (List Ext)) :=
  match x with
  | .error p => .error p
  | .ok none => .ok none
  | .ok (some l) =>
    match y with
    | .error p => .error p
    | .ok none => .ok none
    | .ok (some l') => .ok (some (l ++ l'))

/-- x509.go:1580-1589: the bytes of the key usage; the second one only if it is not zero. -/
def usageBytes (u : Nat) : Bytes :=
  let a0 := reverseBits (UInt8.ofNat u)
  let a1 := reverseBits (UInt8.ofNat (u / 256))
  if a1 ≠ 0 then [a0, a1] else [a0]

/-- x509.go:1575-1595. -/
def usageExt (env : AsnEnv) (t : ExtFields) (extra : List Ext) : Go (Option (List Ext)) :=
  oneExt (decide (t.keyUsage ≠ 0) && !oidInExtensions [2,5,29,15] extra) [2,5,29,15] true
    (marshal (stdMar env) .bits (⟨usageBytes t.keyUsage, asn1BitLength (usageBytes t.keyUsage)⟩ : BitStr))

/-- x509.go:628-635 `oidFromExtKeyUsage`. -/
def oidFromExtKeyUsage (n : Nat) : Option (List Nat) := (extKeyUsageTable.find? (fun p => decide (p.2 = n))).map Prod.fst

/-- x509.go:1602-1608: the loop over the purposes; `none` is the panic. -/
def purposeOids : List Nat → Option (List (List Nat))
  | [] => some []
  | u :: us =>
    match oidFromExtKeyUsage u with
    | none => none
    | some oid =>
      match purposeOids us with
      | none => none
      | some r => some (oid :: r)

/-- x509.go:1597-1617. -/
def purposeExt (env : AsnEnv) (t : ExtFields) (extra : List Ext) : Go (Option (List Ext)) :=
  if (decide (t.extKeyUsage ≠ []) || decide (t.unknownExtKeyUsage ≠ [])) && !oidInExtensions [2,5,29,37] extra then
    match purposeOids t.extKeyUsage with
    | none => .error .explicit
    | some oids => oneExt true [2,5,29,37] false (marshal (stdMar env) (.slice false .oid) (oids ++ t.unknownExtKeyUsage : List (List Nat)))
  else .ok (some [])

/-- x509.go:1623-1626. -/
def pathLenOf (t : ExtFields) : Int := if t.maxPathLen = 0 ∧ t.maxPathLenZero = false then -1 else t.maxPathLen

/-- x509.go:1619-1634. -/
def basicExt (env : AsnEnv) (t : ExtFields) (extra : List Ext) : Go (Option (List Ext)) :=
  oneExt (t.basicConstraintsValid && !oidInExtensions [2,5,29,19] extra) [2,5,29,19] true
    (marshal (stdMar env) basicConstraintsTy (([] : Bytes), t.isCA, pathLenOf t, ()))

/-- x509.go:1636-1643. -/
def subjectKeyExt (env : AsnEnv) (t : ExtFields) (extra : List Ext) : Go (Option (List Ext)) :=
  oneExt (decide (t.subjectKeyId ≠ []) && !oidInExtensions [2,5,29,14] extra) [2,5,29,14] false (marshal (stdMar env) .octets t.subjectKeyId)

/-- x509.go:1645-1652. -/
def authorityKeyExt (env : AsnEnv) (key : Bytes) (extra : List Ext) : Go (Option (List Ext)) :=
  oneExt (decide (key ≠ []) && !oidInExtensions [2,5,29,35] extra) [2,5,29,35] false (marshal (stdMar env) authKeyIdTy (([] : Bytes), key, ()))

/-- x509.go:1657-1673. -/
def accessValues (t : ExtFields) : List (Bytes × List Nat × RawVal × Unit) :=
  t.ocspServer.map (fun n => ([], [1,3,6,1,5,5,7,48,1], ctxRaw 6 n, ())) ++ t.issuingUrl.map (fun n => ([], [1,3,6,1,5,5,7,48,2], ctxRaw 6 n, ()))

/-- x509.go:1654-1679. -/
def accessExt (env : AsnEnv) (t : ExtFields) (extra : List Ext) : Go (Option (List Ext)) :=
  oneExt ((decide (t.ocspServer ≠ []) || decide (t.issuingUrl ≠ [])) && !oidInExtensions [1,3,6,1,5,5,7,1,1] extra) [1,3,6,1,5,5,7,1,1] false
    (marshal (stdMar env) (.slice false aiaTy) (accessValues t))

/-- x509.go:1681-1689. -/
def sanExt (env : AsnEnv) (t : ExtFields) (extra : List Ext) : Go (Option (List Ext)) :=
  oneExt ((decide (t.dnsNames ≠ []) || decide (t.emails ≠ []) || decide (t.ips ≠ [])) && !oidInExtensions [2,5,29,17] extra) [2,5,29,17] false
    (marshalSANs env t.dnsNames t.emails t.ips)

/-- x509.go:1691-1703. -/
def policyExt (env : AsnEnv) (t : ExtFields) (extra : List Ext) : Go (Option (List Ext)) :=
  oneExt (decide (t.policies ≠ []) && !oidInExtensions [2,5,29,32] extra) [2,5,29,32] false
    (marshal (stdMar env) (.slice false policyTy) (t.policies.map (fun p => (([] : Bytes), p, ()))))

/-- x509.go:932-935 `nameConstraints` as it is written: the lists are made by `make` and never nil (x509.go:1712, :1716), so that they are
    not left out. Model/Marshal does not tell a nil slice from an empty one, hence a type without `optional`. -/
def nameConstraintsOutTy : Ty := .struct false (.cons (b!"tag:0") (.slice false subtreeTy) (.cons (b!"tag:1") (.slice false subtreeTy) .nil))

/-- x509.go:1705-1725. -/
def constraintsExt (env : AsnEnv) (t : ExtFields) (extra : List Ext) : Go (Option (List Ext)) :=
  oneExt ((decide (t.permitted ≠ []) || decide (t.excluded ≠ [])) && !oidInExtensions [2,5,29,30] extra) [2,5,29,30] t.permittedCritical
    (marshal (stdMar env) nameConstraintsOutTy
      (([] : Bytes), t.permitted.map (fun n => (([] : Bytes), n, ())), t.excluded.map (fun n => (([] : Bytes), n, ())), ()))

/-- x509.go:1733-1740: a distribution point with a URL. The error of `Marshal` is dropped; a RawValue is always written. -/
def crlPointOf (n : Bytes) : dpTy.interp :=
  (([] : Bytes), ((([] : Bytes), (⟨2, 0, true, rawBytes (ctxRaw 6 n), []⟩ : RawVal), ([] : List (List (Bytes × List Nat × Option AnyVal × Unit))), ())),
    (⟨[], 0⟩ : BitStr), ({} : RawVal), ())

/-- x509.go:1727-1748. -/
def crlExt (env : AsnEnv) (t : ExtFields) (extra : List Ext) : Go (Option (List Ext)) :=
  oneExt (decide (t.crlPoints ≠ []) && !oidInExtensions [2,5,29,31] extra) [2,5,29,31] false
    (marshal (stdMar env) (.slice false dpTy) (t.crlPoints.map crlPointOf))

/-- x509.go:1571-1754 `buildExtensions`. -/
def buildExtensions (env : AsnEnv) (t : ExtFields) (authorityKeyId : Bytes) (extra : List Ext) : Go (Option (List Ext)) :=
  extsThen (usageExt env t extra) (extsThen (purposeExt env t extra) (extsThen (basicExt env t extra) (extsThen (subjectKeyExt env t extra)
    (extsThen (authorityKeyExt env authorityKeyId extra) (extsThen (accessExt env t extra) (extsThen (sanExt env t extra)
      (extsThen (policyExt env t extra) (extsThen (constraintsExt env t extra) (extsThen (crlExt env t extra) (.ok (some extra)))))))))))

end Apk
