import Verif.Model.X509
/-!
# All fields of a parsed certificate (internal/x509andr/x509.go)

`Model/X509` keeps the fields the verifier itself looks at. The certificates that verification returns are complete
`x509.Certificate` values; this module models the other fields as well: what is made of the extensions (x509.go:1168-1390) and
the conversion to the type of the standard library (x509.go:1411-1441).
-/
namespace Apk

/-- The fields of `Certificate` that come from extensions (x509.go:647-729). -/
structure ExtFields where
  keyUsage : Nat := 0
  unhandled : List (List Nat) := []
  extKeyUsage : List Nat := []
  unknownExtKeyUsage : List (List Nat) := []
  basicConstraintsValid : Bool := false
  isCA : Bool := false
  maxPathLen : Int := 0
  maxPathLenZero : Bool := false
  subjectKeyId : Bytes := []
  authorityKeyId : Bytes := []
  ocspServer : List Bytes := []
  issuingUrl : List Bytes := []
  dnsNames : List Bytes := []
  emails : List Bytes := []
  ips : List Bytes := []
  permittedCritical : Bool := false
  permitted : List Bytes := []
  excluded : List Bytes := []
  crlPoints : List Bytes := []
  policies : List (List Nat) := []
deriving DecidableEq, Repr

/-- encoding/asn1 `BitString.At` (asn1.go:163-170). -/
def bitAt (b : BitStr) (i : Nat) : Nat :=
  if i ≥ b.bitLength then 0 else ((b.bytes.getD (i / 8) 0).toNat / 2 ^ (7 - i % 8)) % 2

/-- x509.go:1182-1187: nine bits of the key usage. -/
def usageOf (b : BitStr) : Nat :=
  (List.range 9).foldl (fun usage i => if bitAt b i ≠ 0 then usage ||| 2 ^ i else usage) 0

/-- x509.go:601-617 `extKeyUsageOIDs`, in the order of the constants (x509.go:584-597). -/
def extKeyUsageTable : List (List Nat × Nat) :=
  [([2,5,29,37,0], 0), ([1,3,6,1,5,5,7,3,1], 1), ([1,3,6,1,5,5,7,3,2], 2), ([1,3,6,1,5,5,7,3,3], 3), ([1,3,6,1,5,5,7,3,4], 4),
   ([1,3,6,1,5,5,7,3,5], 5), ([1,3,6,1,5,5,7,3,6], 6), ([1,3,6,1,5,5,7,3,7], 7), ([1,3,6,1,5,5,7,3,8], 8), ([1,3,6,1,5,5,7,3,9], 9),
   ([1,3,6,1,4,1,311,10,3,3], 10), ([2,16,840,1,113730,4,1], 11)]

/-- x509.go:1323-1329: known and unknown extended key usages. -/
def addUsages : ExtFields → List (List Nat) → ExtFields
  | s, [] => s
  | s, u :: us =>
    match mget extKeyUsageTable u with
    | some k => addUsages { s with extKeyUsage := s.extKeyUsage ++ [k] } us
    | none => addUsages { s with unknownExtKeyUsage := s.unknownExtKeyUsage ++ [u] } us

/-- x509.go:1093-1114: the loop over the alternative names, with the DNS names, mail addresses and IP addresses found so far. -/
def sanNames (env : AsnEnv) : Nat → Bytes → List Bytes × List Bytes × List Bytes → Go (Option (List Bytes × List Bytes × List Bytes))
  | 0, _, r => .ok (some r)
  | fuel + 1, b, (dns, mail, ip) =>
    if b = [] then .ok (some (dns, mail, ip))
    else match unmFirst env .rawValue b with
      | .error p => .error p
      | .ok none => .ok none
      | .ok (some (v, rest)) =>
        let v : RawVal := v
        if v.tag = 1 then sanNames env fuel rest (dns, mail ++ [v.bytes], ip)
        else if v.tag = 2 then sanNames env fuel rest (dns ++ [v.bytes], mail, ip)
        else if v.tag = 7 then
          (if v.bytes.length = 4 ∨ v.bytes.length = 16 then sanNames env fuel rest (dns, mail, ip ++ [v.bytes]) else .ok none)
        else sanNames env fuel rest (dns, mail, ip)

/-- x509.go:1063-1117 `parseSANExtension`. -/
def sanFields (env : AsnEnv) (value : Bytes) : Go (Option (List Bytes × List Bytes × List Bytes)) :=
  match unmAll env .rawValue value with
  | .error p => .error p
  | .ok none => .ok none
  | .ok (some seq) =>
    let seq : RawVal := seq
    if !seq.isCompound || decide (seq.tag ≠ 16) || decide (seq.cls ≠ 0) then .ok none
    else sanNames env seq.bytes.length seq.bytes ([], [], [])

/-- x509.go:1239-1251 `getDNSNames`: the names that are not empty; `none` is the error. -/
def subtreeNames (critical : Bool) : List (Bytes × Bytes × Unit) → Option (List Bytes)
  | [] => some []
  | s :: ss =>
    if s.2.1 = [] then (if critical then none else subtreeNames critical ss)
    else match subtreeNames critical ss with
      | none => none
      | some r => some (s.2.1 :: r)

/-- x509.go:1253-1259. -/
def setConstraints (s : ExtFields) (critical : Bool) (permitted excluded : List (Bytes × Bytes × Unit)) : Go (Option (ExtFields × Bool)) :=
  match subtreeNames critical permitted, subtreeNames critical excluded with
  | some p, some e => .ok (some ({ s with permitted := p, excluded := e, permittedCritical := critical }, false))
  | _, _ => .ok none

/-- x509.go:1282-1301: the URLs of the distribution points. -/
def dpUrls (env : AsnEnv) : List (Bytes × (Bytes × RawVal × rdnsTy.interp × Unit) × BitStr × RawVal × Unit) → List Bytes → Go (Option (List Bytes))
  | [], acc => .ok (some acc)
  | dp :: dps, acc =>
    if dp.2.1.2.1.bytes = [] then dpUrls env dps acc
    else match unmFirst env .rawValue dp.2.1.2.1.bytes with
      | .error p => .error p
      | .ok none => .ok none
      | .ok (some (n, _)) =>
        let n : RawVal := n
        dpUrls env dps (if n.tag = 6 then acc ++ [n.bytes] else acc)

/-- x509.go:1367-1377: the URLs of the authority information. -/
def addAccess : ExtFields → List (Bytes × List Nat × RawVal × Unit) → ExtFields
  | s, [] => s
  | s, a :: as =>
    if a.2.2.1.tag ≠ 6 then addAccess s as
    else if a.2.1 = [1,3,6,1,5,5,7,48,1] then addAccess { s with ocspServer := s.ocspServer ++ [a.2.2.1.bytes] } as
    else if a.2.1 = [1,3,6,1,5,5,7,48,2] then addAccess { s with issuingUrl := s.issuingUrl ++ [a.2.2.1.bytes] } as
    else addAccess s as

/-- x509.go:1199-1203. -/
def setBasic (s : ExtFields) (ca : Bool) (len : Int) : ExtFields :=
  { s with basicConstraintsValid := true, isCA := ca, maxPathLen := len, maxPathLenZero := decide (len = 0) }

/-- x509.go:1147, an addition on 64 bits. -/
def certVersion (v : Int) : Int := (v + 1 + 2 ^ 63) % 2 ^ 64 - 2 ^ 63

/-- A value that was read, and what is made of it. -/
def withValue {α : Type} (x : Go (Option α)) (f : α → ExtFields × Bool) : Go (Option (ExtFields × Bool)) :=
  match x with
  | .error p => .error p
  | .ok none => .ok none
  | .ok (some v) => .ok (some (f v))

/-- x509.go:1170-1383, one extension: the fields after it, and `unhandled`. -/
def extFieldsStep (env : AsnEnv) (s : ExtFields) (id : List Nat) (critical : Bool) (value : Bytes) : Go (Option (ExtFields × Bool)) :=
  if id = [2,5,29,15] then withValue (unmAll env .bits value) (fun b => ({ s with keyUsage := usageOf b }, false))
  else if id = [2,5,29,19] then
    withValue (unmAll env basicConstraintsTy value) (fun c => (setBasic s c.2.1 c.2.2.1, false))
  else if id = [2,5,29,17] then
    withValue (sanFields env value) (fun (dns, mail, ip) =>
      ({ s with dnsNames := dns, emails := mail, ips := ip },
        decide (dns.length = 0) && decide (mail.length = 0) && decide (ip.length = 0)))
  else if id = [2,5,29,30] then
    match unmAll env nameConstraintsTy value with
    | .error p => .error p
    | .ok none => .ok none
    | .ok (some (_, permitted, excluded, ())) => setConstraints s critical permitted excluded
  else if id = [2,5,29,31] then
    match unmAll env (.slice false dpTy) value with
    | .error p => .error p
    | .ok none => .ok none
    | .ok (some dps) => withValue (dpUrls env dps s.crlPoints) (fun l => ({ s with crlPoints := l }, false))
  else if id = [2,5,29,35] then withValue (unmAll env authKeyIdTy value) (fun a => ({ s with authorityKeyId := a.2.1 }, false))
  else if id = [2,5,29,37] then withValue (unmAll env (.slice false .oid) value) (fun us => (addUsages s us, false))
  else if id = [2,5,29,14] then withValue (unmAll env .octets value) (fun k => ({ s with subjectKeyId := k }, false))
  else if id = [2,5,29,32] then
    withValue (unmAll env (.slice false policyTy) value) (fun ps =>
      ({ s with policies := (ps : List (Bytes × List Nat × Unit)).map (fun p => p.2.1) }, false))
  else if id = [1,3,6,1,5,5,7,1,1] then withValue (unmAll env (.slice false aiaTy) value) (fun as => (addAccess s as, false))
  else .ok (some (s, true))

/-- x509.go:1168-1390: the loop over the extensions. -/
def extFieldsLoop (env : AsnEnv) : List (Bytes × List Nat × Bool × Bytes × Unit) → ExtFields → Go (Option ExtFields)
  | [], s => .ok (some s)
  | e :: es, s =>
    match extFieldsStep env s e.2.1 e.2.2.1 e.2.2.2.1 with
    | .error p => .error p
    | .ok none => .ok none
    | .ok (some (s, unhandled)) =>
      extFieldsLoop env es (if e.2.2.1 && unhandled then { s with unhandled := s.unhandled ++ [e.2.1] } else s)

/-- x509.go:647-729 `Certificate`; `base` are the fields of `Model/X509`. -/
structure CertFull where
  base : Cert
  key : Key
  keyAlgo : PKAlgo
  rawTbs : Bytes
  rawSubject : Bytes
  rawIssuer : Bytes
  signature : Bytes
  version : Int
  extensions : List (List Nat × Bool × Bytes)
  ext : ExtFields

/-- x509.go:1119-1393 `parseCertificate`. -/
def parseFullStruct (env : CertEnv) (c : certificateTy.interp) : Go (Option CertFull) :=
  match parseCertStruct env (CertV.of c) with
  | .error p => .error p
  | .ok none => .ok none
  | .ok (some (base, key)) =>
    match extFieldsLoop env.toAsnEnv (CertV.of c).extensions {} with
    | .error p => .error p
    | .ok none => .ok none
    | .ok (some ext) =>
      match c with
      | (_, (tbs, version, _, _, issuer, _, subject, _, _, _, _, ()), _, signature, ()) =>
        .ok (some ⟨base, key, pkAlgo (CertV.of c).keyAlg.oid, tbs, RawVal.full subject, RawVal.full issuer, rightAlign signature, certVersion version,
          (CertV.of c).extensions.map (fun e => (e.2.1, e.2.2.1, e.2.2.2.1)), ext⟩)

/-- x509.go:1396-1407 `ParseCertificate`. -/
def parseFull (env : CertEnv) (b : Bytes) : Go (Option CertFull) :=
  match unmAll env.toAsnEnv certificateTy b with
  | .error p => .error p
  | .ok none => .ok none
  | .ok (some c) => parseFullStruct env c

/-- x509.go:1423-1441 `andrCertToGoCert`: every field but `ExtKeyUsage` is copied. -/
def CertFull.forGo (c : CertFull) : CertFull := { c with ext := { c.ext with extKeyUsage := [] } }

/-- x509.go:1443-1450 `ParseCertificateForGo`. -/
def parseForGo (env : CertEnv) (b : Bytes) : Go (Option CertFull) :=
  match parseFull env b with
  | .error p => .error p
  | .ok none => .ok none
  | .ok (some c) => .ok (some c.forGo)

/-- x509.go:1467-1478: splitting concatenated certificates. -/
def splitFull (env : CertEnv) : Nat → Bytes → Go (Option (List certificateTy.interp))
  | 0, _ => .ok (some [])
  | fuel + 1, b =>
    if b = [] then .ok (some [])
    else match unmFirst env.toAsnEnv certificateTy b with
      | .error p => .error p
      | .ok none => .ok none
      | .ok (some (c, rest)) =>
        match splitFull env fuel rest with
        | .error p => .error p
        | .ok none => .ok none
        | .ok (some cs) => .ok (some (c :: cs))

/-- x509.go:1480-1489 and 1455-1461: parsing and converting them. -/
def parseFullStructs (env : CertEnv) : List certificateTy.interp → Go (Option (List CertFull))
  | [] => .ok (some [])
  | c :: cs =>
    match parseFullStruct env c with
    | .error p => .error p
    | .ok none => .ok none
    | .ok (some x) =>
      match parseFullStructs env cs with
      | .error p => .error p
      | .ok none => .ok none
      | .ok (some xs) => .ok (some (x.forGo :: xs))

/-- x509.go:1452-1490 `ParseCertificatesForGo`. -/
def parseFullsForGo (env : CertEnv) (b : Bytes) : Go (Option (List CertFull)) :=
  match splitFull env b.length b with
  | .error p => .error p
  | .ok none => .ok none
  | .ok (some cs) => parseFullStructs env cs

end Apk
