import Verif.Model.Unmarshal
/-!
# Certificates and public keys (internal/x509andr/x509.go)

The parts of a certificate the verifier looks at. Everything else `parseCertificate` stores (key usage, DNS names, policies,
...) is parsed, because it can fail, and dropped.
-/
namespace Apk

/-- pkix.AlgorithmIdentifier (crypto/x509/pkix). -/
def algIdTy : Ty := .struct false (.cons [] .oid (.cons (b!"optional") .rawValue .nil))
/-- pkix.AttributeTypeAndValue. -/
def atavTy : Ty := .struct false (.cons [] .oid (.cons [] .any .nil))
/-- pkix.RDNSequence, a slice of RelativeDistinguishedNameSET. -/
def rdnsTy : Ty := .slice false (.slice true atavTy)
/-- pkix.Extension. -/
def extensionTy : Ty := .struct false (.cons [] .oid (.cons (b!"optional") .bool (.cons [] .octets .nil)))
/-- x509.go:165-167 `validity`. -/
def validityTy : Ty := .struct false (.cons [] .time (.cons [] .time .nil))
/-- x509.go:169-173 `publicKeyInfo`. -/
def publicKeyInfoTy : Ty := .struct true (.cons [] algIdTy (.cons [] .bits .nil))
/-- x509.go:141-153 `tbsCertificate`. -/
def tbsCertificateTy : Ty :=
  .struct true (.cons (b!"optional,explicit,default:0,tag:0") .int (.cons [] .bigInt (.cons [] algIdTy (.cons [] .rawValue
    (.cons [] validityTy (.cons [] .rawValue (.cons [] publicKeyInfoTy (.cons (b!"optional,tag:1") .bits
    (.cons (b!"optional,tag:2") .bits (.cons (b!"optional,explicit,tag:3") (.slice false extensionTy) .nil))))))))))
/-- x509.go:134-139 `certificate`. -/
def certificateTy : Ty := .struct true (.cons [] tbsCertificateTy (.cons [] algIdTy (.cons [] .bits .nil)))
/-- pkcs1.go:39-42 `pkcs1PublicKey`. -/
def pkcs1PublicKeyTy : Ty := .struct false (.cons [] .bigInt (.cons [] .int .nil))
/-- x509.go:155-157 `dsaAlgorithmParameters`. -/
def dsaParamsTy : Ty := .struct false (.cons [] .bigInt (.cons [] .bigInt (.cons [] .bigInt .nil)))
/-- x509.go:159-161 `dsaSignature`, schemev1.go:821-824. -/
def rsTy : Ty := .struct false (.cons [] .bigInt (.cons [] .bigInt .nil))
/-- x509.go:347-355 `pssParameters`. -/
def pssParametersTy : Ty :=
  .struct false (.cons (b!"explicit,tag:0") algIdTy (.cons (b!"explicit,tag:1") algIdTy (.cons (b!"explicit,tag:2") .int
    (.cons (b!"optional,explicit,tag:3,default:1") .int .nil))))
/-- x509.go:176-178 `authKeyId`. -/
def authKeyIdTy : Ty := .struct false (.cons (b!"optional,tag:0") .octets .nil)
/-- x509.go:920-923 `basicConstraints`. -/
def basicConstraintsTy : Ty := .struct false (.cons (b!"optional") .bool (.cons (b!"optional,default:-1") .int .nil))
/-- x509.go:926-929 `policyInformation`. -/
def policyTy : Ty := .struct false (.cons [] .oid .nil)
/-- x509.go:937-939 `generalSubtree`. -/
def subtreeTy : Ty := .struct false (.cons (b!"tag:2,optional,ia5") .str .nil)
/-- x509.go:932-935 `nameConstraints`. -/
def nameConstraintsTy : Ty :=
  .struct false (.cons (b!"optional,tag:0") (.slice false subtreeTy) (.cons (b!"optional,tag:1") (.slice false subtreeTy) .nil))
/-- x509.go:942-945 `authorityInfoAccess`. -/
def aiaTy : Ty := .struct false (.cons [] .oid (.cons [] .rawValue .nil))
/-- x509.go:954-957 `distributionPointName`. -/
def dpNameTy : Ty := .struct false (.cons (b!"optional,tag:0") .rawValue (.cons (b!"optional,tag:1") rdnsTy .nil))
/-- x509.go:948-952 `distributionPoint`. -/
def dpTy : Ty :=
  .struct false (.cons (b!"optional,tag:0") dpNameTy (.cons (b!"optional,tag:1") .bits (.cons (b!"optional,tag:2") .rawValue .nil)))

/-- The values of an AlgorithmIdentifier. -/
structure AlgId where
  oid : List Nat
  params : RawVal
deriving DecidableEq, Repr

/-- Named view of a parsed AlgorithmIdentifier. -/
def AlgId.of (v : algIdTy.interp) : AlgId := ⟨v.2.1, v.2.2.1⟩

/-- External functions used when parsing certificates. -/
structure CertEnv extends AsnEnv where
  /-- elliptic.Unmarshal on the named curve -/
  point : List Nat → Bytes → Option (Int × Int)

/-- `Unmarshal` with a nil error and no bytes left: the usual way it is called. -/
def unmAll (env : AsnEnv) (t : Ty) (b : Bytes) : Go (Option t.interp) :=
  match unmarshalRaw env t b with
  | .error p => .error p
  | .ok (_, .error _) => .ok none
  | .ok (v, .ok rest) => if rest = [] then .ok (some v) else .ok none

/-- `Unmarshal` with a nil error; bytes after the element are ignored. -/
def unmFirst (env : AsnEnv) (t : Ty) (b : Bytes) : Go (Option (t.interp × Bytes)) :=
  match unmarshalRaw env t b with
  | .error p => .error p
  | .ok (_, .error _) => .ok none
  | .ok (v, .ok rest) => .ok (some (v, rest))

/-- The shifting loop of `asn1.BitString.RightAlign` (encoding/asn1; asn1.go:178-192): `prev` is the byte before. -/
def shiftRight (sh : Nat) : Nat → Bytes → Bytes
  | _, [] => []
  | prev, b :: bs => UInt8.ofNat (prev * 2 ^ (8 - sh) % 256 + b.toNat / 2 ^ sh) :: shiftRight sh b.toNat bs

/-- asn1.go:178-192 `BitString.RightAlign`. -/
def rightAlign (b : BitStr) : Bytes :=
  let sh := 8 - b.bitLength % 8
  if sh = 8 ∨ b.bytes = [] then b.bytes else shiftRight sh 0 b.bytes

/-- `big.Int.BitLen`. -/
def bitLen (n : Nat) : Nat := if n = 0 then 0 else Nat.log2 n + 1

/-- A parsed public key (x509.go:959-1061); `none` is the nil interface returned for an unknown algorithm. -/
inductive Key where
  | rsa (n : Int) (e : Int)
  | dsa (p q g y : Int)
  | ecdsa (curve : List Nat) (x y : Int)
  | none
deriving DecidableEq, Repr

/-- `PublicKeyAlgorithm` (x509.go:235-242). -/
inductive PKAlgo where
  | unknown | rsa | dsa | ecdsa
deriving DecidableEq, Repr

/-- x509.go:474-484 `getPublicKeyAlgorithmFromOID`. -/
def pkAlgo (oid : List Nat) : PKAlgo :=
  if oid = [1,2,840,113549,1,1,1] then .rsa
  else if oid = [1,2,840,10040,4,1] then .dsa
  else if oid = [1,2,840,10045,2,1] then .ecdsa
  else .unknown

/-- x509.go:509-521 `namedCurveFromOID`. -/
def knownCurve (oid : List Nat) : Bool :=
  oid = [1,3,132,0,33] || oid = [1,2,840,10045,3,1,7] || oid = [1,3,132,0,34] || oid = [1,3,132,0,35]

/-- x509.go:981-994: a modulus that is not positive is negated, decremented and its bytes are inverted. `big.Int.Bytes` is
    the shortest representation of the absolute value. -/
def repairModulus (n : Int) : Int := (setBytes ((natBytes (-n - 1).natAbs).map (fun y => 255 - y)) : Int)

/-- x509.go:981-1003: checks on the modulus and the exponent; the flag is `*needsReencode`. -/
def rsaKeyOf (n : Option Int) (e : Int) : Go (Option (Key × Bool)) :=
  match n with
  | Option.none => .error .nilDeref
  | some n =>
    if e ≤ 0 then .ok Option.none
    else if n ≤ 0 then .ok (some (.rsa (repairModulus n) e, true))
    else .ok (some (.rsa n e, false))

/-- x509.go:1022-1033: checks on the DSA parameters. -/
def dsaKeyOf (p q g y : Option Int) : Go (Option (Key × Bool)) :=
  match p, q, g, y with
  | some p, some q, some g, some y =>
    if y ≤ 0 ∨ p ≤ 0 ∨ q ≤ 0 ∨ g ≤ 0 then .ok Option.none else .ok (some (.dsa p q g y, false))
  | _, _, _, _ => .error .nilDeref

/-- x509.go:959-1061 `parsePublicKey`: the key and `*needsReencode`. -/
def parseKey (env : CertEnv) (algo : PKAlgo) (algId : AlgId) (keyBits : BitStr) : Go (Option (Key × Bool)) :=
  let data := rightAlign keyBits
  match algo with
  | .rsa =>
    match unmAll env.toAsnEnv pkcs1PublicKeyTy data with
    | .error p => .error p
    | .ok Option.none => .ok Option.none
    | .ok (some v) => rsaKeyOf v.2.1 v.2.2.1
  | .dsa =>
    match unmAll env.toAsnEnv .bigInt data with
    | .error p => .error p
    | .ok Option.none => .ok Option.none
    | .ok (some y) =>
      match unmAll env.toAsnEnv dsaParamsTy algId.params.full with
      | .error p => .error p
      | .ok Option.none => .ok Option.none
      | .ok (some v) => dsaKeyOf v.2.1 v.2.2.1 v.2.2.2.1 y
  | .ecdsa =>
    match unmAll env.toAsnEnv .oid algId.params.full with
    | .error p => .error p
    | .ok Option.none => .ok Option.none
    | .ok (some curve) =>
      if knownCurve curve then
        match env.point curve data with
        | Option.none => .ok Option.none
        | some (x, y) => .ok (some (.ecdsa curve x y, false))
      else .ok Option.none
  | .unknown => .ok (some (.none, false))

/-- x509.go:62-74 `ParsePKIXPublicKey`. -/
def parsePKIXKey (env : CertEnv) (der : Bytes) : Go (Option Key) :=
  match unmAll env.toAsnEnv publicKeyInfoTy der with
  | .error p => .error p
  | .ok none => .ok none
  | .ok (some (_, alg, bits, ())) =>
    let algId := AlgId.of alg
    if pkAlgo algId.oid = .unknown then .ok none
    else match parseKey env (pkAlgo algId.oid) algId bits with
      | .error p => .error p
      | .ok none => .ok none
      | .ok (some (k, _)) => .ok (some k)

/-- One DER element: header with a minimal length, then the contents (marshal.go:251-276). -/
def tlv (cls : Nat) (compound : Bool) (tag : Nat) (content : Bytes) : Bytes :=
  encodeTagAndLength ⟨cls, tag, content.length, compound⟩ ++ content

/-- Encoded INTEGER. -/
def derInt (i : Int) : Bytes := tlv 0 false 2 (encodeBigInt i)

/-- The contents of the OBJECT IDENTIFIER rsaEncryption. -/
def rsaOidBytes : Bytes := [42, 134, 72, 134, 247, 13, 1, 1, 1]

/-- x509.go:76-130 `MarshalPKIXPublicKey` of an RSA key (the only one it is called with, x509.go:1140-1145): encoding/asn1
    Marshal of the algorithm with NULL parameters and of the BIT STRING. -/
def marshalRsaKey (n e : Int) : Bytes :=
  let key := tlv 0 true 16 (derInt n ++ tlv 0 false 2 (encodeInt64 e))
  tlv 0 true 16 (tlv 0 true 16 (tlv 0 false 6 rsaOidBytes ++ [5, 0]) ++ tlv 0 false 3 (0 :: key))

/-- x509.go:321-343 `signatureAlgorithmDetails`: object identifiers and algorithm numbers (x509.go:182-199), without RSA PSS. -/
def sigAlgTable : List (List Nat × Nat) :=
  [([1,2,840,113549,1,1,2], 1), ([1,2,840,113549,1,1,4], 2), ([1,2,840,113549,1,1,5], 3), ([1,3,14,3,2,29], 3),
   ([1,2,840,113549,1,1,11], 4), ([1,2,840,113549,1,1,12], 5), ([1,2,840,113549,1,1,13], 6),
   ([1,2,840,10040,4,3], 7), ([2,16,840,1,101,3,4,3,2], 8), ([1,2,840,10045,4,1], 9), ([1,2,840,10045,4,3,2], 10),
   ([1,2,840,10045,4,3,3], 11), ([1,2,840,10045,4,3,4], 12)]

/-- x509.go:424-452: the accepted combinations of RSA PSS parameters. -/
def pssAlg (hash mgf h2 : AlgId) (salt trailer : Int) : Nat :=
  if hash.params.full ≠ [5, 0] ∨ mgf.oid ≠ [1,2,840,113549,1,1,8] ∨ h2.oid ≠ hash.oid ∨ h2.params.full ≠ [5, 0] ∨ trailer ≠ 1 then 0
  else if hash.oid = [2,16,840,1,101,3,4,2,1] ∧ salt = 32 then 13
  else if hash.oid = [2,16,840,1,101,3,4,2,2] ∧ salt = 48 then 14
  else if hash.oid = [2,16,840,1,101,3,4,2,3] ∧ salt = 64 then 15
  else 0

/-- x509.go:402-450 `getSignatureAlgorithmFromAI`; 0 is unknown. -/
def sigAlgOf (env : AsnEnv) (ai : AlgId) : Go Nat :=
  if ai.oid ≠ [1,2,840,113549,1,1,10] then .ok ((mget sigAlgTable ai.oid).getD 0)
  else match unmFirst env pssParametersTy ai.params.full with
    | .error p => .error p
    | .ok none => .ok 0
    | .ok (some (v, _)) =>
      match unmFirst env algIdTy (AlgId.of v.2.2.1).params.full with
      | .error p => .error p
      | .ok none => .ok 0
      | .ok (some (h2, _)) => .ok (pssAlg (AlgId.of v.2.1) (AlgId.of v.2.2.1) (AlgId.of h2) v.2.2.2.1 v.2.2.2.2.1)

/-- A parsed RDNSequence as seen by `FillFromRDNSequence`: only string values matter. -/
def rdnsOf (v : rdnsTy.interp) : RawRdns :=
  List.map (List.map (fun a => (a.2.1, match a.2.2.1 with | some (.str s) => some s | _ => none)))
    (v : List (List (Bytes × List Nat × Option AnyVal × Unit)))

/-- x509.go:1093-1114: the loop over the names of a subject alternative name. `some n`: the number of names stored. -/
def sanLoop (env : AsnEnv) : Nat → Bytes → Nat → Go (Option Nat)
  | 0, _, n => .ok (some n)
  | fuel + 1, b, n =>
    if b = [] then .ok (some n)
    else match unmFirst env .rawValue b with
      | .error p => .error p
      | .ok none => .ok none
      | .ok (some (v, rest)) =>
        let v : RawVal := v
        if v.tag = 1 ∨ v.tag = 2 then sanLoop env fuel rest (n + 1)
        else if v.tag = 7 then
          (if v.bytes.length = 4 ∨ v.bytes.length = 16 then sanLoop env fuel rest (n + 1) else .ok none)
        else sanLoop env fuel rest n

/-- x509.go:1063-1117 `parseSANExtension`. -/
def parseSAN (env : AsnEnv) (value : Bytes) : Go (Option Nat) :=
  match unmAll env .rawValue value with
  | .error p => .error p
  | .ok none => .ok none
  | .ok (some seq) =>
    let seq : RawVal := seq
    if !seq.isCompound || decide (seq.tag ≠ 16) || decide (seq.cls ≠ 0) then .ok none
    else sanLoop env seq.bytes.length seq.bytes 0

/-- A successfully parsed value is handled; an error is returned. -/
def handledIf {α : Type} : Go (Option α) → Go (Option Bool)
  | .error p => .error p
  | .ok none => .ok none
  | .ok (some _) => .ok (some false)

/-- x509.go:1239-1258: a name constraint without a DNS name is an error if the extension is critical. -/
def subtreesOk (critical : Bool) (l : List (Bytes × Bytes × Unit)) : Bool :=
  l.all (fun s => !(critical && decide (s.2.1 = [])))

/-- x509.go:1282-1299: the distribution points. -/
def dpsOk (env : AsnEnv) : List (Bytes × (Bytes × RawVal × rdnsTy.interp × Unit) × BitStr × RawVal × Unit) → Go (Option Unit)
  | [] => .ok (some ())
  | dp :: dps =>
    if dp.2.1.2.1.bytes = [] then dpsOk env dps
    else match unmFirst env .rawValue dp.2.1.2.1.bytes with
      | .error p => .error p
      | .ok none => .ok none
      | .ok (some _) => dpsOk env dps

/-- x509.go:1170-1387, one extension: `none` is an error, otherwise the final value of `unhandled`. -/
def extensionStep (env : AsnEnv) (id : List Nat) (critical : Bool) (value : Bytes) : Go (Option Bool) :=
  if id = [2,5,29,15] then handledIf (unmAll env .bits value)
  else if id = [2,5,29,19] then handledIf (unmAll env basicConstraintsTy value)
  else if id = [2,5,29,17] then
    match parseSAN env value with
    | .error p => .error p
    | .ok none => .ok none
    | .ok (some n) => .ok (some (decide (n = 0)))
  else if id = [2,5,29,30] then
    match unmAll env nameConstraintsTy value with
    | .error p => .error p
    | .ok none => .ok none
    | .ok (some (_, permitted, excluded, ())) =>
      if subtreesOk critical permitted && subtreesOk critical excluded then .ok (some false) else .ok none
  else if id = [2,5,29,31] then
    match unmAll env (.slice false dpTy) value with
    | .error p => .error p
    | .ok none => .ok none
    | .ok (some dps) => handledIf (dpsOk env dps)
  else if id = [2,5,29,35] then handledIf (unmAll env authKeyIdTy value)
  else if id = [2,5,29,37] then handledIf (unmAll env (.slice false .oid) value)
  else if id = [2,5,29,14] then handledIf (unmAll env .octets value)
  else if id = [2,5,29,32] then handledIf (unmAll env (.slice false policyTy) value)
  else if id = [1,3,6,1,5,5,7,1,1] then handledIf (unmAll env (.slice false aiaTy) value)
  else .ok (some true)

/-- x509.go:1168-1390: the loop over the extensions; `some b`: whether there is an unhandled critical extension. -/
def extensionLoop (env : AsnEnv) : List (Bytes × List Nat × Bool × Bytes × Unit) → Bool → Go (Option Bool)
  | [], crit => .ok (some crit)
  | e :: es, crit =>
    match extensionStep env e.2.1 e.2.2.1 e.2.2.2.1 with
    | .error p => .error p
    | .ok none => .ok none
    | .ok (some unhandled) => extensionLoop env es (crit || (e.2.2.1 && unhandled))

/-- Injective rendering of an integer: its sign, the nibbles of its absolute value and an end mark. -/
def intId (i : Int) : Bytes := (if i < 0 then 1 else 0) :: (natBytes i.natAbs).flatMap (fun b => [b / 16, b % 16]) ++ [255]

/-- Injective rendering of a list of integers (`C65_keys_told_apart`). -/
def intsId (l : List Int) : Bytes := (l.map intId).flatten

/-- The `PubKey` of the verifier model for a parsed key. -/
def Key.pub : Key → PubKey
  | .rsa n e => ⟨.rsa, bitLen n.toNat, intsId [n, e]⟩
  | .dsa p q g y => ⟨.dsa, bitLen q.toNat, intsId [p, q, g, y]⟩
  | .ecdsa curve x y => ⟨.ecdsa, 0, intsId (x :: y :: curve.map Int.ofNat)⟩
  | .none => ⟨.other, 0, []⟩

/-- Named view of the parsed parts of a certificate that are used. -/
structure CertV where
  raw : Bytes
  serial : Option Int
  sigAlg : AlgId
  issuer : Bytes
  notBefore : Int
  notAfter : Int
  subject : Bytes
  spki : Bytes
  keyAlg : AlgId
  keyBits : BitStr
  extensions : List (Bytes × List Nat × Bool × Bytes × Unit)

/-- x509.go:1119-1132 and the uses of `in.TBSCertificate` below. -/
def CertV.of (c : certificateTy.interp) : CertV :=
  match c with
  | (raw, (_, _, serial, sigAlg, issuer, (_, nb, na, ()), subject, (spki, keyAlg, keyBits, ()), _, _, exts, ()), _, _, ()) =>
    ⟨raw, serial, AlgId.of sigAlg, RawVal.full issuer, nb, na, RawVal.full subject, spki, AlgId.of keyAlg, keyBits, exts⟩

/-- x509.go:1140-1145: the subject public key info is encoded again if the modulus was repaired. -/
def spkiOf (spki : Bytes) (re : Bool) : Key → Bytes
  | .rsa n e => if re then marshalRsaKey n e else spki
  | _ => spki

/-- x509.go:1119-1393 `parseCertificate`. -/
def parseCertStruct (env : CertEnv) (c : CertV) : Go (Option (Cert × Key)) :=
  match sigAlgOf env.toAsnEnv c.sigAlg with
  | .error p => .error p
  | .ok sa =>
    match parseKey env (pkAlgo c.keyAlg.oid) c.keyAlg c.keyBits with
    | .error p => .error p
    | .ok Option.none => .ok Option.none
    | .ok (some (key, re)) =>
      match unmAll env.toAsnEnv rdnsTy c.subject with
      | .error p => .error p
      | .ok Option.none => .ok Option.none
      | .ok (some subj) =>
        match unmAll env.toAsnEnv rdnsTy c.issuer with
        | .error p => .error p
        | .ok Option.none => .ok Option.none
        | .ok (some iss) =>
          match extensionLoop env.toAsnEnv c.extensions false with
          | .error p => .error p
          | .ok Option.none => .ok Option.none
          | .ok (some crit) =>
            .ok (some ({ raw := c.raw, spki := spkiOf c.spki re key, key := key.pub, issuer := fillName (rdnsOf iss),
                         subject := fillName (rdnsOf subj), serial := c.serial.getD 0, critExt := crit, sigAlg := sa,
                         notBefore := c.notBefore, notAfter := c.notAfter }, key))

/-- x509.go:1396-1407 `ParseCertificate` and :1443-1450 `ParseCertificateForGo`. -/
def parseCert509 (env : CertEnv) (b : Bytes) : Go (Option (Cert × Key)) :=
  match unmAll env.toAsnEnv certificateTy b with
  | .error p => .error p
  | .ok none => .ok none
  | .ok (some c) => parseCertStruct env (CertV.of c)

/-- x509.go:1467-1478: splitting concatenated certificates. -/
def splitCerts (env : CertEnv) : Nat → Bytes → Go (Option (List CertV))
  | 0, _ => .ok (some [])
  | fuel + 1, b =>
    if b = [] then .ok (some [])
    else match unmFirst env.toAsnEnv certificateTy b with
      | .error p => .error p
      | .ok none => .ok none
      | .ok (some (c, rest)) =>
        match splitCerts env fuel rest with
        | .error p => .error p
        | .ok none => .ok none
        | .ok (some cs) => .ok (some (CertV.of c :: cs))

/-- x509.go:1480-1489: parsing them. -/
def parseCertStructs (env : CertEnv) : List CertV → Go (Option (List Cert))
  | [] => .ok (some [])
  | c :: cs =>
    match parseCertStruct env c with
    | .error p => .error p
    | .ok none => .ok none
    | .ok (some (cert, _)) =>
      match parseCertStructs env cs with
      | .error p => .error p
      | .ok none => .ok none
      | .ok (some certs) => .ok (some (cert :: certs))

/-- x509.go:1452-1490 `ParseCertificatesForGo`. -/
def parseCerts509 (env : CertEnv) (b : Bytes) : Go (Option (List Cert)) :=
  match splitCerts env b.length b with
  | .error p => .error p
  | .ok none => .ok none
  | .ok (some cs) => parseCertStructs env cs

end Apk
