import Verif.Spec.Pkcs7
import Verif.Spec.Name
import Verif.Model.X509
/-!
# X.509 certificates and public keys (RFC 5280, RFC 3279, RFC 8017)

The ASN.1 types are written down as schemas for the grammar `Reads`; what the parsed values mean is stated with relations. Of
the model only the types of results (`Cert`, `Key`, `PubKey`) and of the environment are used.
-/
namespace Apk
namespace Schema

/-- The fields of a SEQUENCE: tag strings and types. -/
def fields : List (Bytes × Ty) → Fields
  | [] => .nil
  | (tag, t) :: fs => .cons tag t (fields fs)

/-- SEQUENCE. -/
def sequence (fs : List (Bytes × Ty)) : Ty := .struct false (fields fs)
/-- SEQUENCE whose encoding is kept. -/
def sequenceRaw (fs : List (Bytes × Ty)) : Ty := .struct true (fields fs)

/-- AlgorithmIdentifier ::= SEQUENCE { algorithm OBJECT IDENTIFIER, parameters ANY OPTIONAL } -/
def algorithmIdentifier : Ty := sequence [([], .oid), (b!"optional", .rawValue)]
/-- Name ::= SEQUENCE OF SET OF SEQUENCE { type OBJECT IDENTIFIER, value ANY } -/
def name : Ty := .slice false (.slice true (sequence [([], .oid), ([], .any)]))
/-- Extension ::= SEQUENCE { extnID OBJECT IDENTIFIER, critical BOOLEAN DEFAULT FALSE, extnValue OCTET STRING } -/
def extension : Ty := sequence [([], .oid), (b!"optional", .bool), ([], .octets)]
/-- Validity ::= SEQUENCE { notBefore Time, notAfter Time } -/
def validity : Ty := sequence [([], .time), ([], .time)]
/-- SubjectPublicKeyInfo ::= SEQUENCE { algorithm AlgorithmIdentifier, subjectPublicKey BIT STRING } -/
def publicKeyInfo : Ty := sequenceRaw [([], algorithmIdentifier), ([], .bits)]
/-- TBSCertificate: version [0] EXPLICIT DEFAULT v1, serialNumber, signature, issuer, validity, subject, subjectPublicKeyInfo,
    issuerUniqueID [1] IMPLICIT OPTIONAL, subjectUniqueID [2] IMPLICIT OPTIONAL, extensions [3] EXPLICIT OPTIONAL. -/
def tbsCertificate : Ty := sequenceRaw
  [(b!"optional,explicit,default:0,tag:0", .int), ([], .bigInt), ([], algorithmIdentifier), ([], .rawValue), ([], validity), ([], .rawValue),
   ([], publicKeyInfo), (b!"optional,tag:1", .bits), (b!"optional,tag:2", .bits), (b!"optional,explicit,tag:3", .slice false extension)]
/-- Certificate ::= SEQUENCE { tbsCertificate, signatureAlgorithm, signatureValue BIT STRING } -/
def certificate : Ty := sequenceRaw [([], tbsCertificate), ([], algorithmIdentifier), ([], .bits)]
/-- RSAPublicKey ::= SEQUENCE { modulus INTEGER, publicExponent INTEGER }; the exponent has to fit into 64 bits. -/
def rsaPublicKey : Ty := sequence [([], .bigInt), ([], .int)]
/-- Dss-Parms ::= SEQUENCE { p INTEGER, q INTEGER, g INTEGER } -/
def dsaParameters : Ty := sequence [([], .bigInt), ([], .bigInt), ([], .bigInt)]
/-- RSASSA-PSS-params: hashAlgorithm [0], maskGenAlgorithm [1], saltLength [2], trailerField [3] DEFAULT 1, all EXPLICIT; the
    first three are required here. -/
def pssParameters : Ty := sequence
  [(b!"explicit,tag:0", algorithmIdentifier), (b!"explicit,tag:1", algorithmIdentifier), (b!"explicit,tag:2", .int),
   (b!"optional,explicit,tag:3,default:1", .int)]
/-- AuthorityKeyIdentifier: keyIdentifier [0] OPTIONAL, the rest is not looked at. -/
def authorityKeyIdentifier : Ty := sequence [(b!"optional,tag:0", .octets)]
/-- BasicConstraints ::= SEQUENCE { cA BOOLEAN DEFAULT FALSE, pathLenConstraint INTEGER OPTIONAL } -/
def basicConstraints : Ty := sequence [(b!"optional", .bool), (b!"optional,default:-1", .int)]
/-- PolicyInformation: only policyIdentifier. -/
def policyInformation : Ty := sequence [([], .oid)]
/-- GeneralSubtree: only a dNSName [2] base. -/
def generalSubtree : Ty := sequence [(b!"tag:2,optional,ia5", .str)]
/-- NameConstraints: permittedSubtrees [0], excludedSubtrees [1]. -/
def nameConstraints : Ty := sequence [(b!"optional,tag:0", .slice false generalSubtree), (b!"optional,tag:1", .slice false generalSubtree)]
/-- AccessDescription ::= SEQUENCE { accessMethod OBJECT IDENTIFIER, accessLocation GeneralName } -/
def accessDescription : Ty := sequence [([], .oid), ([], .rawValue)]
/-- DistributionPointName: fullName [0], nameRelativeToCRLIssuer [1]. -/
def distributionPointName : Ty := sequence [(b!"optional,tag:0", .rawValue), (b!"optional,tag:1", name)]
/-- DistributionPoint: distributionPoint [0], reasons [1], cRLIssuer [2]. -/
def distributionPoint : Ty := sequence [(b!"optional,tag:0", distributionPointName), (b!"optional,tag:1", .bits), (b!"optional,tag:2", .rawValue)]

end Schema

/-- The octets of a BIT STRING moved right so that the unused bits are in front: as many octets, the number without its low
    unused bits. -/
def Aligned (bits : BitStr) (data : Bytes) : Prop :=
  data.length = bits.bytes.length ∧ beNat data = beNat bits.bytes / 2 ^ (8 * ((bits.bitLength + 7) / 8) - bits.bitLength)

/-- The octets of a number without leading zeros. -/
def Shortest (ds : Bytes) (n : Nat) : Prop := beNat ds = n ∧ ∀ x r, ds = x :: r → x ≠ 0

/-- rsaEncryption, id-dsa, id-ecPublicKey. -/
def keyAlgorithms : List (List Nat) := [[1,2,840,113549,1,1,1], [1,2,840,10040,4,1], [1,2,840,10045,2,1]]

/-- The curves P-224, P-256, P-384 and P-521. -/
def supportedCurves : List (List Nat) := [[1,3,132,0,33], [1,2,840,10045,3,1,7], [1,3,132,0,34], [1,3,132,0,35]]

/-- `KeyIs env oid params bits k repaired`: the public key with the algorithm `oid`, its parameters and the BIT STRING `bits` is `k`.
    An RSA modulus that is not positive is repaired. -/
inductive KeyIs (env : CertEnv) : List Nat → RawVal → BitStr → Key → Bool → Prop
  | rsa {params : RawVal} {bits : BitStr} {data : Bytes} {n e : Int} : Aligned bits data →
      Reads env.toAsnEnv Schema.rsaPublicKey {} (([] : Bytes), (some n : Option Int), e, ()) data [] → 0 < n → 0 < e →
      KeyIs env [1,2,840,113549,1,1,1] params bits (.rsa n e) false
  | rsaRepaired {params : RawVal} {bits : BitStr} {data ds : Bytes} {n e : Int} : Aligned bits data →
      Reads env.toAsnEnv Schema.rsaPublicKey {} (([] : Bytes), (some n : Option Int), e, ()) data [] → n ≤ 0 → 0 < e →
      Shortest ds (-n - 1).natAbs → KeyIs env [1,2,840,113549,1,1,1] params bits (.rsa (beNat (ds.map (fun y => 255 - y))) e) true
  | dsa {params : RawVal} {bits : BitStr} {data : Bytes} {p q g y : Int} : Aligned bits data →
      Reads env.toAsnEnv .bigInt {} (some y : Option Int) data [] →
      Reads env.toAsnEnv Schema.dsaParameters {} (([] : Bytes), (some p : Option Int), (some q : Option Int), (some g : Option Int), ()) params.full [] →
      0 < p → 0 < q → 0 < g → 0 < y → KeyIs env [1,2,840,10040,4,1] params bits (.dsa p q g y) false
  | ecdsa {params : RawVal} {bits : BitStr} {data : Bytes} {curve : List Nat} {x y : Int} : Aligned bits data →
      OidElem curve params.full → curve ∈ supportedCurves → env.point curve data = some (x, y) →
      KeyIs env [1,2,840,10045,2,1] params bits (.ecdsa curve x y) false
  | unknown {oid : List Nat} {params : RawVal} {bits : BitStr} : oid ∉ keyAlgorithms → KeyIs env oid params bits .none false

/-- A SubjectPublicKeyInfo of a key of a known algorithm. -/
def PublicKeyIs (env : CertEnv) (b : Bytes) (k : Key) : Prop :=
  ∃ (a0 : Bytes) (oid : List Nat) (params : RawVal) (bits : BitStr) (repaired : Bool),
    Reads env.toAsnEnv Schema.publicKeyInfo {} (b, (a0, oid, params, ()), bits, ()) b [] ∧ KeyIs env oid params bits k repaired ∧ k ≠ .none

/-- An INTEGER in DER. -/
def DerIntElem (i : Int) (b : Bytes) : Prop := ∃ c, MinimalInt c ∧ twos c = i ∧ DerElem 0 2 false c b

/-- The SubjectPublicKeyInfo of an RSA key in DER. -/
def RsaKeyInfo (n e : Int) (b : Bytes) : Prop :=
  ∃ o alg ni ei key bits, DerOid [1,2,840,113549,1,1,1] o ∧ DerElem 0 16 true (o ++ [5, 0]) alg ∧ DerIntElem n ni ∧ DerIntElem e ei ∧
    DerElem 0 16 true (ni ++ ei) key ∧ DerElem 0 3 false (0 :: key) bits ∧ DerElem 0 16 true (alg ++ bits) b

/-- What counts of a value of a name: strings only. -/
def stringOf : Option AnyVal → Option Bytes
  | some (.str s) => some s
  | _ => none

/-- A distinguished name, its known attributes picked out. -/
def NameIs (env : AsnEnv) (b : Bytes) (n : PName) : Prop :=
  ∃ rdns : List (List (Bytes × List Nat × Option AnyVal × Unit)), Reads env Schema.name {} rdns b [] ∧
    let r : RawRdns := rdns.map (fun rdn => rdn.map (fun a => (a.2.1, stringOf a.2.2.1)))
    n = { country := valuesOf [2,5,4,6] r, org := valuesOf [2,5,4,10] r, orgUnit := valuesOf [2,5,4,11] r, locality := valuesOf [2,5,4,7] r,
          province := valuesOf [2,5,4,8] r, street := valuesOf [2,5,4,9] r, postal := valuesOf [2,5,4,17] r,
          serialNo := lastValue [2,5,4,5] r, commonName := lastValue [2,5,4,3] r }

/-- Signature algorithms other than RSA PSS and the number the package gives them: MD2-RSA, MD5-RSA, SHA1-RSA (two identifiers),
    SHA256-RSA, SHA384-RSA, SHA512-RSA, DSA-SHA1, DSA-SHA256, ECDSA-SHA1, ECDSA-SHA256, ECDSA-SHA384, ECDSA-SHA512. -/
def signatureAlgorithms : List (List Nat × Nat) :=
  [([1,2,840,113549,1,1,2], 1), ([1,2,840,113549,1,1,4], 2), ([1,2,840,113549,1,1,5], 3), ([1,3,14,3,2,29], 3),
   ([1,2,840,113549,1,1,11], 4), ([1,2,840,113549,1,1,12], 5), ([1,2,840,113549,1,1,13], 6),
   ([1,2,840,10040,4,3], 7), ([2,16,840,1,101,3,4,3,2], 8), ([1,2,840,10045,4,1], 9), ([1,2,840,10045,4,3,2], 10),
   ([1,2,840,10045,4,3,3], 11), ([1,2,840,10045,4,3,4], 12)]

/-- Hash algorithms of RSA PSS, the required salt length and the number of the combination: SHA-256, SHA-384, SHA-512. -/
def pssHashes : List (List Nat × Int × Nat) :=
  [([2,16,840,1,101,3,4,2,1], 32, 13), ([2,16,840,1,101,3,4,2,2], 48, 14), ([2,16,840,1,101,3,4,2,3], 64, 15)]

/-- RSA PSS parameters: the hash with NULL parameters, MGF1 with the same hash and NULL parameters, the trailer field 1. Bytes after
    the parameters are ignored. -/
def PssIs (env : AsnEnv) (params : Bytes) (hash : List Nat) (salt : Int) : Prop :=
  ∃ (p0 h0 m0 i0 rest rest' : Bytes) (hp mp ip : RawVal), hp.full = [5, 0] ∧ ip.full = [5, 0] ∧
    Reads env Schema.pssParameters {} (p0, (h0, hash, hp, ()), (m0, [1,2,840,113549,1,1,8], mp, ()), salt, (1 : Int), ()) params rest ∧
    Reads env Schema.algorithmIdentifier {} (i0, hash, ip, ()) mp.full rest'

/-- The number of a signature algorithm; 0 if it is not known or its parameters are not supported. -/
inductive SigAlgIs (env : AsnEnv) (oid : List Nat) (params : Bytes) : Nat → Prop
  | known {n : Nat} : (oid, n) ∈ signatureAlgorithms → SigAlgIs env oid params n
  | unknown : oid ≠ [1,2,840,113549,1,1,10] → (∀ n, (oid, n) ∉ signatureAlgorithms) → SigAlgIs env oid params 0
  | pss {hash : List Nat} {salt : Int} {n : Nat} : oid = [1,2,840,113549,1,1,10] → PssIs env params hash salt → (hash, salt, n) ∈ pssHashes →
      SigAlgIs env oid params n
  | badPss : oid = [1,2,840,113549,1,1,10] → (∀ hash salt n, (hash, salt, n) ∈ pssHashes → ¬ PssIs env params hash salt) → SigAlgIs env oid params 0

/-- GeneralNames: `n` of them are of the kinds that are stored (mail addresses, DNS names, IP addresses). -/
inductive AltNames : Nat → Bytes → Prop
  | nil : AltNames 0 []
  | text {n cls tag : Nat} {con : Bool} {c e r : Bytes} : tag = 1 ∨ tag = 2 → Elem cls tag con c e → AltNames n r → AltNames (n + 1) (e ++ r)
  | ip {n cls : Nat} {con : Bool} {c e r : Bytes} : c.length = 4 ∨ c.length = 16 → Elem cls 7 con c e → AltNames n r → AltNames (n + 1) (e ++ r)
  | other {n cls tag : Nat} {con : Bool} {c e r : Bytes} : tag ≠ 1 → tag ≠ 2 → tag ≠ 7 → Elem cls tag con c e → AltNames n r → AltNames n (e ++ r)

/-- Extensions that only have to be readable: key usage, basic constraints, authority key id, extended key usage, subject key id,
    certificate policies, authority information access. -/
def readableExtensions : List (List Nat × Ty) :=
  [([2,5,29,15], .bits), ([2,5,29,19], Schema.basicConstraints), ([2,5,29,35], Schema.authorityKeyIdentifier), ([2,5,29,37], .slice false .oid),
   ([2,5,29,14], .octets), ([2,5,29,32], .slice false Schema.policyInformation), ([1,3,6,1,5,5,7,1,1], .slice false Schema.accessDescription)]

/-- Extensions with rules of their own: subject alternative names, name constraints, CRL distribution points. -/
def specialExtensions : List (List Nat) := [[2,5,29,17], [2,5,29,30], [2,5,29,31]]

/-- `ExtensionIs env id critical value unhandled`: the extension can be read; `unhandled`: nothing was made of it. -/
inductive ExtensionIs (env : AsnEnv) : List Nat → Bool → Bytes → Bool → Prop
  | readable {id : List Nat} {t : Ty} {v : t.interp} {critical : Bool} {value : Bytes} : (id, t) ∈ readableExtensions → Reads env t {} v value [] →
      ExtensionIs env id critical value false
  | altNames {critical : Bool} {value content : Bytes} {n : Nat} : Elem 0 16 true content value → AltNames n content →
      ExtensionIs env [2,5,29,17] critical value (n == 0)
  | nameConstraints {critical : Bool} {value : Bytes} {c0 : Bytes} {permitted excluded : List (Bytes × Bytes × Unit)} :
      Reads env Schema.nameConstraints {} (c0, permitted, excluded, ()) value [] →
      (critical = true → ∀ s ∈ permitted ++ excluded, s.2.1 ≠ []) → ExtensionIs env [2,5,29,30] critical value false
  | distributionPoints {critical : Bool} {value : Bytes}
      {points : List (Bytes × (Bytes × RawVal × List (List (Bytes × List Nat × Option AnyVal × Unit)) × Unit) × BitStr × RawVal × Unit)} :
      Reads env (.slice false Schema.distributionPoint) {} points value [] →
      (∀ p ∈ points, p.2.1.2.1.bytes ≠ [] → ∃ e rest, AnyElem e ∧ p.2.1.2.1.bytes = e ++ rest) → ExtensionIs env [2,5,29,31] critical value false
  | other {id : List Nat} {critical : Bool} {value : Bytes} : (∀ t, (id, t) ∉ readableExtensions) → id ∉ specialExtensions →
      ExtensionIs env id critical value true

/-- All extensions are readable; `crit`: a critical one was not handled. -/
def ExtensionsAre (env : AsnEnv) (exts : List (Bytes × List Nat × Bool × Bytes × Unit)) (crit : Bool) : Prop :=
  (∀ e ∈ exts, ∃ u, ExtensionIs env e.2.1 e.2.2.1 e.2.2.2.1 u) ∧
  (crit = true ↔ ∃ e ∈ exts, e.2.2.1 = true ∧ ExtensionIs env e.2.1 e.2.2.1 e.2.2.2.1 true)

/-- `CertificateReads env b rest cert k`: `b` is a certificate followed by `rest`; `cert` is what is recorded of it and `k` its key. -/
def CertificateReads (env : CertEnv) (b rest : Bytes) (cert : Cert) (k : Key) : Prop :=
  ∃ (tbs v0 spki s0 a0 o0 : Bytes) (version notBefore notAfter serial : Int) (sigOid keyOid outerOid : List Nat)
    (sigParams keyParams outerParams issuer subject : RawVal) (keyBits issuerId subjectId signature : BitStr)
    (exts : List (Bytes × List Nat × Bool × Bytes × Unit)) (repaired : Bool),
    Reads env.toAsnEnv Schema.certificate {}
      (cert.raw, (tbs, version, (some serial : Option Int), (s0, sigOid, sigParams, ()), issuer, (v0, notBefore, notAfter, ()), subject,
        (spki, (a0, keyOid, keyParams, ()), keyBits, ()), issuerId, subjectId, exts, ()), (o0, outerOid, outerParams, ()), signature, ()) b rest ∧
    cert.serial = serial ∧ cert.notBefore = notBefore ∧ cert.notAfter = notAfter ∧
    SigAlgIs env.toAsnEnv sigOid sigParams.full cert.sigAlg ∧
    KeyIs env keyOid keyParams keyBits k repaired ∧ cert.key = k.pub ∧
    (repaired = false → cert.spki = spki) ∧ (repaired = true → ∃ n e, k = .rsa n e ∧ RsaKeyInfo n e cert.spki) ∧
    NameIs env.toAsnEnv subject.full cert.subject ∧ NameIs env.toAsnEnv issuer.full cert.issuer ∧
    ExtensionsAre env.toAsnEnv exts cert.critExt

/-- A certificate with nothing after it. -/
def CertificateIs (env : CertEnv) (b : Bytes) (cert : Cert) (k : Key) : Prop := CertificateReads env b [] cert k

/-- Certificates one after the other. -/
inductive CertificatesAre (env : CertEnv) : List Cert → Bytes → Prop
  | nil : CertificatesAre env [] []
  | cons {cert : Cert} {certs : List Cert} {k : Key} {b rest : Bytes} : CertificateReads env b rest cert k → CertificatesAre env certs rest →
      CertificatesAre env (cert :: certs) b

end Apk
