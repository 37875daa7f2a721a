import Verif.Spec.X509
import Verif.Spec.Marshal
import Verif.Model.CertFull
/-!
# What the fields of a certificate say (RFC 5280)

Of the model only the type of the result is used.
-/
namespace Apk

/-- The extensions of one kind, in order: whether critical, and the value. -/
def extsOf (id : List Nat) (exts : List (Bytes × List Nat × Bool × Bytes × Unit)) : List (Bool × Bytes) :=
  (exts.filter (fun e => e.2.1 = id)).map (fun e => (e.2.2.1, e.2.2.2.1))

/-- A field that is taken from the last extension of a kind; without one it is `dflt`. -/
def FromLast {α : Type} (exts : List (Bytes × List Nat × Bool × Bytes × Unit)) (id : List Nat) (dflt : α) (P : Bool → Bytes → α → Prop) (x : α) : Prop :=
  (extsOf id exts = [] ∧ x = dflt) ∨ ∃ before c v, extsOf id exts = before ++ [(c, v)] ∧ P c v x

/-- A field that is collected from all extensions of a kind. -/
def FromAll {α : Type} (exts : List (Bytes × List Nat × Bool × Bytes × Unit)) (id : List Nat) (P : Bytes → List α → Prop) (xs : List α) : Prop :=
  ∃ parts : List (List α), ListRel (fun e p => P e.2 p) (extsOf id exts) parts ∧ xs = parts.flatten

/-- Bit `i` of a BIT STRING, counted from the front. -/
def BitSet (b : BitStr) (i : Nat) : Prop := i < b.bitLength ∧ ∃ x, b.bytes[i / 8]? = some x ∧ x.toNat.testBit (7 - i % 8) = true

/-- KeyUsage (4.2.1.3): digitalSignature is bit 0 of the number, ..., decipherOnly bit 8. -/
def UsageIs (env : AsnEnv) (value : Bytes) (u : Nat) : Prop :=
  ∃ bits : BitStr, Reads env .bits {} bits value [] ∧ u < 512 ∧ ∀ i, i < 9 → (u.testBit i = true ↔ BitSet bits i)

/-- BasicConstraints (4.2.1.9): valid, cA, the path length (-1 if there is none), whether it is zero. -/
def BasicIs (env : AsnEnv) (value : Bytes) (x : Bool × Bool × Int × Bool) : Prop :=
  ∃ (c0 : Bytes) (ca : Bool) (len : Int), Reads env Schema.basicConstraints {} (c0, ca, len, ()) value [] ∧ x = (true, ca, len, len == 0)

/-- GeneralNames (4.2.1.6): the DNS names (2), mail addresses (1) and IP addresses (7), in order. Only the number of the tag counts. -/
inductive AltNamesAre : List Bytes → List Bytes → List Bytes → Bytes → Prop
  | nil : AltNamesAre [] [] [] []
  | mail {cls : Nat} {con : Bool} {c e r : Bytes} {dns mail ip : List Bytes} : Elem cls 1 con c e → AltNamesAre dns mail ip r →
      AltNamesAre dns (c :: mail) ip (e ++ r)
  | dns {cls : Nat} {con : Bool} {c e r : Bytes} {dns mail ip : List Bytes} : Elem cls 2 con c e → AltNamesAre dns mail ip r →
      AltNamesAre (c :: dns) mail ip (e ++ r)
  | ip {cls : Nat} {con : Bool} {c e r : Bytes} {dns mail ip : List Bytes} : Elem cls 7 con c e → c.length = 4 ∨ c.length = 16 → AltNamesAre dns mail ip r →
      AltNamesAre dns mail (c :: ip) (e ++ r)
  | other {cls tag : Nat} {con : Bool} {c e r : Bytes} {dns mail ip : List Bytes} : tag ≠ 1 → tag ≠ 2 → tag ≠ 7 → Elem cls tag con c e →
      AltNamesAre dns mail ip r → AltNamesAre dns mail ip (e ++ r)

/-- SubjectAltName. -/
def SanIs (value : Bytes) (x : List Bytes × List Bytes × List Bytes) : Prop :=
  ∃ content, Elem 0 16 true content value ∧ AltNamesAre x.1 x.2.1 x.2.2 content

/-- The names of subtrees; those without a DNS name are left out. -/
def subtreeDns (l : List (Bytes × Bytes × Unit)) : List Bytes := (l.map (fun s => s.2.1)).filter (fun n => n ≠ [])

/-- NameConstraints (4.2.1.10): critical, permitted and excluded DNS names. -/
def ConstraintsAre (env : AsnEnv) (critical : Bool) (value : Bytes) (x : Bool × List Bytes × List Bytes) : Prop :=
  ∃ (c0 : Bytes) (permitted excluded : List (Bytes × Bytes × Unit)),
    Reads env Schema.nameConstraints {} (c0, permitted, excluded, ()) value [] ∧ x = (critical, subtreeDns permitted, subtreeDns excluded)

/-- The URL of a distribution point: its full name starts with an element with the tag number 6. -/
def PointUrl (full : RawVal) (urls : List Bytes) : Prop :=
  (full.bytes = [] ∧ urls = []) ∨
  ∃ cls tag con c e rest, full.bytes = e ++ rest ∧ Elem cls tag con c e ∧ urls = if tag = 6 then [c] else []

/-- CRLDistributionPoints (4.2.1.13). -/
def PointsAre (env : AsnEnv) (value : Bytes) (urls : List Bytes) : Prop :=
  ∃ (points : List (Bytes × (Bytes × RawVal × List (List (Bytes × List Nat × Option AnyVal × Unit)) × Unit) × BitStr × RawVal × Unit)) (parts : List (List Bytes)),
    Reads env (.slice false Schema.distributionPoint) {} points value [] ∧ ListRel (fun p u => PointUrl p.2.1.2.1 u) points parts ∧ urls = parts.flatten

/-- AuthorityKeyIdentifier (4.2.1.1). -/
def AuthorityKeyIs (env : AsnEnv) (value : Bytes) (k : Bytes) : Prop :=
  ∃ a0 : Bytes, Reads env Schema.authorityKeyIdentifier {} (a0, k, ()) value []

/-- KeyPurposeIds (4.2.1.12): any, serverAuth, clientAuth, codeSigning, emailProtection, ipsecEndSystem, ipsecTunnel, ipsecUser, timeStamping,
    OCSPSigning, Microsoft and Netscape server gated crypto. The place in the list is the number. -/
def keyPurposes : List (List Nat) :=
  [[2,5,29,37,0], [1,3,6,1,5,5,7,3,1], [1,3,6,1,5,5,7,3,2], [1,3,6,1,5,5,7,3,3], [1,3,6,1,5,5,7,3,4], [1,3,6,1,5,5,7,3,5], [1,3,6,1,5,5,7,3,6],
   [1,3,6,1,5,5,7,3,7], [1,3,6,1,5,5,7,3,8], [1,3,6,1,5,5,7,3,9], [1,3,6,1,4,1,311,10,3,3], [2,16,840,1,113730,4,1]]

/-- ExtKeyUsage: the numbers of the known purposes. -/
def PurposesAre (env : AsnEnv) (value : Bytes) (ns : List Nat) : Prop :=
  ∃ oids : List (List Nat), Reads env (.slice false .oid) {} oids value [] ∧ ns = oids.filterMap (fun o => keyPurposes.idxOf? o)

/-- ExtKeyUsage: the purposes that are not known. -/
def OtherPurposesAre (env : AsnEnv) (value : Bytes) (os : List (List Nat)) : Prop :=
  ∃ oids : List (List Nat), Reads env (.slice false .oid) {} oids value [] ∧ os = oids.filter (fun o => o ∉ keyPurposes)

/-- SubjectKeyIdentifier (4.2.1.2). -/
def SubjectKeyIs (env : AsnEnv) (value : Bytes) (k : Bytes) : Prop := Reads env .octets {} k value []

/-- CertificatePolicies (4.2.1.4). -/
def PoliciesAre (env : AsnEnv) (value : Bytes) (ps : List (List Nat)) : Prop :=
  ∃ l : List (Bytes × List Nat × Unit), Reads env (.slice false Schema.policyInformation) {} l value [] ∧ ps = l.map (fun p => p.2.1)

/-- AuthorityInfoAccess (4.2.2.1): the URLs for an access method. -/
def AccessIs (env : AsnEnv) (method : List Nat) (value : Bytes) (urls : List Bytes) : Prop :=
  ∃ l : List (Bytes × List Nat × RawVal × Unit), Reads env (.slice false Schema.accessDescription) {} l value [] ∧
    urls = (l.filter (fun a => a.2.1 = method ∧ a.2.2.1.tag = 6)).map (fun a => a.2.2.1.bytes)

/-- The identifiers of the critical extensions nothing was made of. -/
def UnhandledAre (env : AsnEnv) (exts : List (Bytes × List Nat × Bool × Bytes × Unit)) (ids : List (List Nat)) : Prop :=
  ∃ parts : List (List (List Nat)),
    ListRel (fun e p => ∃ u, ExtensionIs env e.2.1 e.2.2.1 e.2.2.2.1 u ∧ p = if e.2.2.1 = true ∧ u = true then [e.2.1] else []) exts parts ∧ ids = parts.flatten

/-- The fields that come from extensions. -/
structure ExtFieldsAre (env : AsnEnv) (exts : List (Bytes × List Nat × Bool × Bytes × Unit)) (f : ExtFields) : Prop where
  keyUsage : FromLast exts [2,5,29,15] 0 (fun _ v x => UsageIs env v x) f.keyUsage
  basic : FromLast exts [2,5,29,19] (false, false, 0, false) (fun _ v x => BasicIs env v x) (f.basicConstraintsValid, f.isCA, f.maxPathLen, f.maxPathLenZero)
  altNames : FromLast exts [2,5,29,17] ([], [], []) (fun _ v x => SanIs v x) (f.dnsNames, f.emails, f.ips)
  constraints : FromLast exts [2,5,29,30] (false, [], []) (ConstraintsAre env) (f.permittedCritical, f.permitted, f.excluded)
  crlPoints : FromAll exts [2,5,29,31] (PointsAre env) f.crlPoints
  authorityKeyId : FromLast exts [2,5,29,35] [] (fun _ v x => AuthorityKeyIs env v x) f.authorityKeyId
  extKeyUsage : FromAll exts [2,5,29,37] (PurposesAre env) f.extKeyUsage
  unknownExtKeyUsage : FromAll exts [2,5,29,37] (OtherPurposesAre env) f.unknownExtKeyUsage
  subjectKeyId : FromLast exts [2,5,29,14] [] (fun _ v x => SubjectKeyIs env v x) f.subjectKeyId
  policies : FromLast exts [2,5,29,32] [] (fun _ v x => PoliciesAre env v x) f.policies
  ocspServer : FromAll exts [1,3,6,1,5,5,7,1,1] (AccessIs env [1,3,6,1,5,5,7,48,1]) f.ocspServer
  issuingUrl : FromAll exts [1,3,6,1,5,5,7,1,1] (AccessIs env [1,3,6,1,5,5,7,48,2]) f.issuingUrl
  unhandled : UnhandledAre env exts f.unhandled

/-- The number of the public key algorithm. -/
inductive KeyAlgorithmIs : List Nat → PKAlgo → Prop
  | rsa : KeyAlgorithmIs [1,2,840,113549,1,1,1] .rsa
  | dsa : KeyAlgorithmIs [1,2,840,10040,4,1] .dsa
  | ecdsa : KeyAlgorithmIs [1,2,840,10045,2,1] .ecdsa
  | unknown {oid : List Nat} : oid ∉ keyAlgorithms → KeyAlgorithmIs oid .unknown

/-- `x` is the certificate `b`. What `CertificateIs` says (serial number, validity, names, algorithms, key) and all other fields. -/
def FullCertificateIs (env : CertEnv) (b : Bytes) (x : CertFull) : Prop :=
  CertificateIs env b x.base x.key ∧
  ∃ (raw tbs v0 spki s0 a0 o0 : Bytes) (version notBefore notAfter : Int) (serial : Option Int) (sigOid keyOid outerOid : List Nat)
    (sigParams keyParams outerParams issuer subject : RawVal) (keyBits issuerId subjectId signature : BitStr)
    (exts : List (Bytes × List Nat × Bool × Bytes × Unit)),
    Reads env.toAsnEnv Schema.certificate {}
      (raw, (tbs, version, serial, (s0, sigOid, sigParams, ()), issuer, (v0, notBefore, notAfter, ()), subject,
        (spki, (a0, keyOid, keyParams, ()), keyBits, ()), issuerId, subjectId, exts, ()), (o0, outerOid, outerParams, ()), signature, ()) b [] ∧
    x.rawTbs = tbs ∧ x.rawSubject = subject.full ∧ x.rawIssuer = issuer.full ∧ Aligned signature x.signature ∧
    x.version = (if version = 2 ^ 63 - 1 then -(2 ^ 63) else version + 1) ∧ KeyAlgorithmIs keyOid x.keyAlgo ∧
    x.extensions = exts.map (fun e => (e.2.1, e.2.2.1, e.2.2.2.1)) ∧ ExtFieldsAre env.toAsnEnv exts x.ext

end Apk
