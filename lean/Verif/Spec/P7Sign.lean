import Verif.Spec.P7Message
/-!
# Making signed messages

First the encoding of a SignedData (RFC 2315) with everything in it, then what a message made by `NewSignedData`, `AddSigner`,
`AddCertificate` and `Finish` contains.
-/
namespace Apk

/-- An element with all its parts. -/
def RawElem (v : RawVal) : Prop := Elem v.cls v.tag v.isCompound v.bytes v.full

/-- AlgorithmIdentifier ::= SEQUENCE { algorithm OBJECT IDENTIFIER, parameters ANY OPTIONAL }. -/
def AlgEncV (a : AlgId) (b : Bytes) : Prop :=
  ∃ o, OidElem a.oid o ∧ ((a.params = {} ∧ Elem 0 16 true o b) ∨ (RawElem a.params ∧ Elem 0 16 true (o ++ a.params.full) b))

/-- Attribute ::= SEQUENCE { type OBJECT IDENTIFIER, values ANY }. -/
def AttrEncV (a : P7AttrV) (b : Bytes) : Prop := ∃ o, OidElem a.type o ∧ RawElem a.value ∧ Elem 0 16 true (o ++ a.value.full) b

/-- [tag] IMPLICIT SET OF Attribute OPTIONAL. -/
def AttrsEncV (tag : Nat) (as : List P7AttrV) (b : Bytes) : Prop :=
  (as = [] ∧ b = []) ∨ ∃ c, ListEnc AttrEncV as c ∧ Elem 2 tag true c b

/-- SignerInfo ::= SEQUENCE { version, issuerAndSerialNumber, digestAlgorithm, authenticatedAttributes [0] OPTIONAL,
    digestEncryptionAlgorithm, encryptedDigest OCTET STRING, unauthenticatedAttributes [1] OPTIONAL }. -/
def InfoEnc (s : P7Info) (b : Bytes) : Prop :=
  ∃ v serial ser ias d a e sig u, IsInt64 s.version ∧ IntElem s.version v ∧ RawElem s.issuer ∧ s.serial = some serial ∧ IntElem serial ser ∧
    Elem 0 16 true (s.issuer.full ++ ser) ias ∧ AlgEncV s.digestAlg d ∧ AttrsEncV 0 s.attrs a ∧ AlgEncV s.encAlg e ∧ Elem 0 4 false s.encDigest sig ∧
    AttrsEncV 1 s.unauth u ∧ Elem 0 16 true (v ++ (ias ++ (d ++ (a ++ (e ++ (sig ++ u)))))) b

/-- ContentInfo of the signed contents: SEQUENCE { contentType OBJECT IDENTIFIER, content [0] EXPLICIT OCTET STRING OPTIONAL }. -/
def ContentEnc (ct : List Nat) (contents : Option Bytes) (b : Bytes) : Prop :=
  ∃ o, OidElem ct o ∧ ((contents = none ∧ Elem 0 16 true o b) ∨
    ∃ x oct c, contents = some x ∧ Elem 0 4 false x oct ∧ Elem 2 0 true oct c ∧ Elem 0 16 true (o ++ c) b)

/-- The whole message: SEQUENCE { signedData, [0] EXPLICIT SignedData }, with SignedData ::= SEQUENCE { version, digestAlgorithms SET OF
    AlgorithmIdentifier, contentInfo, certificates [0], crls [1] (none), signerInfos SET OF SignerInfo }. -/
def MessageEnc (ct : List Nat) (contents : Option Bytes) (certs : List Bytes) (infos : List P7Info) (b : Bytes) : Prop :=
  ∃ n v algs algSet algsB ci cs crls sis sisB sd o w, IsInt64 n ∧ IntElem n v ∧ ListEnc AlgEncV algs algSet ∧ Elem 0 17 true algSet algsB ∧
    ContentEnc ct contents ci ∧ CertsEnc certs cs ∧ (crls = [] ∨ Elem 2 1 true [] crls) ∧ ListEnc InfoEnc infos sis ∧ Elem 0 17 true sis sisB ∧
    Elem 0 16 true (v ++ (algsB ++ (ci ++ (cs ++ (crls ++ sisB))))) sd ∧
    OidElem [1,2,840,113549,1,7,2] o ∧ Elem 2 0 true sd w ∧ Elem 0 16 true (o ++ w) b

/-! ## Signing -/

/-- What is done between `NewSignedData` and `Finish`. -/
inductive SignStep where
  | signer (cert : SignCert) (key : P7Key) (now : Int) (extra : List (List Nat × Dyn))
  | certificate (cert : SignCert)

/-- The certificate that is added to the message. -/
def SignStep.cert : SignStep → SignCert
  | .signer c _ _ _ => c
  | .certificate c => c

/-- The steps one after the other. -/
def signSteps (env : P7Env) (st : SignState) : List SignStep → Go (Except P7Err SignState)
  | [] => .ok (.ok st)
  | .certificate c :: rest => signSteps env (addCertificate st c) rest
  | .signer c key now extra :: rest =>
    match addSigner env st c key now extra with
    | .error p => .error p
    | .ok (.error e) => .ok (.error e)
    | .ok (.ok st) => signSteps env st rest

/-- An attribute in the message: a SET with the encoding of one value. -/
def AttrHolds (env : P7Env) (x : List Nat × Dyn) (a : P7AttrV) : Prop :=
  a.type = x.1 ∧ a.value.cls = 0 ∧ a.value.tag = 17 ∧ a.value.isCompound = true ∧ marshal env.mar x.2.type x.2.val = .ok a.value.bytes

/-- The attributes that are signed: content type, digest of the contents, time and the given ones. -/
def attributesFor (env : P7Env) (data : Bytes) (now : Int) (extra : List (List Nat × Dyn)) : List (List Nat × Dyn) :=
  ([1,2,840,113549,1,9,3], ⟨.oid, [1,2,840,113549,1,7,1]⟩) :: ([1,2,840,113549,1,9,4], ⟨.octets, env.hash .sha1 data⟩) ::
    ([1,2,840,113549,1,9,5], ⟨.time, now⟩) :: extra

/-- The signer info for one signer: SHA-1 with RSA, the given certificate, the attributes in the order of their DER encodings (as in a
    SET OF) and nothing else. -/
def SignedWith (env : P7Env) (data : Bytes) (cert : SignCert) (now : Int) (extra : List (List Nat × Dyn)) (s : P7Info) : Prop :=
  s.version = 1 ∧ s.issuer.full = cert.rawIssuer ∧ s.serial = some cert.serial ∧ s.digestAlg = ⟨[1,3,14,3,2,26], {}⟩ ∧
  s.encAlg = ⟨[1,2,840,113549,1,1,5], {}⟩ ∧ s.unauth = [] ∧
  (∃ as, List.Perm as s.attrs ∧ ListRel (AttrHolds env) (attributesFor env data now extra) as) ∧
  ∀ encs : List Bytes, ListRel DerAttrV s.attrs encs → (∀ e ∈ encs, e.length < 2 ^ 31) → encs.Pairwise BytesLe

/-- One signer info for every signer, in the order of signing. -/
inductive InfosFor (env : P7Env) (data : Bytes) : List SignStep → List P7Info → Prop
  | nil : InfosFor env data [] []
  | certificate {c : SignCert} {steps : List SignStep} {infos : List P7Info} : InfosFor env data steps infos →
      InfosFor env data (.certificate c :: steps) infos
  | signer {c : SignCert} {key : P7Key} {now : Int} {extra : List (List Nat × Dyn)} {steps : List SignStep} {s : P7Info} {infos : List P7Info} :
      SignedWith env data c now extra s → InfosFor env data steps infos → InfosFor env data (.signer c key now extra :: steps) (s :: infos)

/-- The fields of a certificate that are used belong to the certificate; it and the name of its issuer are encoded in DER. -/
def CertAgrees (ce : CertEnv) (c : SignCert) (parsed : Cert) : Prop :=
  (∃ k, CertificateIs ce c.raw parsed k) ∧ parsed.serial = c.serial ∧ IssuerIs ce c.raw c.rawIssuer ∧ DerSeq c.rawIssuer ∧ DerSeq c.raw

/-- The private key belongs to the certificate: its signatures verify. -/
def KeyAgrees (env : P7Env) (key : P7Key) (cert : Cert) : Prop :=
  ∀ k x sig, key = .rsa k → env.rsaSign k (env.hash .sha1 x) = some sig → env.checkSig cert .sha1Rsa x sig = true

/-- Attributes that may be added: with a type that can be encoded and that is not that of the message digest, and a value in DER. -/
def ExtraOk (x : List Nat × Dyn) : Prop := ValidOid x.1 ∧ x.1 ≠ [1,2,840,113549,1,9,4] ∧ DerParts x.2.type {} x.2.val

/-- The steps are sensible: every signer is one of the certificates and no other certificate has the same issuer and serial number. -/
def StepOk (env : P7Env) (certs : List SignCert) : SignStep → Cert → Prop
  | .signer c key _ extra, parsed => KeyAgrees env key parsed ∧ (∀ x ∈ extra, ExtraOk x) ∧
      ∀ c' ∈ certs, c'.rawIssuer = c.rawIssuer → c'.serial = c.serial → c'.raw = c.raw
  | .certificate _, _ => True

end Apk
