import Verif.Model.Pkcs7
import Verif.Model.Marshal
/-!
# PKCS#7 messages as a whole (fullsailor/pkcs7/pkcs7.go, fullsailor/pkcs7/x509.go)

The v1 verifier only uses `Parse` and the signer infos (`Model/Pkcs7`). Here is the rest of the package that has to do with
signatures: the contents of a message, `Verify`, `GetOnlySigner`, `UnmarshalSignedAttribute`, and the making of messages:
`NewSignedData`, `AddSigner`, `AddCertificate`, `Detach`, `Finish`, `DegenerateCertificate`.
-/
namespace Apk

/-- The digest algorithms of `getHashForOID` (pkcs7.go:326-334). -/
inductive P7Hash where
  | sha1 | sha256
deriving DecidableEq, Repr

/-- The values of x509.SignatureAlgorithm in `signatureAlgorithmDetails` (fullsailor/pkcs7/x509.go:45-68). -/
inductive X509Alg where
  | md2Rsa | md5Rsa | sha1Rsa | sha256Rsa | sha384Rsa | sha512Rsa | sha256Pss | sha384Pss | sha512Pss
  | dsaSha1 | dsaSha256 | ecdsaSha1 | ecdsaSha256 | ecdsaSha384 | ecdsaSha512
deriving DecidableEq, Repr

/-- fullsailor/pkcs7/x509.go:72-80 `pssParameters`. -/
structure PssParams where
  hash : AlgId
  mgf : AlgId
  saltLength : Int
  trailerField : Int

/-- External functions: cryptography, the clock format and the decoder of encoding/asn1 for the parameters of RSA-PSS. All theorems
    quantify over them. -/
structure P7Env extends CertEnv where
  hash : P7Hash → Bytes → Bytes
  /-- (*x509.Certificate).CheckSignature with a known algorithm: signed bytes, signature -/
  checkSig : Cert → X509Alg → Bytes → Bytes → Bool
  /-- encoding/asn1 Unmarshal into `pssParameters` -/
  stdPss : Bytes → Option PssParams
  /-- encoding/asn1 Unmarshal into a pkix.AlgorithmIdentifier -/
  stdAlg : Bytes → Option AlgId
  /-- see `MarEnv.timeBytes` -/
  timeBytes : Bool → Int → Option (Nat × Bytes)
  /-- rsa.SignPKCS1v15 of a SHA-1 digest, by key -/
  rsaSign : Nat → Bytes → Option Bytes

/-- encoding/asn1 Marshal. -/
def P7Env.mar (env : P7Env) : MarEnv := ⟨true, env.utf8Valid, env.timeBytes⟩

/-- pkcs7.go:95-98 `attribute`. -/
structure P7AttrV where
  type : List Nat
  value : RawVal
deriving DecidableEq, Repr

/-- The Go value for the model of `Unmarshal` and `Marshal`, and back. -/
def P7AttrV.of (v : attributeTy.interp) : P7AttrV :=
  match v with
  | (_, type, value, ()) => ⟨type, value⟩
def P7AttrV.go (a : P7AttrV) : attributeTy.interp := (([] : Bytes), a.type, a.value, ())

/-- What the v1 verifier keeps of an attribute. -/
def P7AttrV.attr (a : P7AttrV) : P7Attr := ⟨a.type, a.value.bytes, a.value.full⟩

/-- pkcs7.go:126-134 `signerInfo`. -/
structure P7Info where
  version : Int := 1
  issuer : RawVal
  serial : Option Int
  digestAlg : AlgId
  attrs : List P7AttrV
  encAlg : AlgId
  encDigest : Bytes
  unauth : List P7AttrV := []
deriving DecidableEq, Repr

/-- The Go values, as for attributes. -/
def AlgId.go (a : AlgId) : algIdTy.interp := (([] : Bytes), a.oid, a.params, ())
def P7Info.of (v : signerInfoTy.interp) : P7Info :=
  match v with
  | (_, version, (_, issuer, serial, ()), digestAlg, attrs, encAlg, encDigest, unauth, ()) =>
    ⟨version, issuer, serial, AlgId.of digestAlg, attrs.map P7AttrV.of, AlgId.of encAlg, encDigest, unauth.map P7AttrV.of⟩
def P7Info.go (s : P7Info) : signerInfoTy.interp :=
  (([] : Bytes), s.version, (([] : Bytes), s.issuer, s.serial, ()), s.digestAlg.go, s.attrs.map P7AttrV.go, s.encAlg.go, s.encDigest,
    s.unauth.map P7AttrV.go, ())

/-- What the v1 verifier keeps of a signer info. -/
def P7Info.signer (s : P7Info) : P7Signer :=
  ⟨s.issuer.full, s.serial.getD 0, s.digestAlg.oid, s.encAlg.oid, s.attrs.map P7AttrV.attr, s.encDigest⟩

/-- pkcs7.go:30-37 `PKCS7`, except for the revocation lists; `enveloped` is `raw` if it holds an envelopedData. -/
structure P7Msg where
  content : Bytes
  certs : List Cert
  infos : List P7Info
  contentType : List Nat
  enveloped : Option envelopedTy.interp := none

/-- What the v1 verifier keeps of a message. -/
def P7Msg.p7 (m : P7Msg) : P7 := ⟨m.certs, m.infos.map P7Info.signer, m.contentType⟩

/-! ## Parse -/

/-- pkcs7.go:185-200: the contents. -/
def contentOf (env : AsnEnv) (content : RawVal) : Go (Option Bytes) :=
  if content.bytes = [] then .ok (some [])
  else match unmFirst env .rawValue content.bytes with
    | .error p => .error p
    | .ok none => .ok none
    | .ok (some (v, _)) =>
      if RawVal.isCompound v then
        match unmFirst env .octets (RawVal.bytes v) with
        | .error p => .error p
        | .ok none => .ok none
        | .ok (some (x, _)) => .ok (some x)
      else .ok (some (RawVal.bytes v))

/-- The signer infos of a (possibly only partly) parsed `signedData`. -/
def signedInfos (v : signedDataTy.interp) : List P7Info :=
  match v with
  | (_, _, _, _, _, _, signers, ()) => signers.map P7Info.of

/-- pkcs7.go:175-209 `parseSignedData`, see `parseSignedData` in `Model/Pkcs7`. -/
def parseSignedMsg (env : CertEnv) (data : Bytes) : Go (Option P7Msg) :=
  match unmarshalRaw env.toAsnEnv signedDataTy data with
  | .error p => .error p
  | .ok (v, _) =>
    let sd := SignedV.of v
    match parseRawCerts env sd.certs with
    | .error p => .error p
    | .ok none => .ok none
    | .ok (some certs) =>
      match contentOf env.toAsnEnv sd.content with
      | .error p => .error p
      | .ok none => .ok none
      | .ok (some content) => .ok (some { content, certs, infos := signedInfos v, contentType := sd.contentType })

/-- pkcs7.go:224-233 `parseEnvelopedData`. -/
def parseEnvelopedMsg (env : CertEnv) (data : Bytes) : Go (Option P7Msg) :=
  match unmFirst env.toAsnEnv envelopedTy data with
  | .error p => .error p
  | .ok none => .ok none
  | .ok (some (v, _)) => .ok (some { content := [], certs := [], infos := [], contentType := [], enveloped := some v })

/-- pkcs7.go:167-173: dispatch on the content type. -/
def dispatchMsg (env : CertEnv) (oid : List Nat) (content : RawVal) : Go (Option P7Msg) :=
  if oid = [1,2,840,113549,1,7,2] then parseSignedMsg env content.bytes
  else if oid = [1,2,840,113549,1,7,3] then parseEnvelopedMsg env content.bytes
  else .ok none

/-- pkcs7.go:157-174, `Parse` after the conversion to DER. -/
def parseMsgDer (env : CertEnv) (der : Bytes) : Go (Option P7Msg) :=
  match unmAll env.toAsnEnv contentInfoTy der with
  | .error p => .error p
  | .ok none => .ok none
  | .ok (some v) => dispatchMsg env v.2.1 v.2.2.1

/-- pkcs7.go:147-174 `Parse`. -/
def parseMsg (env : CertEnv) (data : Bytes) : Go (Option P7Msg) :=
  if data = [] then .ok none
  else match ber2der data with
    | .error p => .error p
    | .ok (.error _) => .ok none
    | .ok (.ok der) => parseMsgDer env der

/-! ## Verify -/

/-- Error sites of the package. -/
inductive P7Err where
  | noSigners          -- pkcs7.go:239
  | unsupported        -- pkcs7.go:333, :743
  | noAttribute        -- pkcs7.go:535
  | badAttribute       -- pkcs7.go:532
  | digestMismatch     -- pkcs7.go:266
  | marshal            -- any error of asn1.Marshal
  | noCertificate      -- pkcs7.go:281
  | badSignature       -- pkcs7.go:295: CheckSignature, also with an unknown algorithm
  | notSigned          -- pkcs7.go:542
  | sign               -- error of rsa.SignPKCS1v15
deriving DecidableEq, Repr

/-- pkcs7.go:326-334 `getHashForOID`. -/
def p7HashOf (oid : List Nat) : Option P7Hash :=
  if oid = [1,3,14,3,2,26] then some .sha1
  else if oid = [2,16,840,1,101,3,4,2,1] then some .sha256
  else none

/-- fullsailor/pkcs7/x509.go:45-68 `signatureAlgorithmDetails`: algorithm, object identifier, `some` hash if the key algorithm is RSA and
    the hash is one of `P7Hash`. -/
def sigDetails : List (X509Alg × List Nat × Option P7Hash) :=
  [(.md2Rsa, [1,2,840,113549,1,1,2], none), (.md5Rsa, [1,2,840,113549,1,1,4], none), (.sha1Rsa, [1,2,840,113549,1,1,5], some .sha1),
   (.sha1Rsa, [1,3,14,3,2,29], some .sha1), (.sha256Rsa, [1,2,840,113549,1,1,11], some .sha256), (.sha384Rsa, [1,2,840,113549,1,1,12], none),
   (.sha512Rsa, [1,2,840,113549,1,1,13], none), (.sha256Pss, [1,2,840,113549,1,1,10], some .sha256), (.sha384Pss, [1,2,840,113549,1,1,10], none),
   (.sha512Pss, [1,2,840,113549,1,1,10], none), (.dsaSha1, [1,2,840,10040,4,3], none), (.dsaSha256, [2,16,840,1,101,3,4,3,2], none),
   (.ecdsaSha1, [1,2,840,10045,4,1], none), (.ecdsaSha256, [1,2,840,10045,4,3,2], none), (.ecdsaSha384, [1,2,840,10045,4,3,3], none),
   (.ecdsaSha512, [1,2,840,10045,4,3,4], none)]

/-- fullsailor/pkcs7/x509.go:109-131: the parameters of RSA-PSS that are supported. -/
def p7PssAlg (p : PssParams) (mgfHash : AlgId) : Option X509Alg :=
  if p.hash.params.full ≠ [5, 0] ∨ p.mgf.oid ≠ [1,2,840,113549,1,1,8] ∨ mgfHash.oid ≠ p.hash.oid ∨ mgfHash.params.full ≠ [5, 0] ∨ p.trailerField ≠ 1 then none
  else if p.hash.oid = [2,16,840,1,101,3,4,2,1] ∧ p.saltLength = 32 then some .sha256Pss
  else if p.hash.oid = [2,16,840,1,101,3,4,2,2] ∧ p.saltLength = 48 then some .sha384Pss
  else if p.hash.oid = [2,16,840,1,101,3,4,2,3] ∧ p.saltLength = 64 then some .sha512Pss
  else none

/-- fullsailor/pkcs7/x509.go:85-132 `getSignatureAlgorithmFromAI`; `none`: unknown. -/
def p7SigAlg (env : P7Env) (ai : AlgId) : Option X509Alg :=
  if ai.oid ≠ [1,2,840,113549,1,1,10] then (sigDetails.find? (fun d => decide (ai.oid = d.2.1))).map Prod.fst
  else match env.stdPss ai.params.full with
    | none => none
    | some p =>
      match env.stdAlg p.mgf.params.full with
      | none => none
      | some mgfHash => p7PssAlg p mgfHash

/-- pkcs7.go:336-343 `getRSASignatureAlgorithmForDigestAlgorithm`. -/
def rsaAlgFor (h : P7Hash) : Option X509Alg := (sigDetails.find? (fun d => decide (d.2.2 = some h))).map Prod.fst

/-- pkcs7.go:283-294: the algorithm to check with. -/
def checkAlg (env : P7Env) (h : P7Hash) (ai : AlgId) : Option X509Alg :=
  match p7SigAlg env ai with
  | some a => some a
  | none => if ai.oid = [1,2,840,113549,1,1,1] then rsaAlgFor h else none

/-- RawIssuer of a certificate (internal/x509andr/x509.go:1125): the issuer as it was encoded, read again from the bytes of the certificate. -/
def rawIssuerOf (env : CertEnv) (raw : Bytes) : Bytes :=
  match unmAll env.toAsnEnv certificateTy raw with
  | .ok (some c) => (CertV.of c).issuer
  | _ => []

/-- pkcs7.go:490-492 `isCertMatchForIssuerAndSerial`. A nil serial number (never the result of parsing) would panic; here it matches nothing. -/
def certMatches (env : CertEnv) (s : P7Info) (c : Cert) : Bool :=
  decide (some c.serial = s.serial) && decide (rawIssuerOf env c.raw = s.issuer.full)

/-- pkcs7.go:317-324 `getCertFromCertsByIssuerAndSerial`. -/
def p7CertFor (env : CertEnv) (certs : List Cert) (s : P7Info) : Option Cert := certs.find? (certMatches env s)

/-- pkcs7.go:528-536 `unmarshalAttribute`, for the type of the variable that is filled. -/
def unmAttribute (env : AsnEnv) (t : Ty) (oid : List Nat) : List P7AttrV → Go (Except P7Err t.interp)
  | [] => .ok (.error .noAttribute)
  | a :: as =>
    if a.type = oid then
      match unmFirst env t a.value.bytes with
      | .error p => .error p
      | .ok none => .ok (.error .badAttribute)
      | .ok (some (v, _)) => .ok (.ok v)
    else unmAttribute env t oid as

/-- pkcs7.go:299-301: the struct that `marshalAttributes` writes. -/
def attrSetTy : Ty := .struct false (.cons (b!"set") (.slice false attributeTy) .nil)

/-- pkcs7.go:298-310 `marshalAttributes`: the SET, taken out of the SEQUENCE around it. -/
def marshalAttributes (env : P7Env) (attrs : List P7AttrV) : Go (Option Bytes) :=
  match marshal env.mar attrSetTy (([] : Bytes), attrs.map P7AttrV.go, ()) with
  | .error _ => .ok none
  | .ok b =>
    match unmarshalRaw env.toAsnEnv .rawValue b with
    | .error p => .error p
    | .ok (v, _) => .ok (some (RawVal.bytes v))

/-- pkcs7.go:263-277: the digest of the contents is compared, then the attributes are encoded. -/
def signedAttributes (env : P7Env) (m : P7Msg) (h : P7Hash) (s : P7Info) (digest : Bytes) : Go (Except P7Err Bytes) :=
  if digest ≠ env.hash h m.content then .ok (.error .digestMismatch)
  else match marshalAttributes env s.attrs with
    | .error p => .error p
    | .ok none => .ok (.error .marshal)
    | .ok (some b) => .ok (.ok b)

/-- pkcs7.go:250-278: the bytes that have to be signed. -/
def signedBytes (env : P7Env) (m : P7Msg) (h : P7Hash) (s : P7Info) : Go (Except P7Err Bytes) :=
  if s.attrs = [] then .ok (.ok m.content)
  else match unmAttribute env.toAsnEnv .octets [1,2,840,113549,1,9,4] s.attrs with
    | .error p => .error p
    | .ok (.error e) => .ok (.error e)
    | .ok (.ok digest) => signedAttributes env m h s digest

/-- pkcs7.go:249-296 `verifySignature`. -/
def verifySigner (env : P7Env) (m : P7Msg) (s : P7Info) : Go (Except P7Err Unit) :=
  match p7HashOf s.digestAlg.oid with
  | none => .ok (.error .unsupported)
  | some h =>
    match signedBytes env m h s with
    | .error p => .error p
    | .ok (.error e) => .ok (.error e)
    | .ok (.ok signed) =>
      match p7CertFor env.toCertEnv m.certs s with
      | none => .ok (.error .noCertificate)
      | some c =>
        match checkAlg env h s.encAlg with
        | none => .ok (.error .badSignature)
        | some a => if env.checkSig c a signed s.encDigest then .ok (.ok ()) else .ok (.error .badSignature)

/-- pkcs7.go:241-246: all signers. -/
def verifySigners (env : P7Env) (m : P7Msg) : List P7Info → Go (Except P7Err Unit)
  | [] => .ok (.ok ())
  | s :: ss =>
    match verifySigner env m s with
    | .error p => .error p
    | .ok (.error e) => .ok (.error e)
    | .ok (.ok ()) => verifySigners env m ss

/-- pkcs7.go:237-247 `Verify`. -/
def verifyMsg (env : P7Env) (m : P7Msg) : Go (Except P7Err Unit) :=
  if m.infos = [] then .ok (.error .noSigners) else verifySigners env m m.infos

/-- pkcs7.go:347-353 `GetOnlySigner`. -/
def onlySigner (env : CertEnv) (m : P7Msg) : Option Cert :=
  match m.infos with
  | [s] => p7CertFor env m.certs s
  | _ => none

/-- pkcs7.go:539-549 `(*PKCS7).UnmarshalSignedAttribute`. -/
def unmSignedAttribute (env : AsnEnv) (t : Ty) (oid : List Nat) (m : P7Msg) : Go (Except P7Err t.interp) :=
  if m.enveloped.isSome then .ok (.error .notSigned)
  else match m.infos with
    | [] => .ok (.error .noSigners)
    | s :: _ => unmAttribute env t oid s.attrs

/-! ## Making messages -/

/-- A value of any type (`interface{}`). -/
structure Dyn where
  type : Ty
  val : type.interp

/-- The fields of an x509.Certificate that are used (pkcs7.go:720-729, :747-754). -/
structure SignCert where
  raw : Bytes
  rawIssuer : Bytes
  serial : Int
deriving DecidableEq, Repr

/-- pkcs7.go:552-556 `SignedData`: contentInfo, digest algorithms and signer infos of `sd`; certificates; digest. -/
structure SignState where
  contentType : List Nat
  content : RawVal
  digestAlgs : List AlgId
  infos : List P7Info
  certs : List SignCert
  digest : Bytes

/-- pkcs7.go:571-592 `NewSignedData`. -/
def newSignedData (env : P7Env) (data : Bytes) : Except P7Err SignState :=
  match marshal env.mar .octets data with
  | .error _ => .error .marshal
  | .ok content => .ok
    { contentType := [1,2,840,113549,1,7,1], content := ⟨2, 0, true, content, []⟩, digestAlgs := [⟨[1,3,14,3,2,26], {}⟩], infos := [], certs := [],
      digest := env.hash .sha1 data }

/-- pkcs7.go:635-652: one attribute with its sort key. -/
def sortableAttr (env : P7Env) (oid : List Nat) (value : Dyn) : Except P7Err (Bytes × P7AttrV) :=
  match marshal env.mar value.type value.val with
  | .error _ => .error .marshal
  | .ok b =>
    let a : P7AttrV := ⟨oid, ⟨0, 17, true, b, []⟩⟩
    match marshal env.mar attributeTy a.go with
    | .error _ => .error .marshal
    | .ok key => .ok (key, a)

/-- Attributes with their sort keys (pkcs7.go:633-653), in order. -/
def sortableAttrs (env : P7Env) : List (List Nat × Dyn) → Except P7Err (List (Bytes × P7AttrV))
  | [] => .ok []
  | (oid, v) :: rest =>
    match sortableAttr env oid v with
    | .error e => .error e
    | .ok a =>
      match sortableAttrs env rest with
      | .error e => .error e
      | .ok as => .ok (a :: as)

/-- Insertion by sort key. -/
def insertAttr (a : Bytes × P7AttrV) : List (Bytes × P7AttrV) → List (Bytes × P7AttrV)
  | [] => [a]
  | b :: bs => if bytesLt b.1 a.1 then b :: insertAttr a bs else a :: b :: bs

/-- sort.Sort by sort key (pkcs7.go:654). The order of attributes with the same key does not matter: they are equal
    (`C77_equal_keys`). -/
def sortAttrs : List (Bytes × P7AttrV) → List (Bytes × P7AttrV)
  | [] => []
  | a :: as => insertAttr a (sortAttrs as)

/-- pkcs7.go:632-656 `ForMarshaling`. -/
def forMarshaling (env : P7Env) (attrs : List (List Nat × Dyn)) : Except P7Err (List P7AttrV) :=
  match sortableAttrs env attrs with
  | .error e => .error e
  | .ok as => .ok ((sortAttrs as).map Prod.snd)

/-- A private key: RSA (by number), or of another type, which is refused (pkcs7.go:739-743). -/
inductive P7Key where
  | rsa (k : Nat)
  | other
deriving DecidableEq, Repr

/-- pkcs7.go:731-744 `signAttributes` with SHA-1. -/
def signAttributes (env : P7Env) (attrs : List P7AttrV) (key : P7Key) : Go (Except P7Err Bytes) :=
  match marshalAttributes env attrs with
  | .error p => .error p
  | .ok none => .ok (.error .marshal)
  | .ok (some b) =>
    match key with
    | .rsa k =>
      match env.rsaSign k (env.hash .sha1 b) with
      | none => .ok (.error .sign)
      | some s => .ok (.ok s)
    | .other => .ok (.error .unsupported)

/-- pkcs7.go:660-666: the attributes of a signer; `now` is time.Now(). -/
def signerAttrs (st : SignState) (now : Int) (extra : List (List Nat × Dyn)) : List (List Nat × Dyn) :=
  [([1,2,840,113549,1,9,3], ⟨.oid, st.contentType⟩), ([1,2,840,113549,1,9,4], ⟨.octets, st.digest⟩), ([1,2,840,113549,1,9,5], ⟨.time, now⟩)] ++ extra

/-- pkcs7.go:659-693 `AddSigner`, with pkcs7.go:720-729 `cert2issuerAndSerial`. -/
def addSigner (env : P7Env) (st : SignState) (cert : SignCert) (key : P7Key) (now : Int) (extra : List (List Nat × Dyn)) : Go (Except P7Err SignState) :=
  match forMarshaling env (signerAttrs st now extra) with
  | .error e => .ok (.error e)
  | .ok attrs =>
    match signAttributes env attrs key with
    | .error p => .error p
    | .ok (.error e) => .ok (.error e)
    | .ok (.ok sig) =>
      let info : P7Info := { issuer := ⟨0, 0, false, [], cert.rawIssuer⟩, serial := some cert.serial, digestAlg := ⟨[1,3,14,3,2,26], {}⟩, attrs := attrs,
                             encAlg := ⟨[1,2,840,113549,1,1,5], {}⟩, encDigest := sig }
      .ok (.ok { st with certs := st.certs ++ [cert], infos := st.infos ++ [info] })

/-- pkcs7.go:696-698 `AddCertificate`. -/
def addCertificate (st : SignState) (cert : SignCert) : SignState := { st with certs := st.certs ++ [cert] }

/-- pkcs7.go:702-704 `Detach`. -/
def detach (st : SignState) : SignState := { st with contentType := [1,2,840,113549,1,7,1], content := {} }

/-- pkcs7.go:759-766 `marshalCertificateBytes` (with :747-754): the RawContent. -/
def certsRaw (certs : Bytes) : Bytes := rawBytes ⟨2, 0, true, certs, []⟩

/-- pkcs7.go:63-70: the Go value of `signedData`. -/
def signedGo (digestAlgs : List AlgId) (contentType : List Nat) (content : RawVal) (certs : Bytes) (infos : List P7Info) : signedDataTy.interp :=
  (([] : Bytes), (1 : Int), digestAlgs.map AlgId.go, (([] : Bytes), contentType, content, ()), (certs, ()), ([] : List certListTy.interp), infos.map P7Info.go, ())

/-- pkcs7.go:713-717: the outer contentInfo. -/
def wrapContent (env : P7Env) (oid : List Nat) (inner : Bytes) : Except P7Err Bytes :=
  match marshal env.mar contentInfoTy (([] : Bytes), oid, (⟨2, 0, true, inner, []⟩ : RawVal), ()) with
  | .error _ => .error .marshal
  | .ok b => .ok b

/-- pkcs7.go:707-718 `Finish`. -/
def finish (env : P7Env) (st : SignState) : Except P7Err Bytes :=
  match marshal env.mar signedDataTy (signedGo st.digestAlgs st.contentType st.content (certsRaw (st.certs.map SignCert.raw).flatten) st.infos) with
  | .error _ => .error .marshal
  | .ok inner => wrapContent env [1,2,840,113549,1,7,2] inner

/-- `signedData` with a field of revocation lists that is always written: an empty slice that is not nil is not the zero value. -/
def signedDataCrlTy : Ty :=
  .struct false (.cons (b!"default:1") .int (.cons (b!"set") (.slice false algIdTy) (.cons [] contentInfoTy
    (.cons (b!"optional,tag:0") rawCertsTy (.cons (b!"tag:1") (.slice false certListTy)
    (.cons (b!"set") (.slice false signerInfoTy) .nil))))))

/-- pkcs7.go:770-791 `DegenerateCertificate`. -/
def degenerate (env : P7Env) (cert : Bytes) : Except P7Err Bytes :=
  match marshal env.mar signedDataCrlTy (signedGo [] [1,2,840,113549,1,7,1] {} (certsRaw cert) []) with
  | .error _ => .error .marshal
  | .ok inner => wrapContent env [1,2,840,113549,1,7,2] inner

end Apk
