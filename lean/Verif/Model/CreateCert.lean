import Verif.Model.Create
/-!
# Writing certificates (internal/x509andr/x509.go:76-107, :359-395, :1751-1931)

Nothing in the module calls `CreateCertificate`; it is modelled as an exported function of that package. It uses encoding/asn1
(Model/Marshal with sorted sets). Keys are those of Model/X509; integers in them are not nil. Times are Unix seconds in UTC.
-/
namespace Apk

/-- crypto.Signer: the public key, and `Sign` of a digest (`pss`: with PSS options, a salt as long as the hash; otherwise with the hash
    function); `none` is an error. -/
structure CertSigner where
  pub : Key
  sign : (pss : Bool) → (hash : Nat) → Bytes → Option Bytes

/-- What `CreateCertificate` calls. -/
structure CreateEnv where
  asn : AsnEnv
  /-- encoding/asn1 of a time, see `MarEnv` -/
  times : Bool → Int → Option (Nat × Bytes)
  /-- crypto.Hash.New, by the numbers of package crypto; `none`: not linked into the program, `New` panics -/
  hash : Nat → Option (Bytes → Bytes)
  /-- elliptic.Marshal -/
  point : List Nat → Int → Int → Bytes

/-- encoding/asn1. -/
def CreateEnv.mar (env : CreateEnv) : MarEnv := ⟨true, env.asn.utf8Valid, env.times⟩

/-- The fields of `Certificate` (x509.go:647-729) that are used of a template or a parent. `subject` is `Subject.ToRDNSequence()`. -/
structure CertTemplate where
  serial : Option Int := none
  sigAlg : Nat := 0
  rawSubject : Bytes := []
  subject : List (List (Bytes × List Nat × Option AnyVal × Unit)) := []
  notBefore : Int := 0
  notAfter : Int := 0
  ext : ExtFields := {}
  extra : List Ext := []

/-- Where `CreateCertificate` returns an error. -/
inductive CreateErr where
  | notSigner     -- x509.go:1850
  | noSerial      -- x509.go:1854
  | signerCurve   -- x509.go:1786
  | signerKey     -- x509.go:1790
  | mismatch      -- x509.go:1805
  | noHash        -- x509.go:1810
  | algorithm     -- x509.go:1822
  | curve         -- x509.go:94
  | publicKey     -- x509.go:104
  | marshal       -- an error of asn1.Marshal
  | extensions    -- x509.go:1882-1885
  | sign          -- x509.go:1920-1923
deriving DecidableEq, Repr

/-- x509.go:44 `nullRawValue`. -/
def nullRaw : RawVal := ⟨0, 5, false, [], []⟩

/-- A RawValue that is only a copy of its encoding. -/
def rawFull (b : Bytes) : RawVal := ⟨0, 0, false, [], b⟩

/-- x509.go:309-311, :360-369; without one of these hash functions the identifier is nil. -/
def pssHashOid (hash : Nat) : List Nat :=
  if hash = 5 then [2,16,840,1,101,3,4,2,1] else if hash = 6 then [2,16,840,1,101,3,4,2,2] else if hash = 7 then [2,16,840,1,101,3,4,2,3] else []

/-- `crypto.Hash.Size` of SHA-256, SHA-384 and SHA-512. -/
def pssHashSize (hash : Nat) : Int := if hash = 5 then 32 else if hash = 6 then 48 else 64

/-- encoding/asn1 for the PSS parameters: there are no strings, times or sets in them. -/
def pssMar : MarEnv := ⟨true, fun _ => false, fun _ _ => none⟩

/-- x509.go:359-395 `rsaPSSParameters`; it is only called with SHA-256, SHA-384 and SHA-512. -/
def rsaPssParams (hash : Nat) : Go RawVal :=
  match marshal pssMar algIdTy (([] : Bytes), pssHashOid hash, nullRaw, ()) with
  | .error _ => .error .explicit
  | .ok mgf =>
    match marshal pssMar pssParametersTy (([] : Bytes), (([] : Bytes), pssHashOid hash, nullRaw, ()),
        (([] : Bytes), [1,2,840,113549,1,1,8], rawFull mgf, ()), pssHashSize hash, (1 : Int), ()) with
    | .error _ => .error .explicit
    | .ok b => .ok (rawFull b)

/-- x509.go:321-343 `signatureAlgorithmDetails`: algorithm, identifier, kind of key, hash function (2 MD5, 3 SHA-1, 5 SHA-256, 6 SHA-384,
    7 SHA-512; 0 none). -/
def certSigDetails : List (Nat × List Nat × PKAlgo × Nat) :=
  [(1, [1,2,840,113549,1,1,2], .rsa, 0), (2, [1,2,840,113549,1,1,4], .rsa, 2), (3, [1,2,840,113549,1,1,5], .rsa, 3), (3, [1,3,14,3,2,29], .rsa, 3),
   (4, [1,2,840,113549,1,1,11], .rsa, 5), (5, [1,2,840,113549,1,1,12], .rsa, 6), (6, [1,2,840,113549,1,1,13], .rsa, 7),
   (13, [1,2,840,113549,1,1,10], .rsa, 5), (14, [1,2,840,113549,1,1,10], .rsa, 6), (15, [1,2,840,113549,1,1,10], .rsa, 7),
   (7, [1,2,840,10040,4,3], .dsa, 3), (8, [2,16,840,1,101,3,4,3,2], .dsa, 5),
   (9, [1,2,840,10045,4,1], .ecdsa, 3), (10, [1,2,840,10045,4,3,2], .ecdsa, 5), (11, [1,2,840,10045,4,3,3], .ecdsa, 6), (12, [1,2,840,10045,4,3,4], .ecdsa, 7)]

/-- x509.go:201-208 `isRSAPSS`. -/
def isRsaPss (algo : Nat) : Bool := algo = 13 || algo = 14 || algo = 15

/-- x509.go:1763-1795: the kind of the key, and hash function and algorithm if none are asked for. -/
def defaultSigning : Key → Except CreateErr (PKAlgo × Nat × AlgId)
  | .rsa _ _ => .ok (.rsa, 5, ⟨[1,2,840,113549,1,1,11], nullRaw⟩)
  | .ecdsa curve _ _ =>
    if curve = [1,3,132,0,33] ∨ curve = [1,2,840,10045,3,1,7] then .ok (.ecdsa, 5, ⟨[1,2,840,10045,4,3,2], {}⟩)
    else if curve = [1,3,132,0,34] then .ok (.ecdsa, 6, ⟨[1,2,840,10045,4,3,3], {}⟩)
    else if curve = [1,3,132,0,35] then .ok (.ecdsa, 7, ⟨[1,2,840,10045,4,3,4], {}⟩)
    else .error .signerCurve
  | _ => .error .signerKey

/-- x509.go:1762-1826 `signingParamsForPublicKey`: hash function and algorithm. -/
def signingParams (pub : Key) (requested : Nat) : Go (Except CreateErr (Nat × AlgId)) :=
  match defaultSigning pub with
  | .error e => .ok (.error e)
  | .ok (kind, hash, alg) =>
    if requested = 0 then .ok (.ok (hash, alg))
    else match certSigDetails.find? (fun d => decide (d.1 = requested)) with
      | none => .ok (.error .algorithm)
      | some d =>
        if d.2.2.1 ≠ kind then .ok (.error .mismatch)
        else if d.2.2.2 = 0 then .ok (.error .noHash)
        else if isRsaPss requested then
          match rsaPssParams d.2.2.2 with
          | .error p => .error p
          | .ok params => .ok (.ok (d.2.2.2, ⟨d.2.1, params⟩))
        else .ok (.ok (d.2.2.2, ⟨d.2.1, alg.params⟩))

/-- x509.go:76-107 `marshalPublicKey`. -/
def marshalPublicKey (env : CreateEnv) : Key → Except CreateErr (Bytes × AlgId)
  | .rsa n e =>
    match marshal env.mar pkcs1PublicKeyTy (([] : Bytes), (some n : Option Int), e, ()) with
    | .error _ => .error .marshal
    | .ok b => .ok (b, ⟨[1,2,840,113549,1,1,1], nullRaw⟩)
  | .ecdsa curve x y =>
    if knownCurve curve then
      match marshal env.mar .oid curve with
      | .error _ => .error .marshal
      | .ok b => .ok (env.point curve x y, ⟨[1,2,840,10045,2,1], rawFull b⟩)
    else .error .curve
  | _ => .error .publicKey

/-- x509.go:1751-1757 `subjectBytes`. -/
def subjectBytes (env : CreateEnv) (t : CertTemplate) : Except MErr Bytes :=
  if t.rawSubject.length > 0 then .ok t.rawSubject else marshal env.mar rdnsTy t.subject

/-- x509.go:141-153 `tbsCertificate` as it is written: the slice of extensions is made by `make` and never nil (x509.go:1570, :1748), so that
    it is not left out. Model/Marshal does not tell a nil slice from an empty one, hence a type without `optional`. -/
def tbsOutTy : Ty :=
  .struct true (.cons (b!"optional,explicit,default:0,tag:0") .int (.cons [] .bigInt (.cons [] algIdTy (.cons [] .rawValue
    (.cons [] validityTy (.cons [] .rawValue (.cons [] publicKeyInfoTy (.cons (b!"optional,tag:1") .bits
    (.cons (b!"optional,tag:2") .bits (.cons (b!"explicit,tag:3") (.slice false extensionTy) .nil))))))))))

/-- x509.go:134-139 `certificate` as it is written. -/
def certificateOutTy : Ty := .struct true (.cons [] tbsOutTy (.cons [] algIdTy (.cons [] .bits .nil)))

/-- An AlgorithmIdentifier as a value of `algIdTy`. -/
def AlgId.out (a : AlgId) : algIdTy.interp := (([] : Bytes), a.oid, a.params, ())

/-- Octets as a BIT STRING (x509.go:1887, :1929). -/
def wholeBits (b : Bytes) : BitStr := ⟨b, b.length * 8⟩

/-- x509.go:1888-1897: the part that is signed; `raw` are the bytes of it, once they are known. -/
def tbsValue (t : CertTemplate) (raw : Bytes) (alg : AlgId) (issuer subject : Bytes) (keyBytes : Bytes) (keyAlg : AlgId) (exts : List Ext) : tbsOutTy.interp :=
  (raw, (2 : Int), t.serial, alg.out, rawFull issuer, (([] : Bytes), t.notBefore, t.notAfter, ()), rawFull subject,
    (([] : Bytes), keyAlg.out, wholeBits keyBytes, ()), (⟨[], 0⟩ : BitStr), (⟨[], 0⟩ : BitStr), exts.map Ext.out, ())
where
  /-- pkix.Extension. -/
  Ext.out (e : Ext) : Bytes × List Nat × Bool × Bytes × Unit := ([], e.1, e.2.1, e.2.2, ())

/-- x509.go:1877-1880: the authority key is the one of the parent, unless the names are the same. -/
def authorityKeyOf (t parent : CertTemplate) (issuer subject : Bytes) : Bytes :=
  if issuer ≠ subject ∧ parent.ext.subjectKeyId.length > 0 then parent.ext.subjectKeyId else t.ext.authorityKeyId

/-- x509.go:1887-1930: writing and signing, with the parts of the certificate. -/
def writeCert (env : CreateEnv) (t : CertTemplate) (signer : CertSigner) (hash : Nat) (alg : AlgId) (issuer subject keyBytes : Bytes)
    (keyAlg : AlgId) (exts : List Ext) : Go (Except CreateErr Bytes) :=
  match marshal env.mar tbsOutTy (tbsValue t [] alg issuer subject keyBytes keyAlg exts) with
  | .error _ => .ok (.error .marshal)
  | .ok tbs =>
    match env.hash hash with
    | none => .error .explicit
    | some h =>
      match signer.sign (isRsaPss t.sigAlg) hash (h tbs) with
      | none => .ok (.error .sign)
      | some signature =>
        match marshal env.mar certificateOutTy (([] : Bytes), tbsValue t tbs alg issuer subject keyBytes keyAlg exts, alg.out, wholeBits signature, ()) with
        | .error _ => .ok (.error .marshal)
        | .ok b => .ok (.ok b)

/-- x509.go:1847-1931 `CreateCertificate`; `signer` is `none` if the private key is not a crypto.Signer. -/
def createCert (env : CreateEnv) (t parent : CertTemplate) (pub : Key) (signer : Option CertSigner) : Go (Except CreateErr Bytes) :=
  match signer with
  | none => .ok (.error .notSigner)
  | some signer =>
    if t.serial = none then .ok (.error .noSerial)
    else match signingParams signer.pub t.sigAlg with
      | .error p => .error p
      | .ok (.error e) => .ok (.error e)
      | .ok (.ok (hash, alg)) =>
        match marshalPublicKey env pub with
        | .error e => .ok (.error e)
        | .ok (keyBytes, keyAlg) =>
          match subjectBytes env parent with
          | .error _ => .ok (.error .marshal)
          | .ok issuer =>
            match subjectBytes env t with
            | .error _ => .ok (.error .marshal)
            | .ok subject =>
              match buildExtensions env.asn t.ext (authorityKeyOf t parent issuer subject) t.extra with
              | .error p => .error p
              | .ok none => .ok (.error .extensions)
              | .ok (some exts) => writeCert env t signer hash alg issuer subject keyBytes keyAlg exts

end Apk
