import Verif.Model.Base
/-!
# Types: keys, certificates, signature algorithms, errors, results, external environment
-/
namespace Apk

/-- Dynamic type of the value returned by PKIX public key parsing (x509andr.ParsePKIXPublicKey,
    x509.Certificate.PublicKey). -/
inductive KeyKind where
  | rsa | ecdsa | dsa | other
deriving DecidableEq, Repr

/-- A parsed public key: its dynamic type, the bit length of `Q` for DSA and of the modulus for RSA, and an opaque
    identity. -/
structure PubKey where
  kind : KeyKind
  qBits : Nat
  id : Bytes
deriving DecidableEq, Repr

/-- `pkix.Name`: the fields rendered by `ToRDNSequence` (crypto/x509/pkix). `ExtraNames` is empty for parsed names. -/
structure PName where
  country : List Bytes := []
  org : List Bytes := []
  orgUnit : List Bytes := []
  locality : List Bytes := []
  province : List Bytes := []
  street : List Bytes := []
  postal : List Bytes := []
  commonName : Bytes := []
  serialNo : Bytes := []
deriving DecidableEq, Repr

/-- A parsed certificate. `Equal` (crypto/x509) compares `Raw`. `notBefore`, `notAfter`: times as integers;
    `critExt`: `UnhandledCriticalExtensions` is not empty; `sigAlg`: the numeric `SignatureAlgorithm`. -/
structure Cert where
  raw : Bytes
  spki : Bytes
  key : PubKey
  issuer : PName := {}
  subject : PName := {}
  serial : Int := 0
  critExt : Bool := false
  sigAlg : Nat := 0
  notBefore : Int := 0
  notAfter : Int := 0
deriving DecidableEq, Repr

/-- `contentDigest` (signer.go:32-39). -/
inductive CD where
  | chunked256 | chunked512 | verity256 | nonChunked256
deriving DecidableEq, Repr

/-- Numeric value of a `contentDigest` (signer.go:32-39). -/
def CD.code : CD → Nat
  | .chunked256 => 1
  | .chunked512 => 2
  | .verity256 => 3
  | .nonChunked256 => 4

/-- Error sites of the signing-block verifier, one constructor per `addError`/`errors.New` site; the formatted
    arguments are dropped except for the inner length-prefix error. -/
inductive E where
  -- signingblock.go
  | ioErr                       -- short read / seek failure of the underlying file
  | apkTooShort                 -- :270, :288
  | eocdNotFound                -- :103
  | cdOffsetRange               -- :329
  | cdNotAdjacent               -- :335
  | zip64                       -- :452
  | noSigBlock                  -- :102
  | sigBlockSizeRange           -- :412
  | sigBlockTooSmall            -- :418
  | sigBlockOffsetRange         -- :424
  | sigBlockSizeMismatch        -- :438
  | pairSizeTruncated           -- :470
  | pairSizeRange               -- :477
  | pairSizeAvail               -- :483
  | pairIdRead                  -- :490
  | pairRead                    -- io.EOF from pairs.Read :497,:523,:540,:547
  | noSchemeBlock               -- :383 (inside NotFound)
  | notFound (inner : E)        -- signingBlockNotFoundError
  | noSigners                   -- :569
  | noContentDigests            -- :574
  | digestCompute (inner : E)   -- :602
  | tooManyChunks               -- :663
  | dsOutOfBoundsOffset         -- datasource.go
  | dsOutOfBoundsSize           -- datasource.go
  | digestChunkFailed           -- :696
  | verityNotAligned            -- :719
  | verityFailed (inner : E)    -- :726
  | verityLevelOverflow         -- verity.go:83
  | writerEOF                   -- datasource.go byteWriter
  | noValidDigestAlgos          -- :650
  | digestMismatch (algo : CD)  -- :608
  -- utils.go verifySignature
  | rsaVerify | asn1Sig | dsaVerify | ecdsaVerify | unhandledSigType
  -- signer list / signer (schemev2.go, schemev3.go, signer.go)
  | signersList (e : LPErr) | signerRecord (e : LPErr)
  | signedDataRead (e : LPErr) | signaturesRead (e : LPErr) | publicKeyRead (e : LPErr)
  | digestsRead (e : LPErr) | certsRead (e : LPErr) | attrsRead (e : LPErr)
  | sigRecord (e : LPErr) | sigRecordShort | sigBytesRead (e : LPErr)
  | noSignatures | noSupportedSignatures
  | pubKeyParse | sigVerify (inner : E)
  | certRead (e : LPErr) | certParse | noCerts | pubKeyMismatch
  | digestRecord (e : LPErr) | digestRecordShort | digestBytesRead (e : LPErr)
  | algosMismatch | digestConflict
  | attrRead (e : LPErr) | attrIdRead | strippedIdRead | unknownStrippedId | stripped
  | tooManySigners
  | minSdkRead | maxSdkRead | sdkRangeInvalid | signedMinSdkRead | signedMaxSdkRead | minSdkMismatch
  | lineageAttr (inner : E) | lineageVersionRead | lineageVersion
  | lineageNodeRead (e : LPErr) | lineageSignedDataRead (e : LPErr) | lineageFlagsRead | lineageAlgoRead
  | lineageSigRead (e : LPErr) | lineageVerify (inner : E) | lineageCertRead (e : LPErr) | lineageSignedAlgoRead
  | lineageAlgoMismatch | lineageCertParse | lineageDup
  | certNotInLineage | subLineageMismatch
  | rotationMinSdkRead | rotationMismatch | rotationNoV31
  | inconsistentSdk | inconsistentLineageSizes | missingSdk | inconsistentLineages
  | v31WithoutV3
deriving DecidableEq, Repr

/-- Warning sites (texts dropped). `v3Error e` is the "schemeV3: ..." warning of the v2 fallback
    (signingblock.go:182-184). -/
inductive W where
  | unsupportedAlgo (algo : Nat)
  | unknownAttr (id : Nat)
  | rotationOnDevIgnored
  | rotationAttrMissing
  | frosting
  | v3Error (e : E)
deriving DecidableEq, Repr

/-- `V3LineageSigningCertificateNode` (schemev3lineage.go:14-20); algorithm ids and flags as raw 32-bit values. -/
structure LNode where
  cert : Cert
  parentAlgo : Nat
  algo : Nat
  signature : Bytes
  flags : Nat
deriving DecidableEq, Repr

/-- `V3SigningLineage` (schemev3lineage.go:153-156). -/
structure Lineage where
  minSdk : Int
  nodes : List LNode
deriving DecidableEq, Repr

/-- `VerificationResult` (verificationresult.go:8-28) without `ExtraResults`, `Frosting` and `SourceStamp`. -/
structure Core where
  certs : List (List Cert) := []
  schemeId : Nat := 0
  lineage : Option Lineage := none
  extraBlocks : List (Nat × Bytes) := []
  warnings : List W := []
  errors : List E := []
deriving DecidableEq, Repr

/-- `addError` (verificationresult.go:46-48). -/
def Core.addError (r : Core) (e : E) : Core := { r with errors := r.errors ++ [e] }
/-- `addWarning` (verificationresult.go:42-44). -/
def Core.addWarning (r : Core) (w : W) : Core := { r with warnings := r.warnings ++ [w] }

/-- External functions. Every theorem quantifies over all of them; only the hash output lengths are assumed. -/
structure Env where
  sha1 : Bytes → Bytes
  sha256 : Bytes → Bytes
  sha384 : Bytes → Bytes
  sha512 : Bytes → Bytes
  sha1_len : ∀ b, (sha1 b).length = 20
  sha256_len : ∀ b, (sha256 b).length = 32
  sha384_len : ∀ b, (sha384 b).length = 48
  sha512_len : ∀ b, (sha512 b).length = 64
  /-- x509andr.ParseCertificateForGo -/
  parseCertAndr : Bytes → Option Cert
  /-- crypto/x509.ParseCertificate (used for v3 lineages, schemev3.go:368) -/
  parseCertStd : Bytes → Option Cert
  /-- x509andr.ParsePKIXPublicKey -/
  parsePKIX : Bytes → Option PubKey
  /-- rsa.VerifyPSS(key, hash, hashed, sig) == nil ; first argument: 256 or 512 -/
  rsaPss : Nat → PubKey → Bytes → Bytes → Bool
  /-- rsa.VerifyPKCS1v15(key, hash, hashed, sig) == nil ; first argument: 256 or 512, in the v1 scheme 5 (MD5) or 224 -/
  rsaPkcs1 : Nat → PubKey → Bytes → Bytes → Bool
  /-- asn1.Unmarshal(sig, &[]*big.Int) -/
  asn1Ints : Bytes → Option (List Int)
  /-- ecdsa.Verify -/
  ecdsaVerify : PubKey → Bytes → Int → Int → Bool
  /-- dsa.Verify -/
  dsaVerify : PubKey → Bytes → Int → Int → Bool
  /-- the pinned Play frosting key (frosting.go:83), base64-decoded -/
  frostKeyDer : Bytes
  /-- crypto/x509.ParsePKIXPublicKey (frosting.go:206) -/
  parsePKIXStd : Bytes → Option PubKey
  /-- asn1.Unmarshal(sig, &ecdsaSignature{R,S}) : values and rest -/
  asn1RS : Bytes → Option (Int × Int × Bytes)
  /-- Go map iteration order over a map with 32-bit keys: some permutation of the entries -/
  mapOrder : List (Nat × Bytes) → List (Nat × Bytes)
  mapOrder_perm : ∀ l, (mapOrder l).Perm l
  /-- Go map iteration order over the content digest map -/
  cdOrder : List (CD × Bytes) → List (CD × Bytes)
  cdOrder_perm : ∀ l, (cdOrder l).Perm l

end Apk
