import Verif.Model.Manifest
import Verif.Model.Ber
import Verif.Model.Name
import Verif.Model.ApiLevel
/-! # APK signature scheme v1 (schemev1.go) and the parts of fullsailor/pkcs7 it uses -/
namespace Apk

/-- One authenticated attribute of a signer info (pkcs7.go:95-103): type, the bytes of its value (contents of the set) and
    the whole encoding of the value. -/
structure P7Attr where
  type : List Nat
  value : Bytes
  full : Bytes
deriving DecidableEq, Repr

/-- `SignerInfo` (pkcs7.go:136-144): encoded issuer name, serial number, algorithm identifiers, authenticated attributes
    and the signature. Versions, parameters and unauthenticated attributes are not used by the verifier. -/
structure P7Signer where
  issuer : Bytes
  serial : Int
  digestAlg : List Nat
  encAlg : List Nat
  attrs : List P7Attr
  encDigest : Bytes
deriving DecidableEq, Repr

/-- `PKCS7` (pkcs7.go:30-37), the fields the verifier uses. -/
structure P7 where
  certs : List Cert
  signers : List P7Signer
  contentType : List Nat
deriving DecidableEq, Repr

/-- The signature algorithms of `oidToAlgo` (schemev1.go:66-118). -/
inductive SigAlg where
  | md2Rsa | md5Rsa | sha1Rsa | sha224Rsa | sha256Rsa | sha384Rsa | sha512Rsa
  | dsaSha1 | dsaSha224 | dsaSha256
  | ecdsaSha1 | ecdsaSha224 | ecdsaSha256 | ecdsaSha384 | ecdsaSha512
deriving DecidableEq, Repr

/-- External functions used by the v1 verifier, in addition to `Env`. All theorems quantify over them. -/
structure Env1 extends Env where
  md5 : Bytes → Bytes
  sha224 : Bytes → Bytes
  sha224_len : ∀ b, (sha224 b).length = 28
  /-- strings.ToLower -/
  toLower : Bytes → Bytes
  /-- base64.StdEncoding.DecodeString -/
  base64 : Bytes → Option Bytes
  /-- pkcs7.go:155-174: unmarshalling of the DER form (internal/asn1andr, internal/x509andr) -/
  parseP7 : Bytes → Option P7
  /-- asn1andr.Unmarshal into a pkix.RDNSequence (schemev1.go:666) -/
  parseRdns : Bytes → Option RawRdns
  /-- asn1andr.Unmarshal into an object identifier (pkcs7.go:1030, content type) -/
  unmOid : Bytes → Option (List Nat)
  /-- asn1andr.Unmarshal into a byte slice (pkcs7.go:1030, message digest) -/
  unmOctets : Bytes → Option Bytes
  /-- MarshalAuthenticatedAttributes (pkcs7.go:1042-1054) -/
  marshalAttrs : List P7Attr → Option Bytes
  /-- asn1andr.Unmarshal into a struct of two integers: values and rest (schemev1.go:865, :892) -/
  asn1AndrRS : Bytes → Option (Int × Int × Bytes)
  /-- crypto/x509 Certificate.CheckSignature == nil (schemev1.go:907) -/
  checkSig : Cert → SigAlg → Bytes → Bytes → Bool

/-- Errors of `verifySignature` (schemev1.go:646-819). -/
inductive SigE where
  | emptySigners        -- :648
  | issuerParse         -- :667
  | noCertificate       -- :683
  | criticalExtension   -- :690
  | contentTypeAttr     -- pkcs7.go:1024-1040 via :728
  | messageDigestAttr   -- pkcs7.go:1024-1040 via :744
  | unsupportedHash     -- :643
  | marshalAttrs        -- :766
  | noValidSigner       -- :784
deriving DecidableEq, Repr

/-- Errors of `verifyManifestEntry` (schemev1.go:588-616) and of its callbacks. -/
inductive EntE where
  | noKnownHashes       -- :591, :605
  | base64              -- :599
  | mainAttrsHash       -- :370
  | wholeHash           -- :387
  | notInManifest       -- :398
  | sectionHash         -- :408
  | openFailed          -- :620
  | fileHash            -- :633
deriving DecidableEq, Repr

/-- Errors of the v1 scheme as a whole. -/
inductive V1E where
  | manifest (e : ME)       -- :194
  | manifestTwice           -- :244
  | sigBlock (name : Bytes) -- :226
  | noManifest              -- :307
  | noSignatures            -- :317
  | downgrade               -- :352
  | mainAttrs (e : EntE)    -- :376
  | noValidChain            -- :427
  | signatureErrors         -- :431, :177
  | tooManySigners          -- :435
  | entryMissing            -- :444
  | noEntry                 -- :475
  | entry (e : EntE)        -- :482
  | notCovered              -- :493
  | mismatched              -- :500
deriving DecidableEq, Repr

/-- The archive as the v1 verifier sees it: `FilesOrdered`, the map `File`, and the order in which `range apk.File` happens
    to enumerate it. -/
structure Zip1 where
  zip : Zip
  keys : List Bytes
  keys_nodup : keys.Nodup
  mem_keys : ∀ k, k ∈ keys ↔ (zip.file k).isSome

/-! ## Strings -/

/-- strings.HasSuffix -/
def hasSuffix (s suf : Bytes) : Bool := decide (suf <:+ s)
/-- strings.HasPrefix -/
def hasPrefix (s pre : Bytes) : Bool := decide (pre <+: s)

/-- strings.Contains -/
def containsB (sub : Bytes) : Bytes → Bool
  | [] => decide (sub = [])
  | c :: s => hasPrefix (c :: s) sub || containsB sub s

/-- strings.Split with a one byte separator. -/
def splitByte (sep : UInt8) : Bytes → List Bytes
  | [] => [[]]
  | c :: s =>
    if c = sep then [] :: splitByte sep s
    else match splitByte sep s with
      | [] => [[c]]
      | t :: ts => (c :: t) :: ts

/-- The UTF-8 encodings of the white space characters (unicode.IsSpace). -/
def spaceRunes : List Bytes :=
  [[9], [10], [11], [12], [13], [32], [0xC2, 0x85], [0xC2, 0xA0], [0xE1, 0x9A, 0x80],
   [0xE2, 0x80, 0x80], [0xE2, 0x80, 0x81], [0xE2, 0x80, 0x82], [0xE2, 0x80, 0x83], [0xE2, 0x80, 0x84], [0xE2, 0x80, 0x85],
   [0xE2, 0x80, 0x86], [0xE2, 0x80, 0x87], [0xE2, 0x80, 0x88], [0xE2, 0x80, 0x89], [0xE2, 0x80, 0x8A],
   [0xE2, 0x80, 0xA8], [0xE2, 0x80, 0xA9], [0xE2, 0x80, 0xAF], [0xE2, 0x81, 0x9F], [0xE3, 0x80, 0x80]]

/-- Remove leading occurrences of the given (non-empty) strings; fuel `length + 1` is never exhausted. -/
def trimLeftOf (runes : List Bytes) : Nat → Bytes → Bytes
  | 0, s => s
  | fuel + 1, s =>
    match runes.find? (fun r => hasPrefix s r) with
    | none => s
    | some r => trimLeftOf runes fuel (s.drop r.length)

/-- strings.TrimSpace -/
def trimSpace (s : Bytes) : Bytes :=
  let l := trimLeftOf spaceRunes (s.length + 1) s
  (trimLeftOf (spaceRunes.map List.reverse) (l.length + 1) l.reverse).reverse

/-- Value of a non-empty string of decimal digits. -/
def digitsVal : Bytes → Option Nat
  | [] => none
  | ds => if ds.all (fun c => decide (48 ≤ c.toNat ∧ c.toNat ≤ 57)) then some (ds.foldl (fun n c => 10 * n + (c.toNat - 48)) 0) else none

/-- strconv.ParseInt(s, 10, 32) -/
def goParseInt32 (s : Bytes) : Option Int :=
  match s with
  | [] => none
  | c :: ds =>
    if c = 45 then (digitsVal ds).bind (fun n => if n ≤ 2147483648 then some (-(n : Int)) else none)
    else (digitsVal (if c = 43 then ds else c :: ds)).bind (fun n => if n < 2147483648 then some (n : Int) else none)

/-- Everything before the last '.' (`name[:strings.LastIndexByte(name, '.')]`); only used on names that have one. -/
def dropExt (name : Bytes) : Bytes := ((name.reverse.dropWhile (fun c => c ≠ 46)).drop 1).reverse

/-- path/filepath.Base on Linux for names that do not end in a slash. -/
def baseName (name : Bytes) : Bytes := (name.reverse.takeWhile (fun c => c ≠ 47)).reverse

/-! ## Loading (schemev1.go:182-321) -/

/-- `schemeV1Signature` (schemev1.go:122-128); file names are only used in error texts. -/
structure Sig1 where
  block : Option P7 := none
  sm : Option Manifest := none
deriving DecidableEq, Repr

/-- schemev1.go:299-303 `signaturePrefix`. -/
def sigPrefix (name : Bytes) : Bytes := dropExt (baseName name)

/-- pkcs7.go:147-174 `Parse`. -/
def p7Parse (env : Env1) (data : Bytes) : Go (Option P7) :=
  if data = [] then .ok none
  else match ber2der data with
    | .error p => .error p
    | .ok (.error _) => .ok none
    | .ok (.ok der) => .ok (env.parseP7 der)

/-- schemev1.go:273-294: the first copy that can be read and parsed. -/
def p7Attempts (env : Env1) : List (Option Bytes) → Go (Option P7)
  | [] => .ok none
  | none :: as => p7Attempts env as
  | some raw :: as =>
    match p7Parse env raw with
    | .error p => .error p
    | .ok none => p7Attempts env as
    | .ok (some b) => .ok (some b)

/-- schemev1.go:264-297 `addSignatureBlock` up to the assignment; `none` is an error. -/
def loadBlock (env : Env1) (f : ZFile) : Go (Option P7) :=
  if f.openOk then p7Attempts env f.attempts else .ok none

/-- State of the first loop of `newSchemeV1` (schemev1.go:183-191). -/
structure Scan where
  manifest : Option Manifest := none
  blocks : List ZFile := []
  sfs : List (Bytes × ZFile) := []

/-- schemev1.go:191-205, the classification of the files under META-INF/. -/
def scanFiles : List ZFile → Scan → Go (Except V1E Scan)
  | [], s => .ok (.ok s)
  | f :: fs, s =>
    if !hasPrefix f.name (b!"META-INF/") then scanFiles fs s
    else if f.name = b!"META-INF/MANIFEST.MF" then
      if s.manifest.isSome then .ok (.error .manifestTwice)
      else match parseManifest f true with
        | .error p => .error p
        | .ok (.error e) => .ok (.error (.manifest e))
        | .ok (.ok m) => scanFiles fs { s with manifest := some m }
    else if hasSuffix f.name (b!".RSA") || hasSuffix f.name (b!".DSA") || hasSuffix f.name (b!".EC") then
      scanFiles fs { s with blocks := s.blocks ++ [f] }
    else if hasSuffix f.name (b!".SF") then
      if (mget s.sfs f.name).isSome then scanFiles fs s else scanFiles fs { s with sfs := mset s.sfs f.name f }
    else scanFiles fs s

/-- schemev1.go:208-234: pairing of signature blocks and signature files. -/
def loadBlocks (env : Env1) : List ZFile → List (Bytes × ZFile) → List (Bytes × Sig1) → Go (Except V1E (List (Bytes × Sig1)))
  | [], _, sigs => .ok (.ok sigs)
  | f :: fs, sfs, sigs =>
    let sfname := dropExt f.name ++ b!".SF"
    match mget sfs sfname with
    | none => loadBlocks env fs sfs sigs
    | some sf =>
      match loadBlock env f with
      | .error p => .error p
      | .ok none => .ok (.error (.sigBlock f.name))
      | .ok (some b) =>
        let s1 := { (mget sigs (sigPrefix f.name)).getD {} with block := some b }
        let sigs := mset sigs (sigPrefix f.name) s1
        match parseManifest sf false with
        | .error p => .error p
        | .ok (.error _) =>
          loadBlocks env fs sfs (mset sigs (sigPrefix sfname) { (mget sigs (sigPrefix sfname)).getD {} with sm := none })
        | .ok (.ok m) =>
          loadBlocks env fs (mdel sfs sfname)
            (mset sigs (sigPrefix sfname) { (mget sigs (sigPrefix sfname)).getD {} with sm := some m })

/-- A signature that has both parts (schemev1.go:310-314). -/
structure Ready where
  name : Bytes
  p7 : P7
  sm : Manifest
deriving DecidableEq, Repr

/-- schemev1.go:310-314: signatures lacking one part are dropped. -/
def readySig : Bytes × Sig1 → Option Ready
  | (n, ⟨some p, some m⟩) => some ⟨n, p, m⟩
  | _ => none

/-- schemev1.go:177-240 `newSchemeV1`: the main manifest and the signatures. -/
def newSchemeV1 (env : Env1) (z : Zip1) : Go (Except V1E (Manifest × List Ready)) :=
  match scanFiles z.zip.ordered {} with
  | .error p => .error p
  | .ok (.error e) => .ok (.error e)
  | .ok (.ok s) =>
    match loadBlocks env s.blocks s.sfs [] with
    | .error p => .error p
    | .ok (.error e) => .ok (.error e)
    | .ok (.ok sigs) =>
      match s.manifest with
      | none => .ok (.error .noManifest)
      | some m =>
        if sigs.filterMap readySig = [] then .ok (.error .noSignatures) else .ok (.ok (m, sigs.filterMap readySig))

/-! ## Digests of manifest entries (schemev1.go:552-634) -/

/-- schemev1.go:45-50 `digestHashers`. -/
def hasherOf (env : Env1) (algo : Bytes) : Option (Bytes → Bytes) :=
  if algo = b!"sha-512" then some env.sha512
  else if algo = b!"sha-384" then some env.sha384
  else if algo = b!"sha-256" then some env.sha256
  else if algo = b!"sha1" then some env.sha1
  else none

/-- schemev1.go:39-44 `digestAlgorithms`. -/
def digestAlgorithms : List Bytes := [b!"sha-512", b!"sha-384", b!"sha-256", b!"sha1"]

/-- schemev1.go:552-586 `getDigestsToVerify`. -/
def digestsToVerify (env : Env1) (entry : Attrs) (suffix : Bytes) (minSdk maxSdk : Int) : List Bytes :=
  let old :=
    if minSdk < 18 then
      let algs := env.toLower ((mget entry (b!"digest-algorithms")).getD [])
      let algs := if algs = [] then b!"sha sha1" else algs
      (splitByte 32 algs).filter (fun a =>
        (decide (minSdk ≥ 9) || (decide (a ≠ b!"sha-384") && decide (a ≠ b!"sha-512"))) && (mget entry (a ++ suffix)).isSome)
    else []
  let new :=
    if maxSdk ≥ 18 then (digestAlgorithms.find? (fun a => (mget entry (a ++ suffix)).isSome)).toList else []
  old ++ new

/-- schemev1.go:594-615, the loop over the algorithms; `verify` gets the expected digest and the hash function. -/
def verifyDigests (env : Env1) (entry : Attrs) (suffix : Bytes) (verify : Bytes → (Bytes → Bytes) → Option EntE) :
    List Bytes → Option EntE
  | [] => none
  | a :: as =>
    match env.base64 ((mget entry (a ++ suffix)).getD []) with
    | none => some .base64
    | some h =>
      match hasherOf env a with
      | none => some .noKnownHashes
      | some f =>
        match verify h f with
        | some e => some e
        | none => verifyDigests env entry suffix verify as

/-- schemev1.go:588-616 `verifyManifestEntry`. -/
def verifyEntry (env : Env1) (entry : Attrs) (suffix : Bytes) (minSdk maxSdk : Int)
    (verify : Bytes → (Bytes → Bytes) → Option EntE) : Option EntE :=
  if digestsToVerify env entry suffix minSdk maxSdk = [] then some .noKnownHashes
  else verifyDigests env entry suffix verify (digestsToVerify env entry suffix minSdk maxSdk)

/-- schemev1.go:618-634 `verifyFileHash`: some readable copy has the digest. -/
def verifyFileHash (f : ZFile) (h : Bytes) (hash : Bytes → Bytes) : Option EntE :=
  if !f.openOk then some .openFailed
  else if f.attempts.any (fun a => match a with | none => false | some d => decide (hash d = h)) then none
  else some .fileHash

/-! ## The PKCS#7 signature (schemev1.go:636-909) -/

/-- schemev1.go:66-118 `oidToAlgo`, keyed by the two object identifiers instead of their texts joined with a space
    (an empty identifier prints as the empty text). -/
def oidToAlgo : List ((List Nat × List Nat) × SigAlg) :=
  [ (([], [1,2,840,113549,1,1,2]), .md2Rsa),
    (([1,3,14,3,2,24], [1,2,840,113549,1,1,2]), .md2Rsa),
    (([1,2,840,113549,2,2], [1,2,840,113549,1,1,1]), .md2Rsa),
    (([], [1,2,840,113549,1,1,4]), .md5Rsa),
    (([1,3,14,3,2,25], [1,2,840,113549,1,1,4]), .md5Rsa),
    (([1,3,14,3,2,3], [1,2,840,113549,1,1,4]), .md5Rsa),
    (([1,2,840,113549,2,5], [1,2,840,113549,1,1,1]), .md5Rsa),
    (([1,2,840,113549,2,5], [1,2,840,113549,1,1,4]), .md5Rsa),
    (([], [1,2,840,113549,1,1,5]), .sha1Rsa),
    (([1,3,14,3,2,26], [1,2,840,113549,1,1,1]), .sha1Rsa),
    (([1,3,14,3,2,29], [1,2,840,113549,1,1,1]), .sha1Rsa),
    (([1,3,14,3,2,26], [1,2,840,113549,1,1,5]), .sha1Rsa),
    (([2,16,840,1,101,3,4,2,4], [1,2,840,113549,1,1,1]), .sha224Rsa),
    (([2,16,840,1,101,3,4,2,4], [1,2,840,113549,1,1,14]), .sha224Rsa),
    (([2,16,840,1,101,3,4,2,1], [1,2,840,113549,1,1,1]), .sha256Rsa),
    (([2,16,840,1,101,3,4,2,1], [1,2,840,113549,1,1,11]), .sha256Rsa),
    (([2,16,840,1,101,3,4,2,2], [1,2,840,113549,1,1,1]), .sha384Rsa),
    (([2,16,840,1,101,3,4,2,2], [1,2,840,113549,1,1,12]), .sha384Rsa),
    (([2,16,840,1,101,3,4,2,3], [1,2,840,113549,1,1,1]), .sha512Rsa),
    (([2,16,840,1,101,3,4,2,3], [1,2,840,113549,1,1,13]), .sha512Rsa),
    (([1,3,14,3,2,26], [1,2,840,10040,4,1]), .dsaSha1),
    (([], [1,2,840,10040,4,3]), .dsaSha1),
    (([1,3,14,3,2,26], [1,2,840,10040,4,3]), .dsaSha1),
    (([2,16,840,1,101,3,4,2,4], [1,2,840,10040,4,1]), .dsaSha224),
    (([2,16,840,1,101,3,4,2,4], [2,16,840,1,101,3,4,3,1]), .dsaSha224),
    (([2,16,840,1,101,3,4,2,1], [1,2,840,10040,4,1]), .dsaSha256),
    (([2,16,840,1,101,3,4,2,1], [2,16,840,1,101,3,4,3,2]), .dsaSha256),
    (([1,3,14,3,2,26], [1,2,840,10045,2,1]), .ecdsaSha1),
    (([1,3,14,3,2,26], [1,2,840,10045,4,1]), .ecdsaSha1),
    (([2,16,840,1,101,3,4,2,4], [1,2,840,10045,2,1]), .ecdsaSha224),
    (([2,16,840,1,101,3,4,2,4], [1,2,840,10045,4,3,1]), .ecdsaSha224),
    (([2,16,840,1,101,3,4,2,1], [1,2,840,10045,2,1]), .ecdsaSha256),
    (([2,16,840,1,101,3,4,2,1], [1,2,840,10045,4,3,2]), .ecdsaSha256),
    (([2,16,840,1,101,3,4,2,2], [1,2,840,10045,2,1]), .ecdsaSha384),
    (([2,16,840,1,101,3,4,2,2], [1,2,840,10045,4,3,3]), .ecdsaSha384),
    (([2,16,840,1,101,3,4,2,3], [1,2,840,10045,2,1]), .ecdsaSha512),
    (([2,16,840,1,101,3,4,2,3], [1,2,840,10045,4,3,4]), .ecdsaSha512) ]

/-- schemev1.go:636-644 `getHashForOID`. -/
def hashForOid (env : Env1) (oid : List Nat) : Option (Bytes → Bytes) :=
  if oid = [1,3,14,3,2,26] then some env.sha1
  else if oid = [2,16,840,1,101,3,4,2,1] then some env.sha256
  else none

/-- pkcs7.go:1021-1040 `UnmarshalSignedAttribute`: the attribute must occur exactly once and parse. `found` is the value
    parsed so far. -/
def signedAttr {α : Type} (unm : Bytes → Option α) (oid : List Nat) : List P7Attr → Option α → Option α
  | [], found => found
  | a :: as, found =>
    if a.type = oid then
      match found with
      | some _ => none
      | none =>
        match unm a.value with
        | none => none
        | some v => signedAttr unm oid as (some v)
    else signedAttr unm oid as found

/-- The result of asn1 decoding a DSA or ECDSA signature value, with the checks of schemev1.go:865-872 and :892-899. -/
def rsOf (env : Env1) (signature : Bytes) : Option (Int × Int) :=
  match env.asn1AndrRS signature with
  | none => none
  | some (r, s, rest) => if rest ≠ [] then none else if r ≤ 0 ∨ s ≤ 0 then none else some (r, s)

/-- schemev1.go:828-833: an RSA signature shorter than the modulus is padded with zero bytes on the left. -/
def padSig (key : PubKey) (signature : Bytes) : Bytes :=
  if key.kind = .rsa then List.replicate ((key.qBits + 7) / 8 - signature.length) 0 ++ signature else signature

/-- schemev1.go:843-878, DSA with one of the three hashes: the type assertion panics on another key type. -/
def checkDsa (env : Env1) (cert : Cert) (hash signature : Bytes) : Go Bool :=
  if cert.key.kind ≠ .dsa then .error .typeAssertion
  else match rsOf env signature with
    | none => .ok false
    | some (r, s) => .ok (env.dsaVerify cert.key (hash.take (cert.key.qBits / 8)) r s)

/-- schemev1.go:826-909 `checkSignature`; `true` is a nil error. -/
def checkSignature1 (env : Env1) (cert : Cert) (algo : SigAlg) (signed sig0 : Bytes) : Go Bool :=
  let signature := padSig cert.key sig0
  match algo with
  | .md5Rsa => .ok (decide (cert.key.kind = .rsa) && env.rsaPkcs1 5 cert.key (env.md5 signed) signature)
  | .sha224Rsa => .ok (decide (cert.key.kind = .rsa) && env.rsaPkcs1 224 cert.key (env.sha224 signed) signature)
  | .dsaSha1 => checkDsa env cert (env.sha1 signed) signature
  | .dsaSha224 => checkDsa env cert (env.sha224 signed) signature
  | .dsaSha256 => checkDsa env cert (env.sha256 signed) signature
  | .ecdsaSha224 =>
    .ok (decide (cert.key.kind = .ecdsa) &&
      match rsOf env signature with
      | none => false
      | some (r, s) => env.ecdsaVerify cert.key (env.sha224 signed) r s)
  | a => .ok (env.checkSig cert a signed signature)

/-- schemev1.go:725-738: the content type attribute must match; it is only looked at from Android 7. -/
def contentTypeOk (env : Env1) (p7 : P7) (maxSdk : Int) (info : P7Signer) : Except SigE Bool :=
  if maxSdk ≥ 24 then
    match signedAttr env.unmOid [1,2,840,113549,1,9,3] info.attrs none with
    | none => .error .contentTypeAttr
    | some t => .ok (decide (t = p7.contentType))
  else .ok true

/-- schemev1.go:700-771: the data the signature covers. Outcomes: `error` stops the whole verification, `ok none` only this
    signer info. -/
def signedDataOf (env : Env1) (p7 : P7) (sf : Bytes) (maxSdk : Int) (info : P7Signer) : Except SigE (Option Bytes) :=
  if info.attrs = [] then .ok (some sf)
  else
    match contentTypeOk env p7 maxSdk info with
    | .error e => .error e
    | .ok false => .ok none
    | .ok true =>
      match signedAttr env.unmOctets [1,2,840,113549,1,9,4] info.attrs none with
      | none => .error .messageDigestAttr
      | some digest =>
        match hashForOid env info.digestAlg with
        | none => .error .unsupportedHash
        | some h =>
          if digest ≠ h sf then .ok none
          else match env.marshalAttrs info.attrs with
            | none => .error .marshalAttrs
            | some d => .ok (some d)

/-- schemev1.go:665-684: the first certificate with the issuer and serial number of the signer info. -/
def certFor (env : Env1) (p7 : P7) (issuer : PName) (serial : Int) : Option Cert :=
  p7.certs.find? (fun c => decide (serial = c.serial) && decide (canonical env.toLower issuer = canonical env.toLower c.issuer))

/-- schemev1.go:662-781, the loop over the signer infos. The error carries the certificate returned along with it. -/
def signerLoop (env : Env1) (p7 : P7) (sf : Bytes) (maxSdk : Int) :
    List P7Signer → Option Cert → Go (Except (Option Cert × SigE) (Option Cert))
  | [], first => .ok (.ok first)
  | info :: infos, first =>
    match env.parseRdns info.issuer with
    | none => .ok (.error (none, .issuerParse))
    | some rdns =>
      match certFor env p7 (fillName rdns) info.serial with
      | none => .ok (.error (none, .noCertificate))
      | some cert =>
        if cert.critExt then .ok (.error (some cert, .criticalExtension))
        else match mget oidToAlgo (info.digestAlg, info.encAlg) with
          | none => .error .explicit
          | some algo =>
            match signedDataOf env p7 sf maxSdk info with
            | .error e => .ok (.error (some cert, e))
            | .ok none => signerLoop env p7 sf maxSdk infos first
            | .ok (some d) =>
              match checkSignature1 env cert algo d info.encDigest with
              | .error p => .error p
              | .ok false => signerLoop env p7 sf maxSdk infos first
              | .ok true => signerLoop env p7 sf maxSdk infos (some (first.getD cert))

/-- schemev1.go:793-817, the chain building loop; fuel `certs.length` is never exhausted (`chainLoop_fuel`). -/
def chainLoop (env : Env1) (certs : List Cert) : Nat → Bytes → List Cert → List Cert
  | 0, _, chain => chain
  | fuel + 1, issuer, chain =>
    match certs.find? (fun c => decide (issuer = canonical env.toLower c.subject)) with
    | none => chain
    | some c =>
      if (chain ++ [c]).length > certs.length then chain ++ [c]
      else if canonical env.toLower c.issuer = canonical env.toLower c.subject then chain ++ [c]
      else chainLoop env certs fuel (canonical env.toLower c.issuer) (chain ++ [c])

/-- schemev1.go:787-818: the certificate chain of the signer. -/
def buildChain (env : Env1) (certs : List Cert) (leaf : Cert) : List Cert :=
  if canonical env.toLower leaf.issuer = canonical env.toLower leaf.subject then [leaf]
  else chainLoop env certs (certs.length + 1) (canonical env.toLower leaf.issuer) [leaf]

/-- schemev1.go:646-819 `verifySignature`: the chain (`none` is nil) and the error. -/
def verifySignature1 (env : Env1) (p7 : P7) (sf : Bytes) (minSdk maxSdk : Int) : Go (Option (List Cert) × Option SigE) :=
  if p7.signers = [] then .ok (none, some .emptySigners)
  else match signerLoop env p7 sf maxSdk (if minSdk < 24 then p7.signers.take 1 else p7.signers) none with
    | .error p => .error p
    | .ok (.error (c, e)) => .ok (c.map (fun x => [x]), some e)
    | .ok (.ok none) => .ok (none, some .noValidSigner)
    | .ok (.ok (some leaf)) => .ok (some (buildChain env p7.certs leaf), none)

/-! ## Verification (schemev1.go:323-504) -/

/-- A signature accepted by the first loop. -/
structure Valid where
  sig : Ready
  chain : List Cert
deriving DecidableEq, Repr

/-- The orders in which Go happens to enumerate the maps: `p.sigs` (:327), the entries of a signature file (:394), the
    entries of the main manifest (:442) and, for each required file, the accepted signatures (:486). -/
structure Ord1 where
  sigs : List Ready → List Ready
  sigs_perm : ∀ l, (sigs l).Perm l
  sfEntries : Bytes → List (Bytes × Attrs) → List (Bytes × Attrs)
  sfEntries_perm : ∀ n l, (sfEntries n l).Perm l
  mfEntries : List (Bytes × Attrs) → List (Bytes × Attrs)
  mfEntries_perm : ∀ l, (mfEntries l).Perm l
  cover : Bytes → List Valid → List Valid
  cover_perm : ∀ p l, (cover p l).Perm l

/-- schemev1.go:338-358: the list of scheme ids contains 2. -/
def listsScheme2 (idList : Bytes) : Bool :=
  (splitByte 44 idList).any (fun tok => decide (goParseInt32 (trimSpace tok) = some 2))

/-- schemev1.go:338: the downgrade check. -/
def downgraded (sm : Manifest) (hasBlock : Bool) (maxSdk : Int) : Bool :=
  match mget sm.main (b!"x-android-apk-signed") with
  | none => false
  | some idList => !hasBlock && supportsSigV2 maxSdk && listsScheme2 idList

/-- schemev1.go:364 `createdBySigntool`. -/
def signtoolFlag (sm : Manifest) : Bool := containsB (b!"signtool") ((mget sm.main (b!"created-by")).getD [])

/-- schemev1.go:366-378: the digest of the main attributes of the manifest; an error here ends the verification. -/
def checkMainAttrs (env : Env1) (mf : Manifest) (sm : Manifest) (signtool : Bool) (minSdk maxSdk : Int) : Option EntE :=
  if 0 < sm.mainEnd ∧ signtool = false then
    match verifyEntry env sm.main (b!"-digest-manifest-main-attributes") minSdk maxSdk
        (fun h hash => if h = hash (mf.rawData.take mf.mainEnd) then none else some .mainAttrsHash) with
    | some .noKnownHashes => none
    | r => r
  else none

/-- schemev1.go:394-415: the digest of one section of the manifest, as listed in the signature file. -/
def checkSection (env : Env1) (mf : Manifest) (signtool : Bool) (minSdk maxSdk : Int) (e : Bytes × Attrs) : Option EntE :=
  verifyEntry env e.2 (b!"-digest") minSdk maxSdk (fun h hash =>
    match mget mf.chunks e.1 with
    | none => some .notInManifest
    | some data =>
      if h = hash (if signtool && hasSuffix data [10, 10] then data.dropLast else data) then none else some .sectionHash)

/-- schemev1.go:380-421: the signature file covers the manifest as a whole, or every section it lists. -/
def coversManifest (env : Env1) (ord : Ord1) (mf : Manifest) (name : Bytes) (sm : Manifest) (signtool : Bool)
    (minSdk maxSdk : Int) : Bool :=
  match verifyEntry env sm.main (if signtool then b!"-digest" else b!"-digest-manifest") minSdk maxSdk
      (fun h hash => if h = hash mf.rawData then none else some .wholeHash) with
  | none => true
  | some _ =>
    decide (sm.entries ≠ []) &&
      (ord.sfEntries name sm.entries).all (fun e => (checkSection env mf signtool minSdk maxSdk e).isNone)

/-- State of the first loop of `verify`. -/
structure VState where
  chain : List (List Cert) := []
  valid : List Valid := []
  sigErr : Bool := false
deriving DecidableEq, Repr

/-- schemev1.go:327-422, the loop over the signatures. The error carries the chains collected so far. -/
def verifyLoop (env : Env1) (ord : Ord1) (mf : Manifest) (hasBlock : Bool) (minSdk maxSdk : Int) :
    List Ready → VState → Go (Except (List (List Cert) × V1E) VState)
  | [], st => .ok (.ok st)
  | s :: ss, st =>
    match verifySignature1 env s.p7 s.sm.rawData minSdk maxSdk with
    | .error p => .error p
    | .ok (c, some _) =>
      verifyLoop env ord mf hasBlock minSdk maxSdk ss { st with chain := st.chain ++ c.toList, sigErr := true }
    | .ok (c, none) =>
      let st := { st with chain := st.chain ++ c.toList }
      if downgraded s.sm hasBlock maxSdk then .ok (.error (st.chain, .downgrade))
      else if (mget s.sm.main (b!"signature-version")).isNone then verifyLoop env ord mf hasBlock minSdk maxSdk ss st
      else
        match checkMainAttrs env mf s.sm (signtoolFlag s.sm) minSdk maxSdk with
        | some e => .ok (.error (st.chain, .mainAttrs e))
        | none =>
          if coversManifest env ord mf s.name s.sm (signtoolFlag s.sm) minSdk maxSdk then
            verifyLoop env ord mf hasBlock minSdk maxSdk ss { st with valid := st.valid ++ [⟨s, c.getD []⟩] }
          else verifyLoop env ord mf hasBlock minSdk maxSdk ss st

/-- schemev1.go:539-550 `chainEqual`; `Certificate.Equal` compares the raw bytes. -/
def chainEqual : List Cert → List Cert → Bool
  | [], [] => true
  | a :: as, b :: bs => decide (a.raw = b.raw) && chainEqual as bs
  | _, _ => false

/-- schemev1.go:506-537 `certChainsMatch`. -/
def certChainsMatch (a b : List (List Cert)) : Bool :=
  decide (a.length = b.length) && a.all (fun ca => b.any (fun cb => chainEqual ca cb)) &&
    b.all (fun cb => a.any (fun ca => chainEqual ca cb))

/-- `apk.File` has a regular file of that name (schemev1.go:451-454). -/
def isFile (z : Zip) (k : Bytes) : Bool := match z.file k with | none => false | some f => !f.isDir

/-- schemev1.go:448-469: the paths that must be covered, in the order of the enumeration. -/
def requiredPaths (z : Zip1) : List Bytes :=
  let files := z.keys.filter (fun k => isFile z.zip k && decide (k ≠ b!"AndroidManifest.xml") && !hasPrefix k (b!"META-INF/"))
  if !isFile z.zip (b!"AndroidManifest.xml") && !isFile z.zip (b!"BundleConfig.pb") then files ++ [b!"AndroidManifest.xml"] else files

/-- schemev1.go:471-503, the loop over the required paths. `set` is `p.chain` once assigned. -/
def coverLoop (env : Env1) (ord : Ord1) (z : Zip1) (mf : Manifest) (valid : List Valid) (minSdk maxSdk : Int)
    (chain0 : List (List Cert)) : List Bytes → Option (List (List Cert)) → Go (List (List Cert) × Option V1E)
  | [], set => .ok (set.getD chain0, none)
  | path :: paths, set =>
    match mget mf.entries path with
    | none => .ok (set.getD chain0, some .noEntry)
    | some attrs =>
      match z.zip.file path with
      | none => .error .nilDeref
      | some f =>
        match verifyEntry env attrs (b!"-digest") minSdk maxSdk (verifyFileHash f) with
        | some e => .ok (set.getD chain0, some (.entry e))
        | none =>
          let chains := ((ord.cover path valid).filter (fun v => (mget v.sig.sm.entries path).isSome)).map (·.chain)
          if chains = [] then .ok (set.getD chain0, some .notCovered)
          else match set with
            | none => coverLoop env ord z mf valid minSdk maxSdk chain0 paths (some chains)
            | some c =>
              if certChainsMatch c chains then coverLoop env ord z mf valid minSdk maxSdk chain0 paths (some c)
              else .ok (c, some .mismatched)

/-- schemev1.go:441-504 `verifyMainManifest`. -/
def verifyMainManifest (env : Env1) (ord : Ord1) (z : Zip1) (mf : Manifest) (valid : List Valid) (minSdk maxSdk : Int)
    (chain0 : List (List Cert)) : Go (List (List Cert) × Option V1E) :=
  if (ord.mfEntries mf.entries).any (fun e => (z.zip.file e.1).isNone) then .ok (chain0, some .entryMissing)
  else coverLoop env ord z mf valid minSdk maxSdk chain0 (requiredPaths z) none

/-- schemev1.go:323-439 `verify`. -/
def verifyV1Loaded (env : Env1) (ord : Ord1) (z : Zip1) (mf : Manifest) (sigs : List Ready) (hasBlock : Bool)
    (minSdk maxSdk : Int) : Go (List (List Cert) × Option V1E) :=
  match verifyLoop env ord mf hasBlock minSdk maxSdk (ord.sigs sigs) {} with
  | .error p => .error p
  | .ok (.error (c, e)) => .ok (c, some e)
  | .ok (.ok st) =>
    if st.valid = [] then .ok (st.chain, some .noValidChain)
    else if st.sigErr then .ok (st.chain, some .signatureErrors)
    else if st.chain.length > 10 then .ok (st.chain, some .tooManySigners)
    else verifyMainManifest env ord z mf st.valid minSdk maxSdk st.chain

/-- schemev1.go:144-152 `verifySchemeV1`: the certificate chains and the error. -/
def verifySchemeV1 (env : Env1) (ord : Ord1) (z : Zip1) (hasBlock : Bool) (minSdk maxSdk : Int) :
    Go (List (List Cert) × Option V1E) :=
  match newSchemeV1 env z with
  | .error p => .error p
  | .ok (.error e) => .ok ([], some e)
  | .ok (.ok (mf, sigs)) => verifyV1Loaded env ord z mf sigs hasBlock minSdk maxSdk

/-- schemev1.go:165-174, the loop of `extractCertsSchemeV1`: chains and whether an error occurred. -/
def extractLoop (env : Env1) (minSdk maxSdk : Int) : List Ready → List (List Cert) × Bool → Go (List (List Cert) × Bool)
  | [], st => .ok st
  | s :: ss, st =>
    match verifySignature1 env s.p7 s.sm.rawData minSdk maxSdk with
    | .error p => .error p
    | .ok (c, e) => extractLoop env minSdk maxSdk ss (st.1 ++ c.toList, st.2 || e.isSome)

/-- schemev1.go:154-175 `extractCertsSchemeV1`. -/
def extractCertsV1 (env : Env1) (ord : Ord1) (z : Zip1) (minSdk maxSdk : Int) : Go (List (List Cert) × Option V1E) :=
  match newSchemeV1 env z with
  | .error p => .error p
  | .ok (.error e) => .ok ([], some e)
  | .ok (.ok (_, sigs)) =>
    match extractLoop env minSdk maxSdk (ord.sigs sigs) ([], false) with
    | .error p => .error p
    | .ok (c, bad) => .ok (c, if bad then some .signatureErrors else none)

end Apk
