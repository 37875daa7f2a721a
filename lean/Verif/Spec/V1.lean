import Verif.Model.V1
/-! # Specification of the v1 (JAR) scheme: what an accepted archive must satisfy, independent of the verifier's loops -/
namespace Apk

/-! ## Texts -/

/-- `t` is one of the pieces of `l` between separators. -/
def Token (sep : UInt8) (l t : Bytes) : Prop :=
  ∃ pre post, l = pre ++ t ++ post ∧ sep ∉ t ∧ (pre = [] ∨ pre.getLast? = some sep) ∧ (post = [] ∨ post.head? = some sep)

/-- The characters with the Unicode property White_Space. -/
def whiteChars : List Char :=
  ['\x09', '\x0A', '\x0B', '\x0C', '\x0D', '\x20', '\u0085', '\u00A0', '\u1680', '\u2000', '\u2001', '\u2002', '\u2003', '\u2004', '\u2005',
   '\u2006', '\u2007', '\u2008', '\u2009', '\u200A', '\u2028', '\u2029', '\u202F', '\u205F', '\u3000']

/-- A sequence of white space characters, in UTF-8 (`String.utf8EncodeChar` is Lean's encoding of one character). -/
inductive WhiteSpace : Bytes → Prop
  | nil : WhiteSpace []
  | cons {c : Char} {w : Bytes} : c ∈ whiteChars → WhiteSpace w → WhiteSpace (String.utf8EncodeChar c ++ w)

/-- The comma separated list contains the number 2: a piece that is, up to surrounding white space, an optional plus sign,
    zeros and the digit 2. -/
def ListsTwo (l : Bytes) : Prop :=
  ∃ t, Token 44 l t ∧ ∃ w1 sign zeros w2, WhiteSpace w1 ∧ WhiteSpace w2 ∧ (sign = [] ∨ sign = [43]) ∧ (∀ c ∈ zeros, c = 48) ∧
    t = w1 ++ sign ++ zeros ++ [50] ++ w2

/-! ## Digests of manifest entries -/

/-- The digest algorithms of JAR manifests that are supported, strongest first. -/
inductive JarAlg where
  | sha512 | sha384 | sha256 | sha1
deriving DecidableEq, Repr

/-- Name of the algorithm in attribute names. -/
def JarAlg.name : JarAlg → Bytes
  | .sha512 => b!"sha-512"
  | .sha384 => b!"sha-384"
  | .sha256 => b!"sha-256"
  | .sha1 => b!"sha1"

/-- The hash function. -/
def JarAlg.hash (env : Env1) : JarAlg → Bytes → Bytes
  | .sha512 => env.sha512
  | .sha384 => env.sha384
  | .sha256 => env.sha256
  | .sha1 => env.sha1

/-- Rank by strength. -/
def JarAlg.rank : JarAlg → Nat
  | .sha512 => 4
  | .sha384 => 3
  | .sha256 => 2
  | .sha1 => 1

/-- The attributes contain a digest for the algorithm named `n`. -/
def HasDigest (attrs : Attrs) (suffix n : Bytes) : Prop := ∃ v, mget attrs (n ++ suffix) = some v

/-- The attributes contain the digest `h` for the algorithm `a`. -/
def DigestAttr (env : Env1) (attrs : Attrs) (suffix : Bytes) (a : JarAlg) (h : Bytes) : Prop :=
  ∃ v, mget attrs (a.name ++ suffix) = some v ∧ env.base64 v = some h

/-- The value of the `Digest-Algorithms` attribute in lower case, `sha sha1` when empty or absent. -/
def listedAlgs (env : Env1) (attrs : Attrs) : Bytes :=
  let l := env.toLower ((mget attrs (b!"digest-algorithms")).getD [])
  if l = [] then b!"sha sha1" else l

/-- The digests that the platforms `minSdk … maxSdk` would check: since API level 18 the strongest one present; before it
    those listed in `Digest-Algorithms` (without SHA-384 and SHA-512 before level 9). -/
inductive Checked (env : Env1) (attrs : Attrs) (suffix : Bytes) (minSdk maxSdk : Int) : Bytes → Prop
  | strongest (a : JarAlg) : 18 ≤ maxSdk → HasDigest attrs suffix a.name →
      (∀ b : JarAlg, a.rank < b.rank → ¬ HasDigest attrs suffix b.name) → Checked env attrs suffix minSdk maxSdk a.name
  | listed (n : Bytes) : minSdk < 18 → Token 32 (listedAlgs env attrs) n → HasDigest attrs suffix n →
      (9 ≤ minSdk ∨ (n ≠ JarAlg.name .sha384 ∧ n ≠ JarAlg.name .sha512)) → Checked env attrs suffix minSdk maxSdk n

/-- All digests that must be checked are of known algorithms and satisfy `P`, and there is at least one. -/
def EntryOk (env : Env1) (attrs : Attrs) (suffix : Bytes) (minSdk maxSdk : Int) (P : JarAlg → Bytes → Prop) : Prop :=
  (∃ n, Checked env attrs suffix minSdk maxSdk n) ∧
    ∀ n, Checked env attrs suffix minSdk maxSdk n → ∃ a h, JarAlg.name a = n ∧ DigestAttr env attrs suffix a h ∧ P a h

/-- `d` is the contents of a readable copy of the file. -/
def Copy (f : ZFile) (d : Bytes) : Prop := f.openOk = true ∧ some d ∈ f.attempts

/-! ## Signatures -/

/-- The attribute `oid` occurs exactly once and its value decodes to `v`. -/
def OnlyAttr {α : Type} (unm : Bytes → Option α) (oid : List Nat) (attrs : List P7Attr) (v : α) : Prop :=
  ∃ pre a post, attrs = pre ++ a :: post ∧ a.type = oid ∧ (∀ x ∈ pre ++ post, x.type ≠ oid) ∧ unm a.value = some v

/-- The hash functions allowed for the message digest attribute, by object identifier. -/
inductive AttrHash (env : Env1) : List Nat → (Bytes → Bytes) → Prop
  | sha1 : AttrHash env [1,3,14,3,2,26] env.sha1
  | sha256 : AttrHash env [2,16,840,1,101,3,4,2,1] env.sha256

/-- `d` is what the signature of `info` is computed over when it signs the signature file `sf`: the file itself, or the
    signed attributes, which then contain the digest of the file. -/
inductive Signs (env : Env1) (p7 : P7) (sf : Bytes) (maxSdk : Int) (info : P7Signer) : Bytes → Prop
  | direct : info.attrs = [] → Signs env p7 sf maxSdk info sf
  | attributes {d : Bytes} {h : Bytes → Bytes} : info.attrs ≠ [] →
      (24 ≤ maxSdk → OnlyAttr env.unmOid [1,2,840,113549,1,9,3] info.attrs p7.contentType) →
      AttrHash env info.digestAlg h → OnlyAttr env.unmOctets [1,2,840,113549,1,9,4] info.attrs (h sf) →
      env.marshalAttrs info.attrs = some d → Signs env p7 sf maxSdk info d

/-- An RSA signature with leading zero bytes up to the length of the modulus; other signatures are unchanged. -/
def PaddedSig (key : PubKey) (sig s : Bytes) : Prop :=
  (key.kind ≠ .rsa ∧ s = sig) ∨
  (key.kind = .rsa ∧ ∃ z, s = z ++ sig ∧ (∀ c ∈ z, c = 0) ∧ z.length = (key.qBits + 7) / 8 - sig.length)

/-- A DSA or ECDSA signature value: two positive integers, nothing after them. -/
def SigPair (env : Env1) (s : Bytes) (r q : Int) : Prop := env.asn1AndrRS s = some (r, q, []) ∧ 0 < r ∧ 0 < q

/-- The signature `sig` over `d` verifies under the key of the certificate. -/
inductive JarSigValid (env : Env1) (cert : Cert) (d sig : Bytes) : SigAlg → Prop
  | md5 {s} : PaddedSig cert.key sig s → cert.key.kind = .rsa → env.rsaPkcs1 5 cert.key (env.md5 d) s = true →
      JarSigValid env cert d sig .md5Rsa
  | sha224 {s} : PaddedSig cert.key sig s → cert.key.kind = .rsa → env.rsaPkcs1 224 cert.key (env.sha224 d) s = true →
      JarSigValid env cert d sig .sha224Rsa
  | dsa1 {r q} : cert.key.kind = .dsa → SigPair env sig r q →
      env.dsaVerify cert.key ((env.sha1 d).take (cert.key.qBits / 8)) r q = true → JarSigValid env cert d sig .dsaSha1
  | dsa224 {r q} : cert.key.kind = .dsa → SigPair env sig r q →
      env.dsaVerify cert.key ((env.sha224 d).take (cert.key.qBits / 8)) r q = true → JarSigValid env cert d sig .dsaSha224
  | dsa256 {r q} : cert.key.kind = .dsa → SigPair env sig r q →
      env.dsaVerify cert.key ((env.sha256 d).take (cert.key.qBits / 8)) r q = true → JarSigValid env cert d sig .dsaSha256
  | ecdsa224 {r q} : cert.key.kind = .ecdsa → SigPair env sig r q →
      env.ecdsaVerify cert.key (env.sha224 d) r q = true → JarSigValid env cert d sig .ecdsaSha224
  | std {a s} : a ∉ [SigAlg.md5Rsa, .sha224Rsa, .dsaSha1, .dsaSha224, .dsaSha256, .ecdsaSha224] →
      PaddedSig cert.key sig s → env.checkSig cert a d s = true → JarSigValid env cert d sig a

/-- Two names are the same for the verifier. -/
def SameName (env : Env1) (a b : PName) : Prop := canonical env.toLower a = canonical env.toLower b

/-- The hash functions of signature algorithms. -/
inductive HashName where
  | md2 | md5 | sha1 | sha224 | sha256 | sha384 | sha512
deriving DecidableEq, Repr

/-- Hash function and kind of key of a signature algorithm. -/
inductive AlgParts : SigAlg → HashName → KeyKind → Prop
  | md2Rsa : AlgParts .md2Rsa .md2 .rsa
  | md5Rsa : AlgParts .md5Rsa .md5 .rsa
  | sha1Rsa : AlgParts .sha1Rsa .sha1 .rsa
  | sha224Rsa : AlgParts .sha224Rsa .sha224 .rsa
  | sha256Rsa : AlgParts .sha256Rsa .sha256 .rsa
  | sha384Rsa : AlgParts .sha384Rsa .sha384 .rsa
  | sha512Rsa : AlgParts .sha512Rsa .sha512 .rsa
  | dsaSha1 : AlgParts .dsaSha1 .sha1 .dsa
  | dsaSha224 : AlgParts .dsaSha224 .sha224 .dsa
  | dsaSha256 : AlgParts .dsaSha256 .sha256 .dsa
  | ecdsaSha1 : AlgParts .ecdsaSha1 .sha1 .ecdsa
  | ecdsaSha224 : AlgParts .ecdsaSha224 .sha224 .ecdsa
  | ecdsaSha256 : AlgParts .ecdsaSha256 .sha256 .ecdsa
  | ecdsaSha384 : AlgParts .ecdsaSha384 .sha384 .ecdsa
  | ecdsaSha512 : AlgParts .ecdsaSha512 .sha512 .ecdsa

/-- Object identifiers of hash functions (RSA DSI digestAlgorithm, OIW, NIST hashAlgs). -/
def HashName.oid : HashName → List Nat
  | .md2 => [1,2,840,113549,2,2]
  | .md5 => [1,2,840,113549,2,5]
  | .sha1 => [1,3,14,3,2,26]
  | .sha256 => [2,16,840,1,101,3,4,2,1]
  | .sha384 => [2,16,840,1,101,3,4,2,2]
  | .sha512 => [2,16,840,1,101,3,4,2,3]
  | .sha224 => [2,16,840,1,101,3,4,2,4]

/-- Object identifiers of keys: rsaEncryption, id-dsa, id-ecPublicKey. -/
inductive KeyOid : KeyKind → List Nat → Prop
  | rsa : KeyOid .rsa [1,2,840,113549,1,1,1]
  | dsa : KeyOid .dsa [1,2,840,10040,4,1]
  | ecdsa : KeyOid .ecdsa [1,2,840,10045,2,1]

/-- Object identifiers of signature algorithms (md2WithRSAEncryption, ..., ecdsa-with-SHA512). -/
inductive SigOid : HashName → KeyKind → List Nat → Prop
  | md2Rsa : SigOid .md2 .rsa [1,2,840,113549,1,1,2]
  | md5Rsa : SigOid .md5 .rsa [1,2,840,113549,1,1,4]
  | sha1Rsa : SigOid .sha1 .rsa [1,2,840,113549,1,1,5]
  | sha256Rsa : SigOid .sha256 .rsa [1,2,840,113549,1,1,11]
  | sha384Rsa : SigOid .sha384 .rsa [1,2,840,113549,1,1,12]
  | sha512Rsa : SigOid .sha512 .rsa [1,2,840,113549,1,1,13]
  | sha224Rsa : SigOid .sha224 .rsa [1,2,840,113549,1,1,14]
  | sha1Dsa : SigOid .sha1 .dsa [1,2,840,10040,4,3]
  | sha224Dsa : SigOid .sha224 .dsa [2,16,840,1,101,3,4,3,1]
  | sha256Dsa : SigOid .sha256 .dsa [2,16,840,1,101,3,4,3,2]
  | sha1Ec : SigOid .sha1 .ecdsa [1,2,840,10045,4,1]
  | sha224Ec : SigOid .sha224 .ecdsa [1,2,840,10045,4,3,1]
  | sha256Ec : SigOid .sha256 .ecdsa [1,2,840,10045,4,3,2]
  | sha384Ec : SigOid .sha384 .ecdsa [1,2,840,10045,4,3,3]
  | sha512Ec : SigOid .sha512 .ecdsa [1,2,840,10045,4,3,4]

/-- The pairs of digest and encryption algorithm of a signer info that are accepted, and what they mean: the hash function with
    the key or with the signature algorithm that names both (MD2 only with the key); for the oldest algorithms also the signature
    algorithm alone, and obsolete OIW identifiers. -/
inductive JarAlgIds : List Nat → List Nat → SigAlg → Prop
  | key {a h k e} : AlgParts a h k → KeyOid k e → JarAlgIds h.oid e a
  | signature {a h k e} : AlgParts a h k → SigOid h k e → h ≠ .md2 → JarAlgIds h.oid e a
  | alone {a h k e} : AlgParts a h k → SigOid h k e → a ∈ [SigAlg.md2Rsa, .md5Rsa, .sha1Rsa, .dsaSha1] → JarAlgIds [] e a
  | oiwMd2 {e} : SigOid .md2 .rsa e → JarAlgIds [1,3,14,3,2,24] e .md2Rsa
  | oiwMd5 {e} : SigOid .md5 .rsa e → JarAlgIds [1,3,14,3,2,25] e .md5Rsa
  | oiwMd5' {e} : SigOid .md5 .rsa e → JarAlgIds [1,3,14,3,2,3] e .md5Rsa
  | oiwSha1 {e} : KeyOid .rsa e → JarAlgIds [1,3,14,3,2,29] e .sha1Rsa

/-- A signer info that correctly signs the signature file with the key of one of the embedded certificates. -/
structure GoodSigner (env : Env1) (p7 : P7) (sf : Bytes) (maxSdk : Int) (info : P7Signer) (cert : Cert) : Prop where
  mem : cert ∈ p7.certs
  serial : info.serial = cert.serial
  issuer : ∃ rdns, env.parseRdns info.issuer = some rdns ∧ SameName env (fillName rdns) cert.issuer
  noCrit : cert.critExt = false
  valid : ∃ algo d, JarAlgIds info.digestAlg info.encAlg algo ∧ Signs env p7 sf maxSdk info d ∧
    JarSigValid env cert d info.encDigest algo

/-- Certificates linked issuer to subject. -/
inductive Linked (env : Env1) : List Cert → Prop
  | single (c : Cert) : Linked env [c]
  | cons {c d : Cert} {ds : List Cert} : SameName env c.issuer d.subject → Linked env (d :: ds) → Linked env (c :: d :: ds)

/-- The signer infos that are considered: only the first one before Android 7. -/
def considered (p7 : P7) (minSdk : Int) : List P7Signer := if minSdk < 24 then p7.signers.take 1 else p7.signers

/-- Why a chain ends: the last certificate is self-issued, no embedded certificate is its issuer, or the limit is reached. -/
def ChainEnd (env : Env1) (certs chain : List Cert) : Prop :=
  ∃ pre last, chain = pre ++ [last] ∧
    (SameName env last.issuer last.subject ∨ (∀ c ∈ certs, ¬ SameName env last.issuer c.subject) ∨ certs.length < chain.length)

/-! ## Coverage -/

/-- The signature file was written by signtool. -/
def BySigntool (sm : Manifest) : Prop :=
  ∃ v, mget sm.main (b!"created-by") = some v ∧ (b!"signtool") <:+: v

/-- The signature file carries a correct digest of the whole manifest. -/
def WholeOk (env : Env1) (mf sm : Manifest) (minSdk maxSdk : Int) : Prop :=
  ∃ suffix, (BySigntool sm ∧ suffix = b!"-digest" ∨ ¬ BySigntool sm ∧ suffix = b!"-digest-manifest") ∧
    EntryOk env sm.main suffix minSdk maxSdk (fun a h => a.hash env mf.rawData = h)

/-- What is hashed for a section of the manifest: the section, without the last byte if signtool wrote the signature file and
    the section ends with two line feeds. -/
def sectionText (bySigntool : Prop) (s t : Bytes) : Prop :=
  (bySigntool ∧ (∃ u, s = u ++ [10, 10] ∧ t = u ++ [10])) ∨ (¬ (bySigntool ∧ ∃ u, s = u ++ [10, 10]) ∧ t = s)

/-- The entry `attrs` of the signature file for `n` carries a correct digest of the section of the manifest for `n`. -/
def SectionOk (env : Env1) (mf sm : Manifest) (minSdk maxSdk : Int) (n : Bytes) (attrs : Attrs) : Prop :=
  ∃ s t, mget mf.chunks n = some s ∧ sectionText (BySigntool sm) s t ∧
    EntryOk env attrs (b!"-digest") minSdk maxSdk (fun a h => a.hash env t = h)

/-- The signature file covers the manifest: all of it, or every section it lists (at least one). -/
def Covers (env : Env1) (mf sm : Manifest) (minSdk maxSdk : Int) : Prop :=
  WholeOk env mf sm minSdk maxSdk ∨ (sm.entries ≠ [] ∧ ∀ e ∈ sm.entries, SectionOk env mf sm minSdk maxSdk e.1 e.2)

/-- A regular file that the v1 scheme protects: not the Android manifest, not below META-INF. -/
def Protected (z : Zip1) (k : Bytes) (f : ZFile) : Prop :=
  z.zip.file k = some f ∧ f.isDir = false ∧ k ≠ b!"AndroidManifest.xml" ∧ ¬ (b!"META-INF/") <+: k

/-- The main manifest: a readable copy of the only file META-INF/MANIFEST.MF of the archive. -/
def MainManifest (z : Zip1) (mf : Manifest) : Prop :=
  ∃ f d, z.zip.ordered.filter (fun g => decide (g.name = b!"META-INF/MANIFEST.MF")) = [f] ∧ Copy f d ∧
    parseManifestData true d = .ok (.ok mf)

/-- Extensions of signature blocks. -/
def BlockExt (ext : Bytes) : Prop := ext = b!".RSA" ∨ ext = b!".DSA" ∨ ext = b!".EC"

/-- `f` is a signature block in META-INF/ (or below) whose file name without folder and extension is `stem`. -/
def BlockStem (f : ZFile) (stem : Bytes) : Prop :=
  ∃ dir ext, f.name = dir ++ stem ++ ext ∧ BlockExt ext ∧ (b!"META-INF/") <+: f.name ∧ 47 ∉ stem ∧ (dir = [] ∨ dir.getLast? = some 47)

/-- No two signature blocks of the archive have the same stem. -/
def DistinctStems (z : Zip1) : Prop := z.zip.ordered.Pairwise (fun f g => ∀ s, BlockStem f s → ¬ BlockStem g s)

/-- `fb` and `fs` are a signature block and the signature file next to it (the first one of that name). -/
def SigPairOf (z : Zip1) (fb fs : ZFile) : Prop :=
  ∃ base ext, fb ∈ z.zip.ordered ∧ BlockExt ext ∧ (b!"META-INF/") <+: base ∧ fb.name = base ++ ext ∧
    z.zip.ordered.find? (fun g => decide (g.name = base ++ b!".SF")) = some fs

/-- A signature block and its signature file, as found in the archive. -/
structure Signature (env : Env1) (z : Zip1) (p7 : P7) (sm : Manifest) : Prop where
  files : ∃ fb fs base ext, fb ∈ z.zip.ordered ∧ fs ∈ z.zip.ordered ∧ fb.name = base ++ ext ∧ fs.name = base ++ b!".SF" ∧
    (ext = b!".RSA" ∨ ext = b!".DSA" ∨ ext = b!".EC") ∧ (b!"META-INF/") <+: fb.name ∧
    (∃ raw der, Copy fb raw ∧ ber2der raw = .ok (.ok der) ∧ env.parseP7 der = some p7) ∧
    (∃ d, Copy fs d ∧ parseManifestData false d = .ok (.ok sm))

end Apk

namespace Apk

/-- The ways in which v1 verification of the archive can panic. -/
inductive V1PanicCause (env : Env1) (z : Zip1) (minSdk : Int) : Prop
  /-- a copy of a signature block makes the BER conversion panic -/
  | block (f : ZFile) (raw : Bytes) (p : Panic) : f ∈ z.zip.ordered → Copy f raw → ber2der raw = .error p → V1PanicCause env z minSdk
  /-- a copy of the manifest or of a signature file makes the manifest parser panic -/
  | manifest (f : ZFile) (d : Bytes) (wc : Bool) (p : Panic) : f ∈ z.zip.ordered → Copy f d → parseManifestData wc d = .error p →
      V1PanicCause env z minSdk
  /-- a signer info names an unknown combination of digest and encryption algorithm -/
  | algorithm (p7 : P7) (sm : Manifest) (info : P7Signer) : Signature env z p7 sm → info ∈ considered p7 minSdk →
      (∀ a, ¬ JarAlgIds info.digestAlg info.encAlg a) → V1PanicCause env z minSdk
  /-- a signer info names a DSA algorithm but its certificate has another kind of key -/
  | dsaKey (p7 : P7) (sm : Manifest) (info : P7Signer) (cert : Cert) (a : SigAlg) : Signature env z p7 sm → info ∈ considered p7 minSdk →
      cert ∈ p7.certs → JarAlgIds info.digestAlg info.encAlg a → (a = .dsaSha1 ∨ a = .dsaSha224 ∨ a = .dsaSha256) →
      cert.key.kind ≠ .dsa → V1PanicCause env z minSdk

end Apk

namespace Apk

/-- What a signing tool produces: the digests in the signature file `sm` of the manifest `mf` as a whole and of the sections it
    lists are right, and so are the digests in the manifest of the files of the archive. -/
structure Genuine (env : Env1) (z : Zip1) (mf sm : Manifest) (minSdk maxSdk : Int) : Prop where
  manifest : MainManifest z mf
  whole : WholeOk env mf sm minSdk maxSdk
  sections : ∀ e ∈ sm.entries, SectionOk env mf sm minSdk maxSdk e.1 e.2
  files : ∀ k as, mget mf.entries k = some as → ∃ f, z.zip.file k = some f ∧
    EntryOk env as (b!"-digest") minSdk maxSdk (fun a d => ∃ data, Copy f data ∧ a.hash env data = d)

/-- Two different texts with the same hash value. -/
def Collide (env : Env1) (x y : Bytes) : Prop := x ≠ y ∧ ∃ a : JarAlg, a.hash env x = a.hash env y

/-- A collision between corresponding parts of two archives: the manifests, their sections for `k`, copies of the file `k`. -/
inductive JarCollision (env : Env1) (sm mf1 mf2 : Manifest) (k : Bytes) (f1 f2 : ZFile) : Prop
  | manifest : Collide env mf1.rawData mf2.rawData → JarCollision env sm mf1 mf2 k f1 f2
  | sect (s1 t1 s2 t2 : Bytes) : mget mf1.chunks k = some s1 → sectionText (BySigntool sm) s1 t1 → mget mf2.chunks k = some s2 →
      sectionText (BySigntool sm) s2 t2 → Collide env t1 t2 → JarCollision env sm mf1 mf2 k f1 f2
  | file (d1 d2 : Bytes) : Copy f1 d1 → Copy f2 d2 → Collide env d1 d2 → JarCollision env sm mf1 mf2 k f1 f2

end Apk
