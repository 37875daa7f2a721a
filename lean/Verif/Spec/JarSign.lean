import Verif.Spec.Manifest
import Verif.Spec.V1Exact
import Verif.Spec.Pkcs7
import Verif.Spec.X509
/-!
# A reference JAR signer

How a signing tool makes a JAR (v1) signature, from the JAR file specification and RFC 2315: MANIFEST.MF with a digest of every file, for
every signer a signature file with digests of the manifest and of its sections, and a signature block over the signature file. The
verifier is not mentioned.
-/
namespace Apk.Jar

/-- The algorithm in names of attributes, as written. -/
def algText : JarAlg → Bytes
  | .sha512 => b!"SHA-512"
  | .sha384 => b!"SHA-384"
  | .sha256 => b!"SHA-256"
  | .sha1 => b!"SHA1"

/-- The text encoding of digests (base64), which the library can decode. -/
structure TextCode (env : Env1) where
  enc : Bytes → Bytes
  dec : ∀ b, env.base64 (enc b) = some b
  plain : ∀ b, ∀ c ∈ enc b, c ≠ 0 ∧ c ≠ 10 ∧ c ≠ 13

/-- `SHA…-Digest…: …` -/
def digestAttr {env : Env1} (t : TextCode env) (a : JarAlg) (suffix data : Bytes) : WAttr := canonicalAttr (algText a ++ suffix) (t.enc (a.hash env data))

/-- The section of the manifest for a file. -/
def fileSection {env : Env1} (t : TextCode env) (a : JarAlg) (f : Bytes × Bytes) : WSection :=
  { attrs := [canonicalAttr (b!"Name") f.1, digestAttr t a (b!"-Digest") f.2] }

/-- MANIFEST.MF. -/
def manifest {env : Env1} (t : TextCode env) (a : JarAlg) (tool : Bytes) (fs : List (Bytes × Bytes)) : WDoc :=
  { main := { attrs := [canonicalAttr (b!"Manifest-Version") (b!"1.0"), canonicalAttr (b!"Created-By") tool] }
    sections := fs.map (fun f => (f.1, fileSection t a f)) }

/-- A signer. -/
structure Signer where
  /-- name of its files in META-INF, without extension -/
  stem : Bytes
  /-- extension of the signature block -/
  ext : Bytes
  /-- digests in the signature file -/
  alg : JarAlg
  tool : Bytes
  /-- whether there is a digest of the main attributes of the manifest -/
  mainDigest : Bool
  /-- X-Android-APK-Signed -/
  schemes : Option Bytes
  /-- the certificates of the block, in DER, and their contents -/
  certs : List Bytes
  parsed : List Cert
  /-- the certificate of the signer -/
  cert : Cert
  /-- the content type and the signer info of the block, and the block -/
  contentType : List Nat
  info : P7Signer
  block : Bytes

/-- The signature file. -/
def signatureFile {env : Env1} (t : TextCode env) (a : JarAlg) (tool : Bytes) (fs : List (Bytes × Bytes)) (s : Signer) : WDoc :=
  { main := { attrs := [canonicalAttr (b!"Signature-Version") (b!"1.0"), canonicalAttr (b!"Created-By") s.tool,
        digestAttr t s.alg (b!"-Digest-Manifest") (manifest t a tool fs).bytes] ++
      (if s.mainDigest then [digestAttr t s.alg (b!"-Digest-Manifest-Main-Attributes") (manifest t a tool fs).main.bytes] else []) ++
      s.schemes.toList.map (canonicalAttr (b!"X-Android-APK-Signed")) }
    sections := fs.map (fun f => (f.1, { attrs := [canonicalAttr (b!"Name") f.1, digestAttr t s.alg (b!"-Digest") (fileSection t a f).bytes] })) }

/-- What is signed when `sf` is the signature file: the file itself, or attributes (in DER) with the digest of the file and the content
    type. -/
inductive SignedOver (env : Env1) (contentType : List Nat) (info : P7Signer) (sf : Bytes) : Bytes → Prop
  | direct : info.attrs = [] → SignedOver env contentType info sf sf
  | attributes {pre mid post : List P7Attr} {ct md : P7Attr} {h : Bytes → Bytes} {c d : Bytes} :
      info.attrs = pre ++ ct :: mid ++ md :: post → (∀ a ∈ pre ++ mid ++ post, a.type ≠ [1,2,840,113549,1,9,3] ∧ a.type ≠ [1,2,840,113549,1,9,4]) →
      ct.type = [1,2,840,113549,1,9,3] → OidElem contentType ct.value →
      md.type = [1,2,840,113549,1,9,4] → AttrHash env info.digestAlg h → Elem 0 4 false (h sf) md.value →
      ListEnc DerAttr info.attrs c → DerElem 0 17 true c d → d.length < 2 ^ 31 → SignedOver env contentType info sf d

/-- No NUL, CR or LF. -/
def PlainText (v : Bytes) : Prop := ∀ c ∈ v, c ≠ 0 ∧ c ≠ 10 ∧ c ≠ 13

/-- The signer does its work right for the signature file `sf`. -/
structure Signer.Ok (ce : CertEnv) (env : Env1) (s : Signer) (sf : Bytes) : Prop where
  stem : (47 : UInt8) ∉ s.stem
  ext : BlockExt s.ext
  tool : PlainText s.tool ∧ ¬ (b!"signtool") <:+: s.tool
  schemes : ∀ v, s.schemes = some v → PlainText v
  /-- the certificates can be read -/
  certs : s.certs.map (fun b => env.parseCertAndr b) = s.parsed.map some
  /-- the signer info names the certificate, and it is the first one it names -/
  cert : ∃ pre post, s.parsed = pre ++ s.cert :: post ∧ ∀ c ∈ pre, c.serial ≠ s.cert.serial
  serial : s.info.serial = s.cert.serial
  issuer : NameIs ce.toAsnEnv s.info.issuer s.cert.issuer
  extensions : s.cert.critExt = false
  /-- the block is a BER form of the message -/
  block : ∃ t d, BerEnc t s.block ∧ DerEnc t d ∧ d.length < 2 ^ 63 ∧ Pkcs7Enc s.contentType s.certs [s.info] d
  /-- the signature is valid -/
  signature : ∃ algo d, JarAlgIds s.info.digestAlg s.info.encAlg algo ∧ SignedOver env s.contentType s.info sf d ∧
    JarSigValid env s.cert d s.info.encDigest algo

/-- All files of the signed archive. -/
def contents {env : Env1} (t : TextCode env) (a : JarAlg) (tool : Bytes) (fs : List (Bytes × Bytes)) (ss : List Signer) : List (Bytes × Bytes) :=
  fs ++ (b!"META-INF/MANIFEST.MF", (manifest t a tool fs).bytes) ::
    ss.map (fun s => (b!"META-INF/" ++ s.stem ++ b!".SF", (signatureFile t a tool fs s).bytes)) ++
    ss.map (fun s => (b!"META-INF/" ++ s.stem ++ s.ext, s.block))

/-- The archive has these files, in some order, all readable. -/
structure HasFiles (z : Zip1) (l : List (Bytes × Bytes)) : Prop where
  ordered : (z.zip.ordered.map (fun f => (f.name, f.isDir, f.openOk, f.attempts))).Perm (l.map (fun p => (p.1, false, true, [some p.2])))
  file : ∀ k, z.zip.file k = z.zip.ordered.find? (fun f => decide (f.name = k))

/-- The files to be signed: distinct names without line breaks, no files of signatures among them, an Android manifest or an app bundle. -/
structure FilesOk (fs : List (Bytes × Bytes)) : Prop where
  distinct : (fs.map (·.1)).Nodup
  plain : ∀ f ∈ fs, PlainText f.1
  unsigned : ∀ f ∈ fs, (b!"META-INF/") <+: f.1 → f.1 ≠ b!"META-INF/MANIFEST.MF" ∧ ∀ e, BlockExt e ∨ e = b!".SF" → ¬ e <:+ f.1
  app : b!"AndroidManifest.xml" ∈ fs.map (·.1) ∨ b!"BundleConfig.pb" ∈ fs.map (·.1)

/-- A digest that one of the platforms checks: SHA-1, or any since API level 18. -/
def AlgFor (minSdk maxSdk : Int) (a : JarAlg) : Prop := 18 ≤ maxSdk ∨ (minSdk < 18 ∧ a = .sha1)

end Apk.Jar
