import Verif.Spec.V1
/-! # Exactly which archives the v1 scheme accepts -/
namespace Apk

/-! ## Reading files -/

/-- `v` is what the first usable copy of the file gives: every readable copy before it was `bad`. -/
def FirstCopy {α : Type} (good : Bytes → α → Prop) (bad : Bytes → Prop) (f : ZFile) (v : α) : Prop :=
  f.openOk = true ∧ ∃ pre d post, f.attempts = pre ++ some d :: post ∧ good d v ∧ ∀ x, some x ∈ pre → bad x

/-- No copy of the file is usable. -/
def NoCopy (bad : Bytes → Prop) (f : ZFile) : Prop := f.openOk = false ∨ ∀ x, some x ∈ f.attempts → bad x

/-- The bytes are a manifest. -/
def IsManifest (chunks : Bool) (d : Bytes) (m : Manifest) : Prop := parseManifestData chunks d = .ok (.ok m)
/-- The bytes are no manifest. -/
def NoManifest (chunks : Bool) (d : Bytes) : Prop := ∃ e, parseManifestData chunks d = .ok (.error e)

/-- The bytes are a PKCS#7 message. -/
def IsBlockData (env : Env1) (d : Bytes) (p : P7) : Prop := ∃ der, ber2der d = .ok (.ok der) ∧ env.parseP7 der = some p
/-- The bytes are no PKCS#7 message. -/
def NoBlockData (env : Env1) (d : Bytes) : Prop :=
  d = [] ∨ (∃ e, ber2der d = .ok (.error e)) ∨ ∃ der, ber2der d = .ok (.ok der) ∧ env.parseP7 der = none

/-- The main manifest of the archive. -/
def TheManifest (z : Zip1) (mf : Manifest) : Prop :=
  ∃ f, z.zip.ordered.filter (fun g => decide (g.name = b!"META-INF/MANIFEST.MF")) = [f] ∧ FirstCopy (IsManifest true) (NoManifest true) f mf

/-- The signature blocks that have a signature file next to them can be read; the signature files are manifests or not. -/
def PairsReadable (env : Env1) (z : Zip1) : Prop :=
  ∀ fb fs, SigPairOf z fb fs → (∃ p, FirstCopy (IsBlockData env) (NoBlockData env) fb p) ∧
    ((∃ m, FirstCopy (IsManifest false) (NoManifest false) fs m) ∨ NoCopy (NoManifest false) fs)

/-- A signature of the archive: a block and the signature file next to it. -/
def TheSignature (env : Env1) (z : Zip1) (r : Ready) : Prop :=
  ∃ fb fs, SigPairOf z fb fs ∧ BlockStem fb r.name ∧ FirstCopy (IsBlockData env) (NoBlockData env) fb r.p7 ∧
    FirstCopy (IsManifest false) (NoManifest false) fs r.sm

/-- These are the signatures of the archive, each once. -/
def SignaturesAre (env : Env1) (z : Zip1) (sigs : List Ready) : Prop := (∀ r, r ∈ sigs ↔ TheSignature env z r) ∧ sigs.Nodup

/-! ## One signature -/

/-- `cert` is the first embedded certificate with the issuer and serial number of the signer info, and has no critical extension
    that is not understood. -/
def SignerCert (env : Env1) (p7 : P7) (info : P7Signer) (cert : Cert) : Prop :=
  ∃ rdns, env.parseRdns info.issuer = some rdns ∧ (∃ pre post, p7.certs = pre ++ cert :: post ∧
    (info.serial = cert.serial ∧ SameName env (fillName rdns) cert.issuer) ∧
    ∀ c ∈ pre, ¬ (info.serial = c.serial ∧ SameName env (fillName rdns) c.issuer)) ∧ cert.critExt = false

/-- The signer info signs the signature file with the key of the certificate. -/
def SignerGood (env : Env1) (p7 : P7) (sf : Bytes) (maxSdk : Int) (info : P7Signer) (cert : Cert) : Prop :=
  ∃ algo d, JarAlgIds info.digestAlg info.encAlg algo ∧ Signs env p7 sf maxSdk info d ∧ JarSigValid env cert d info.encDigest algo

/-- The signed attributes are well formed but about something else: another content type, or the digest of other data. -/
inductive SignsOther (env : Env1) (p7 : P7) (sf : Bytes) (maxSdk : Int) (info : P7Signer) : Prop
  | contentType {t : List Nat} : info.attrs ≠ [] → 24 ≤ maxSdk → OnlyAttr env.unmOid [1,2,840,113549,1,9,3] info.attrs t → t ≠ p7.contentType →
      SignsOther env p7 sf maxSdk info
  | digest {h : Bytes → Bytes} {d : Bytes} : info.attrs ≠ [] →
      (24 ≤ maxSdk → OnlyAttr env.unmOid [1,2,840,113549,1,9,3] info.attrs p7.contentType) →
      AttrHash env info.digestAlg h → OnlyAttr env.unmOctets [1,2,840,113549,1,9,4] info.attrs d → d ≠ h sf → SignsOther env p7 sf maxSdk info

/-- A wrong signer info that is passed over instead of failing the verification: its attributes are about something else, or its
    signature is wrong (and the key fits when the algorithm is DSA). -/
def PassedOver (env : Env1) (p7 : P7) (sf : Bytes) (maxSdk : Int) (info : P7Signer) (cert : Cert) : Prop :=
  ∃ algo, JarAlgIds info.digestAlg info.encAlg algo ∧
    (SignsOther env p7 sf maxSdk info ∨
     ∃ d, Signs env p7 sf maxSdk info d ∧ ¬ JarSigValid env cert d info.encDigest algo ∧
       (algo ∈ [SigAlg.dsaSha1, .dsaSha224, .dsaSha256] → cert.key.kind = .dsa))

/-- The block signs the signature file, and `leaf` is the certificate of the first good signer info that is considered. -/
def BlockSigns (env : Env1) (p7 : P7) (sf : Bytes) (minSdk maxSdk : Int) (leaf : Cert) : Prop :=
  ∃ pre info post, considered p7 minSdk = pre ++ info :: post ∧
    (∀ i ∈ pre, ∃ c, SignerCert env p7 i c ∧ PassedOver env p7 sf maxSdk i c) ∧
    SignerCert env p7 info leaf ∧ SignerGood env p7 sf maxSdk info leaf ∧
    ∀ i ∈ post, ∃ c, SignerCert env p7 i c ∧ (SignerGood env p7 sf maxSdk i c ∨ PassedOver env p7 sf maxSdk i c)

/-- The first embedded certificate whose subject is the issuer of `c`. -/
def FirstIssuer (env : Env1) (certs : List Cert) (c d : Cert) : Prop :=
  ∃ pre post, certs = pre ++ d :: post ∧ SameName env c.issuer d.subject ∧ ∀ x ∈ pre, ¬ SameName env c.issuer x.subject

/-- From each certificate to the first one that issued it, none but the last self-issued. -/
inductive IssuerPath (env : Env1) (certs : List Cert) : List Cert → Prop
  | single (c : Cert) : IssuerPath env certs [c]
  | cons {c d : Cert} {ds : List Cert} : ¬ SameName env c.issuer c.subject → FirstIssuer env certs c d → IssuerPath env certs (d :: ds) →
      IssuerPath env certs (c :: d :: ds)

/-- The chain of a certificate among the embedded ones. -/
def ChainIs (env : Env1) (certs : List Cert) (leaf : Cert) (chain : List Cert) : Prop :=
  chain.head? = some leaf ∧ IssuerPath env certs chain ∧ ChainEnd env certs chain ∧ chain.length ≤ certs.length + 1

/-- The chain that a signature contributes, as bytes. -/
def SigChain (env : Env1) (minSdk maxSdk : Int) (r : Ready) (raws : List Bytes) : Prop :=
  ∃ leaf ch, BlockSigns env r.p7 r.sm.rawData minSdk maxSdk leaf ∧ ChainIs env r.p7.certs leaf ch ∧ raws = ch.map Cert.raw

/-! ## The main attributes -/

/-- The pieces of a text between separators, in order. -/
def Pieces (sep : UInt8) (text : Bytes) (l : List Bytes) : Prop := l ≠ [] ∧ (∀ t ∈ l, sep ∉ t) ∧ [sep].intercalate l = text

/-- The names of the digests that are checked, in the order of checking: those listed, for platforms before level 18, and then the
    strongest present, for platforms from it. -/
def InOrder (env : Env1) (attrs : Attrs) (suffix : Bytes) (minSdk maxSdk : Int) (l : List Bytes) : Prop :=
  ∃ old new, l = old ++ new ∧
    (if minSdk < 18 then ∃ toks, Pieces 32 (listedAlgs env attrs) toks ∧
        old = toks.filter (fun n => decide ((9 ≤ minSdk ∨ (n ≠ JarAlg.name .sha384 ∧ n ≠ JarAlg.name .sha512)) ∧ (mget attrs (n ++ suffix)).isSome))
     else old = []) ∧
    (if 18 ≤ maxSdk then (new = [] ∧ ∀ a : JarAlg, ¬ HasDigest attrs suffix a.name) ∨
        ∃ a : JarAlg, new = [a.name] ∧ HasDigest attrs suffix a.name ∧ ∀ b : JarAlg, a.rank < b.rank → ¬ HasDigest attrs suffix b.name
     else new = [])

/-- The digest named `n` is right. -/
def RightDigest (env : Env1) (attrs : Attrs) (suffix : Bytes) (P : JarAlg → Bytes → Prop) (n : Bytes) : Prop :=
  ∃ a h, JarAlg.name a = n ∧ DigestAttr env attrs suffix a h ∧ P a h

/-- The digest of the main attributes of the manifest, if there is one, is right. It is not looked at in signature files without main
    attributes or written by signtool; and the check ends at the first algorithm that is not known. -/
def MainAttrsOk (env : Env1) (mf sm : Manifest) (minSdk maxSdk : Int) : Prop :=
  BySigntool sm ∨ sm.mainEnd = 0 ∨
  ∃ l, InOrder env sm.main (b!"-digest-manifest-main-attributes") minSdk maxSdk l ∧ ∃ pre post, l = pre ++ post ∧
    (∀ n ∈ pre, RightDigest env sm.main (b!"-digest-manifest-main-attributes") (fun a h => a.hash env (mf.rawData.take mf.mainEnd) = h) n) ∧
    (post = [] ∨ ∃ n rest, post = n :: rest ∧ (∀ a : JarAlg, a.name ≠ n) ∧
      ∃ v, mget sm.main (n ++ b!"-digest-manifest-main-attributes") = some v ∧ (env.base64 v).isSome)

/-! ## The archive -/

/-- A path that must be in the manifest: the protected files, and the Android manifest if neither it nor the configuration of an app
    bundle is a regular file of the archive. -/
def Required (z : Zip1) (p : Bytes) : Prop :=
  (∃ f, Protected z p f) ∨
  (p = b!"AndroidManifest.xml" ∧ (∀ f, z.zip.file (b!"AndroidManifest.xml") = some f → f.isDir = true) ∧
    ∀ f, z.zip.file (b!"BundleConfig.pb") = some f → f.isDir = true)

/-- The signature counts: its file has a version and covers the manifest. -/
def Counts (env : Env1) (mf : Manifest) (minSdk maxSdk : Int) (r : Ready) : Prop :=
  (∃ v, mget r.sm.main (b!"signature-version") = some v) ∧ Covers env mf r.sm minSdk maxSdk

/-- The signature counts and lists the path. -/
def CountsFor (env : Env1) (mf : Manifest) (minSdk maxSdk : Int) (p : Bytes) (r : Ready) : Prop :=
  Counts env mf minSdk maxSdk r ∧ ∃ as, mget r.sm.entries p = some as

open Classical in
/-- The chains of `c` are those of the signatures that satisfy `P`, one for each. -/
def ChainsOf (env : Env1) (minSdk maxSdk : Int) (sigs : List Ready) (P : Ready → Prop) (c : List (List Cert)) : Prop :=
  c.length = sigs.countP (fun r => decide (P r)) ∧
    ∀ raws, raws ∈ c.map (fun ch => ch.map Cert.raw) ↔ ∃ r ∈ sigs, P r ∧ SigChain env minSdk maxSdk r raws

open Classical in
/-- The conditions on an archive with this main manifest and these signatures. -/
structure JarAccepted (env : Env1) (z : Zip1) (mf : Manifest) (sigs : List Ready) (hasBlock : Bool) (minSdk maxSdk : Int) : Prop where
  /-- every signature is valid -/
  valid : ∀ r ∈ sigs, ∃ leaf, BlockSigns env r.p7 r.sm.rawData minSdk maxSdk leaf
  /-- no signature file says that the archive also has a v2 signature when there is no signing block -/
  noDowngrade : hasBlock = false → 24 ≤ maxSdk → ∀ r ∈ sigs, ∀ ids, mget r.sm.main (b!"x-android-apk-signed") = some ids → ¬ ListsTwo ids
  mainAttrs : ∀ r ∈ sigs, (∃ v, mget r.sm.main (b!"signature-version") = some v) → MainAttrsOk env mf r.sm minSdk maxSdk
  /-- some signature counts, and there are at most ten -/
  counts : ∃ r ∈ sigs, Counts env mf minSdk maxSdk r
  few : sigs.length ≤ 10
  /-- the files of the manifest exist -/
  present : ∀ n as, (n, as) ∈ mf.entries → ∃ f, z.zip.file n = some f
  /-- the required files have right digests and a signature that counts -/
  files : ∀ p, Required z p → ∃ attrs f, mget mf.entries p = some attrs ∧ z.zip.file p = some f ∧
    EntryOk env attrs (b!"-digest") minSdk maxSdk (fun a h => ∃ d, Copy f d ∧ a.hash env d = h) ∧
    ∃ r ∈ sigs, CountsFor env mf minSdk maxSdk p r
  /-- all by the same signers -/
  same : ∀ p q, Required z p → Required z q →
    sigs.countP (fun r => decide (CountsFor env mf minSdk maxSdk p r)) = sigs.countP (fun r => decide (CountsFor env mf minSdk maxSdk q r)) ∧
    ∀ raws, (∃ r ∈ sigs, CountsFor env mf minSdk maxSdk p r ∧ SigChain env minSdk maxSdk r raws) ↔
      ∃ r ∈ sigs, CountsFor env mf minSdk maxSdk q r ∧ SigChain env minSdk maxSdk r raws

end Apk
