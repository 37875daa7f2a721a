import Verif.Spec.P7Exact
import Verif.Spec.Marshal
import Verif.Model.P7Message
/-!
# Signed messages (PKCS#7 SignedData) with their contents, and what it means that they verify

The structures `P7Msg`, `P7Info`, `P7AttrV` are the parsed data; the functions of the model are not used.
-/
namespace Apk

/-- The contents of a message: nothing, or the contents of the first element if it is primitive, or those of the OCTET STRING that is its
    first child if it is constructed. -/
def ContentsAre (content x : Bytes) : Prop :=
  (content = [] ∧ x = []) ∨ ∃ cls tag con c e rest, Elem cls tag con c e ∧ content = e ++ rest ∧
    ((con = false ∧ x = c) ∨ (con = true ∧ ∃ o r, Elem 0 4 false x o ∧ c = o ++ r))

/-- What is kept of an attribute. -/
def attrOf : Bytes × List Nat × RawVal × Unit → P7AttrV
  | (_, type, value, _) => ⟨type, value⟩

/-- What is kept of a SignerInfo. -/
def InfoIs (v : Schema.signerInfo.interp) (s : P7Info) : Prop :=
  ∃ (v0 i0 d0 e0 : Bytes) (attrs unauth : List (Bytes × List Nat × RawVal × Unit)),
    v = (v0, s.version, (i0, s.issuer, s.serial, ()), (d0, s.digestAlg.oid, s.digestAlg.params, ()), attrs, (e0, s.encAlg.oid, s.encAlg.params, ()),
      s.encDigest, unauth, ()) ∧ s.attrs = attrs.map attrOf ∧ s.unauth = unauth.map attrOf

/-- `SignedMessageIs ce d m`: `d` is a ContentInfo with nothing after it that holds a SignedData; `m` are its contents, certificates,
    signer infos and content type. -/
def SignedMessageIs (ce : CertEnv) (d : Bytes) (m : P7Msg) : Prop :=
  m.enveloped = none ∧
  ∃ (c0 s0 i0 rawCerts rest : Bytes) (content inner : RawVal) (version : Int) (algs : List (Bytes × List Nat × RawVal × Unit))
    (crls : List Schema.certList.interp) (infos : List Schema.signerInfo.interp),
    Reads ce.toAsnEnv Schema.contentInfo {} (c0, ([1,2,840,113549,1,7,2] : List Nat), content, ()) d [] ∧
    Reads ce.toAsnEnv Schema.signedData {} (s0, version, algs, (i0, m.contentType, inner, ()), (rawCerts, ()), crls, infos, ()) content.bytes rest ∧
    (rawCerts = [] ∧ m.certs = [] ∨ ∃ body, Elem 2 0 true body rawCerts ∧ CertificatesAre ce m.certs body) ∧
    ContentsAre inner.bytes m.content ∧ ListRel InfoIs infos m.infos

/-! ## Verification -/

/-- `x` before or equal to `y` in the order of byte strings. -/
def BytesLe (x y : Bytes) : Prop := x <+: y ∨ ∃ (p : Bytes) (a b : UInt8) (s t : Bytes), x = p ++ a :: s ∧ y = p ++ b :: t ∧ a.toNat < b.toNat

/-- The DER encoding of an attribute, with the encoding of its value as it is in the message. -/
def DerAttrV (a : P7AttrV) (b : Bytes) : Prop := ∃ o, DerOid a.type o ∧ DerElem 0 16 true (o ++ a.value.full) b

/-- The DER encoding of the SET of the attributes: they are in the order of their encodings. -/
def DerAttrSet (attrs : List P7AttrV) (b : Bytes) : Prop :=
  ∃ encs sorted : List Bytes, ListRel DerAttrV attrs encs ∧ List.Perm sorted encs ∧ sorted.Pairwise BytesLe ∧ DerElem 0 17 true sorted.flatten b

/-- The first element of a list with a property. -/
def FirstWith {α : Type} (P : α → Prop) (l : List α) (a : α) : Prop := ∃ pre post, l = pre ++ a :: post ∧ P a ∧ ∀ x ∈ pre, ¬ P x

/-- The first attribute with the given type has a value that starts with an OCTET STRING with these contents. -/
def OctetsAttr (attrs : List P7AttrV) (oid : List Nat) (x : Bytes) : Prop :=
  ∃ a o r, FirstWith (fun a : P7AttrV => a.type = oid) attrs a ∧ Elem 0 4 false x o ∧ a.value.bytes = o ++ r

/-- The issuer in a certificate, as it is encoded. -/
def IssuerIs (ce : CertEnv) (cert issuer : Bytes) : Prop :=
  ∃ (raw tbs : Bytes) (version : Int) (serial : Option Int) (alg : Schema.algorithmIdentifier.interp) (iss : RawVal) (validity : Schema.validity.interp)
    (subject : RawVal) (key : Schema.publicKeyInfo.interp) (id1 id2 : BitStr) (exts : List Schema.extension.interp) (outer : Schema.algorithmIdentifier.interp)
    (sig : BitStr),
    Reads ce.toAsnEnv Schema.certificate {} (raw, (tbs, version, serial, alg, iss, validity, subject, key, id1, id2, exts, ()), outer, sig, ()) cert [] ∧
    issuer = iss.full

/-- The signer info names this certificate by its issuer and its serial number. -/
def NamesCert (ce : CertEnv) (s : P7Info) (c : Cert) : Prop := s.serial = some c.serial ∧ IssuerIs ce c.raw s.issuer.full

/-- The supported digest algorithms. -/
def DigestAlgIs (oid : List Nat) (h : P7Hash) : Prop :=
  (oid = [1,3,14,3,2,26] ∧ h = .sha1) ∨ (oid = [2,16,840,1,101,3,4,2,1] ∧ h = .sha256)

/-- Signature algorithms by object identifier (PKCS#1, ISO, ANSI X9.57, NIST, ANSI X9.62), without RSA-PSS. -/
def signatureOids : List (List Nat × X509Alg) :=
  [([1,2,840,113549,1,1,2], .md2Rsa), ([1,2,840,113549,1,1,4], .md5Rsa), ([1,2,840,113549,1,1,5], .sha1Rsa), ([1,3,14,3,2,29], .sha1Rsa),
   ([1,2,840,113549,1,1,11], .sha256Rsa), ([1,2,840,113549,1,1,12], .sha384Rsa), ([1,2,840,113549,1,1,13], .sha512Rsa),
   ([1,2,840,10040,4,3], .dsaSha1), ([2,16,840,1,101,3,4,3,2], .dsaSha256), ([1,2,840,10045,4,1], .ecdsaSha1), ([1,2,840,10045,4,3,2], .ecdsaSha256),
   ([1,2,840,10045,4,3,3], .ecdsaSha384), ([1,2,840,10045,4,3,4], .ecdsaSha512)]

/-- RSA-PSS: MGF1 with the hash of the message, a salt as long as the hash, NULL parameters and the trailer field 1. -/
def P7PssIs (env : P7Env) (params : Bytes) (a : X509Alg) : Prop :=
  ∃ p mgfHash, env.stdPss params = some p ∧ env.stdAlg p.mgf.params.full = some mgfHash ∧ p.hash.params.full = [5, 0] ∧ p.mgf.oid = [1,2,840,113549,1,1,8] ∧
    mgfHash.oid = p.hash.oid ∧ mgfHash.params.full = [5, 0] ∧ p.trailerField = 1 ∧
    ((p.hash.oid = [2,16,840,1,101,3,4,2,1] ∧ p.saltLength = 32 ∧ a = .sha256Pss) ∨ (p.hash.oid = [2,16,840,1,101,3,4,2,2] ∧ p.saltLength = 48 ∧ a = .sha384Pss) ∨
     (p.hash.oid = [2,16,840,1,101,3,4,2,3] ∧ p.saltLength = 64 ∧ a = .sha512Pss))

/-- The algorithm a signer info asks for; plain rsaEncryption means RSA with the digest algorithm. -/
def SignatureAlgIs (env : P7Env) (h : P7Hash) (ai : AlgId) (a : X509Alg) : Prop :=
  (ai.oid, a) ∈ signatureOids ∨ (ai.oid = [1,2,840,113549,1,1,10] ∧ P7PssIs env ai.params.full a) ∨
  (ai.oid = [1,2,840,113549,1,1,1] ∧ ((h = .sha1 ∧ a = .sha1Rsa) ∨ (h = .sha256 ∧ a = .sha256Rsa)))

/-- The signature of one signer is good: it verifies with the first certificate that the signer info names. Without attributes the
    contents are signed. Otherwise the (first) message digest attribute holds the digest of the contents and the attributes are
    signed, as a SET in DER. -/
def SignerVerifies (env : P7Env) (m : P7Msg) (s : P7Info) : Prop :=
  ∃ h cert alg signed, DigestAlgIs s.digestAlg.oid h ∧ FirstWith (NamesCert env.toCertEnv s) m.certs cert ∧ SignatureAlgIs env h s.encAlg alg ∧
    ((s.attrs = [] ∧ signed = m.content) ∨
     (s.attrs ≠ [] ∧ OctetsAttr s.attrs [1,2,840,113549,1,9,4] (env.hash h m.content) ∧ DerAttrSet s.attrs signed)) ∧
    env.checkSig cert alg signed s.encDigest = true

/-- A message verifies: it has signers and all their signatures are good. -/
def MessageVerifies (env : P7Env) (m : P7Msg) : Prop := m.infos ≠ [] ∧ ∀ s ∈ m.infos, SignerVerifies env m s

end Apk
