import Verif.Spec.X509
import Verif.Spec.BerRead
/-!
# Signature blocks (PKCS#7 SignedData, RFC 2315), as lenient as the code

ASN.1 types as schemas for the grammar `Reads`. `Spec/Pkcs7` is about messages that follow the RFC strictly; here is what is accepted.
-/
namespace Apk
namespace Schema

/-- ContentInfo ::= SEQUENCE { contentType OBJECT IDENTIFIER, content [0] EXPLICIT ANY OPTIONAL } -/
def contentInfo : Ty := sequence [([], .oid), (b!"explicit,optional,tag:0", .rawValue)]
/-- Attribute ::= SEQUENCE { type OBJECT IDENTIFIER, values ANY }; that the values are a SET is not checked. -/
def attributeType : Ty := sequence [([], .oid), (b!"set", .rawValue)]
/-- IssuerAndSerialNumber ::= SEQUENCE { issuer ANY, serialNumber INTEGER } -/
def issuerAndSerial : Ty := sequence [([], .rawValue), ([], .bigInt)]
/-- SignerInfo ::= SEQUENCE { version, issuerAndSerialNumber, digestAlgorithm, authenticatedAttributes [0] OPTIONAL,
    digestEncryptionAlgorithm, encryptedDigest OCTET STRING, unauthenticatedAttributes [1] OPTIONAL } -/
def signerInfo : Ty := sequence
  [(b!"default:1", .int), ([], issuerAndSerial), ([], algorithmIdentifier), (b!"optional,tag:0", .slice false attributeType),
   ([], algorithmIdentifier), ([], .octets), (b!"optional,tag:1", .slice false attributeType)]
/-- An entry of a revocation list. -/
def revoked : Ty := sequence [([], .bigInt), ([], .time), (b!"optional", .slice false extension)]
/-- TBSCertList. -/
def tbsCertList : Ty := sequenceRaw
  [(b!"optional,default:0", .int), ([], algorithmIdentifier), ([], name), ([], .time), (b!"optional", .time), (b!"optional", .slice false revoked),
   (b!"tag:0,optional,explicit", .slice false extension)]
/-- CertificateList. -/
def certList : Ty := sequence [([], tbsCertList), ([], algorithmIdentifier), ([], .bits)]
/-- SignedData ::= SEQUENCE { version, digestAlgorithms SET OF AlgorithmIdentifier, contentInfo, certificates [0] OPTIONAL, crls [1]
    OPTIONAL, signerInfos SET OF SignerInfo }; the certificates are kept as they are. -/
def signedData : Ty := sequence
  [(b!"default:1", .int), (b!"set", .slice false algorithmIdentifier), ([], contentInfo), (b!"optional,tag:0", sequenceRaw []),
   (b!"optional,tag:1", .slice false certList), (b!"set", .slice false signerInfo)]

/-- RecipientInfo ::= SEQUENCE { version, issuerAndSerialNumber, keyEncryptionAlgorithm, encryptedKey OCTET STRING } -/
def recipientInfo : Ty := sequence [([], .int), ([], issuerAndSerial), ([], algorithmIdentifier), ([], .octets)]
/-- EncryptedContentInfo ::= SEQUENCE { contentType, contentEncryptionAlgorithm, encryptedContent [0] OPTIONAL } -/
def encryptedContentInfo : Ty := sequence [([], .oid), ([], algorithmIdentifier), (b!"tag:0,optional", .rawValue)]
/-- EnvelopedData ::= SEQUENCE { version, recipientInfos SET OF RecipientInfo, encryptedContentInfo } -/
def envelopedData : Ty := sequence [([], .int), (b!"set", .slice false recipientInfo), ([], encryptedContentInfo)]

end Schema

/-- What is made of an attribute: the type, the contents of the element after it and that element. -/
def attributeOf : Bytes × List Nat × RawVal × Unit → P7Attr
  | (_, type, value, _) => ⟨type, value.bytes, value.full⟩

/-- What is made of a SignerInfo. -/
def SignerIs (v : Schema.signerInfo.interp) (s : P7Signer) : Prop :=
  ∃ (v0 i0 d0 e0 : Bytes) (version : Int) (issuer digestParams encParams : RawVal) (attrs unauth : List (Bytes × List Nat × RawVal × Unit)),
    v = (v0, version, (i0, issuer, (some s.serial : Option Int), ()), (d0, s.digestAlg, digestParams, ()), attrs, (e0, s.encAlg, encParams, ()),
      s.encDigest, unauth, ()) ∧ s.issuer = issuer.full ∧ s.attrs = attrs.map attributeOf

/-- The signers, one for each SignerInfo. -/
inductive SignersAre : List Schema.signerInfo.interp → List P7Signer → Prop
  | nil : SignersAre [] []
  | cons {v : Schema.signerInfo.interp} {vs : List Schema.signerInfo.interp} {s : P7Signer} {ss : List P7Signer} : SignerIs v s → SignersAre vs ss →
      SignersAre (v :: vs) (s :: ss)

/-- The signed contents: nothing, or something that starts with an element, and if that is constructed, its first child is an OCTET STRING. -/
def ContentsOk (content : Bytes) : Prop :=
  content = [] ∨ ∃ cls tag con c e rest, Elem cls tag con c e ∧ content = e ++ rest ∧
    (con = true → ∃ x o r, Elem 0 4 false x o ∧ c = o ++ r)

/-- `SignatureBlockIs ce d p7`: `d` is a ContentInfo with nothing after it that holds a SignedData with at least one signer; `p7` are
    its certificates, signers and content type. -/
def SignatureBlockIs (ce : CertEnv) (d : Bytes) (p7 : P7) : Prop :=
  ∃ (c0 s0 i0 rawCerts rest : Bytes) (content inner : RawVal) (version : Int) (algs : List (Bytes × List Nat × RawVal × Unit))
    (crls : List Schema.certList.interp) (infos : List Schema.signerInfo.interp),
    Reads ce.toAsnEnv Schema.contentInfo {} (c0, ([1,2,840,113549,1,7,2] : List Nat), content, ()) d [] ∧
    Reads ce.toAsnEnv Schema.signedData {} (s0, version, algs, (i0, p7.contentType, inner, ()), (rawCerts, ()), crls, infos, ()) content.bytes rest ∧
    (rawCerts = [] ∧ p7.certs = [] ∨ ∃ body, Elem 2 0 true body rawCerts ∧ CertificatesAre ce p7.certs body) ∧
    ContentsOk inner.bytes ∧ SignersAre infos p7.signers ∧ p7.signers ≠ []

end Apk
