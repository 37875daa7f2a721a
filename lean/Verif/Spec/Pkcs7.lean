import Verif.Spec.Der
import Verif.Model.V1
/-!
# PKCS#7 SignedData (RFC 2315), as written by signing tools

Relations between values and their encodings, written down from the RFC; the decoder is not mentioned. Headers may have any
definite length form; minimality is only needed where bytes are compared.
-/
namespace Apk

/-- One element with the given class, tag and contents. -/
def Elem (cls tag : Nat) (constructed : Bool) (content b : Bytes) : Prop :=
  ∃ hdr, DerHeader ⟨cls, tag, content.length, constructed⟩ hdr ∧ b = hdr ++ content

/-- Any one element. -/
def AnyElem (b : Bytes) : Prop := ∃ cls tag constructed content, Elem cls tag constructed content b

/-- OBJECT IDENTIFIER. -/
def OidElem (oid : List Nat) (b : Bytes) : Prop := ∃ c, OidContents oid c ∧ Elem 0 6 false c b

/-- INTEGER. -/
def IntElem (i : Int) (b : Bytes) : Prop := ∃ c, MinimalInt c ∧ twos c = i ∧ Elem 0 2 false c b

/-- The encodings of the elements of a list, one after the other. -/
inductive ListEnc {α : Type} (P : α → Bytes → Prop) : List α → Bytes → Prop
  | nil : ListEnc P [] []
  | cons {a : α} {as : List α} {b bs : Bytes} : P a b → ListEnc P as bs → ListEnc P (a :: as) (b ++ bs)

/-- AlgorithmIdentifier ::= SEQUENCE { algorithm OBJECT IDENTIFIER, parameters ANY OPTIONAL }. -/
def AlgEnc (oid : List Nat) (b : Bytes) : Prop :=
  ∃ o p, OidElem oid o ∧ (p = [] ∨ AnyElem p) ∧ Elem 0 16 true (o ++ p) b

/-- Attribute ::= SEQUENCE { type OBJECT IDENTIFIER, values SET OF ANY }: `value` are the contents of the SET, `full` is the SET. -/
def AttrEnc (a : P7Attr) (b : Bytes) : Prop :=
  ∃ o, OidElem a.type o ∧ Elem 0 17 true a.value a.full ∧ Elem 0 16 true (o ++ a.full) b

/-- IssuerAndSerialNumber ::= SEQUENCE { issuer Name, serialNumber INTEGER }. -/
def IasEnc (issuer : Bytes) (serial : Int) (b : Bytes) : Prop :=
  AnyElem issuer ∧ ∃ ser, IntElem serial ser ∧ Elem 0 16 true (issuer ++ ser) b

/-- version INTEGER. -/
def VersionEnc (b : Bytes) : Prop := ∃ n, IsInt64 n ∧ IntElem n b

/-- [tag] IMPLICIT SET OF Attribute OPTIONAL. -/
def AttrsEnc (tag : Nat) (as : List P7Attr) (b : Bytes) : Prop :=
  (as = [] ∧ b = []) ∨ ∃ c, ListEnc AttrEnc as c ∧ Elem 2 tag true c b

/-- SignerInfo ::= SEQUENCE { version, issuerAndSerialNumber, digestAlgorithm, authenticatedAttributes [0] OPTIONAL,
    digestEncryptionAlgorithm, encryptedDigest OCTET STRING, unauthenticatedAttributes [1] OPTIONAL }. -/
def SignerEnc (s : P7Signer) (b : Bytes) : Prop :=
  ∃ v ias d a e sig u unauth, VersionEnc v ∧ IasEnc s.issuer s.serial ias ∧ AlgEnc s.digestAlg d ∧ AttrsEnc 0 s.attrs a ∧
    AlgEnc s.encAlg e ∧ Elem 0 4 false s.encDigest sig ∧ AttrsEnc 1 unauth u ∧
    Elem 0 16 true (v ++ (ias ++ (d ++ (a ++ (e ++ (sig ++ u)))))) b

/-- ContentInfo of the signed contents: SEQUENCE { contentType OBJECT IDENTIFIER, content [0] EXPLICIT OCTET STRING OPTIONAL }. -/
def InnerContentEnc (ct : List Nat) (b : Bytes) : Prop :=
  ∃ o c, OidElem ct o ∧ (c = [] ∨ ∃ x oct, Elem 0 4 false x oct ∧ Elem 2 0 true oct c) ∧ Elem 0 16 true (o ++ c) b

/-- certificates [0] IMPLICIT SET OF Certificate OPTIONAL. -/
def CertsEnc (certs : List Bytes) (b : Bytes) : Prop :=
  (certs = [] ∧ b = []) ∨ Elem 2 0 true certs.flatten b

/-- SignedData ::= SEQUENCE { version, digestAlgorithms SET OF AlgorithmIdentifier, contentInfo, certificates, signerInfos SET OF
    SignerInfo }, without revocation lists. -/
def SignedDataEnc (ct : List Nat) (certs : List Bytes) (signers : List P7Signer) (b : Bytes) : Prop :=
  ∃ v algs algSet algsB ci cs sis sisB, VersionEnc v ∧ ListEnc AlgEnc algs algSet ∧ Elem 0 17 true algSet algsB ∧ InnerContentEnc ct ci ∧
    CertsEnc certs cs ∧ ListEnc SignerEnc signers sis ∧ Elem 0 17 true sis sisB ∧
    Elem 0 16 true (v ++ (algsB ++ (ci ++ (cs ++ sisB)))) b

/-- The whole message: SEQUENCE { OBJECT IDENTIFIER signedData, [0] EXPLICIT SignedData }. -/
def Pkcs7Enc (ct : List Nat) (certs : List Bytes) (signers : List P7Signer) (b : Bytes) : Prop :=
  ∃ o sd w, OidElem [1,2,840,113549,1,7,2] o ∧ SignedDataEnc ct certs signers sd ∧ Elem 2 0 true sd w ∧ Elem 0 16 true (o ++ w) b

/-! Distinguished encodings (X.690 10.1, 8.19.2), needed where the verifier encodes again. -/

/-- One element with the shortest header; tags below 31. -/
def DerElem (cls tag : Nat) (constructed : Bool) (content b : Bytes) : Prop :=
  ∃ (x : UInt8) (l : Bytes), cls < 4 ∧ tag < 31 ∧ x.toNat = 64 * cls + (if constructed then 32 else 0) + tag ∧ DerLen content.length l ∧
    b = x :: l ++ content

/-- Arcs without leading zero digits. -/
inductive DerArcs : List Nat → Bytes → Prop
  | nil : DerArcs [] []
  | cons {n : Nat} {ns : List Nat} {x : UInt8} {p r : Bytes} : Base128 n (x :: p) → x.toNat ≠ 128 → DerArcs ns r → DerArcs (n :: ns) (x :: p ++ r)

/-- OBJECT IDENTIFIER in DER. -/
def DerOid (oid : List Nat) (b : Bytes) : Prop :=
  ∃ x y arcs c, oid = x :: y :: arcs ∧ x ≤ 2 ∧ (x < 2 → y < 40) ∧ DerArcs ((x * 40 + y) :: arcs) c ∧ DerElem 0 6 false c b

/-- Attribute in DER. -/
def DerAttr (a : P7Attr) (b : Bytes) : Prop := ∃ o, DerOid a.type o ∧ DerElem 0 17 true a.value a.full ∧ DerElem 0 16 true (o ++ a.full) b

/-- An attribute as it comes out of a message: an object identifier that has an encoding and the one element that follows it. -/
def AttrWF (a : P7Attr) : Prop := (∃ c, OidContents a.type c) ∧ ∃ cls tag con, Elem cls tag con a.value a.full

end Apk
