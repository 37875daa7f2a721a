import Verif.Spec.P7Sign
import Verif.Model.Envelope
/-!
# Encrypted messages

The encoding of an EnvelopedData (RFC 2315), what decrypting one gives, and the laws of the ciphers.
-/
namespace Apk

/-! ## Encoding -/

/-- RecipientInfo ::= SEQUENCE { version, issuerAndSerialNumber, keyEncryptionAlgorithm, encryptedKey OCTET STRING }. -/
def RecipientEnc (r : P7Recipient) (b : Bytes) : Prop :=
  ∃ v serial ser ias a k, IsInt64 r.version ∧ IntElem r.version v ∧ RawElem r.issuer ∧ r.serial = some serial ∧ IntElem serial ser ∧
    Elem 0 16 true (r.issuer.full ++ ser) ias ∧ AlgEncV r.keyAlg a ∧ Elem 0 4 false r.encKey k ∧ Elem 0 16 true (v ++ (ias ++ (a ++ k))) b

/-- EncryptedContentInfo ::= SEQUENCE { contentType, contentEncryptionAlgorithm, encryptedContent [0] OPTIONAL }. -/
def EncryptedEnc (e : P7Envelope) (b : Bytes) : Prop :=
  ∃ o a c, OidElem e.contentType o ∧ AlgEncV e.alg a ∧
    ((e.content = {} ∧ c = []) ∨ (RawElem e.content ∧ e.content.cls = 2 ∧ e.content.tag = 0 ∧ c = e.content.full)) ∧ Elem 0 16 true (o ++ (a ++ c)) b

/-- The whole message: SEQUENCE { envelopedData, [0] EXPLICIT EnvelopedData }, with EnvelopedData ::= SEQUENCE { version, recipientInfos
    SET OF RecipientInfo, encryptedContentInfo }. -/
def EnvelopeEnc (e : P7Envelope) (b : Bytes) : Prop :=
  ∃ v rs rsB eci ed o w, IsInt64 e.version ∧ IntElem e.version v ∧ ListEnc RecipientEnc e.recipients rs ∧ Elem 0 17 true rs rsB ∧ EncryptedEnc e eci ∧
    Elem 0 16 true (v ++ (rsB ++ eci)) ed ∧ OidElem [1,2,840,113549,1,7,3] o ∧ Elem 2 0 true ed w ∧ Elem 0 16 true (o ++ w) b

/-! ## Decrypting -/

/-- The contents of the octet strings at the start of some bytes, as many as there are, joined. What follows them is not looked at. -/
inductive OctetRun : Bytes → Bytes → Prop
  | stop {b : Bytes} (h : ¬ ∃ x o rest, Elem 0 4 false x o ∧ b = o ++ rest) : OctetRun b []
  | part {x o rest y : Bytes} (h : Elem 0 4 false x o) (hr : OctetRun rest y) : OctetRun (o ++ rest) (x ++ y)

/-- The ciphertext: the contents of a primitive element, or the octet strings in a constructed one. -/
def CipherIs (v : RawVal) (ct : Bytes) : Prop := (v.isCompound = false ∧ ct = v.bytes) ∨ (v.isCompound = true ∧ OctetRun v.bytes ct)

/-- The CBC algorithms: DES, Triple DES, AES-128 and AES-256. -/
inductive CbcIs : List Nat → BlockKind → Prop
  | des : CbcIs [1,3,14,3,2,7] .des
  | tdes : CbcIs [1,2,840,113549,3,7] .tdes
  | aes128 : CbcIs [2,16,840,1,101,3,4,1,2] .aes
  | aes256 : CbcIs [2,16,840,1,101,3,4,1,42] .aes

/-- AES-128 in GCM mode. -/
def gcmOid : List Nat := [2,16,840,1,101,3,4,1,6]

/-- Block size and key sizes of a block cipher in bytes. -/
inductive CipherSizes : BlockKind → (block key : Nat) → Prop
  | des : CipherSizes .des 8 8
  | tdes : CipherSizes .tdes 8 24
  | aes128 : CipherSizes .aes 16 16
  | aes192 : CipherSizes .aes 16 24
  | aes256 : CipherSizes .aes 16 32

/-- What comes out of CBC decryption is the contents with `n` bytes `n` after them; the last byte tells `n`, which can be 0. -/
def PaddedBy (n : Nat) (x p : Bytes) : Prop := p = x ++ List.replicate n (UInt8.ofNat n) ∧ p.getLast? = some (UInt8.ofNat n) ∧ n < 256

/-- The parameters of GCM as this package writes them: a SEQUENCE { [4] nonce, INTEGER tag length } inside the parameters. -/
def GcmParamsAre (params nonce : Bytes) (icv : Int) : Prop :=
  ∃ n i more e rest, Elem 2 4 false nonce n ∧ IntElem icv i ∧ IsInt64 icv ∧ Elem 0 16 true (n ++ (i ++ more)) e ∧ params = e ++ rest

/-- Decrypting the ciphertext with a content key gives these contents. -/
inductive ContentIs (env : CryptEnv) (alg : AlgId) (key ct : Bytes) : Bytes → Prop
  | cbc {k : BlockKind} {bs n : Nat} {x : Bytes} (ha : CbcIs alg.oid k) (hk : CipherSizes k bs key.length) (hiv : alg.params.bytes.length = bs)
      (hw : ct.length % bs = 0) (hp : PaddedBy n x (env.cbcDecrypt k key alg.params.bytes ct)) : ContentIs env alg key ct x
  | gcm {nonce x : Bytes} (ha : alg.oid = gcmOid) (hk : CipherSizes .aes 16 key.length) (hp : GcmParamsAre alg.params.bytes nonce 16)
      (hn : nonce.length = 12) (ho : env.gcmOpen key nonce ct = some x) : ContentIs env alg key ct x

/-- The recipient info is for the certificate. -/
def ForCert (cert : SignCert) (r : P7Recipient) : Prop := r.serial = some cert.serial ∧ r.issuer.full = cert.rawIssuer

/-- Decrypting an envelope for a certificate with a private key gives these contents: the first recipient info for the certificate holds
    the content key. -/
def Decrypts (env : CryptEnv) (e : P7Envelope) (cert : SignCert) (k : Nat) (x : Bytes) : Prop :=
  ∃ r key ct, FirstWith (ForCert cert) e.recipients r ∧ env.rsaDecrypt k r.encKey = some key ∧ CipherIs e.content ct ∧ ContentIs env e.alg key ct x

/-- Decryption in CBC mode panics: the ciphertext is not a number of whole blocks, or the last byte that comes out is larger than the
    number of bytes. -/
def CbcPanics (env : CryptEnv) (k : BlockKind) (iv key ct : Bytes) (p : Panic) : Prop :=
  (ct.length % k.size ≠ 0 ∧ p = .explicit) ∨
  (ct ≠ [] ∧ ct.length % k.size = 0 ∧ ct.length < ((env.cbcDecrypt k key iv ct).getLastD 0).toNat ∧ p = .sliceOutOfRange)

/-! ## Laws of the ciphers -/

/-- Decryption undoes encryption. -/
structure CiphersOk (env : CryptEnv) : Prop where
  rsa : ∀ k rnd x e, env.rsaEncrypt k rnd x = some e → env.rsaDecrypt k e = some x
  cbc : ∀ c key iv x, x.length % c.size = 0 → env.cbcDecrypt c key iv (env.cbcEncrypt c key iv x) = x
  encryptedLength : ∀ c key iv x, (env.cbcEncrypt c key iv x).length = x.length
  gcm : ∀ key nonce x, env.gcmOpen key nonce (env.gcmSeal key nonce x) = some x

/-- The name of the issuer, as it is in the certificate, is one element in DER. -/
def IssuerOk (c : SignCert) : Prop := (∃ cls tag con x, Elem cls tag con x c.rawIssuer) ∧ DerSeq c.rawIssuer

end Apk
