import Verif.Model.P7Message
/-!
# Encrypted PKCS#7 messages (fullsailor/pkcs7/pkcs7.go:362-526, :793-991)

`Encrypt` and `Decrypt`. The ciphers are parameters; what they do with keys and data of wrong sizes is modelled.
-/
namespace Apk

/-- The block ciphers of `decrypt` (pkcs7.go:424-433). -/
inductive BlockKind where
  | des | tdes | aes
deriving DecidableEq, Repr

/-- des.BlockSize, aes.BlockSize. -/
def BlockKind.size : BlockKind → Nat
  | .des => 8
  | .tdes => 8
  | .aes => 16

/-- Key lengths that des.NewCipher, des.NewTripleDESCipher and aes.NewCipher accept. -/
def BlockKind.keyOk : BlockKind → Nat → Bool
  | .des, n => decide (n = 8)
  | .tdes, n => decide (n = 24)
  | .aes, n => decide (n = 16 ∨ n = 24 ∨ n = 32)

/-- The ciphers. -/
structure CryptEnv extends P7Env where
  /-- rsa.EncryptPKCS1v15 by public key, with its random bytes -/
  rsaEncrypt : Nat → Bytes → Bytes → Option Bytes
  /-- rsa.DecryptPKCS1v15 by private key -/
  rsaDecrypt : Nat → Bytes → Option Bytes
  /-- CBC mode: key, initialization vector, data of whole blocks -/
  cbcEncrypt : BlockKind → Bytes → Bytes → Bytes → Bytes
  cbcDecrypt : BlockKind → Bytes → Bytes → Bytes → Bytes
  /-- `CryptBlocks` fills a slice of the length of its input (pkcs7.go:473). -/
  cbcLength : ∀ k key iv ct, (cbcDecrypt k key iv ct).length = ct.length
  /-- GCM mode of AES without additional data: key, nonce, data -/
  gcmSeal : Bytes → Bytes → Bytes → Bytes
  gcmOpen : Bytes → Bytes → Bytes → Option Bytes

/-- pkcs7.go:81-86 `recipientInfo`. -/
structure P7Recipient where
  version : Int := 0
  issuer : RawVal
  serial : Option Int
  keyAlg : AlgId
  encKey : Bytes
deriving DecidableEq, Repr

/-- pkcs7.go:75-79 `envelopedData` with :88-92 `encryptedContentInfo`. -/
structure P7Envelope where
  version : Int := 0
  recipients : List P7Recipient
  contentType : List Nat
  alg : AlgId
  content : RawVal
deriving DecidableEq, Repr

/-- The Go values for the models of `Unmarshal` and `Marshal`, and back. -/
def P7Recipient.of (v : recipientTy.interp) : P7Recipient :=
  match v with
  | (_, version, (_, issuer, serial, ()), keyAlg, encKey, ()) => ⟨version, issuer, serial, AlgId.of keyAlg, encKey⟩
def P7Recipient.go (r : P7Recipient) : recipientTy.interp := (([] : Bytes), r.version, (([] : Bytes), r.issuer, r.serial, ()), r.keyAlg.go, r.encKey, ())
def P7Envelope.of (v : envelopedTy.interp) : P7Envelope :=
  match v with
  | (_, version, recipients, (_, contentType, alg, content, ()), ()) => ⟨version, recipients.map P7Recipient.of, contentType, AlgId.of alg, content⟩
def P7Envelope.go (e : P7Envelope) : envelopedTy.interp :=
  (([] : Bytes), e.version, e.recipients.map P7Recipient.go, (([] : Bytes), e.contentType, e.alg.go, e.content, ()), ())

/-- pkcs7.go:809-812 `aesGCMParameters`. -/
def gcmParamsTy : Ty := .struct false (.cons (b!"tag:4") .octets (.cons [] .int .nil))

/-- Errors of `Encrypt` and `Decrypt`. -/
inductive CryptErr where
  | notEncrypted      -- pkcs7.go:365
  | noRecipient       -- pkcs7.go:369
  | rsa               -- error of the RSA functions
  | unsupported       -- pkcs7.go:380, :397, :932, :990
  | keySize           -- pkcs7.go:436
  | gcmParams         -- pkcs7.go:445, :454, :457
  | gcmOpen           -- pkcs7.go:462
  | ivSize            -- pkcs7.go:470
  | padding           -- pkcs7.go:476
  | marshal           -- any error of asn1.Marshal
deriving DecidableEq, Repr

/-- A key given by the caller (a private key, or the public key of a certificate): RSA by number, a nil RSA key, or of another type. -/
inductive RsaKey where
  | rsa (k : Nat)
  | nilRsa
  | other
deriving DecidableEq, Repr

/-! ## Decrypt -/

/-- The content encryption algorithms (pkcs7.go:383-387). -/
inductive EncAlg where
  | cbc (k : BlockKind)
  | gcm
deriving DecidableEq, Repr

/-- pkcs7.go:383-398, :424-433: the algorithm by its object identifier. -/
def encAlgOf (oid : List Nat) : Option EncAlg :=
  if oid = [1,3,14,3,2,7] then some (.cbc .des)
  else if oid = [1,2,840,113549,3,7] then some (.cbc .tdes)
  else if oid = [2,16,840,1,101,3,4,1,42] then some (.cbc .aes)
  else if oid = [2,16,840,1,101,3,4,1,6] then some .gcm
  else if oid = [2,16,840,1,101,3,4,1,2] then some (.cbc .aes)
  else none

/-- The block cipher under an algorithm. -/
def EncAlg.block : EncAlg → BlockKind
  | .cbc k => k
  | .gcm => .aes

/-- `Unmarshal` of an octet string. -/
def unmOctets (env : AsnEnv) (b : Bytes) : Go (Option (Bytes × Bytes)) := unmFirst env .octets b

/-- pkcs7.go:406-415: the octet strings one after the other; the loop ends at the first error of `Unmarshal`, because after a success the
    rest is never nil. The fuel is never used up (`octetParts_fuel`). -/
def octetParts (env : AsnEnv) : Nat → Bytes → Go Bytes
  | 0, _ => .ok []
  | n + 1, b =>
    match unmOctets env b with
    | .error p => .error p
    | .ok none => .ok []
    | .ok (some (x, rest)) =>
      match octetParts env n rest with
      | .error p => .error p
      | .ok y => .ok (x ++ y)

/-- pkcs7.go:400-419: the ciphertext. -/
def cipherText (env : AsnEnv) (v : RawVal) : Go Bytes :=
  if v.isCompound then octetParts env (v.bytes.length + 1) v.bytes else .ok v.bytes

/-- Nonce and ICVLen. -/
def gcmParamsOf (v : gcmParamsTy.interp) : Bytes × Int :=
  match v with
  | (_, nonce, icvLen, ()) => (nonce, icvLen)

/-- pkcs7.go:439-466: AES in GCM mode. -/
def decryptGcm (env : CryptEnv) (params key ct : Bytes) : Go (Except CryptErr Bytes) :=
  match unmFirst env.toAsnEnv gcmParamsTy params with
  | .error p => .error p
  | .ok none => .ok (.error .gcmParams)
  | .ok (some (v, _)) =>
    if (gcmParamsOf v).1.length ≠ 12 then .ok (.error .gcmParams)
    else if (gcmParamsOf v).2 ≠ 16 then .ok (.error .gcmParams)
    else match env.gcmOpen key (gcmParamsOf v).1 ct with
      | none => .ok (.error .gcmOpen)
      | some x => .ok (.ok x)

/-- pkcs7.go:468-479: a block cipher in CBC mode; `CryptBlocks` panics if the data is not a number of whole blocks. -/
def decryptCbc (env : CryptEnv) (k : BlockKind) (iv key ct : Bytes) : Go (Except CryptErr Bytes) :=
  if iv.length ≠ k.size then .ok (.error .ivSize)
  else if ct.length % k.size ≠ 0 then .error .explicit
  else match unpadBlock (env.cbcDecrypt k key iv ct) k.size with
    | .error p => .error p
    | .ok (.error _) => .ok (.error .padding)
    | .ok (.ok x) => .ok (.ok x)

/-- pkcs7.go:389-479 `decrypt`. The key of a cipher is not compared with the length that the algorithm asks for. -/
def decryptContent (env : CryptEnv) (alg : AlgId) (content : RawVal) (key : Bytes) : Go (Except CryptErr Bytes) :=
  match encAlgOf alg.oid with
  | none => .ok (.error .unsupported)
  | some a =>
    match cipherText env.toAsnEnv content with
    | .error p => .error p
    | .ok ct =>
      if a.block.keyOk key.length = false then .ok (.error .keySize)
      else match a with
        | .gcm => decryptGcm env alg.params.bytes key ct
        | .cbc k => decryptCbc env k alg.params.bytes key ct

/-- pkcs7.go:490-492 for a recipient, see `certMatches`. -/
def recipMatches (cert : SignCert) (r : P7Recipient) : Bool := decide (r.serial = some cert.serial) && decide (cert.rawIssuer = r.issuer.full)

/-- pkcs7.go:362-381 `Decrypt`, with :481-488 `selectRecipientForCertificate`: the encrypted key of a parsed recipient is never nil. -/
def decryptMsg (env : CryptEnv) (m : P7Msg) (cert : SignCert) (key : RsaKey) : Go (Except CryptErr Bytes) :=
  match m.enveloped with
  | none => .ok (.error .notEncrypted)
  | some v =>
    match (P7Envelope.of v).recipients.find? (recipMatches cert) with
    | none => .ok (.error .noRecipient)
    | some r =>
      match key with
      | .other => .error .typeAssertion
      | .nilRsa => .ok (.error .unsupported)
      | .rsa k =>
        match env.rsaDecrypt k r.encKey with
        | none => .ok (.error .rsa)
        | some ck => decryptContent env (P7Envelope.of v).alg (P7Envelope.of v).content ck

/-! ## Encrypt -/

/-- A certificate to encrypt for: what is used of it. -/
structure Recip where
  cert : SignCert
  key : RsaKey
deriving DecidableEq, Repr

/-- pkcs7.go:981-984 `marshalEncryptedContent`: an error of `Marshal` is ignored. -/
def marshalEncrypted (env : P7Env) (ct : Bytes) : RawVal :=
  match marshal env.mar .octets ct with
  | .error _ => ⟨2, 0, true, [], []⟩
  | .ok b => ⟨2, 0, true, b, []⟩

/-- pkcs7.go:814-866 `encryptAES128GCM`, given the random key and nonce: algorithm and encrypted contents. -/
def encryptGcm (env : CryptEnv) (key nonce content : Bytes) : Except CryptErr (AlgId × RawVal) :=
  if BlockKind.keyOk .aes key.length = false then .error .keySize
  else match marshal env.mar gcmParamsTy (([] : Bytes), nonce, (16 : Int), ()) with
    | .error _ => .error .marshal
    | .ok params => .ok (⟨[2,16,840,1,101,3,4,1,6], ⟨0, 16, false, params, []⟩⟩, marshalEncrypted env.toP7Env (env.gcmSeal key nonce content))

/-- pkcs7.go:868-905 `encryptDESCBC`, given the random key and initialization vector. -/
def encryptDes (env : CryptEnv) (key iv content : Bytes) : Except CryptErr (AlgId × RawVal) :=
  if BlockKind.keyOk .des key.length = false then .error .keySize
  else match padBlock content 8 with
    | .error _ => .error .padding
    | .ok p => .ok (⟨[1,3,14,3,2,7], ⟨0, 4, false, iv, []⟩⟩, marshalEncrypted env.toP7Env (env.cbcEncrypt .des key iv p))

/-- pkcs7.go:986-991 `encryptKey`; the type assertion panics for a key of another type. -/
def encryptKey (env : CryptEnv) (rnd key : Bytes) : RsaKey → Go (Except CryptErr Bytes)
  | .other => .error .typeAssertion
  | .nilRsa => .ok (.error .unsupported)
  | .rsa k =>
    match env.rsaEncrypt k rnd key with
    | none => .ok (.error .rsa)
    | some e => .ok (.ok e)

/-- pkcs7.go:939-959: the recipient infos; `rnd` gives the random bytes for each. -/
def recipientInfos (env : CryptEnv) (key : Bytes) : List (Recip × Bytes) → Go (Except CryptErr (List P7Recipient))
  | [] => .ok (.ok [])
  | (r, rnd) :: rest =>
    match encryptKey env rnd key r.key with
    | .error p => .error p
    | .ok (.error e) => .ok (.error e)
    | .ok (.ok e) =>
      match recipientInfos env key rest with
      | .error p => .error p
      | .ok (.error e) => .ok (.error e)
      | .ok (.ok rs) =>
        .ok (.ok ({ issuer := ⟨0, 0, false, [], r.cert.rawIssuer⟩, serial := some r.cert.serial, keyAlg := ⟨[1,2,840,113549,1,1,1], {}⟩, encKey := e } :: rs))

/-- pkcs7.go:961-978: the envelope and the content info around it. -/
def writeEnvelope (env : P7Env) (e : P7Envelope) : Except CryptErr Bytes :=
  match marshal env.mar envelopedTy e.go with
  | .error _ => .error .marshal
  | .ok inner =>
    match wrapContent env [1,2,840,113549,1,7,3] inner with
    | .error _ => .error .marshal
    | .ok b => .ok b

/-- pkcs7.go:939-978 `Encrypt` after the contents are encrypted. -/
def encryptFor (env : CryptEnv) (key : Bytes) (alg : AlgId) (content : RawVal) (recipients : List (Recip × Bytes)) : Go (Except CryptErr Bytes) :=
  match recipientInfos env key recipients with
  | .error p => .error p
  | .ok (.error e) => .ok (.error e)
  | .ok (.ok rs) => .ok (writeEnvelope env.toP7Env { recipients := rs, contentType := [1,2,840,113549,1,7,1], alg, content })

/-- pkcs7.go:924-937: the content encryption algorithm is the value of a global variable. -/
def encryptContent (env : CryptEnv) (algorithm : Int) (key iv content : Bytes) : Except CryptErr (AlgId × RawVal) :=
  if algorithm = 0 then encryptDes env key iv content
  else if algorithm = 1 then encryptGcm env key iv content
  else .error .unsupported

/-- pkcs7.go:918-979 `Encrypt`. `key` and `iv` are the random key and initialization vector or nonce, `recipients` the certificates,
    each with the random bytes for its key. rand.Read does not fail. -/
def encryptMsg (env : CryptEnv) (algorithm : Int) (key iv content : Bytes) (recipients : List (Recip × Bytes)) : Go (Except CryptErr Bytes) :=
  match encryptContent env algorithm key iv content with
  | .error e => .ok (.error e)
  | .ok (alg, c) => encryptFor env key alg c recipients

end Apk
