import Verif.Model.Envelope
import Verif.Model.CertInfo
/-!
# Encrypted PEM blocks (internal/x509andr/pem_decrypt.go)

Nothing in the module calls these functions; they are modelled as the exported functions of that package. The block ciphers and MD5 are
parameters; CBC mode is modelled.
-/
namespace Apk

/-- crypto/md5, and the block ciphers of crypto/des and crypto/aes: kind, key, one block. -/
structure PemEnv where
  md5 : Bytes → Bytes
  blockEnc : BlockKind → Bytes → Bytes → Bytes
  blockDec : BlockKind → Bytes → Bytes → Bytes

/-- pem_decrypt.go:35-41 `rfc1423Algo`; the cipher function is given by its kind. -/
structure PemAlg where
  cipher : Int
  name : Bytes
  kind : BlockKind
  keySize : Nat
  blockSize : Nat
deriving DecidableEq

/-- pem_decrypt.go:45-77 `rfc1423Algos`, with the numbers of :25-32. -/
def pemAlgs : List PemAlg :=
  [⟨1, b!"DES-CBC", .des, 8, 8⟩, ⟨2, b!"DES-EDE3-CBC", .tdes, 24, 8⟩, ⟨3, b!"AES-128-CBC", .aes, 16, 16⟩, ⟨4, b!"AES-192-CBC", .aes, 24, 16⟩,
   ⟨5, b!"AES-256-CBC", .aes, 32, 16⟩]

/-- pem_decrypt.go:222-230 `cipherByName`, :232-240 `cipherByKey`. -/
def cipherByName (name : Bytes) : Option PemAlg := pemAlgs.find? (fun a => decide (a.name = name))
def cipherByKey (key : Int) : Option PemAlg := pemAlgs.find? (fun a => decide (a.cipher = key))

/-- pem_decrypt.go:87-95: the loop; `left` bytes of the key are missing. The first number bounds the iterations: each adds a byte, if hash values
    are not empty. -/
def deriveLoop (md5 : Bytes → Bytes) (password salt : Bytes) : Nat → Nat → Bytes → Bytes
  | 0, _, _ => []
  | fuel + 1, left, digest =>
    if left = 0 then []
    else
      let digest := md5 (digest ++ password ++ salt)
      digest.take left ++ deriveLoop md5 password salt fuel (left - digest.length) digest

/-- pem_decrypt.go:82-97 `deriveKey`. -/
def PemAlg.deriveKey (md5 : Bytes → Bytes) (a : PemAlg) (password salt : Bytes) : Bytes := deriveLoop md5 password salt a.keySize a.keySize []

/-- encoding/pem `Block`. -/
structure PemBlock where
  type : Bytes
  headers : List (Bytes × Bytes)
  bytes : Bytes
deriving DecidableEq

/-- pem_decrypt.go:99-103 `IsEncryptedPEMBlock`. -/
def isEncryptedPem (b : PemBlock) : Bool := (mget b.headers (b!"DEK-Info")).isSome

/-- A hexadecimal digit of either case (encoding/hex `fromHexChar`). -/
def hexVal (c : UInt8) : Option Nat :=
  if 48 ≤ c.toNat ∧ c.toNat ≤ 57 then some (c.toNat - 48)
  else if 97 ≤ c.toNat ∧ c.toNat ≤ 102 then some (c.toNat - 87)
  else if 65 ≤ c.toNat ∧ c.toNat ≤ 70 then some (c.toNat - 55)
  else none

/-- Go hex.DecodeString; `none`: an error. -/
def hexDecode : Bytes → Option Bytes
  | [] => some []
  | [_] => none
  | a :: b :: s =>
    match hexVal a, hexVal b with
    | some x, some y => (hexDecode s).map (UInt8.ofNat (16 * x + y) :: ·)
    | _, _ => none

/-- The text before and after the first comma (pem_decrypt.go:121-126). -/
def cutComma : Bytes → Option (Bytes × Bytes)
  | [] => none
  | c :: s => if c = 44 then some ([], s) else (cutComma s).map (fun p => (c :: p.1, p.2))

def xorBytes (a b : Bytes) : Bytes := List.zipWith (· ^^^ ·) a b

/-- crypto/cipher: CBC mode, for a number of blocks. -/
def cbcEncBlocks (E : Bytes → Bytes) (bs : Nat) : Nat → Bytes → Bytes → Bytes
  | 0, _, _ => []
  | n + 1, prev, p =>
    let c := E (xorBytes (p.take bs) prev)
    c ++ cbcEncBlocks E bs n c (p.drop bs)

def cbcDecBlocks (D : Bytes → Bytes) (bs : Nat) : Nat → Bytes → Bytes → Bytes
  | 0, _, _ => []
  | n + 1, prev, c => xorBytes (D (c.take bs)) prev ++ cbcDecBlocks D bs n (c.take bs) (c.drop bs)

/-- cipher.NewCBCEncrypter and `CryptBlocks`: they panic for initialization vectors of other sizes than a block, and for data that is not of whole blocks. -/
def cbcCrypt (f : Nat → Bytes → Bytes → Bytes) (bs : Nat) (iv data : Bytes) : Go Bytes :=
  if iv.length ≠ bs then .error .explicit
  else if data.length % bs ≠ 0 then .error .explicit
  else .ok (f (data.length / bs) iv data)

/-- Errors of `DecryptPEMBlock` and `EncryptPEMBlock`. -/
inductive PemErr where
  | noHeader        -- pem_decrypt.go:118
  | badHeader       -- pem_decrypt.go:123
  | unknownMode     -- pem_decrypt.go:129, :186
  | hex             -- pem_decrypt.go:133
  | ivSize          -- pem_decrypt.go:136
  | keySize         -- pem_decrypt.go:144, :198: the cipher refuses the key
  | notBlocks       -- pem_decrypt.go:148
  | padding         -- pem_decrypt.go:163
  | password        -- pem_decrypt.go:167, :170, :174 `IncorrectPasswordError`
  | random          -- pem_decrypt.go:190
deriving DecidableEq

/-- pem_decrypt.go:161-177: removing the padding. -/
def pemUnpad (bs : Nat) (data : Bytes) : Except PemErr Bytes :=
  let dlen := data.length
  if dlen = 0 ∨ dlen % bs ≠ 0 then .error .padding
  else
    let last := (data.getD (dlen - 1) 0).toNat
    if dlen < last then .error .password
    else if last = 0 ∨ last > bs then .error .password
    else if (data.drop (dlen - last)).any (fun v => decide (v.toNat ≠ last)) then .error .password
    else .ok (data.take (dlen - last))

/-- pem_decrypt.go:115-178 `DecryptPEMBlock`. -/
def decryptPem (env : PemEnv) (b : PemBlock) (password : Bytes) : Go (Except PemErr Bytes) :=
  match mget b.headers (b!"DEK-Info") with
  | none => .ok (.error .noHeader)
  | some dek =>
    match cutComma dek with
    | none => .ok (.error .badHeader)
    | some (mode, hexIV) =>
      match cipherByName mode with
      | none => .ok (.error .unknownMode)
      | some a =>
        match hexDecode hexIV with
        | none => .ok (.error .hex)
        | some iv =>
          if iv.length ≠ a.blockSize then .ok (.error .ivSize)
          else if iv.length < 8 then .error .sliceOutOfRange
          else
            let key := a.deriveKey env.md5 password (iv.take 8)
            if !a.kind.keyOk key.length then .ok (.error .keySize)
            else if b.bytes.length % a.kind.size ≠ 0 then .ok (.error .notBlocks)
            else match cbcCrypt (cbcDecBlocks (env.blockDec a.kind key) a.kind.size) a.kind.size iv b.bytes with
              | .error p => .error p
              | .ok data => .ok (pemUnpad a.blockSize data)

/-- pem_decrypt.go:183-220 `EncryptPEMBlock`; `rand` is what the source of random bytes has. -/
def encryptPem (env : PemEnv) (rand blockType data password : Bytes) (alg : Int) : Go (Except PemErr PemBlock) :=
  match cipherByKey alg with
  | none => .ok (.error .unknownMode)
  | some a =>
    if rand.length < a.blockSize then .ok (.error .random)
    else
      let iv := rand.take a.blockSize
      if iv.length < 8 then .error .sliceOutOfRange
      else
        let key := a.deriveKey env.md5 password (iv.take 8)
        if !a.kind.keyOk key.length then .ok (.error .keySize)
        else
          let pad := a.blockSize - data.length % a.blockSize
          match cbcCrypt (cbcEncBlocks (env.blockEnc a.kind key) a.kind.size) a.kind.size iv (data ++ List.replicate pad (UInt8.ofNat pad)) with
          | .error p => .error p
          | .ok encrypted => .ok (.ok ⟨blockType,
              [(b!"Proc-Type", b!"4,ENCRYPTED"), (b!"DEK-Info", a.name ++ b!"," ++ hexEncode iv)], encrypted⟩)

end Apk
