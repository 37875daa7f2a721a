import Verif.Model.Pem
/-! # Specification of encrypted PEM blocks (RFC 1423, with the key derivation of OpenSSL) -/
namespace Apk.Spec

/-- A cipher of the table of RFC 1423 and its extensions: number, name, block cipher, key size, block size. -/
inductive PemCipher : Int → Bytes → BlockKind → Nat → Nat → Prop
  | des : PemCipher 1 (b!"DES-CBC") .des 8 8
  | tdes : PemCipher 2 (b!"DES-EDE3-CBC") .tdes 24 8
  | aes128 : PemCipher 3 (b!"AES-128-CBC") .aes 16 16
  | aes192 : PemCipher 4 (b!"AES-192-CBC") .aes 24 16
  | aes256 : PemCipher 5 (b!"AES-256-CBC") .aes 32 16

/-- The values of the hash function that make up the key: each is that of the one before, the password and the salt. -/
inductive DerivedDigests (md5 : Bytes → Bytes) (password salt : Bytes) : Bytes → List Bytes → Prop
  | nil (prev : Bytes) : DerivedDigests md5 password salt prev []
  | cons {prev : Bytes} {ds : List Bytes} : DerivedDigests md5 password salt (md5 (prev ++ password ++ salt)) ds →
      DerivedDigests md5 password salt prev (md5 (prev ++ password ++ salt) :: ds)

/-- The key of `n` bytes: their beginning. -/
def KeyIsDerived (md5 : Bytes → Bytes) (password salt : Bytes) (n : Nat) (key : Bytes) : Prop :=
  key.length = n ∧ ∃ ds rest, DerivedDigests md5 password salt [] ds ∧ ds.flatten = key ++ rest

/-- The value of a hexadecimal digit. -/
inductive HexDigitIs : UInt8 → Nat → Prop
  | dec (n : Nat) : n < 10 → HexDigitIs (UInt8.ofNat (48 + n)) n
  | low (n : Nat) : n < 6 → HexDigitIs (UInt8.ofNat (97 + n)) (10 + n)
  | up (n : Nat) : n < 6 → HexDigitIs (UInt8.ofNat (65 + n)) (10 + n)

/-- The bytes written by hexadecimal digits. -/
inductive HexOf : Bytes → Bytes → Prop
  | nil : HexOf [] []
  | cons {a b : UInt8} {x y : Nat} {s t : Bytes} : HexDigitIs a x → HexDigitIs b y → HexOf s t → HexOf (a :: b :: s) (UInt8.ofNat (16 * x + y) :: t)

/-- CBC mode: every block is combined with the ciphertext before it. -/
inductive Cbc (E : Bytes → Bytes) (bs : Nat) : Bytes → Bytes → Bytes → Prop
  | nil (iv : Bytes) : Cbc E bs iv [] []
  | cons {iv p ps cs : Bytes} : p.length = bs → Cbc E bs (E (List.zipWith (· ^^^ ·) p iv)) ps cs →
      Cbc E bs iv (p ++ ps) (E (List.zipWith (· ^^^ ·) p iv) ++ cs)

/-- The data with its padding: 1 to `bs` bytes, each of which says how many there are, up to whole blocks. -/
def PemPadded (bs : Nat) (data padded : Bytes) : Prop :=
  ∃ n, 1 ≤ n ∧ n ≤ bs ∧ padded = data ++ List.replicate n (UInt8.ofNat n) ∧ bs ∣ padded.length

/-- The block ciphers can be inverted, block by block, and hash values are not empty. -/
structure PemEnvOk (env : PemEnv) : Prop where
  md5 : ∀ b, env.md5 b ≠ []
  encLen : ∀ k key b, k.keyOk key.length = true → b.length = k.size → (env.blockEnc k key b).length = k.size
  decLen : ∀ k key b, k.keyOk key.length = true → b.length = k.size → (env.blockDec k key b).length = k.size
  decEnc : ∀ k key b, k.keyOk key.length = true → b.length = k.size → env.blockDec k key (env.blockEnc k key b) = b
  encDec : ∀ k key b, k.keyOk key.length = true → b.length = k.size → env.blockEnc k key (env.blockDec k key b) = b

/-- The block is the data, encrypted with the password, as its header says. -/
def PemEncrypted (env : PemEnv) (b : PemBlock) (password data : Bytes) : Prop :=
  ∃ num name kind ks bs hex iv key padded, PemCipher num name kind ks bs ∧ mget b.headers (b!"DEK-Info") = some (name ++ b!"," ++ hex) ∧
    HexOf hex iv ∧ iv.length = bs ∧ KeyIsDerived env.md5 password (iv.take 8) ks key ∧ PemPadded bs data padded ∧
    Cbc (env.blockEnc kind key) bs iv padded b.bytes

end Apk.Spec
