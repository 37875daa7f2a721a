import Verif.Model.Types
import Verif.Spec.Bytes
/-! # Specification of signers of the APK Signature Schemes v2 and v3, independent of the code -/
namespace Apk

/-- Strength of a signature algorithm id by its content digest: SHA-512 chunks (3) over verity (2) over SHA-256 chunks
    (1); 0 for ids that are not supported. -/
def algStrength (a : Nat) : Nat :=
  if a ∈ [0x0101, 0x0103, 0x0201, 0x0301] then 1
  else if a ∈ [0x0421, 0x0423, 0x0425] then 2
  else if a ∈ [0x0102, 0x0104, 0x0202] then 3
  else 0

/-- The content digest that goes with a supported algorithm id. -/
def algDigest (a : Nat) : CD :=
  if a ∈ [0x0102, 0x0104, 0x0202] then .chunked512
  else if a ∈ [0x0421, 0x0423, 0x0425] then .verity256
  else .chunked256

/-- A signature by `key` with algorithm `a` over `data` is valid. -/
def SigValid (env : Env) (key : PubKey) (a : Nat) (data sig : Bytes) : Prop :=
  (a = 0x0101 ∧ key.kind = .rsa ∧ env.rsaPss 256 key (env.sha256 data) sig = true) ∨
  (a = 0x0102 ∧ key.kind = .rsa ∧ env.rsaPss 512 key (env.sha512 data) sig = true) ∨
  ((a = 0x0103 ∨ a = 0x0421) ∧ key.kind = .rsa ∧ env.rsaPkcs1 256 key (env.sha256 data) sig = true) ∨
  (a = 0x0104 ∧ key.kind = .rsa ∧ env.rsaPkcs1 512 key (env.sha512 data) sig = true) ∨
  ((a = 0x0201 ∨ a = 0x0423) ∧ key.kind = .ecdsa ∧
    ∃ r s more, env.asn1Ints sig = some (r :: s :: more) ∧ env.ecdsaVerify key (env.sha256 data) r s = true) ∨
  (a = 0x0202 ∧ key.kind = .ecdsa ∧
    ∃ r s more, env.asn1Ints sig = some (r :: s :: more) ∧ env.ecdsaVerify key (env.sha512 data) r s = true) ∨
  ((a = 0x0301 ∨ a = 0x0425) ∧ key.kind = .dsa ∧ key.qBits / 8 ≤ 32 ∧
    ∃ r s more, env.asn1Ints sig = some (r :: s :: more) ∧
      env.dsaVerify key ((env.sha256 data).take (key.qBits / 8)) r s = true)

/-- What keeps checking a signature from panicking: the key has the type of the algorithm, a decodable (EC)DSA signature has
    two integers, and a DSA group order is at most 256 bits. -/
def KeyFits (env : Env) (key : PubKey) (a : Nat) (sig : Bytes) : Prop :=
  (a ∈ [0x0101, 0x0102, 0x0103, 0x0104, 0x0421] → key.kind = .rsa) ∧
  (a ∈ [0x0201, 0x0202, 0x0423, 0x0301, 0x0425] → ∀ ps, env.asn1Ints sig = some ps →
    2 ≤ ps.length ∧ (a ∈ [0x0201, 0x0202, 0x0423] → key.kind = .ecdsa) ∧
    (a ∈ [0x0301, 0x0425] → key.kind = .dsa ∧ key.qBits / 8 ≤ 32))

/-- The algorithm id of a signature or digest record. -/
def recAlg (rec : Bytes) : Nat := leNat (rec.take 4)

/-- A record carries `x` after its algorithm id. -/
def RecBody (rec x : Bytes) : Prop := Small x ∧ ∃ tail, rec.drop 4 = lp x ++ tail

/-- `recs` as a signature list: the records are long enough, and every record stronger than all records before it is
    well formed (weaker and unsupported records are not looked into). -/
def SigsWF (recs : List Bytes) : Prop :=
  (∀ rec ∈ recs, 8 ≤ rec.length) ∧
  ∀ pre rec post, recs = pre ++ rec :: post → 0 < algStrength (recAlg rec) →
    (∀ x ∈ pre, algStrength (recAlg x) < algStrength (recAlg rec)) → ∃ s, RecBody rec s

/-- `(a, s)` is the first signature of maximal strength among the supported ones. -/
def SigSelected (recs : List Bytes) (a : Nat) (s : Bytes) : Prop :=
  ∃ pre rec post, recs = pre ++ rec :: post ∧ recAlg rec = a ∧ RecBody rec s ∧ 0 < algStrength a ∧
    (∀ x ∈ pre, algStrength (recAlg x) < algStrength a) ∧ (∀ x ∈ post, algStrength (recAlg x) ≤ algStrength a)

/-- A length-prefixed list of records. -/
def LPList (b : Bytes) (recs : List Bytes) : Prop := b = lpSeq recs ∧ ∀ x ∈ recs, Small x

/-- A well-formed signature list and the signature to verify. -/
def SigList (b : Bytes) (recs : List Bytes) (a : Nat) (s : Bytes) : Prop :=
  LPList b recs ∧ SigsWF recs ∧ SigSelected recs a s

/-- A well-formed digest list in which `d` is the digest for algorithm `a` (the last record with that id). -/
def DigestList (b : Bytes) (recs : List Bytes) (a : Nat) (d : Bytes) : Prop :=
  LPList b recs ∧ (∀ rec ∈ recs, 8 ≤ rec.length) ∧ (∀ rec ∈ recs, recAlg rec = a → ∃ x, RecBody rec x) ∧
  ∃ pre rec post, recs = pre ++ rec :: post ∧ recAlg rec = a ∧ RecBody rec d ∧ ∀ x ∈ post, recAlg x ≠ a

/-- A non-empty certificate list that parses to `main :: more` where `main` has public key `pk`. -/
def CertList (env : Env) (b pk : Bytes) (main : Cert) (more : List Cert) : Prop :=
  ∃ ders, LPList b ders ∧ ders.map env.parseCertAndr = (main :: more).map some ∧ main.spki = pk

/-- The public key parses and the signature over the signed data verifies. -/
def KeyAccepts (env : Env) (pk : Bytes) (a : Nat) (data sig : Bytes) : Prop :=
  ∃ key, env.parsePKIX pk = some key ∧ SigValid env key a data sig

/-- The APK Signature Scheme block of a scheme id (used by stripping protection). -/
def schemeBlock (k : Nat) : Option Nat :=
  if k = 2 then some 0x7109871a else if k = 3 then some 0xf05368c0 else if k = 31 then some 0x1b93ad61 else none

/-- A v2 attribute is fine: it has an id, and if it is the stripping-protection attribute and the range includes Android 9
    it names a known scheme whose block is present. -/
def V2AttrOK (maxSdk : Int) (present : Nat → Prop) (attr : Bytes) : Prop :=
  4 ≤ attr.length ∧
  (leNat (attr.take 4) = 0xbeeff00d → 28 ≤ maxSdk → 8 ≤ attr.length ∧
    ∃ bid, schemeBlock (leNat ((attr.drop 4).take 4)) = some bid ∧ present bid)

/-- A v2 signer that satisfies the specification, with its certificate chain, the algorithm of the verified signature and
    the content digest it declares for that algorithm. -/
def V2SignerOK (env : Env) (maxSdk : Int) (present : Nat → Prop) (signer : Bytes) (chain : List Cert) (a : Nat)
    (d : Bytes) : Prop :=
  ∃ signedData sigs pk tail sigRecs sig digests certs attrs tail' digestRecs attrRecs main more,
    signer = lp signedData ++ lp sigs ++ lp pk ++ tail ∧ Small signedData ∧ Small sigs ∧ Small pk ∧
    signedData = lp digests ++ lp certs ++ lp attrs ++ tail' ∧ Small digests ∧ Small certs ∧ Small attrs ∧
    SigList sigs sigRecs a sig ∧
    KeyAccepts env pk a signedData sig ∧
    CertList env certs pk main more ∧ chain = main :: more ∧
    DigestList digests digestRecs a d ∧ digestRecs.map recAlg = sigRecs.map recAlg ∧
    LPList attrs attrRecs ∧ ∀ x ∈ attrRecs, V2AttrOK maxSdk present x

end Apk
