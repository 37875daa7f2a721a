import Verif.Model.Frosting
import Verif.Spec.Bytes
/-! # What makes signature checks panic, independent of the code -/
namespace Apk

/-- Algorithms that need an RSA key. -/
def rsaAlgs : List Nat := [0x0101, 0x0102, 0x0103, 0x0104, 0x0421]
/-- Algorithms that need an elliptic curve key. -/
def ecAlgs : List Nat := [0x0201, 0x0202, 0x0423]
/-- Algorithms that need a DSA key. -/
def dsaAlgs : List Nat := [0x0301, 0x0425]

/-- The key or the signature value does not fit the declared algorithm. -/
inductive Misfit (env : Env) (key : PubKey) (algo : Nat) (sig : Bytes) : Prop
  /-- an RSA algorithm with another kind of key -/
  | rsaKey (ha : algo ∈ rsaAlgs) (hk : key.kind ≠ .rsa)
  /-- an ECDSA algorithm with another kind of key, the signature being a sequence of integers -/
  | ecKey (ha : algo ∈ ecAlgs) {l : List Int} (hs : env.asn1Ints sig = some l) (hk : key.kind ≠ .ecdsa)
  /-- a DSA algorithm with another kind of key, the signature being a sequence of integers -/
  | dsaKey (ha : algo ∈ dsaAlgs) {l : List Int} (hs : env.asn1Ints sig = some l) (hk : key.kind ≠ .dsa)
  /-- fewer than two integers in the signature -/
  | fewInts (ha : algo ∈ ecAlgs ∨ algo ∈ dsaAlgs) {l : List Int} (hs : env.asn1Ints sig = some l) (hl : l.length < 2)
  /-- a DSA key whose subgroup order has at least 33 bytes -/
  | longQ (ha : algo ∈ dsaAlgs) {l : List Int} (hs : env.asn1Ints sig = some l) (hk : key.kind = .dsa) (hq : 32 < key.qBits / 8)

/-- The file asks for `sig` to be checked with `key` and algorithm `algo`: the three come from one signer, from two
    nodes of a lineage, or from a source stamp. -/
inductive SigUse (env : Env) (file : Bytes) : PubKey → Nat → Bytes → Prop
  /-- a list of signatures directly followed by the public key of the signer -/
  | signer {sigs pk sig : Bytes} {algo : Nat} {key : PubKey} (hf : (lp sigs ++ lp pk) <:+: file)
      (hs : (leBytes 4 algo ++ lp sig) <:+: sigs) (hk : env.parsePKIX pk = some key) : SigUse env file key algo sig
  /-- a lineage node with certificate and algorithm, and a later node with the signature -/
  | lineage {enc t t1 sd sig : Bytes} {flags flags1 algo algo1 : Nat} {c : Cert}
      (hn : (lp (lp enc ++ t) ++ leBytes 4 flags ++ leBytes 4 algo ++ t1) <:+: file)
      (hc : env.parseCertAndr enc = some c ∨ env.parseCertStd enc = some c)
      (hs : (lp sd ++ leBytes 4 flags1 ++ leBytes 4 algo1 ++ lp sig) <:+: file) : SigUse env file c.key algo sig
  /-- a stamp: the certificate followed by data that contain the signature record -/
  | stamp {enc rest sig : Bytes} {algo : Nat} {c : Cert} (hf : (lp enc ++ rest) <:+: file)
      (hc : env.parseCertAndr enc = some c) (hs : (leBytes 4 algo ++ lp sig) <:+: rest) : SigUse env file c.key algo sig

/-- The file asks for a check whose key or signature does not fit the algorithm. -/
def HasMisfit (env : Env) (file : Bytes) : Prop := ∃ key algo sig, SigUse env file key algo sig ∧ Misfit env key algo sig

/-- Five bytes that encode a negative number: four continuation bytes and a last byte whose bit 3 is the sign bit of
    the 32-bit result. -/
def NegativeVarint (v : Bytes) : Prop :=
  ∃ x0 x1 x2 x3 x4 : UInt8, v = [x0, x1, x2, x3, x4] ∧ 128 ≤ x0.toNat ∧ 128 ≤ x1.toNat ∧ 128 ≤ x2.toNat ∧ 128 ≤ x3.toNat ∧
    x4.toNat < 128 ∧ 8 ≤ x4.toNat % 16

/-- The file contains a frosting block with a negative number. -/
def HasNegativeIndex (file : Bytes) : Prop :=
  ∃ value v, (leBytes 4 0x2146444e ++ value) <:+: file ∧ v <:+: value ∧ NegativeVarint v

end Apk
