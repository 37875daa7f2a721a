import Verif.Model.Types
import Verif.Proofs.Base
/-! # A concrete environment

Used only to show that hypotheses of theorems are satisfiable and to exhibit witnesses. The hash is a polynomial hash,
a certificate is `0xC0 :: public key`, a public key is `kind :: identity`, and an RSA signature is
`public key ++ hash`. -/
namespace Apk.Toy

/-- Polynomial hash. -/
def poly (b : Bytes) : Nat := b.foldl (fun a x => a * 257 + x.toNat + 1) 7

/-- Decode a toy public key. -/
def key (b : Bytes) : Option PubKey :=
  match b with
  | 1 :: _ => some ⟨.rsa, 0, b⟩
  | 2 :: _ => some ⟨.ecdsa, 0, b⟩
  | 3 :: q :: _ => some ⟨.dsa, 8 * q.toNat, b⟩
  | 4 :: _ => some ⟨.other, 0, b⟩
  | _ => none

/-- Decode a toy certificate: `0xC0 :: key`. -/
def cert (b : Bytes) : Option Cert :=
  match b with
  | 0xC0 :: k => (key k).map (fun pk => { raw := b, spki := k, key := pk })
  | _ => none

/-- The environment. -/
def env : Env where
  sha1 b := leBytes 20 (poly b)
  sha256 b := leBytes 32 (poly b)
  sha384 b := leBytes 48 (poly b)
  sha512 b := leBytes 64 (poly b)
  sha1_len _ := leBytes_length _ _
  sha256_len _ := leBytes_length _ _
  sha384_len _ := leBytes_length _ _
  sha512_len _ := leBytes_length _ _
  parseCertAndr := cert
  parseCertStd := cert
  parsePKIX := key
  rsaPss _ k h s := decide (s = k.id ++ h)
  rsaPkcs1 _ k h s := decide (s = k.id ++ h)
  asn1Ints s := if s = [] then none else some (s.map (fun x => (x.toNat : Int)))
  ecdsaVerify _ h r s := decide (r = (h.headD 0).toNat ∧ s = 1)
  dsaVerify _ h r s := decide (r = (h.headD 0).toNat ∧ s = 1)
  frostKeyDer := [2, 7]
  parsePKIXStd := key
  asn1RS s := match s with
    | a :: b :: r => some (a.toNat, b.toNat, r)
    | _ => none
  mapOrder l := l
  mapOrder_perm _ := .refl _
  cdOrder l := l
  cdOrder_perm _ := .refl _

/-- RSA PKCS#1 "signature" of `data` under public key `k`. -/
def sign (k data : Bytes) : Bytes := k ++ leBytes 32 (poly data)

/-- An EOCD record without comment. -/
def eocd (cdSize cdOff : Nat) : Bytes :=
  [0x50, 0x4b, 0x05, 0x06, 0, 0, 0, 0, 1, 0, 1, 0] ++ leBytes 4 cdSize ++ leBytes 4 cdOff ++ [0, 0]

end Apk.Toy
