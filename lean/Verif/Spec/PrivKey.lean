import Verif.Model.PrivKey
import Verif.Spec.Ber
/-! # Specification of private keys (RFC 8017, RFC 5208, SEC 1) -/
namespace Apk.Spec

/-- The NIST curves with the order of the base point and the octets it takes (SEC 2). -/
inductive CurveOrder : List Nat → Nat → Nat → Prop
  | p224 : CurveOrder [1,3,132,0,33] 0xffffffffffffffffffffffffffff16a2e0b8f03e13dd29455c5c2a3d 28
  | p256 : CurveOrder [1,2,840,10045,3,1,7] 0xffffffff00000000ffffffffffffffffbce6faada7179e84f3b9cac2fc632551 32
  | p384 : CurveOrder [1,3,132,0,34]
      0xffffffffffffffffffffffffffffffffffffffffffffffffc7634d81f4372ddf581a0db248b0a77aecec196accc52973 48
  | p521 : CurveOrder [1,3,132,0,35]
      0x1fffffffffffffffffffffffffffffffffffffffffffffffffffffffffffffffffa51868783bf2f966b7fcc0148f709a5d03bb5c9b8899c47aebb6fb71e91386409 66

/-- The RSA key of the fields: all its numbers are positive, and the version is known. -/
structure RsaKeyIs (f : Pkcs1Fields) (key : RsaPriv) : Prop where
  version : f.version ≤ 1
  n : key.n = f.n ∧ 0 < f.n
  e : key.e = f.e
  d : key.d = f.d ∧ 0 < f.d
  primes : key.primes = [f.p, f.q] ++ f.extra.map (fun a => a.1)
  positive : ∀ p ∈ key.primes, 0 < p

/-- The key of the fields on a curve: a number below the order. The point is computed from it, in as many octets as the order has. -/
def EcKeyIs (env : KeyEnv) (f : EcFields) (curve : List Nat) (key : EcPriv) : Prop :=
  ∃ n size fixed, CurveOrder curve n size ∧ f.version = 1 ∧ beNat f.key < n ∧ fixed.length = size ∧ beNat fixed = beNat f.key ∧
    key = ⟨some curve, (beNat f.key : Int), (env.baseMult curve fixed).1, (env.baseMult curve fixed).2⟩

/-- The curve of a key in a container: the one the container names, or else that of the key. -/
def CurveIs (env : KeyEnv) (params : Bytes) (inner : List Nat) (curve : List Nat) : Prop :=
  (∃ rest, env.unOid params = some (curve, rest)) ∨ env.unOid params = none ∧ curve = inner

end Apk.Spec
