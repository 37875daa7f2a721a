import Verif.Spec.X509
/-! # The NIST curves (FIPS 186-4, D.1.2; SEC 2) -/
namespace Apk.Spec

/-- A curve y² = x³ - 3x + b over the integers modulo p, with coordinates of `size` octets. -/
structure NistCurve where
  size : Nat
  p : Int
  b : Int

def P224 : NistCurve := ⟨28, 2^224 - 2^96 + 1, 0xb4050a850c04b3abf54132565044b0b7d7bfd8ba270b39432355ffb4⟩
def P256 : NistCurve := ⟨32, 2^256 - 2^224 + 2^192 + 2^96 - 1, 0x5ac635d8aa3a93e7b3ebbd55769886bc651d06b0cc53b0f63bce3c3e27d2604b⟩
def P384 : NistCurve := ⟨48, 2^384 - 2^128 - 2^96 + 2^32 - 1,
  0xb3312fa7e23ee7e4988e056be3f82d19181d9c6efe8141120314088f5013875ac656398d8a2ed19d2a85c8edd3ec2aef⟩
def P521 : NistCurve := ⟨66, 2^521 - 1,
  0x051953eb9618e1c9a1f929a21a0b68540eea2da725b99b315f3b8b489918ef109e156193951ec7e937b1652c0bd3bb1bf073573df883d2c34f1ef451fd46b503f00⟩

/-- The curves by their object identifiers. -/
inductive CurveOid : List Nat → NistCurve → Prop
  | p224 : CurveOid [1,3,132,0,33] P224
  | p256 : CurveOid [1,2,840,10045,3,1,7] P256
  | p384 : CurveOid [1,3,132,0,34] P384
  | p521 : CurveOid [1,3,132,0,35] P521

/-- (x, y) is a point of the curve (other than the point at infinity). -/
def NistCurve.Has (c : NistCurve) (x y : Int) : Prop :=
  0 ≤ x ∧ x < c.p ∧ 0 ≤ y ∧ y < c.p ∧ c.p ∣ y * y - (x * x * x - 3 * x + c.b)

/-- The uncompressed form: 4 and the coordinates (SEC 1, 2.3.3). -/
def PointBytes (c : NistCurve) (x y : Int) (b : Bytes) : Prop :=
  ∃ bx bw : Bytes, bx.length = c.size ∧ bw.length = c.size ∧ (beNat bx : Int) = x ∧ (beNat bw : Int) = y ∧ b = 4 :: (bx ++ bw)

/-- The SubjectPublicKeyInfo of a point (RFC 5480). -/
def EcKeyInfo (curve : List Nat) (point b : Bytes) : Prop :=
  ∃ o c alg bits, OidElem [1,2,840,10045,2,1] o ∧ OidElem curve c ∧ Elem 0 16 true (o ++ c) alg ∧ Elem 0 3 false (0 :: point) bits ∧
    Elem 0 16 true (alg ++ bits) b

end Apk.Spec
