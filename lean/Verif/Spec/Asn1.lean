import Verif.Spec.Ber
import Verif.Model.Asn1
/-! # Specification of DER primitive contents (X.690), independent of the encoders and parsers -/
namespace Apk

/-- The value of INTEGER contents octets: two's complement, big endian. -/
def twos : Bytes → Int
  | [] => 0
  | x :: xs => if x.toNat < 128 then (beNat (x :: xs) : Int) else beNat (x :: xs) - 256 ^ (xs.length + 1)

/-- X.690 8.3.2: not empty, and the first nine bits are not all zero and not all one. -/
def MinimalInt (b : Bytes) : Prop :=
  b ≠ [] ∧ ∀ x y r, b = x :: y :: r → ¬ (x.toNat = 0 ∧ y.toNat < 128) ∧ ¬ (x.toNat = 255 ∧ 128 ≤ y.toNat)

/-- Range of `int64`. -/
def IsInt64 (i : Int) : Prop := -2 ^ 63 ≤ i ∧ i < 2 ^ 63
/-- Range of `int32`. -/
def IsInt32 (i : Int) : Prop := -2 ^ 31 ≤ i ∧ i < 2 ^ 31

/-- A base-128 number: continuation bytes with the high bit set, then a last byte without it; 7 bits each, most
    significant first. -/
inductive Base128 : Nat → Bytes → Prop
  | last {x : UInt8} : x.toNat < 128 → Base128 x.toNat [x]
  | more {x : UInt8} {n : Nat} {b : Bytes} : 128 ≤ x.toNat → Base128 n b →
      Base128 ((x.toNat - 128) * 128 ^ b.length + n) (x :: b)

/-- Object identifiers with an encoding: at least two arcs, the first 0, 1 or 2, the second below 40 unless the first is
    2; all encoded numbers fit in an int32. -/
def ValidOid : List Nat → Prop
  | a :: b :: arcs => a ≤ 2 ∧ (a < 2 → b < 40) ∧ a * 40 + b < 2 ^ 31 ∧ ∀ n ∈ arcs, n < 2 ^ 31
  | _ => False

end Apk
