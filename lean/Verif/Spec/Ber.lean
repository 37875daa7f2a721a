import Verif.Model.Ber
/-! # Specification of BER and DER encodings (X.690) of trees of tagged values, independent of the converter -/
namespace Apk

/-- Big-endian value of a byte string. -/
def beNat : Bytes → Nat
  | [] => 0
  | b :: bs => b.toNat * 256 ^ bs.length + beNat bs

/-- Identifier octets: one byte whose low five bits are not all ones, or a byte with all five set followed by
    continuation bytes (high bit set) and one last byte (high bit clear). -/
def IsTag (t : Bytes) : Prop :=
  (∃ x : UInt8, x.toNat % 32 ≠ 31 ∧ t = [x]) ∨
  (∃ (x : UInt8) (hs : Bytes) (y : UInt8),
    x.toNat % 32 = 31 ∧ (∀ h ∈ hs, 128 ≤ h.toNat) ∧ y.toNat < 128 ∧ t = x :: (hs ++ [y]))

/-- Identifier octets of a primitive value: bit 6 of the first byte is clear. -/
def PrimTag (t : Bytes) : Prop := IsTag t ∧ ∃ x r, t = x :: r ∧ x.toNat / 32 % 2 = 0
/-- Identifier octets of a constructed value: bit 6 of the first byte is set. -/
def ConTag (t : Bytes) : Prop := IsTag t ∧ ∃ x r, t = x :: r ∧ x.toNat / 32 % 2 = 1

/-- DER length octets (definite, shortest form). -/
def DerLen (n : Nat) (l : Bytes) : Prop :=
  (n < 128 ∧ ∃ x : UInt8, x.toNat = n ∧ l = [x]) ∨
  (128 ≤ n ∧ ∃ (x d : UInt8) (ds : Bytes),
    x.toNat = 128 + (d :: ds).length ∧ d.toNat ≠ 0 ∧ beNat (d :: ds) = n ∧ l = x :: d :: ds)

/-- BER definite length octets below 2^31 in at most five bytes: short form, or long form with any number of leading
    zeros. -/
def BerLen (n : Nat) (l : Bytes) : Prop :=
  (n < 128 ∧ ∃ x : UInt8, x.toNat = n ∧ l = [x]) ∨
  (n < 2 ^ 31 ∧ ∃ (x : UInt8) (ds : Bytes),
    x.toNat = 128 + ds.length ∧ 1 ≤ ds.length ∧ ds.length ≤ 4 ∧ beNat ds = n ∧ l = x :: ds)

mutual
/-- `DerEnc t b`: `b` is the DER encoding of the tree `t`. -/
inductive DerEnc : Asn1 → Bytes → Prop
  | prim {tag len content} : PrimTag tag → DerLen content.length len → DerEnc (.prim tag content) (tag ++ len ++ content)
  | con {tag len kids body} : ConTag tag → DerEncs kids body → DerLen body.length len →
      DerEnc (.con tag kids) (tag ++ len ++ body)
/-- The concatenated DER encodings of a list of trees. -/
inductive DerEncs : List Asn1 → Bytes → Prop
  | nil : DerEncs [] []
  | cons {o os b bs} : DerEnc o b → DerEncs os bs → DerEncs (o :: os) (b ++ bs)
end

mutual
/-- `BerEnc t b`: `b` is a BER encoding of the tree `t`: any definite lengths, and constructed values may use the
    indefinite form, closed by two zero bytes. An indefinite-length value here has at least one child, and none of its
    children has the tag 0, which is reserved for the closing bytes. -/
inductive BerEnc : Asn1 → Bytes → Prop
  | prim {tag len content} : PrimTag tag → BerLen content.length len →
      BerEnc (.prim tag content) (tag ++ len ++ content)
  | con {tag len kids body} : ConTag tag → BerEncs kids body → BerLen body.length len →
      BerEnc (.con tag kids) (tag ++ len ++ body)
  | indef {tag kids body} : ConTag tag → BerEncs kids body → kids ≠ [] → (∀ c, .prim [0] c ∉ kids) →
      BerEnc (.con tag kids) (tag ++ [128] ++ body ++ [0, 0])
/-- The concatenated BER encodings of a list of trees. -/
inductive BerEncs : List Asn1 → Bytes → Prop
  | nil : BerEncs [] []
  | cons {o os b bs} : BerEnc o b → BerEncs os bs → BerEncs (o :: os) (b ++ bs)
end

end Apk
