import Verif.Spec.Ber
/-! # What the converter reads: a grammar of its input, as lenient as the code -/
namespace Apk

mutual
/-- `BerReads b t r`: from the start of `b` the value `t` is read, and `r` is what follows. Definite lengths are those of `BerLen`.
    Unlike in BER, the last child of a definite-length value may run past its end (into `rest`), an indefinite-length value has at
    least one child, and its children may have the tag 0. -/
inductive BerReads : Bytes → Asn1 → Bytes → Prop
  | prim {tag len content rest : Bytes} : PrimTag tag → BerLen content.length len → BerReads (tag ++ len ++ content ++ rest) (.prim tag content) rest
  | con {tag len body rest : Bytes} {kids : List Asn1} : ConTag tag → BerLen body.length len → BerUntil rest.length (body ++ rest) kids →
      BerReads (tag ++ len ++ body ++ rest) (.con tag kids) rest
  | indef {tag b rest : Bytes} {kids : List Asn1} : ConTag tag → BerToEnd b kids rest → BerReads (tag ++ [128] ++ b) (.con tag kids) rest
/-- Values are read one after the other until at most `k` bytes are left. -/
inductive BerUntil : Nat → Bytes → List Asn1 → Prop
  | stop {k : Nat} {b : Bytes} : b.length ≤ k → BerUntil k b []
  | next {k : Nat} {b r : Bytes} {o : Asn1} {os : List Asn1} : k < b.length → BerReads b o r → BerUntil k r os → BerUntil k b (o :: os)
/-- Values are read one after the other, at least one, until two zero bytes follow. -/
inductive BerToEnd : Bytes → List Asn1 → Bytes → Prop
  | last {b rest : Bytes} {o : Asn1} : BerReads b o (0 :: 0 :: rest) → BerToEnd b [o] rest
  | next {b r rest : Bytes} {o : Asn1} {os : List Asn1} : BerReads b o r → 2 ≤ r.length → r.take 2 ≠ [0, 0] → BerToEnd r os rest → BerToEnd b (o :: os) rest
end

/-- Identifier and length octets. -/
def IsHeader (h : Bytes) : Prop := ∃ tag len, IsTag tag ∧ (len = [128] ∨ ∃ n, BerLen n len) ∧ h = tag ++ len

/-- The bytes end within a header. -/
def ShortHeader (b : Bytes) : Prop := ∃ ext, ext ≠ [] ∧ IsHeader (b ++ ext)

mutual
/-- `RunsOff b`: when values are read from the start of `b`, depth first, one has a header that ends too early. -/
inductive RunsOff : Bytes → Prop
  | header {b : Bytes} : ShortHeader b → RunsOff b
  | con {tag len body rest : Bytes} : ConTag tag → BerLen body.length len → OffUntil rest.length (body ++ rest) → RunsOff (tag ++ len ++ body ++ rest)
  | indef {tag b : Bytes} : ConTag tag → OffToEnd b → RunsOff (tag ++ [128] ++ b)
/-- The same for the children of a definite-length value. -/
inductive OffUntil : Nat → Bytes → Prop
  | here {k : Nat} {b : Bytes} : k < b.length → RunsOff b → OffUntil k b
  | next {k : Nat} {b r : Bytes} {o : Asn1} : k < b.length → BerReads b o r → OffUntil k r → OffUntil k b
/-- The same for the children of an indefinite-length value. -/
inductive OffToEnd : Bytes → Prop
  | here {b : Bytes} : RunsOff b → OffToEnd b
  | next {b r : Bytes} {o : Asn1} : BerReads b o r → 2 ≤ r.length → r.take 2 ≠ [0, 0] → OffToEnd r → OffToEnd b
end

end Apk
