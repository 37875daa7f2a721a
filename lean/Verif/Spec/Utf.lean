import Verif.Model.Types
/-! # Texts in UTF-8 and UTF-16

Characters are Lean's `Char`s: the Unicode scalar values, that is 0 to 0x10FFFF without the surrogates 0xD800 to 0xDFFF;
`String.utf8EncodeChar` is Lean's encoding of one character in UTF-8.
-/
namespace Apk.Spec

/-- The characters `cs` in UTF-8. -/
def utf8 (cs : List Char) : Bytes := cs.flatMap String.utf8EncodeChar

/-- The code units of a character in UTF-16: one, or a high and a low surrogate. -/
def utf16Units (c : Char) : List Nat :=
  if c.toNat < 0x10000 then [c.toNat]
  else [0xD800 + (c.toNat - 0x10000) / 0x400, 0xDC00 + (c.toNat - 0x10000) % 0x400]

/-- A high surrogate followed by a low one. -/
def SurrogatePair (u : Nat) (rest : List Nat) : Prop :=
  0xD800 ≤ u ∧ u < 0xDC00 ∧ ∃ l t, rest = l :: t ∧ 0xDC00 ≤ l ∧ l < 0xE000

/-- Reading of arbitrary 16-bit units: characters in UTF-16, and U+FFFD for every surrogate that is not part of a pair. -/
inductive ReadsUtf16 : List Nat → List Char → Prop
  | nil : ReadsUtf16 [] []
  | char (c : Char) {us cs} : ReadsUtf16 us cs → ReadsUtf16 (utf16Units c ++ us) (c :: cs)
  | lone (u : Nat) {us cs} : 0xD800 ≤ u → u < 0xE000 → ¬ SurrogatePair u us → ReadsUtf16 us cs → ReadsUtf16 (u :: us) ('\uFFFD' :: cs)

/-- 16-bit units, high byte first. -/
def bigEndian (us : List Nat) : Bytes := us.flatMap (fun u => [UInt8.ofNat (u / 256), UInt8.ofNat (u % 256)])

end Apk.Spec
