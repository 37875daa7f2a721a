import Verif.Model.Time
/-!
# Character sets (internal/asn1andr/asn1.go:484-512)

`utf8.Valid`, `utf16.Decode` and the conversion of runes to a string of the Go standard library.
-/
namespace Apk

/-- Go utf8 `first` and `acceptRanges`: for a byte from 128 on, the number of bytes that follow it and the range of the first of them. -/
def utf8First (b : Nat) : Option (Nat × Nat × Nat) :=
  if b < 0xC2 then none
  else if b ≤ 0xDF then some (1, 0x80, 0xBF)
  else if b = 0xE0 then some (2, 0xA0, 0xBF)
  else if b ≤ 0xEC then some (2, 0x80, 0xBF)
  else if b = 0xED then some (2, 0x80, 0x9F)
  else if b ≤ 0xEF then some (2, 0x80, 0xBF)
  else if b = 0xF0 then some (3, 0x90, 0xBF)
  else if b ≤ 0xF3 then some (3, 0x80, 0xBF)
  else if b = 0xF4 then some (3, 0x80, 0x8F)
  else none

/-- A continuation byte (`locb`, `hicb`). -/
def utf8Cont (b : UInt8) : Bool := decide (0x80 ≤ b.toNat ∧ b.toNat ≤ 0xBF)

/-- Go `utf8.Valid`: one round of the loop; what remains after a character. -/
def utf8Step : Bytes → Option Bytes
  | [] => none
  | b :: r =>
    if b.toNat < 128 then some r
    else match utf8First b.toNat with
      | none => none
      | some (n, lo, hi) =>
        if r.length < n then none
        else if (r.getD 0 0).toNat < lo ∨ hi < (r.getD 0 0).toNat then none
        else if n = 1 then some (r.drop 1)
        else if utf8Cont (r.getD 1 0) = false then none
        else if n = 2 then some (r.drop 2)
        else if utf8Cont (r.getD 2 0) = false then none
        else some (r.drop 3)

/-- The loop of `utf8.Valid`; the length of the input is enough fuel. -/
def utf8Loop : Nat → Bytes → Bool
  | _, [] => true
  | 0, _ :: _ => false
  | fuel + 1, b :: r =>
    match utf8Step (b :: r) with
    | none => false
    | some rest => utf8Loop fuel rest

/-- Go `utf8.Valid`. -/
def goUtf8Valid (b : Bytes) : Bool := utf8Loop b.length b

/-- Go `utf16.Decode`: the code points. -/
def utf16Decode : List Nat → List Nat
  | [] => []
  | [r] => if r < 0xD800 ∨ 0xE000 ≤ r then [r] else [0xFFFD]
  | r :: s :: rest =>
    if r < 0xD800 ∨ 0xE000 ≤ r then r :: utf16Decode (s :: rest)
    else if r < 0xDC00 ∧ 0xDC00 ≤ s ∧ s < 0xE000 then ((r - 0xD800) * 1024 + (s - 0xDC00) + 0x10000) :: utf16Decode rest
    else 0xFFFD :: utf16Decode (s :: rest)

/-- Go `utf8.AppendRune`: a rune in a string; invalid ones become U+FFFD. -/
def encodeRune (r : Nat) : Bytes :=
  if r ≤ 0x7F then [UInt8.ofNat r]
  else if r ≤ 0x7FF then [UInt8.ofNat (0xC0 + r / 64), UInt8.ofNat (0x80 + r % 64)]
  else if 0x10FFFF < r ∨ (0xD800 ≤ r ∧ r ≤ 0xDFFF) then [0xEF, 0xBF, 0xBD]
  else if r ≤ 0xFFFF then [UInt8.ofNat (0xE0 + r / 4096), UInt8.ofNat (0x80 + r / 64 % 64), UInt8.ofNat (0x80 + r % 64)]
  else [UInt8.ofNat (0xF0 + r / 262144), UInt8.ofNat (0x80 + r / 4096 % 64), UInt8.ofNat (0x80 + r / 64 % 64), UInt8.ofNat (0x80 + r % 64)]

/-- asn1.go:511 `string(utf16.Decode(s))`. -/
def goUtf16 (units : List Nat) : Bytes := (utf16Decode units).flatMap encodeRune

/-- The parts of the standard library that the decoder uses (`AsnEnv`), as modelled here and in Model/Time. -/
def goAsnEnv (te : TimeEnv) : AsnEnv where
  utf8Valid := goUtf8Valid
  utf16 := goUtf16
  utcTime := goUtcTime te
  genTime := goGenTime

end Apk
