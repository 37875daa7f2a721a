import Verif.Model.Ber
/-! # DER primitives (internal/asn1andr/asn1.go, marshal.go) and PKCS#7 padding (fullsailor/pkcs7/pkcs7.go) -/
namespace Apk

/-- Error sites of the modelled part of asn1.go / marshal.go. -/
inductive AE where
  | invalidBoolean        -- asn1.go:56, :69
  | emptyInteger          -- asn1.go:81
  | integerNotMinimal     -- asn1.go:87
  | integerTooLarge       -- asn1.go:101, :126
  | zeroBitString         -- asn1.go:197
  | bitPadding            -- asn1.go:204
  | zeroOid               -- asn1.go:257
  | base128TooLarge       -- asn1.go:312, :331
  | base128Truncated      -- asn1.go:336
  | tagInternal           -- asn1.go:538
  | tagTruncated          -- asn1.go:562, :581
  | indefiniteLength      -- asn1.go:575
  | lengthTooLarge        -- asn1.go:589
  | invalidOid            -- marshal.go:308
deriving DecidableEq, Repr

/-- asn1.go:54-73 `parseBool`. -/
def parseBool : Bytes → Except AE Bool
  | [x] => if x = 0 then .ok false else if x = 255 then .ok true else .error .invalidBoolean
  | _ => .error .invalidBoolean

/-- marshal.go:481-485: BOOLEAN contents. -/
def encodeBool (v : Bool) : Bytes := if v then [255] else [0]

/-- asn1.go:79-90 `checkInteger`. `x & 0x80 == 0` is `x < 128`. -/
def checkInteger : Bytes → Except AE Unit
  | [] => .error .emptyInteger
  | [_] => .ok ()
  | x :: y :: _ =>
    if (x.toNat = 0 ∧ y.toNat < 128) ∨ (x.toNat = 255 ∧ 128 ≤ y.toNat) then .error .integerNotMinimal else .ok ()

/-- asn1.go:104-107: the accumulation loop (`ret <<= 8; ret |= b`), exact for at most 8 bytes as an unsigned value. -/
def accum : Nat → Bytes → Nat
  | acc, [] => acc
  | acc, b :: bs => accum ((acc * 256 + b.toNat) % 2 ^ 64) bs

/-- asn1.go:94-113 `parseInt64`: accumulate, then shift up and arithmetically down to sign-extend. -/
def parseInt64 (b : Bytes) : Except AE Int :=
  match checkInteger b with
  | .error e => .error e
  | .ok () =>
    if 8 < b.length then .error .integerTooLarge
    else
      let s := 64 - b.length * 8
      .ok (toI64 (accum 0 b * 2 ^ s) / 2 ^ s)

/-- asn1.go:117-129 `parseInt32`. -/
def parseInt32 (b : Bytes) : Except AE Int :=
  match checkInteger b with
  | .error e => .error e
  | .ok () =>
    match parseInt64 b with
    | .error e => .error e
    | .ok v => if v ≠ wrap32 v then .error .integerTooLarge else .ok v

/-- `big.Int.SetBytes`: the unsigned big-endian value. -/
def setBytes (b : Bytes) : Nat := b.foldl (fun acc x => acc * 256 + x.toNat) 0

/-- asn1.go:135-153 `parseBigInt`. -/
def parseBigInt (b : Bytes) : Except AE Int :=
  match checkInteger b with
  | .error e => .error e
  | .ok () =>
    match b with
    | x :: _ =>
      if 128 ≤ x.toNat then .ok (- ((setBytes (b.map (fun y => 255 - y)) : Int) + 1))
      else .ok (setBytes b)
    | [] => .ok (setBytes b)

/-- marshal.go:145-159 `int64Encoder.Len` (the two loops; at most 8 iterations on an int64, fuel 8). -/
def int64LenAux : Nat → Int → Nat
  | 0, _ => 1
  | fuel + 1, i => if 127 < i ∨ i < -128 then int64LenAux fuel (i / 256) + 1 else 1

/-- marshal.go:145-159 `int64Encoder.Len`. -/
def int64Len (i : Int) : Nat := int64LenAux 8 i

/-- marshal.go:164-166: bytes `i >> (n-1)*8`, ..., `i` (arithmetic shifts). -/
def int64Bytes (i : Int) : Nat → Bytes
  | 0 => []
  | n + 1 => UInt8.ofNat ((i / 256 ^ n) % 256).toNat :: int64Bytes i n

/-- marshal.go:161-167 `int64Encoder.Encode`. -/
def encodeInt64 (i : Int) : Bytes := int64Bytes i (int64Len i)

/-- `big.Int.Bytes`: the shortest big-endian representation of the absolute value (empty for zero). -/
def natBytes (n : Nat) : Bytes := if n = 0 then [] else longLength n (lengthLength n)

/-- marshal.go:198-230 `makeBigInt` (for a non-nil argument). -/
def encodeBigInt (n : Int) : Bytes :=
  if n < 0 then
    let bytes := (natBytes (-n - 1).toNat).map (fun y => 255 - y)
    match bytes with
    | [] => 255 :: bytes
    | x :: _ => if x.toNat < 128 then 255 :: bytes else bytes
  else if n = 0 then [0]
  else
    let bytes := natBytes n.toNat
    match bytes with
    | [] => bytes
    | x :: _ => if 128 ≤ x.toNat then 0 :: bytes else bytes

/-- A `asn1.BitString`. -/
structure BitStr where
  bytes : Bytes
  bitLength : Nat
deriving DecidableEq, Repr

/-- asn1.go:195-210 `parseBitString`; `x & ((1<<p)-1)` is `x % 2^p`. -/
def parseBitString : Bytes → Except AE BitStr
  | [] => .error .zeroBitString
  | p :: bs =>
    if 7 < p.toNat ∨ (bs = [] ∧ 0 < p.toNat) ∨ ((p :: bs).getLast (by simp)).toNat % 2 ^ p.toNat ≠ 0 then
      .error .bitPadding
    else .ok ⟨bs, bs.length * 8 - p.toNat⟩

/-- marshal.go:282-287 `bitStringEncoder.Encode`. -/
def encodeBitString (b : BitStr) : Bytes := UInt8.ofNat ((8 - b.bitLength % 8) % 8) :: b.bytes

/-- asn1.go:305-338 `parseBase128Int` from `offset`: value and the bytes after it. `n` is `5 - shifted`. -/
def parseBase128Aux : Nat → Bytes → Nat → Except AE (Nat × Bytes)
  | _, [], _ => .error .base128Truncated
  | 0, _ :: _, _ => .error .base128TooLarge
  | n + 1, b :: bs, acc =>
    let v := acc * 128 + b.toNat % 128
    if b.toNat < 128 then (if 2147483647 < v then .error .base128TooLarge else .ok (v, bs))
    else parseBase128Aux n bs v

/-- asn1.go:305-338 `parseBase128Int`. -/
def parseBase128 (b : Bytes) : Except AE (Nat × Bytes) := parseBase128Aux 5 b 0

/-- marshal.go:174-177, the loop of `base128IntLength`. -/
def base128LenAux : Nat → Nat → Nat
  | 0, _ => 0
  | fuel + 1, i => if 0 < i then base128LenAux fuel (i / 128) + 1 else 0

/-- marshal.go:169-180 `base128IntLength` for a non-negative value. -/
def base128Len (n : Nat) : Nat := if n = 0 then 1 else base128LenAux n n

/-- marshal.go:185-193, the loop of `appendBase128Int`, for `i = l-1, ..., 0`. -/
def base128Bytes (n : Nat) : Nat → Bytes
  | 0 => []
  | l + 1 => UInt8.ofNat (n / 128 ^ l % 128 + (if l ≠ 0 then 128 else 0)) :: base128Bytes n l

/-- marshal.go:182-196 `appendBase128Int` (the appended bytes). -/
def encodeBase128 (n : Nat) : Bytes := base128Bytes n (base128Len n)

/-- asn1.go:282-289: the remaining arcs; `cap` is the number of free slots of the array `s` (`len(bytes)+1` slots were
    allocated), writing past it panics. -/
def parseArcs : Nat → Nat → Bytes → Go (Except AE (List Nat))
  | 0, _, _ => .ok (.ok [])
  | fuel + 1, cap, b =>
    if b = [] then .ok (.ok [])
    else match parseBase128 b with
      | .error e => .ok (.error e)
      | .ok (v, rest) =>
        match cap with
        | 0 => .error .indexOutOfRange
        | cap' + 1 =>
          match parseArcs fuel cap' rest with
          | .error p => .error p
          | .ok (.error e) => .ok (.error e)
          | .ok (.ok vs) => .ok (.ok (v :: vs))

/-- asn1.go:255-292 `parseObjectIdentifier`. -/
def parseOid (b : Bytes) : Go (Except AE (List Nat)) :=
  if b = [] then .ok (.error .zeroOid)
  else match parseBase128 b with
    | .error e => .ok (.error e)
    | .ok (v, rest) =>
      let head := if v < 80 then [v / 40, v % 40] else [2, v - 80]
      match parseArcs b.length (b.length + 1 - 2) rest with
      | .error p => .error p
      | .ok (.error e) => .ok (.error e)
      | .ok (.ok vs) => .ok (.ok (head ++ vs))

/-- marshal.go:305-312 `makeObjectIdentifier` and :299-304 `oidEncoder.Encode` (non-negative arcs). -/
def encodeOid : List Nat → Except AE Bytes
  | a :: b :: arcs =>
    if 2 < a ∨ (a < 2 ∧ 40 ≤ b) then .error .invalidOid
    else .ok (encodeBase128 (a * 40 + b) ++ (arcs.map encodeBase128).flatten)
  | _ => .error .invalidOid

/-- `tagAndLength` (common.go:51-54). -/
structure TagLen where
  cls : Nat
  tag : Nat
  length : Nat
  isCompound : Bool
deriving DecidableEq, Repr

/-- asn1.go:579-598: the long-form length bytes. -/
def parseLengthBytes : Nat → Nat → Bytes → Except AE (Nat × Bytes)
  | 0, acc, b => .ok (acc, b)
  | _ + 1, _, [] => .error .tagTruncated
  | n + 1, acc, b :: bs =>
    if 2 ^ 23 ≤ acc then .error .lengthTooLarge else parseLengthBytes n (acc * 256 + b.toNat) bs

/-- asn1.go:561-607: the length. -/
def parseDerLength : Bytes → Except AE (Nat × Bytes)
  | [] => .error .tagTruncated
  | b :: bs =>
    if b.toNat < 128 then .ok (b.toNat, bs)
    else if b.toNat % 128 = 0 then .error .indefiniteLength
    else parseLengthBytes (b.toNat % 128) 0 bs

/-- asn1.go:533-610 `parseTagAndLength` from `offset`: the header and the bytes after it. -/
def parseTagAndLength : Bytes → Except AE (TagLen × Bytes)
  | [] => .error .tagInternal
  | b :: bs =>
    match (if b.toNat % 32 = 31 then parseBase128 bs else .ok (b.toNat % 32, bs)) with
    | .error e => .error e
    | .ok (tag, bs1) =>
      match parseDerLength bs1 with
      | .error e => .error e
      | .ok (n, rest) => .ok (⟨b.toNat / 64, tag, n, b.toNat / 32 % 2 = 1⟩, rest)

/-- marshal.go:251-276 `appendTagAndLength` (the appended bytes). `encodeLength` is marshal.go:265-273, the same code as
    in ber.go. -/
def encodeTagAndLength (t : TagLen) : Bytes :=
  let b := t.cls % 4 * 64 + (if t.isCompound then 32 else 0)
  (if 31 ≤ t.tag then UInt8.ofNat (b + 31) :: encodeBase128 t.tag else [UInt8.ofNat (b + t.tag)]) ++ encodeLength t.length

/-- `bytes.Compare(a, b) < 0`. -/
def bytesLt : Bytes → Bytes → Bool
  | [], [] => false
  | [], _ :: _ => true
  | _ :: _, [] => false
  | x :: xs, y :: ys => if x.toNat < y.toNat then true else if y.toNat < x.toNat then false else bytesLt xs ys

/-- Insertion of one encoding into a sorted list. -/
def setInsert (x : Bytes) : List Bytes → List Bytes
  | [] => [x]
  | y :: ys => if bytesLt y x then y :: setInsert x ys else x :: y :: ys

/-- `sort.Slice` with `bytes.Compare` (marshal.go:104-112), as an insertion sort. -/
def setSort : List Bytes → List Bytes
  | [] => []
  | x :: xs => setInsert x (setSort xs)

/-- marshal.go:87-119 `setEncoder.Encode` on the encodings of the elements. -/
def encodeSet (xs : List Bytes) : Bytes := (setSort xs).flatten

/-- Error sites of pkcs7.go:494-526. -/
inductive PadErr where
  | blockLen | dataLen | padding
deriving DecidableEq, Repr

/-- pkcs7.go:494-504 `pad`. `byte(padlen)` wraps. -/
def padBlock (data : Bytes) (blocklen : Int) : Except PadErr Bytes :=
  if blocklen < 1 then .error .blockLen
  else
    let n := blocklen.toNat - data.length % blocklen.toNat
    .ok (data ++ List.replicate n (UInt8.ofNat n))

/-- pkcs7.go:506-526 `unpad`; taking `data[len(data)-padlen:]` panics when `padlen > len(data)`. -/
def unpadBlock (data : Bytes) (blocklen : Int) : Go (Except PadErr Bytes) :=
  if blocklen < 1 then .ok (.error .blockLen)
  else if data.length % blocklen.toNat ≠ 0 ∨ data.length = 0 then .ok (.error .dataLen)
  else
    let padlen := (data.getLastD 0).toNat
    if data.length < padlen then .error .sliceOutOfRange
    else if (data.drop (data.length - padlen)).all (fun x => decide (x = UInt8.ofNat padlen)) then
      .ok (.ok (data.take (data.length - padlen)))
    else .ok (.error .padding)

end Apk
