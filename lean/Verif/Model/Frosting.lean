import Verif.Model.Types
/-! # signingblock/frosting.go (Google Play frosting block) -/
namespace Apk

/-- Error sites of frosting.go. -/
inductive FE where
  | eof | varintOverflow | arrayBase | nextValue | readSize | sizeValue
  | protoAndMetaSize | protobufSize | metadataSize | nextKey | disabledRead | keyIndex | keyLen
  | readSha | readSignature (inner : FE) | readSigned | readProto | noEnabled
  | keyParse | keyType | asn1 | asn1Trailing | nonPositive | invalidSignature | verify (inner : FE)
  | hashApk | hashCd | digestMismatch
deriving DecidableEq, Repr

/-- frosting.go:98-150 `readInt8`/`readInt32` on the remaining bytes: value (int32, may be negative) and rest.
    The Go code combines disjoint bit ranges with `|`; here they are added. `v2<<28` keeps the low four bits of the
    fifth byte (int32 shift). -/
def frVarint : Bytes → Except FE (Int × Bytes)
  | [] => .error .eof
  | x0 :: r0 =>
    if x0.toNat < 128 then .ok (x0.toNat, r0)
    else match r0 with
      | [] => .error .eof
      | x1 :: r1 =>
        if x1.toNat < 128 then .ok (toI32 (x0.toNat % 128 + x1.toNat * 2 ^ 7), r1)
        else match r1 with
          | [] => .error .eof
          | x2 :: r2 =>
            if x2.toNat < 128 then
              .ok (toI32 (x0.toNat % 128 + x1.toNat % 128 * 2 ^ 7 + x2.toNat * 2 ^ 14), r2)
            else match r2 with
              | [] => .error .eof
              | x3 :: r3 =>
                if x3.toNat < 128 then
                  .ok (toI32 (x0.toNat % 128 + x1.toNat % 128 * 2 ^ 7 + x2.toNat % 128 * 2 ^ 14
                    + x3.toNat * 2 ^ 21), r3)
                else match r3 with
                  | [] => .error .eof
                  | x4 :: r4 =>
                    if x4.toNat ≥ 128 then .error .varintOverflow
                    else .ok (toI32 (x0.toNat % 128 + x1.toNat % 128 * 2 ^ 7 + x2.toNat % 128 * 2 ^ 14
                      + x3.toNat % 128 * 2 ^ 21 + (x4.toNat % 16) * 2 ^ 28), r4)

/-- A `bytes.Reader` over `block` positioned at `pos`: read a varint, return value and new position. -/
def frRead (block : Bytes) (pos : Nat) : Except FE (Int × Nat) :=
  match frVarint (block.drop pos) with
  | .error e => .error e
  | .ok (v, rest) => .ok (v, pos + ((block.drop pos).length - rest.length))

/-- `bytes.Reader.Read(make([]byte, n))`: io.EOF at the end of the data, otherwise up to `n` bytes; the destination
    keeps its zero bytes where the data is short. -/
def frReadBytes (block : Bytes) (pos n : Nat) : Option Bytes :=
  if pos ≥ block.length then none
  else some (slice block pos n ++ List.replicate (n - (slice block pos n).length) 0)

/-- frosting.go:163-176: skip `index` entries of an array whose data is `[startPos, startPos+totalSize)`. -/
def frSkip (block : Bytes) (limit : Nat) : Nat → Nat → Except FE Nat
  | 0, pos => .ok pos
  | index + 1, pos =>
    match frRead block pos with
    | .error e => .error e
    | .ok (entrySize, pos') =>
      if entrySize < 0 ∨ (pos' : Int) + entrySize ≥ limit then .error .nextValue
      else frSkip block limit index (pos' + entrySize.toNat)

/-- frosting.go:152-190 `readArrayItem`. -/
def frArrayItem (block : Bytes) (pos index : Nat) : Except FE Bytes :=
  match frRead block pos with
  | .error e => .error e
  | .ok (totalSize, startPos) =>
    if totalSize ≤ 0 ∨ totalSize > ((block.length - startPos : Nat) : Int) then .error .arrayBase
    else
      let limit := startPos + totalSize.toNat
      match frSkip block limit index startPos with
      | .error e => .error e
      | .ok p =>
        match frRead block p with
        | .error _ => .error .readSize
        | .ok (size, p') =>
          if size < 0 ∨ (p' : Int) + size > limit then .error .sizeValue
          else match frReadBytes block p' size.toNat with
            | none => .error .eof
            | some b => .ok b

/-- frosting.go:196-234 `verifySignature` with the only pinned key (frosting.go:83): `none` = valid. -/
def frVerifySignature (env : Env) (signed signature : Bytes) : Option FE :=
  match env.parsePKIXStd env.frostKeyDer with
  | none => some .keyParse
  | some pk =>
    if pk.kind ≠ .ecdsa then some .keyType
    else match env.asn1RS signature with
      | none => some .asn1
      | some (r, s, rest) =>
        if rest ≠ [] then some .asn1Trailing
        else if r ≤ 0 ∨ s ≤ 0 then some .nonPositive
        else if env.ecdsaVerify pk (env.sha256 signed) r s then none
        else some .invalidSignature

/-- `frostingInfo` (frosting.go:91-96). -/
structure FrostInfo where
  fileSha256 : Bytes
  protobufInfo : Bytes
deriving DecidableEq, Repr

/-- Outcome of `parse` (frosting.go:347-350); `keyUsed`: whether `usedKeySha256` was set (frosting.go:204). -/
structure FrostParse where
  keyUsed : Bool
  info : Except FE FrostInfo

/-- frosting.go:264-344: the metadata loop. `offA` = offAfterSignaturesEnd, `protoStart` = frostingProtobufStart. -/
def frLoop (env : Env) (block : Bytes) (offA : Nat) (protoAndMeta : Int) (protoStart protoSize limit : Nat) :
    Nat → Nat → Nat → Go FrostParse
  | 0, _, _ => .ok ⟨false, .error .noEnabled⟩
  | fuel + 1, sigIdx, pos =>
    if pos ≥ limit then .ok ⟨false, .error .noEnabled⟩
    else match frRead block pos with
      | .error _ => .ok ⟨false, .error .nextKey⟩
      | .ok (nk, pos1) =>
        let nextKey := wrap32 (nk + toI32 pos1)
        if nextKey > limit ∨ nextKey ≤ 0 then .ok ⟨false, .error .nextKey⟩
        else match frRead block pos1 with
          | .error _ => .ok ⟨false, .error .disabledRead⟩
          | .ok (disabled, pos2) =>
            if (pos2 : Int) > nextKey then .ok ⟨false, .error .disabledRead⟩
            else if disabled ≠ 0 then
              frLoop env block offA protoAndMeta protoStart protoSize limit fuel (sigIdx + 1) nextKey.toNat
            else match frRead block pos2 with
              | .error _ => .ok ⟨false, .error .keyIndex⟩
              | .ok (keyIndex, pos3) =>
                if keyIndex ≥ 1 then .ok ⟨false, .error .keyIndex⟩
                else if nextKey - pos3 ≠ 32 then .ok ⟨false, .error .keyLen⟩
                else match frReadBytes block pos3 32 with
                  | none => .ok ⟨false, .error .readSha⟩
                  | some sha =>
                    match frArrayItem block (offA + protoAndMeta.toNat) sigIdx with
                    | .error e => .ok ⟨false, .error (.readSignature e)⟩
                    | .ok signature =>
                      match frReadBytes block offA (nextKey.toNat - offA) with
                      | none => .ok ⟨false, .error .readSigned⟩
                      | some signedData =>
                        -- keys[keyIndex] with one key; a negative index panics (frosting.go:323)
                        if keyIndex < 0 then .error .indexOutOfRange
                        else match frVerifySignature env signedData signature with
                          | some .invalidSignature => .ok ⟨true, .error .invalidSignature⟩
                          | some e => .ok ⟨true, .error (.verify e)⟩
                          | none =>
                            match frReadBytes block protoStart protoSize with
                            | none => .ok ⟨true, .error .readProto⟩
                            | some info => .ok ⟨true, .ok ⟨sha, info⟩⟩

/-- frosting.go:236-262, then the loop: `parseFrostingBlock`/`parse`. -/
def frParse (env : Env) (block : Bytes) : Go FrostParse :=
  match frRead block 0 with
  | .error _ => .ok ⟨false, .error .protoAndMetaSize⟩
  | .ok (protoAndMeta, offA) =>
    if protoAndMeta ≤ 0 ∨ protoAndMeta > ((block.length - offA : Nat) : Int) then
      .ok ⟨false, .error .protoAndMetaSize⟩
    else match frRead block offA with
      | .error _ => .ok ⟨false, .error .protobufSize⟩
      | .ok (protoSize, protoStart) =>
        if protoSize ≤ 0 ∨ protoSize > ((block.length - protoStart : Nat) : Int)
            ∨ protoSize > protoAndMeta - ((protoStart - offA : Nat) : Int) then
          .ok ⟨false, .error .protobufSize⟩
        else match frRead block (protoStart + protoSize.toNat) with
          | .error _ => .ok ⟨false, .error .metadataSize⟩
          | .ok (metaSize, p) =>
            if metaSize ≤ 0 ∨ metaSize > protoAndMeta - protoSize then .ok ⟨false, .error .metadataSize⟩
            else frLoop env block offA protoAndMeta protoStart protoSize.toNat (p + metaSize.toNat) 32767 0 p

/-- frosting.go:352-378 `hashFileSection`: the bytes fed to the hasher, in 0x2000 byte reads. -/
def frSection (file : Bytes) : Nat → Nat → Nat → Option Bytes
  | 0, _, size => if size = 0 then some [] else none
  | fuel + 1, offset, size =>
    if size = 0 then some []
    else
      let chunk := min 0x2000 size
      if offset + chunk ≤ file.length then
        match frSection file fuel (offset + chunk) (size - chunk) with
        | none => none
        | some r => some (slice file offset chunk ++ r)
      else none

/-- Overwrite four bytes of an EOCD copy with a little-endian offset (`PutUint32(eocd[16:], off)`;
    signingblock.go:593, frosting.go:400). The value is truncated to 32 bits. -/
def eocdPatched (eocd : Bytes) (off : Nat) : Bytes := eocd.take 16 ++ leBytes 4 off ++ eocd.drop 20

/-- frosting.go:380-408 `verifyApk`: `none` = digest matches. -/
def frVerifyApk (env : Env) (info : FrostInfo) (file : Bytes) (sigOff : Nat) (v2block : Option Bytes)
    (cdOff cdSize : Nat) (eocd : Bytes) : Option FE :=
  match frSection file (sigOff + 1) 0 sigOff with
  | none => some .hashApk
  | some before =>
    let v2 := match v2block with
      | none => []
      | some b => if b.length ≠ 0 then leBytes 4 0x7109871a ++ b else []
    match frSection file (cdSize + 1) cdOff cdSize with
    | none => some .hashCd
    | some cd =>
      if env.sha256 (before ++ v2 ++ cd ++ eocdPatched eocd sigOff) = info.fileSha256 then none
      else some .digestMismatch

end Apk
