import Verif.Model.Frosting
import Verif.Model.ApiLevel
/-! # Locating the EOCD record, the APK Signing Block and its ID-value pairs (signingblock/signingblock.go) -/
namespace Apk

/-- signingblock.go:73 -/
def eocdRecMagic : Nat := 0x06054b50
/-- signingblock.go:79 -/
def zip64LocatorMagic : Nat := 0x07064b50
/-- signingblock.go:82 -/
def apkSigBlockMagicHi : Nat := 0x3234206b636f6c42
/-- signingblock.go:83 -/
def apkSigBlockMagicLo : Nat := 0x20676953204b5041

/-- signingblock.go:38 -/
def blockIdVerityPadding : Nat := 0x42726577
/-- signingblock.go:39 -/
def blockIdSchemeV2 : Nat := 0x7109871a
/-- signingblock.go:40 -/
def blockIdSchemeV3 : Nat := 0xf05368c0
/-- signingblock.go:41 -/
def blockIdSchemeV31 : Nat := 0x1b93ad61
/-- signingblock.go:42 -/
def blockIdFrosting : Nat := 0x2146444e
/-- signingblock.go:43 -/
def blockIdSourceStampV2 : Nat := 0x6dff800d

/-- `Seek(off)` + `io.ReadFull` of `n` bytes. -/
def readFull (file : Bytes) (off n : Nat) : Option Bytes :=
  if off + n ≤ file.length then some (slice file off n) else none

/-- The fields of `signingBlock` (signingblock.go:111-119) set by `findEocd`. -/
structure Loc where
  eocdOff : Nat
  cdOff : Nat
  cdSize : Nat
  eocd : Bytes
deriving DecidableEq, Repr

/-- signingblock.go:319-337: a candidate record at `pos` in the buffer whose magic and comment length fit. -/
def eocdCandidate (buf : Bytes) (bufOff pos : Nat) : Except E Loc :=
  let eocdOff := bufOff + pos
  let cdOff := u32At buf (pos + 16)
  if cdOff ≥ eocdOff then .error .cdOffsetRange
  else
    let cdSize := u32At buf (pos + 12)
    if cdOff + cdSize ≠ eocdOff then .error .cdNotAdjacent
    else .ok ⟨eocdOff, cdOff, cdSize, buf.drop pos⟩

/-- signingblock.go:317-341: the loop over comment sizes; `fuel` = remaining iterations; 22 is `eocdRecMinSize`
    (signingblock.go:72). -/
def eocdScan (buf : Bytes) (bufOff : Nat) : Nat → Nat → Except E Loc
  | 0, _ => .error .eocdNotFound
  | fuel + 1, commentSize =>
    let pos := buf.length - 22 - commentSize
    if u32At buf pos = eocdRecMagic ∧ u16At buf (pos + 20) = commentSize then
      eocdCandidate buf bufOff pos
    else eocdScan buf bufOff fuel (commentSize + 1)

/-- signingblock.go:297-342 `findEocdMaxCommentSize` (only called when the file has at least 22 bytes). -/
def findEocdMax (file : Bytes) (maxCommentSize : Nat) : Except E Loc :=
  let m := if maxCommentSize > file.length - 22 then file.length - 22 else maxCommentSize
  let bufOff := file.length - (22 + m)
  match readFull file bufOff (22 + m) with
  | none => .error .ioErr
  | some buf =>
    let m' := if buf.length - 22 > 65535 then 65535 else buf.length - 22
    eocdScan buf bufOff (m' + 1) 0

/-- signingblock.go:286-295 `findEocd`. -/
def findEocd (file : Bytes) : Except E Loc :=
  if file.length < 22 then .error .apkTooShort
  else match findEocdMax file 0 with
    | .ok l => .ok l
    | .error _ => findEocdMax file 65535

/-- signingblock.go:344-359 `isZip64`. -/
def isZip64 (file : Bytes) (l : Loc) : Bool :=
  if l.eocdOff < 20 then false
  else match readFull file (l.eocdOff - 20) 4 with
    | none => false
    | some b => decide (leNat b = zip64LocatorMagic)

/-- signingblock.go:388-444 `findApkSigningBlock`: the whole block (with size header and footer) and its offset. -/
def findApkSigningBlock (file : Bytes) (l : Loc) : Except E (Bytes × Nat) :=
  if l.cdOff < 32 then .error .noSigBlock
  else match readFull file (l.cdOff - 24) 24 with
    | none => .error .ioErr
    | some footer =>
      if u64At footer 8 ≠ apkSigBlockMagicLo ∨ u64At footer 16 ≠ apkSigBlockMagicHi then .error .noSigBlock
      else
        let sizeF := u64At footer 0
        if sizeF < 24 ∨ sizeF > 2147483647 - 8 then .error .sigBlockSizeRange
        else
          let total := sizeF + 8
          if total < 32 then .error .sigBlockTooSmall
          else if l.cdOff < total then .error .sigBlockOffsetRange
          else match readFull file (l.cdOff - total) total with
            | none => .error .ioErr
            | some block =>
              if u64At block 0 ≠ sizeF then .error .sigBlockSizeMismatch
              else .ok (block, l.cdOff - total)

/-- State built by `findSignatureBlocks`: the blocks used for verification, `res.ExtraBlocks`, the frosting outcome
    (`res.Frosting` is non-nil iff some) and the number of frosting warnings. -/
structure PairState where
  blocks : List (Nat × Bytes) := []
  extra : List (Nat × Bytes) := []
  frosting : Option FrostParse := none
  /-- `frostingRes`: the last frosting block that parsed successfully -/
  frostingRes : Option FrostInfo := none
  warnings : List W := []

/-- signingblock.go:500-502 -/
def isSupportedScheme (id : Nat) (maxSdk : Int) : Bool :=
  (decide (id = blockIdSchemeV2) && supportsSigV2 maxSdk) ||
  (decide (id = blockIdSchemeV3) && supportsSigV3 maxSdk) ||
  (decide (id = blockIdSchemeV31) && supportsSigV31 maxSdk)

/-- signingblock.go:494-549: the switch on one entry. `atEnd`: the reader is exhausted after the id, in which case
    `pairs.Read` returns io.EOF. -/
def pairStep (env : Env) (maxSdk : Int) (st : PairState) (id : Nat) (value : Bytes) (atEnd : Bool) :
    Go (Except E PairState) :=
  if id = blockIdSchemeV2 ∨ id = blockIdSchemeV3 ∨ id = blockIdSchemeV31 then
    if atEnd then .ok (.error .pairRead)
    else
      let sup := isSupportedScheme id maxSdk
      let blocks := if sup then mset st.blocks id value else st.blocks
      let extra := if !sup || (decide (id = blockIdSchemeV3) && supportsSigV31 maxSdk)
        then mset st.extra id value else st.extra
      .ok (.ok { st with blocks := blocks, extra := extra })
  else if id = blockIdVerityPadding then .ok (.ok st)
  else if id = blockIdFrosting then
    if atEnd then .ok (.error .pairRead)
    else do
      let fr ← frParse env value
      match fr.info with
      | .error _ => .ok (.ok { st with frosting := some fr, warnings := st.warnings ++ [.frosting] })
      | .ok info => .ok (.ok { st with frosting := some fr, frostingRes := some info })
  else if id = blockIdSourceStampV2 then
    if atEnd then .ok (.error .pairRead) else .ok (.ok { st with blocks := mset st.blocks id value })
  else
    if atEnd then .ok (.error .pairRead) else .ok (.ok { st with extra := mset st.extra id value })

/-- signingblock.go:462-555: the loop over ID-value pairs. Returns the state reached (blocks found before an error are
    kept, they matter for frosting) and the error, if any. -/
def parsePairsAux (env : Env) (maxSdk : Int) : Nat → Bytes → PairState → Go (PairState × Option E)
  | 0, _, st => .ok (st, none)
  | fuel + 1, b, st =>
    if b = [] then .ok (st, none)
    else if b.length < 8 then .ok (st, some .pairSizeTruncated)
    else
      let entryLen := toI64 (leNat (b.take 8))
      let b1 := b.drop 8
      if entryLen < 4 ∨ entryLen > 2147483647 then .ok (st, some .pairSizeRange)
      else if entryLen > (b1.length : Int) then .ok (st, some .pairSizeAvail)
      else
        let n := entryLen.toNat
        let id := leNat (b1.take 4)
        let value := slice b1 4 (n - 4)
        let next := b1.drop n
        match pairStep env maxSdk st id value (decide (b1.length = 4)) with
        | .error p => .error p
        | .ok (.error e) => .ok (st, some e)
        | .ok (.ok st') => parsePairsAux env maxSdk fuel next st'

/-- signingblock.go:459-555. Every entry consumes at least 12 bytes, so the fuel is never exhausted. -/
def parsePairs (env : Env) (maxSdk : Int) (area : Bytes) : Go (PairState × Option E) :=
  parsePairsAux env maxSdk (area.length + 1) area {}

/-- Located container: EOCD data and the signing block offset (`s` after `findSignatureBlocks`). -/
structure Found where
  loc : Loc
  sigOff : Nat
deriving DecidableEq, Repr

/-- signingblock.go:446-556 `findSignatureBlocks`. On an error before the pair loop the state is empty (and
    `s.sigBlockOffset` etc. are irrelevant because no frosting was seen). -/
def findSignatureBlocks (env : Env) (file : Bytes) (maxSdk : Int) : Go (Option Found × PairState × Option E) :=
  match findEocd file with
  | .error e => .ok (none, {}, some e)
  | .ok l =>
    if isZip64 file l then .ok (none, {}, some .zip64)
    else match findApkSigningBlock file l with
      | .error e => .ok (none, {}, some e)
      | .ok (block, off) =>
        match parsePairs env maxSdk (slice block 8 (block.length - 32)) with
        | .error p => .error p
        | .ok (st, e) => .ok (some ⟨l, off⟩, st, e)

end Apk
