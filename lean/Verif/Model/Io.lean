import Verif.Model.Top
/-! # Reading that can fail (signingblock.go, datasource.go, verity.go, frosting.go, apkverifier.go)

The other modules treat the file as a list of bytes. Here the file is only seen through the calls of `Seek` and `Read`; each
call may fail, and the same place may give different bytes at different times. A `Seek` followed by the `Read` that depends
on it counts as one call; calls are numbered in the order in which the program makes them. -/
namespace Apk

/-- An `io.ReadSeeker`. `size` is the answer of `Seek(0, io.SeekEnd)`; `read t off n` is the answer of call number `t`,
    a `Seek` to `off` followed by `io.ReadFull` of `n` bytes. `none` is an error. A successful `ReadFull` fills its buffer. -/
structure Disk where
  size : Option Nat
  read : Nat → Nat → Nat → Option Bytes
  read_len : ∀ {t off n b}, read t off n = some b → b.length = n

/-- signingblock.go:297-342 `findEocdMaxCommentSize`; the number of the next call is passed along. -/
def eocdMaxIo (d : Disk) (size maxCommentSize t : Nat) : Except E Loc × Nat :=
  let m := if maxCommentSize > size - 22 then size - 22 else maxCommentSize
  let bufOff := size - (22 + m)
  match d.read t bufOff (22 + m) with
  | none => (.error .ioErr, t + 1)
  | some buf =>
    let m' := if buf.length - 22 > 65535 then 65535 else buf.length - 22
    (eocdScan buf bufOff (m' + 1) 0, t + 1)

/-- signingblock.go:286-295 `findEocd`: any error of the first attempt leads to the second. -/
def eocdIo (d : Disk) (size t : Nat) : Except E Loc × Nat :=
  if size < 22 then (.error .apkTooShort, t)
  else match eocdMaxIo d size 0 t with
    | (.ok l, t) => (.ok l, t)
    | (.error _, t) => eocdMaxIo d size 65535 t

/-- signingblock.go:344-359 `isZip64`: an error counts as "no". -/
def zip64Io (d : Disk) (l : Loc) (t : Nat) : Bool × Nat :=
  if l.eocdOff < 20 then (false, t)
  else match d.read t (l.eocdOff - 20) 4 with
    | none => (false, t + 1)
    | some b => (decide (leNat b = zip64LocatorMagic), t + 1)

/-- signingblock.go:388-444 `findApkSigningBlock`. -/
def sigBlockIo (d : Disk) (l : Loc) (t : Nat) : Except E (Bytes × Nat) × Nat :=
  if l.cdOff < 32 then (.error .noSigBlock, t)
  else match d.read t (l.cdOff - 24) 24 with
    | none => (.error .ioErr, t + 1)
    | some footer =>
      if u64At footer 8 ≠ apkSigBlockMagicLo ∨ u64At footer 16 ≠ apkSigBlockMagicHi then (.error .noSigBlock, t + 1)
      else
        let sizeF := u64At footer 0
        if sizeF < 24 ∨ sizeF > 2147483647 - 8 then (.error .sigBlockSizeRange, t + 1)
        else
          let total := sizeF + 8
          if total < 32 then (.error .sigBlockTooSmall, t + 1)
          else if l.cdOff < total then (.error .sigBlockOffsetRange, t + 1)
          else match d.read (t + 1) (l.cdOff - total) total with
            | none => (.error .ioErr, t + 2)
            | some block =>
              if u64At block 0 ≠ sizeF then (.error .sigBlockSizeMismatch, t + 2)
              else (.ok (block, l.cdOff - total), t + 2)

/-- signingblock.go:446-556 `findSignatureBlocks`. -/
def findBlocksIo (env : Env) (d : Disk) (size : Nat) (maxSdk : Int) (t : Nat) :
    Go ((Option Found × PairState × Option E) × Nat) :=
  match eocdIo d size t with
  | (.error e, t) => .ok ((none, {}, some e), t)
  | (.ok l, t) =>
    match zip64Io d l t with
    | (true, t) => .ok ((none, {}, some .zip64), t)
    | (false, t) =>
      match sigBlockIo d l t with
      | (.error e, t) => .ok ((none, {}, some e), t)
      | (.ok (block, off), t) =>
        match parsePairs env maxSdk (slice block 8 (block.length - 32)) with
        | .error p => .error p
        | .ok (st, e) => .ok ((some ⟨l, off⟩, st, e), t)

/-! ## Data sources and digests -/

/-- `dataSourceApk` over the reader, `dataSourceBytes` (datasource.go:14-62). -/
inductive IoLeaf where
  | disk (start stop : Nat)
  | bytes (data : Bytes)

/-- datasource.go:38-40, 60-62 -/
def IoLeaf.length : IoLeaf → Nat
  | .disk a b => b - a
  | .bytes d => d.length

/-- datasource.go:19-21, 46-48 -/
def IoLeaf.chunkCount (l : IoLeaf) : Nat := (l.length + maxChunkSize - 1) / maxChunkSize

/-- datasource.go:23-36, 50-58 `writeTo`. What reached the sink before an error is dropped: every caller gives up. -/
def IoLeaf.writeTo (d : Disk) : IoLeaf → Nat → Nat → Nat → Except E Bytes × Nat
  | .disk start stop, offset, size, t =>
    if offset > stop ∨ offset > stop - start then (.error .dsOutOfBoundsOffset, t)
    else if size > stop - start ∨ offset + size > stop - start then (.error .dsOutOfBoundsSize, t)
    else match d.read t (start + offset) size with
      | none => (.error .ioErr, t + 1)
      | some b => (.ok b, t + 1)
  | .bytes data, offset, size, t =>
    if offset ≥ data.length then (.error .dsOutOfBoundsOffset, t)
    else if size > data.length ∨ offset + size > data.length then (.error .dsOutOfBoundsSize, t)
    else (.ok (slice data offset size), t)

/-- `dataSourceChained.totalSize` (datasource.go:69-78). -/
def chainedLengthIo (ls : List IoLeaf) : Nat := (ls.map IoLeaf.length).sum

/-- datasource.go:91-107: the loop over the sources. -/
def chainedLoopIo (d : Disk) : List IoLeaf → Nat → Nat → Nat → Except E Bytes × Nat
  | [], _, _, t => (.ok [], t)
  | src :: rest, offset, size, t =>
    if offset ≥ src.length then chainedLoopIo d rest (offset - src.length) size t
    else
      let remaining := src.length - offset
      if remaining ≥ size then src.writeTo d offset size t
      else match src.writeTo d offset remaining t with
        | (.error e, t) => (.error e, t)
        | (.ok b, t) =>
          match chainedLoopIo d rest 0 (size - remaining) t with
          | (.error e, t) => (.error e, t)
          | (.ok b', t) => (.ok (b ++ b'), t)

/-- datasource.go:84-109 `dataSourceChained.writeTo`. -/
def chainedWriteIo (d : Disk) (ls : List IoLeaf) (offset size t : Nat) : Except E Bytes × Nat :=
  if offset ≥ chainedLengthIo ls then (.error .dsOutOfBoundsOffset, t)
  else if size > chainedLengthIo ls ∨ offset + size > chainedLengthIo ls then (.error .dsOutOfBoundsSize, t)
  else chainedLoopIo d ls offset size t

/-- signingblock.go:692-703: one chunk, read once for every hasher; `bufs` are the digest buffers of the algorithms. -/
def chunkIo (env : Env) (d : Disk) (input : IoLeaf) (offset chunkSize idx : Nat) :
    List (CD × Bytes) → Nat → Go (Except E (List (CD × Bytes)) × Nat)
  | [], t => .ok (.ok [], t)
  | (algo, buf) :: rest, t =>
    match input.writeTo d offset chunkSize t with
    | (.error _, t) => .ok (.error .digestChunkFailed, t)
    | (.ok data, t) =>
      let sum := algo.hash env (((0xa5 : UInt8) :: leBytes 4 chunkSize) ++ data)
      match copyAt buf (5 + idx * sum.length) sum with
      | .error p => .error p
      | .ok buf' =>
        match chunkIo env d input offset chunkSize idx rest t with
        | .error p => .error p
        | .ok (.error e, t) => .ok (.error e, t)
        | .ok (.ok bufs, t) => .ok (.ok ((algo, buf') :: bufs), t)

/-- signingblock.go:683-708: chunks of one section. -/
def sectionIo (env : Env) (d : Disk) (input : IoLeaf) :
    Nat → Nat → Nat → Nat × List (CD × Bytes) → Nat → Go (Except E (Nat × List (CD × Bytes)) × Nat)
  | 0, _, _, st, t => .ok (.ok st, t)
  | fuel + 1, offset, remaining, (idx, bufs), t =>
    if remaining > 0 then
      let chunkSize := if remaining > maxChunkSize then maxChunkSize else remaining
      match chunkIo env d input offset chunkSize idx bufs t with
      | .error p => .error p
      | .ok (.error e, t) => .ok (.error e, t)
      | .ok (.ok bufs', t) => sectionIo env d input fuel (offset + chunkSize) (remaining - chunkSize) (idx + 1, bufs') t
    else .ok (.ok (idx, bufs), t)

/-- signingblock.go:681-708: all sections. -/
def sectionsIo (env : Env) (d : Disk) :
    List IoLeaf → Nat × List (CD × Bytes) → Nat → Go (Except E (Nat × List (CD × Bytes)) × Nat)
  | [], st, t => .ok (.ok st, t)
  | l :: ls, st, t =>
    match sectionIo env d l (l.length + 1) 0 l.length st t with
    | .error p => .error p
    | .ok (.error e, t) => .ok (.error e, t)
    | .ok (.ok st', t) => sectionsIo env d ls st' t

/-- signingblock.go:656-715 `computeOneMbChunkContentDigests`: the hashers run in lock step. -/
def oneMbIo (env : Env) (d : Disk) (algos : List CD) (contents : List IoLeaf) (t : Nat) :
    Go (Except E (List (CD × Bytes)) × Nat) :=
  let total := (contents.map IoLeaf.chunkCount).sum
  if total ≥ 2097151 then .ok (.error .tooManyChunks, t)
  else
    let bufs := algos.map (fun a => (a, ((0x5a : UInt8) :: leBytes 4 total) ++ List.replicate (total * a.size) 0))
    match sectionsIo env d contents (0, bufs) t with
    | .error p => .error p
    | .ok (.error e, t) => .ok (.error e, t)
    | .ok (.ok (_, bufs), t) => .ok (.ok (bufs.foldl (fun m p => mset m p.1 (p.1.hash env p.2)) []), t)

/-- verity.go:94-104: full pages of the contents. -/
def fullPagesIo (env : Env) (d : Disk) (ls : List IoLeaf) : Nat → Nat → Sink → Nat → Except E (Nat × Sink) × Nat
  | 0, offset, sink, t => (.ok (offset, sink), t)
  | fuel + 1, offset, sink, t =>
    if offset + verityChunkSize ≤ chainedLengthIo ls then
      match chainedWriteIo d ls offset verityChunkSize t with
      | (.error e, t) => (.error e, t)
      | (.ok page, t) =>
        match sink.write (saltedDigest env page) with
        | .error e => (.error e, t)
        | .ok sink' => fullPagesIo env d ls fuel (offset + verityChunkSize) sink' t
    else (.ok (offset, sink), t)

/-- verity.go:90-122 `digestDataByChunks` on the contents. -/
def digestDataIo (env : Env) (d : Disk) (ls : List IoLeaf) (sink : Sink) (t : Nat) : Except E Sink × Nat :=
  match fullPagesIo env d ls (chainedLengthIo ls + 1) 0 sink t with
  | (.error e, t) => (.error e, t)
  | (.ok (offset, sink'), t) =>
    let remaining := chainedLengthIo ls % verityChunkSize
    if remaining > 0 then
      match chainedWriteIo d ls offset remaining t with
      | (.error e, t) => (.error e, t)
      | (.ok page, t) => (sink'.write (saltedDigest env (page ++ List.replicate (verityChunkSize - remaining) 0)), t)
    else (.ok sink', t)

/-- verity.go:38-60 for the bottom level, the only one that reads the file. -/
def bottomLevelIo (env : Env) (d : Disk) (ls : List IoLeaf) (buf : Bytes) (lo hi t : Nat) : Except E Bytes × Nat :=
  match digestDataIo env d ls ⟨buf, lo, hi, 0⟩ t with
  | (.error e, t) => (.error e, t)
  | (.ok sink, t) =>
    let totalOutput := divideRoundup (chainedLengthIo ls) verityChunkSize * 32
    let incomplete := totalOutput % verityChunkSize
    if incomplete > 0 then
      match sink.write (List.replicate (verityChunkSize - incomplete) 0) with
      | .error e => (.error e, t)
      | .ok s => (.ok s.buf, t)
    else (.ok sink.buf, t)

/-- verity.go:37-61: the bottom level, then the others, which only use the buffer. -/
def verityLevelsIo (env : Env) (d : Disk) (ls : List IoLeaf) (offs : List Int) (buf : Bytes) (t : Nat) : Go (Except E Bytes × Nat) :=
  match offs with
  | hi :: lo :: rest =>
    if lo < 0 ∨ lo > hi ∨ hi > (buf.length : Int) then .error .sliceOutOfRange
    else
      match bottomLevelIo env d ls buf lo.toNat hi.toNat t with
      | (.error e, t) => .ok (.error e, t)
      | (.ok buf', t) =>
        match verityLevels env (.chained []) (lo :: rest) (some (lo.toNat, hi.toNat)) buf' with
        | .error p => .error p
        | .ok r => .ok (r, t)
  | _ => .ok (.ok buf, t)

/-- verity.go:29-65 `generateTreeRootHash`. -/
def treeRootIo (env : Env) (d : Disk) (ls : List IoLeaf) (t : Nat) : Go (Except E Bytes × Nat) :=
  match calculateLevelOffset (chainedLengthIo ls) 32 with
  | .error e => .ok (.error e, t)
  | .ok offs =>
    let total := offs.getLast?.getD 0
    if total < 0 then .error .sliceOutOfRange
    else match verityLevelsIo env d ls offs.reverse (List.replicate total.toNat 0) t with
      | .error p => .error p
      | .ok (.error e, t) => .ok (.error e, t)
      | .ok (.ok buf, t) =>
        if buf.length < verityChunkSize then .error .sliceOutOfRange
        else .ok (.ok (saltedDigest env (buf.take verityChunkSize)), t)

/-- signingblock.go:717-733 `computeVerityContentDigest`. -/
def verityIo (env : Env) (d : Disk) (contents : List IoLeaf) (t : Nat) : Go (Except E Bytes × Nat) :=
  match contents with
  | [] => .error .indexOutOfRange
  | c0 :: _ =>
    if c0.length % verityChunkSize ≠ 0 then .ok (.error .verityNotAligned, t)
    else match treeRootIo env d contents t with
      | .error p => .error p
      | .ok (.error e, t) => .ok (.error (.verityFailed e), t)
      | .ok (.ok root, t) => .ok (.ok (root ++ leBytes 8 (chainedLengthIo contents)), t)

/-- signingblock.go:616-654 `computeContentDigests`. -/
def contentDigestsIo (env : Env) (d : Disk) (algos : List CD) (contents : List IoLeaf) (t : Nat) :
    Go (Except E (List (CD × Bytes)) × Nat) :=
  if algos.contains .nonChunked256 then .error .explicit
  else
    let oneMb := algos.filter (fun a => a = .chunked256 || a = .chunked512)
    match (if oneMb = [] then .ok (.ok [], t) else oneMbIo env d oneMb contents t : Go (Except E (List (CD × Bytes)) × Nat)) with
    | .error p => .error p
    | .ok (.error e, t) => .ok (.error e, t)
    | .ok (.ok r, t) =>
      if algos.contains .verity256 then
        match verityIo env d contents t with
        | .error p => .error p
        | .ok (.error e, t) => .ok (.error e, t)
        | .ok (.ok dg, t) => .ok (.ok (mset r .verity256 dg), t)
      else if r.length = 0 then .ok (.error .noValidDigestAlgos, t)
      else .ok (.ok r, t)

/-- The three sections that are digested (signingblock.go:587-593). -/
def sectionsOf (f : Found) : List IoLeaf :=
  [.disk 0 f.sigOff, .disk f.loc.cdOff f.loc.eocdOff, .bytes (eocdPatched f.loc.eocd f.sigOff)]

/-- signingblock.go:586-614 `verifyIntegrity`. -/
def integrityIo (env : Env) (d : Disk) (f : Found) (expected : Digests) (r : Core) (t : Nat) : Go ((Core × Bool) × Nat) :=
  let order := env.cdOrder expected
  match contentDigestsIo env d (order.map (·.1)) (sectionsOf f) t with
  | .error p => .error p
  | .ok (.error e, t) => .ok ((r.addError (.digestCompute e), false), t)
  | .ok (.ok actual, t) =>
    let bad := order.filter (fun p => decide (p.2 ≠ (mget actual p.1).getD []))
    .ok (({ r with errors := r.errors ++ bad.map (fun p => E.digestMismatch p.1) }, true), t)

/-! ## Verification -/

/-- signingblock.go:566-584 `verify`. -/
def schemeIo (env : Env) (d : Disk) (f : Found) (scheme : Scheme) (minSdk maxSdk : Int) (block : Bytes)
    (r : Core) (v3 : Option Core) (t : Nat) : Go ((Core × Option Core × Digests) × Nat) :=
  match extractCerts env scheme maxSdk block r v3 with
  | .error p => .error p
  | .ok (r, v3, cd, fin) =>
    if r.certs.length = 0 then .ok ((r.addError .noSigners, v3, []), t)
    else if cd.length = 0 then .ok ((r.addError .noContentDigests, v3, []), t)
    else match integrityIo env d f cd r t with
      | .error p => .error p
      | .ok ((r, false), t) => .ok ((r, v3, cd), t)
      | .ok ((r, true), t) =>
        let (r, v3) := finalizeScheme scheme minSdk maxSdk fin r v3
        .ok ((r, v3, cd), t)

/-- signingblock.go:201-217 `pickAndVerify`. -/
def pickIo (env : Env) (d : Disk) (f : Found) (blocks : List (Nat × Bytes)) (minSdk maxSdk : Int)
    (r : Core) (v3 : Option Core) (t : Nat) : Go ((Core × Option Core × Digests) × Nat) :=
  if !supportsSigV2 maxSdk then .ok (({ r with schemeId := 1 }, v3, []), t)
  else match pickScheme blocks with
    | none => .ok (({ r with schemeId := 1 }.addError (.notFound .noSchemeBlock), v3, []), t)
    | some (scheme, block) => schemeIo env d f scheme minSdk maxSdk block { r with schemeId := scheme.id } v3 t

/-- signingblock.go:175-187: the fallback to v2 after a failed v3/v3.1 verification. -/
def fallbackIo (env : Env) (d : Disk) (f : Found) (blocks : List (Nat × Bytes)) (minSdk maxSdk : Int)
    (res : Core × Option Core × Digests) (t : Nat) : Go ((Core × Option Core × Digests) × Nat) :=
  let (r, v3, cd) := res
  if r.errors ≠ [] ∧ r.schemeId ≥ 3 ∧ minSdk < 28 ∧ (mget blocks blockIdSchemeV2).isSome then
    let extra := match mget blocks blockIdSchemeV3 with
      | some b => mset r.extraBlocks blockIdSchemeV3 b
      | none => r.extraBlocks
    let r := { r with
      extraBlocks := extra
      warnings := r.warnings ++ r.errors.map W.v3Error
      errors := [] }
    pickIo env d f (mdel blocks blockIdSchemeV3) minSdk maxSdk r v3 t
  else .ok ((r, v3, cd), t)

/-- frosting.go:352-378, the loop of `hashFileSection`. -/
def frChunksIo (d : Disk) : Nat → Nat → Nat → Nat → Option Bytes × Nat
  | 0, _, size, t => (if size = 0 then some [] else none, t)
  | fuel + 1, offset, size, t =>
    if size = 0 then (some [], t)
    else
      let chunk := min 0x2000 size
      match d.read t offset chunk with
      | none => (none, t + 1)
      | some b =>
        match frChunksIo d fuel (offset + chunk) (size - chunk) (t + 1) with
        | (none, t) => (none, t)
        | (some r, t) => (some (b ++ r), t)

/-- frosting.go:352-378 `hashFileSection`: the `Seek` (a call that reads nothing), then the loop. -/
def frSectionIo (d : Disk) (offset size t : Nat) : Option Bytes × Nat :=
  match d.read t offset 0 with
  | none => (none, t + 1)
  | some _ => frChunksIo d (size + 1) offset size (t + 1)

/-- frosting.go:380-408 `verifyApk`. -/
def frVerifyIo (env : Env) (info : FrostInfo) (d : Disk) (sigOff : Nat) (v2block : Option Bytes)
    (cdOff cdSize : Nat) (eocd : Bytes) (t : Nat) : Option FE × Nat :=
  match frSectionIo d 0 sigOff t with
  | (none, t) => (some .hashApk, t)
  | (some before, t) =>
    let v2 := match v2block with
      | none => []
      | some b => if b.length ≠ 0 then leBytes 4 0x7109871a ++ b else []
    match frSectionIo d cdOff cdSize t with
    | (none, t) => (some .hashCd, t)
    | (some cd, t) =>
      (if env.sha256 (before ++ v2 ++ cd ++ eocdPatched eocd sigOff) = info.fileSha256 then none else some .digestMismatch, t)

/-- signingblock.go:161-167. -/
def frostingIo (env : Env) (d : Disk) (f : Found) (st : PairState) (t : Nat) : Option FrostRes × Nat :=
  match st.frosting with
  | none => (none, t)
  | some fr =>
    match fr.info, st.frostingRes with
    | .ok info, some info' =>
      let v2 := match mget st.blocks blockIdSchemeV2 with
        | some b => some b
        | none => mget st.extra blockIdSchemeV2
      match frVerifyIo env info' d f.sigOff v2 f.loc.cdOff f.loc.cdSize f.loc.eocd t with
      | (e, t) => (some ⟨fr.keyUsed, e, info.protobufInfo⟩, t)
    | .ok info, none => (some ⟨fr.keyUsed, none, info.protobufInfo⟩, t)
    | .error e, _ => (some ⟨fr.keyUsed, some e, []⟩, t)

/-- signingblock.go:143-199 and :257-284: `VerifySigningBlockReaderWithZip` (the ZIP reader is already open). The errors of
    `newSigningBlock` are returned as they are, all later ones become "signing block not found". -/
def verifyBlockIo (env : Env) (zip : Zip) (d : Disk) (minSdk maxSdk : Int) : Go Outcome :=
  match d.size with
  | none => .ok ⟨none, 0, some .ioErr⟩
  | some size =>
    if size < 4 then .ok ⟨none, 0, some .apkTooShort⟩
    else match d.read 0 0 4 with
      | none => .ok ⟨none, 0, some .ioErr⟩
      | some m =>
        match findBlocksIo env d size maxSdk 1 with
        | .error p => .error p
        | .ok ((none, st, e), _) =>
          .ok ⟨some ⟨{ extraBlocks := st.extra, warnings := st.warnings }, none, none, none⟩, leNat m, e.map E.notFound⟩
        | .ok ((some f, st, some e), t) =>
          .ok ⟨some ⟨{ extraBlocks := st.extra, warnings := st.warnings }, none, (frostingIo env d f st t).1, none⟩,
            leNat m, some (.notFound e)⟩
        | .ok ((some f, st, none), t) =>
          match frostingIo env d f st t with
          | (fr, t) =>
            match pickIo env d f st.blocks minSdk maxSdk { extraBlocks := st.extra, warnings := st.warnings } none t with
            | .error p => .error p
            | .ok (res, t) =>
              match fallbackIo env d f st.blocks minSdk maxSdk res t with
              | .error p => .error p
              | .ok ((r, v3, cd), _) =>
                match verifyStamp env zip r.schemeId minSdk maxSdk (mget st.blocks blockIdSourceStampV2) cd with
                | .error p => .error p
                | .ok stamp => .ok ⟨some ⟨r, v3, fr, stamp⟩, leNat m, r.lastError⟩

/-- signingblock.go:232-255 `ExtractCertsReader`. -/
def extractCertsIo (env : Env) (d : Disk) (maxSdk : Int) : Go (List (List Cert) × Option E) :=
  match d.size with
  | none => .ok ([], some .ioErr)
  | some size =>
    if size < 4 then .ok ([], some .apkTooShort)
    else match d.read 0 0 4 with
      | none => .ok ([], some .ioErr)
      | some _ =>
        match findBlocksIo env d size maxSdk 1 with
        | .error p => .error p
        | .ok ((_, _, some e), _) => .ok ([], some (.notFound e))
        | .ok ((_, st, none), _) =>
          match pickScheme st.blocks with
          | none => .ok ([], some (.notFound .noSchemeBlock))
          | some (scheme, block) =>
            match extractCerts env scheme maxSdk block
              { schemeId := scheme.id, extraBlocks := st.extra, warnings := st.warnings } none with
            | .error p => .error p
            | .ok (r, _, _, _) => .ok (r.certs, r.lastError)

/-- apkverifier.go:74-145 `VerifyWithSdkVersionReader`; what the ZIP reader delivers is `z`. -/
def verifyTopIo (env : EnvT) (ord : Ord1) (z : Option Zip1) (d : Disk) (minSdk maxSdk : Int) : Go (TopRes × Option TopE) :=
  match z with
  | none => .ok ({}, some .zipOpen)
  | some z =>
    let (i, manErr) := sdkFacts env z minSdk maxSdk
    if i.min > maxSdk then .ok ({}, some .badRange)
    else match verifyBlockIo env.toEnv z.zip d i.min maxSdk with
      | .error p => .error p
      | .ok out =>
        match (if isNotFound out.err then none else out.err) with
        | some e => .ok (blockPart out, some (.block e))
        | none =>
          if supportsSigV2 i.min = true ∧ out.err = none then .ok (blockPart out, none)
          else match verifySchemeV1 env.toEnv1 ord z out.err.isNone i.min maxSdk with
            | .error p => .error p
            | .ok (c, e) => .ok (v1Part i manErr maxSdk out c e)

/-- apkverifier.go:157-176 `ExtractCertsReader`. -/
def extractTopIo (env : EnvT) (ord : Ord1) (z : Option Zip1) (d : Disk) : Go (List (List Cert) × Option ExtE) :=
  match z with
  | none => .ok ([], some .zipOpen)
  | some z =>
    match extractCertsIo env.toEnv d vAnyMax with
    | .error p => .error p
    | .ok (c, e) =>
      if !isNotFound e then .ok (c, e.map .block)
      else match extractCertsV1 env.toEnv1 ord z vAnyMin vAnyMax with
        | .error p => .error p
        | .ok (c1, e1) => .ok (c ++ c1, e1.map .v1)

end Apk
