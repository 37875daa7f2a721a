import Verif.Model.Container
/-! # Data sources and content digests (datasource.go, verity.go, signingblock.go:616-733) -/
namespace Apk

/-- signingblock.go:86 -/
def maxChunkSize : Nat := 1048576
/-- verity.go:13 -/
def verityChunkSize : Nat := 4096

/-- `dataSourceApk` (datasource.go:14-40) and `dataSourceBytes` (datasource.go:42-62). All uses have `start ≤ stop`,
    so the Go `int64` difference is the natural subtraction. -/
inductive Leaf where
  | apk (file : Bytes) (start stop : Nat)
  | bytes (data : Bytes)

/-- datasource.go:38-40, 60-62 -/
def Leaf.length : Leaf → Nat
  | .apk _ a b => b - a
  | .bytes d => d.length

/-- datasource.go:19-21, 46-48 -/
def Leaf.chunkCount (l : Leaf) : Nat := (l.length + maxChunkSize - 1) / maxChunkSize

/-- datasource.go:23-36, 50-58 `writeTo`: the bytes written to the sink. -/
def Leaf.writeTo : Leaf → Nat → Nat → Except E Bytes
  | .apk file start stop, offset, size =>
    if offset > stop ∨ offset > stop - start then .error .dsOutOfBoundsOffset
    else if size > stop - start ∨ offset + size > stop - start then .error .dsOutOfBoundsSize
    else match readFull file (start + offset) size with
      | none => .error .ioErr
      | some b => .ok b
  | .bytes data, offset, size =>
    if offset ≥ data.length then .error .dsOutOfBoundsOffset
    else if size > data.length ∨ offset + size > data.length then .error .dsOutOfBoundsSize
    else .ok (slice data offset size)

/-- `dataSourceChained.totalSize` (datasource.go:69-78). -/
def chainedLength (ls : List Leaf) : Nat := (ls.map Leaf.length).sum

/-- datasource.go:91-107: the loop over the sources. -/
def chainedLoop : List Leaf → Nat → Nat → Except E Bytes
  | [], _, _ => .ok []
  | src :: rest, offset, size =>
    if offset ≥ src.length then chainedLoop rest (offset - src.length) size
    else
      let remaining := src.length - offset
      if remaining ≥ size then src.writeTo offset size
      else match src.writeTo offset remaining with
        | .error e => .error e
        | .ok b =>
          match chainedLoop rest 0 (size - remaining) with
          | .error e => .error e
          | .ok b' => .ok (b ++ b')

/-- datasource.go:84-109 `dataSourceChained.writeTo`. -/
def chainedWriteTo (ls : List Leaf) (offset size : Nat) : Except E Bytes :=
  if offset ≥ chainedLength ls then .error .dsOutOfBoundsOffset
  else if size > chainedLength ls ∨ offset + size > chainedLength ls then .error .dsOutOfBoundsSize
  else chainedLoop ls offset size

/-- A source for the verity builder: the chained contents or an earlier level (`dataSourceBytes`). -/
inductive Src where
  | chained (ls : List Leaf)
  | leaf (l : Leaf)

/-- `length()` of a source. -/
def Src.length : Src → Nat
  | .chained ls => chainedLength ls
  | .leaf l => l.length

/-- `writeTo` of a source. -/
def Src.writeTo : Src → Nat → Nat → Except E Bytes
  | .chained ls, o, s => chainedWriteTo ls o s
  | .leaf l, o, s => l.writeTo o s

/-- `contentDigest.Hash()` (signer.go:41-54): the hash function. -/
def CD.hash (env : Env) : CD → Bytes → Bytes
  | .chunked256 => env.sha256
  | .chunked512 => env.sha512
  | .verity256 => env.sha256
  | .nonChunked256 => env.sha256

/-- `contentDigest.Hash().Size()`. -/
def CD.size : CD → Nat
  | .chunked512 => 64
  | _ => 32

/-- Go `copy(dst[off:], src)`: slicing panics when `off > len(dst)`, the copy stops at the end of `dst`. -/
def copyAt (dst : Bytes) (off : Nat) (src : Bytes) : Go Bytes :=
  if off > dst.length then .error .sliceOutOfRange
  else
    let s := src.take (dst.length - off)
    .ok (dst.take off ++ s ++ dst.drop (off + s.length))

/-- signingblock.go:683-708: chunks of one section. State: chunk index and digest buffer. -/
def oneMbSection (env : Env) (algo : CD) (input : Leaf) :
    Nat → Nat → Nat → Nat × Bytes → Go (Except E (Nat × Bytes))
  | 0, _, _, st => .ok (.ok st)
  | fuel + 1, offset, remaining, (idx, buf) =>
    if remaining > 0 then
      let chunkSize := if remaining > maxChunkSize then maxChunkSize else remaining
      let chunkPrefix := (0xa5 : UInt8) :: leBytes 4 chunkSize
      match input.writeTo offset chunkSize with
      | .error _ => .ok (.error .digestChunkFailed)
      | .ok data =>
        let sum := algo.hash env (chunkPrefix ++ data)
        match copyAt buf (5 + idx * sum.length) sum with
        | .error p => .error p
        | .ok buf' => oneMbSection env algo input fuel (offset + chunkSize) (remaining - chunkSize) (idx + 1, buf')
    else .ok (.ok (idx, buf))

/-- signingblock.go:681-708: all sections. -/
def oneMbSections (env : Env) (algo : CD) : List Leaf → Nat × Bytes → Go (Except E (Nat × Bytes))
  | [], st => .ok (.ok st)
  | l :: ls, st =>
    match oneMbSection env algo l (l.length + 1) 0 l.length st with
    | .error p => .error p
    | .ok (.error e) => .ok (.error e)
    | .ok (.ok st') => oneMbSections env algo ls st'

/-- signingblock.go:656-715 `computeOneMbChunkContentDigests` for one algorithm. The Go code runs the hashers of all
    algorithms in lock step over the same chunks; the hashers do not interact, so the model runs them one after the
    other. -/
def oneMbDigest (env : Env) (algo : CD) (contents : List Leaf) : Go (Except E Bytes) :=
  let total := (contents.map Leaf.chunkCount).sum
  if total ≥ 2097151 then .ok (.error .tooManyChunks)      -- math.MaxInt32 / 1024
  else
    let buf0 := ((0x5a : UInt8) :: leBytes 4 total) ++ List.replicate (total * algo.size) 0
    match oneMbSections env algo contents (0, buf0) with
    | .error p => .error p
    | .ok (.error e) => .ok (.error e)
    | .ok (.ok (_, buf)) => .ok (.ok (algo.hash env buf))

/-! ## Verity tree (verity.go) -/

/-- verity.go:133-135 -/
def divideRoundup (dividend divisor : Nat) : Nat := (dividend + divisor - 1) / divisor

/-- verity.go:67-77: level sizes, bottom level first. `fuel` bounds the number of levels (the data shrinks each time). -/
def levelSizes (digestSize : Nat) : Nat → Nat → List Nat
  | 0, _ => []
  | fuel + 1, dataSize =>
    let chunkCount := divideRoundup dataSize verityChunkSize
    let size := verityChunkSize * divideRoundup (chunkCount * digestSize) verityChunkSize
    if chunkCount * digestSize ≤ verityChunkSize then [size]
    else size :: levelSizes digestSize fuel (chunkCount * digestSize)

/-- verity.go:79-87: running offsets in `int32`, from the top level down. -/
def levelOffsetsAux : Int → List Nat → Except E (List Int)
  | _, [] => .ok []
  | cur, size :: rest =>
    if (size : Int) > maxInt32 then .error .verityLevelOverflow
    else
      let next := wrap32 (cur + size)
      match levelOffsetsAux next rest with
      | .error e => .error e
      | .ok os => .ok (next :: os)

/-- verity.go:67-88 `calculateLevelOffset`. -/
def calculateLevelOffset (dataSize digestSize : Nat) : Except E (List Int) :=
  match levelOffsetsAux 0 (levelSizes digestSize (dataSize + 1) dataSize).reverse with
  | .error e => .error e
  | .ok os => .ok (0 :: os)

/-- verity.go:124-131 `saltedDigest` with the 8 zero byte salt of signingblock.go:723. -/
def saltedDigest (env : Env) (data : Bytes) : Bytes := env.sha256 (List.replicate 8 0 ++ data)

/-- `byteWriter` (datasource.go:115-135) over the window `[lo, hi)` of the verity buffer: the buffer and the write
    offset relative to `lo`. -/
structure Sink where
  buf : Bytes
  lo : Nat
  hi : Nat
  off : Nat

/-- datasource.go:120-135 `byteWriter.Write`. -/
def Sink.write (s : Sink) (p : Bytes) : Except E Sink :=
  let destLen := s.hi - s.lo
  if s.off ≥ destLen then .error .writerEOF
  else
    let n := destLen - s.off
    if n ≥ p.length then
      .ok { s with
        buf := s.buf.take (s.lo + s.off) ++ p ++ s.buf.drop (s.lo + s.off + p.length)
        off := s.off + p.length }
    else .error .writerEOF

/-- verity.go:94-104: full pages. -/
def digestFullPages (env : Env) (src : Src) : Nat → Nat → Sink → Except E (Nat × Sink)
  | 0, offset, sink => .ok (offset, sink)
  | fuel + 1, offset, sink =>
    if offset + verityChunkSize ≤ src.length then
      match src.writeTo offset verityChunkSize with
      | .error e => .error e
      | .ok page =>
        match sink.write (saltedDigest env page) with
        | .error e => .error e
        | .ok sink' => digestFullPages env src fuel (offset + verityChunkSize) sink'
    else .ok (offset, sink)

/-- verity.go:90-122 `digestDataByChunks`. -/
def digestDataByChunks (env : Env) (src : Src) (sink : Sink) : Except E Sink :=
  match digestFullPages env src (src.length + 1) 0 sink with
  | .error e => .error e
  | .ok (offset, sink') =>
    let remaining := src.length % verityChunkSize
    if remaining > 0 then
      match src.writeTo offset remaining with
      | .error e => .error e
      | .ok page => sink'.write (saltedDigest env (page ++ List.replicate (verityChunkSize - remaining) 0))
    else .ok sink'

/-- verity.go:38-60: one level: digest `src` into the window `[lo, hi)` of `buf` and pad. -/
def verityLevel (env : Env) (src : Src) (buf : Bytes) (lo hi : Nat) : Except E Bytes :=
  match digestDataByChunks env src ⟨buf, lo, hi, 0⟩ with
  | .error e => .error e
  | .ok sink =>
    let totalOutput := divideRoundup src.length verityChunkSize * 32
    let incomplete := totalOutput % verityChunkSize
    if incomplete > 0 then
      match sink.write (List.replicate (verityChunkSize - incomplete) 0) with
      | .error e => .error e
      | .ok s => .ok s.buf
    else .ok sink.buf

/-- verity.go:40-52: the source of a level: the contents for the bottom level, the window written before otherwise. -/
def levelSource (contents : Src) (prev : Option (Nat × Nat)) (buf : Bytes) : Src :=
  match prev with
  | none => contents
  | some (a, b) => .leaf (.bytes (slice buf a (b - a)))

/-- verity.go:37-61: the levels from the bottom (`i = len-2`) to the top (`i = 0`). The list holds the offsets
    from the bottom up: `hi :: lo :: ...`; `prev` is the window just written, `none` for the first level. Slicing
    `verityBuffer[lo:hi]` panics unless `0 ≤ lo ≤ hi ≤ len`. -/
def verityLevels (env : Env) (contents : Src) : List Int → Option (Nat × Nat) → Bytes → Go (Except E Bytes)
  | hi :: lo :: rest, prev, buf =>
    if lo < 0 ∨ lo > hi ∨ hi > (buf.length : Int) then .error .sliceOutOfRange
    else
      match verityLevel env (levelSource contents prev buf) buf lo.toNat hi.toNat with
      | .error e => .ok (.error e)
      | .ok buf' => verityLevels env contents (lo :: rest) (some (lo.toNat, hi.toNat)) buf'
  | _, _, buf => .ok (.ok buf)

/-- verity.go:29-65 `generateTreeRootHash`. -/
def generateTreeRootHash (env : Env) (contents : Src) : Go (Except E Bytes) :=
  match calculateLevelOffset contents.length 32 with
  | .error e => .ok (.error e)
  | .ok offs =>
    let total := offs.getLast?.getD 0
    if total < 0 then .error .sliceOutOfRange        -- make([]byte, negative)
    else match verityLevels env contents offs.reverse none (List.replicate total.toNat 0) with
      | .error p => .error p
      | .ok (.error e) => .ok (.error e)
      | .ok (.ok buf) =>
        if buf.length < verityChunkSize then .error .sliceOutOfRange   -- verityBuffer[:4096]
        else .ok (.ok (saltedDigest env (buf.take verityChunkSize)))

/-- signingblock.go:717-733 `computeVerityContentDigest`. -/
def verityDigest (env : Env) (contents : List Leaf) : Go (Except E Bytes) :=
  match contents with
  | [] => .error .indexOutOfRange
  | c0 :: _ =>
    if c0.length % verityChunkSize ≠ 0 then .ok (.error .verityNotAligned)
    else match generateTreeRootHash env (.chained contents) with
      | .error p => .error p
      | .ok (.error e) => .ok (.error (.verityFailed e))
      | .ok (.ok root) => .ok (.ok (root ++ leBytes 8 (chainedLength contents)))

/-- signingblock.go:656-715: the one-megabyte algorithms in order; the first error aborts. -/
def computeOneMb (env : Env) (contents : List Leaf) : List CD → List (CD × Bytes) → Go (Except E (List (CD × Bytes)))
  | [], acc => .ok (.ok acc)
  | a :: as, acc =>
    match oneMbDigest env a contents with
    | .error p => .error p
    | .ok (.error e) => .ok (.error e)
    | .ok (.ok d) => computeOneMb env contents as (mset acc a d)

/-- signingblock.go:616-654 `computeContentDigests`; `digestAlgorithms` in map iteration order. -/
def computeContentDigests (env : Env) (algos : List CD) (contents : List Leaf) :
    Go (Except E (List (CD × Bytes))) :=
  if algos.contains .nonChunked256 then .error .explicit      -- panic("unhandled crypto algo")
  else
    let oneMb := algos.filter (fun a => a = .chunked256 || a = .chunked512)
    match computeOneMb env contents oneMb [] with
    | .error p => .error p
    | .ok (.error e) => .ok (.error e)
    | .ok (.ok r) =>
      if algos.contains .verity256 then
        match verityDigest env contents with
        | .error p => .error p
        | .ok (.error e) => .ok (.error e)
        | .ok (.ok d) => .ok (.ok (mset r .verity256 d))
      else if r.length = 0 then .ok (.error .noValidDigestAlgos)
      else .ok (.ok r)

end Apk
