import Verif.Model.Base
/-! # Specification of the content digests (APK Signature Scheme v2/v3 documents), independent of the code -/
namespace Apk

/-- Fuelled form of `cut`. -/
def cutAux (n : Nat) : Nat → Bytes → List Bytes
  | 0, _ => []
  | fuel + 1, b => if b = [] then [] else b.take n :: cutAux n fuel (b.drop n)

/-- Cut a byte string into consecutive chunks of `n` bytes, the last one possibly shorter. -/
def cut (n : Nat) (b : Bytes) : List Bytes := cutAux n b.length b

/-- All 1 MiB chunks of the sections; each section is cut independently. -/
def mibChunks (secs : List Bytes) : List Bytes := (secs.map (cut 1048576)).flatten

/-- The string hashed for one chunk: 0xa5, length, contents. -/
def chunkMsg (c : Bytes) : Bytes := [0xa5] ++ leBytes 4 c.length ++ c

/-- The string hashed last: 0x5a, number of chunks, chunk digests. -/
def topMsg (H : Bytes → Bytes) (cs : List Bytes) : Bytes :=
  [0x5a] ++ leBytes 4 cs.length ++ (cs.map (fun c => H (chunkMsg c))).flatten

/-- The chunked content digest of the sections. -/
def chunkedDigest (H : Bytes → Bytes) (secs : List Bytes) : Bytes := H (topMsg H (mibChunks secs))

/-- Every string hashed while computing the chunked digest. -/
def chunkedHashed (H : Bytes → Bytes) (secs : List Bytes) : List Bytes :=
  topMsg H (mibChunks secs) :: (mibChunks secs).map chunkMsg

/-- An explicit collision: two different strings, one from each list, with the same hash. -/
def CollisionIn (H : Bytes → Bytes) (as bs : List Bytes) : Prop := ∃ x ∈ as, ∃ y ∈ bs, x ≠ y ∧ H x = H y

/-! ## fs-verity style Merkle tree -/

/-- Zero-pad to a multiple of 4096 bytes. -/
def padPage (b : Bytes) : Bytes := b ++ List.replicate ((4096 - b.length % 4096) % 4096) 0

/-- The 4096-byte pages of the zero-padded data. -/
def pages (b : Bytes) : List Bytes := cut 4096 (padPage b)

/-- The string hashed for a page: eight zero bytes of salt, then the page. -/
def pageMsg (page : Bytes) : Bytes := List.replicate 8 0 ++ page

/-- One level of the tree: the salted digests of the pages of the level below, zero-padded to whole pages. -/
def merkleLevel (H : Bytes → Bytes) (b : Bytes) : Bytes := padPage ((pages b).map (fun p => H (pageMsg p))).flatten

/-- The top level: iterate until a single page is left. -/
def merkleTop (H : Bytes → Bytes) : Nat → Bytes → Bytes
  | 0, b => merkleLevel H b
  | fuel + 1, b => if (merkleLevel H b).length ≤ 4096 then merkleLevel H b else merkleTop H fuel (merkleLevel H b)

/-- The Merkle root: salted digest of the single top page. The number of levels never exceeds the data size. -/
def merkleRoot (H : Bytes → Bytes) (b : Bytes) : Bytes := H (pageMsg (merkleTop H b.length b))

/-- The verity content digest: root and the 64-bit size of the data. -/
def veritySpec (H : Bytes → Bytes) (b : Bytes) : Bytes := merkleRoot H b ++ leBytes 8 b.length

/-- Total size of all levels of the tree. -/
def treeBytes (H : Bytes → Bytes) : Nat → Bytes → Nat
  | 0, b => (merkleLevel H b).length
  | fuel + 1, b => (merkleLevel H b).length +
      (if (merkleLevel H b).length ≤ 4096 then 0 else treeBytes H fuel (merkleLevel H b))

/-- Every string hashed below the root. -/
def merkleHashedAux (H : Bytes → Bytes) : Nat → Bytes → List Bytes
  | 0, b => (pages b).map pageMsg
  | fuel + 1, b =>
    (pages b).map pageMsg ++
      (if (merkleLevel H b).length ≤ 4096 then [] else merkleHashedAux H fuel (merkleLevel H b))

/-- Every string hashed while computing the Merkle root. -/
def merkleHashed (H : Bytes → Bytes) (b : Bytes) : List Bytes :=
  pageMsg (merkleTop H b.length b) :: merkleHashedAux H b.length b

end Apk
