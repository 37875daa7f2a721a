import Verif.Proofs.Verity
import Verif.Toy
/-! # Properties of the content digests (C08–C12) -/
namespace Apk

namespace Toy
/-- A file and three sections: file head, central directory and an in-memory EOCD. -/
def secFile : Bytes := [1, 2, 3, 4, 5, 6, 7, 8, 9, 10]
/-- The three sections. -/
def secs : List Leaf := [.apk secFile 0 4, .apk secFile 6 9, .bytes [11, 12]]
/-- Three sections whose first one is empty, hence page aligned. -/
def secsAligned : List Leaf := [.apk secFile 0 0, .apk secFile 6 9, .bytes [11, 12]]

theorem secs_valid : ∀ l ∈ secs, l.Valid := by
  intro l hl
  simp only [secs, List.mem_cons, List.not_mem_nil, or_false] at hl
  rcases hl with rfl | rfl | rfl <;> simp [Leaf.Valid, secFile]

theorem secsAligned_valid : ∀ l ∈ secsAligned, l.Valid := by
  intro l hl
  simp only [secsAligned, List.mem_cons, List.not_mem_nil, or_false] at hl
  rcases hl with rfl | rfl | rfl <;> simp [Leaf.Valid, secFile]
end Toy

/-! ## C08 -/

/-- C08: a read inside the concatenation of the sections returns exactly that slice of it, across section borders. -/
theorem C08_read_is_slice_of_concat {ls : List Leaf} (hv : ∀ l ∈ ls, l.Valid) {off size : Nat}
    (h1 : off < (concatContents ls).length) (h2 : off + size ≤ (concatContents ls).length) :
    chainedWriteTo ls off size = .ok (((concatContents ls).drop off).take size) := by
  rw [concat_length hv] at h1 h2
  unfold chainedWriteTo
  rw [if_neg (by omega), if_neg (by omega)]
  exact chainedLoop_ok hv (Or.inl h1) (Or.inl h2)

example : chainedWriteTo Toy.secs 2 6 = .ok [3, 4, 7, 8, 9, 11] := by
  rw [C08_read_is_slice_of_concat Toy.secs_valid (by decide) (by decide)]; decide

/-- C08: a read is refused exactly when it starts at or after the end, or ends after the end, of the concatenation. -/
theorem C08_read_refused_iff {ls : List Leaf} (hv : ∀ l ∈ ls, l.Valid) (off size : Nat) :
    (∃ e, chainedWriteTo ls off size = .error e) ↔
      (concatContents ls).length ≤ off ∨ (concatContents ls).length < off + size := by
  constructor
  · rintro ⟨e, h⟩
    by_cases h1 : off < (concatContents ls).length
    · by_cases h2 : off + size ≤ (concatContents ls).length
      · rw [C08_read_is_slice_of_concat hv h1 h2] at h; cases h
      · omega
    · omega
  · intro h
    rw [concat_length hv] at h
    unfold chainedWriteTo
    by_cases h1 : off ≥ chainedLength ls
    · rw [if_pos h1]; exact ⟨_, rfl⟩
    · rw [if_neg h1, if_pos (by omega)]; exact ⟨_, rfl⟩

example : ∃ e, chainedWriteTo Toy.secs 4 6 = .error e := (C08_read_refused_iff Toy.secs_valid 4 6).2 (by decide)

/-! ## C09 -/

/-- C09: the chunked digest is the digest of the specification, with every section cut on its own into 1 MiB chunks; it is
    refused exactly from 2^21-1 chunks on. It never panics. -/
theorem C09_chunked_digest_spec (env : Env) (algo : CD) {ls : List Leaf} (hv : ∀ l ∈ ls, l.Valid) :
    ((mibChunks (ls.map Leaf.contents)).length < 2 ^ 21 - 1 →
      oneMbDigest env algo ls = .ok (.ok (chunkedDigest (algo.hash env) (ls.map Leaf.contents)))) ∧
    (2 ^ 21 - 1 ≤ (mibChunks (ls.map Leaf.contents)).length →
      oneMbDigest env algo ls = .ok (.error .tooManyChunks)) := by
  rw [oneMbDigest_spec env algo ls hv]
  constructor
  · intro h; rw [if_neg (by omega)]
  · intro h; rw [if_pos (by omega)]

example : oneMbDigest Toy.env .chunked256 Toy.secs =
    .ok (.ok (chunkedDigest Toy.env.sha256 [[1, 2, 3, 4], [7, 8, 9], [11, 12]])) :=
  (C09_chunked_digest_spec Toy.env .chunked256 Toy.secs_valid).1 (by decide +kernel)

/-- C09: the hash function is SHA-256 for CHUNKED_SHA256 and SHA-512 for CHUNKED_SHA512. -/
theorem C09_hash_functions (env : Env) : CD.hash env .chunked256 = env.sha256 ∧ CD.hash env .chunked512 = env.sha512 :=
  ⟨rfl, rfl⟩

/-! ## C10 -/

/-- C10: two section lists with the same chunked digest have the same chunks (and so the same concatenation), or two
    different strings hashed on the way collide. -/
theorem C10_chunked_digest_binding (env : Env) (algo : CD) {ls ls' : List Leaf} (hv : ∀ l ∈ ls, l.Valid)
    (hv' : ∀ l ∈ ls', l.Valid) {d : Bytes} (h : oneMbDigest env algo ls = .ok (.ok d))
    (h' : oneMbDigest env algo ls' = .ok (.ok d)) :
    (mibChunks (ls.map Leaf.contents) = mibChunks (ls'.map Leaf.contents) ∧ concatContents ls = concatContents ls') ∨
      CollisionIn (algo.hash env) (chunkedHashed (algo.hash env) (ls.map Leaf.contents))
        (chunkedHashed (algo.hash env) (ls'.map Leaf.contents)) := by
  rw [oneMbDigest_spec env algo ls hv] at h
  rw [oneMbDigest_spec env algo ls' hv'] at h'
  split at h
  · cases h
  · split at h'
    · cases h'
    · simp only [Except.ok.injEq] at h h'
      rcases chunkedDigest_binding algo.size_pos (algo.hash_length env) (h.trans h'.symm) with he | hc
      · refine Or.inl ⟨he, ?_⟩
        have := congrArg List.flatten he
        rw [mibChunks_flatten, mibChunks_flatten] at this
        exact this
      · exact Or.inr hc

-- the hypotheses are met by two different ways to section the same file
example : ∃ d, oneMbDigest Toy.env .chunked256 Toy.secs = .ok (.ok d) ∧
    oneMbDigest Toy.env .chunked256 [.bytes [1, 2, 3, 4], .bytes [7, 8, 9], .bytes [11, 12]] = .ok (.ok d) := by
  refine ⟨_, (C09_chunked_digest_spec Toy.env .chunked256 Toy.secs_valid).1 (by decide +kernel), ?_⟩
  exact (C09_chunked_digest_spec Toy.env .chunked256 (by
    intro l hl
    simp only [List.mem_cons, List.not_mem_nil, or_false] at hl
    rcases hl with rfl | rfl | rfl <;> trivial)).1 (by decide +kernel)

/-! ## C11 -/

/-- C11: with a page-aligned first section and a tree of less than 2 GiB the verity digest is the Merkle root of the
    concatenation followed by its size; no error and no panic. -/
theorem C11_verity_spec (env : Env) {c0 : Leaf} {cs : List Leaf} (hv : ∀ l ∈ c0 :: cs, l.Valid)
    (hal : c0.contents.length % 4096 = 0) (h0 : concatContents (c0 :: cs) ≠ [])
    (ht : treeBytes env.sha256 (concatContents (c0 :: cs)).length (concatContents (c0 :: cs)) < 2 ^ 31) :
    verityDigest env (c0 :: cs) = .ok (.ok (veritySpec env.sha256 (concatContents (c0 :: cs)))) :=
  verityDigest_ok env hv (by rw [← Leaf.contents_length (hv c0 (by simp))]; exact hal)
    (List.length_pos_iff.2 h0) (by omega)

/-- C11: in particular for all contents up to 64 GiB (the sections of a file located by 32-bit ZIP offsets stay far
    below that). -/
theorem C11_verity_spec_64GiB (env : Env) {c0 : Leaf} {cs : List Leaf} (hv : ∀ l ∈ c0 :: cs, l.Valid)
    (hal : c0.contents.length % 4096 = 0) (h0 : concatContents (c0 :: cs) ≠ [])
    (ht : (concatContents (c0 :: cs)).length ≤ 2 ^ 36) :
    verityDigest env (c0 :: cs) = .ok (.ok (veritySpec env.sha256 (concatContents (c0 :: cs)))) :=
  C11_verity_spec env hv hal h0 (by have := treeBytes_fits env _ (by omega : (concatContents (c0 :: cs)).length ≤ 68719476736); omega)

example : verityDigest Toy.env Toy.secsAligned = .ok (.ok (veritySpec Toy.env.sha256 [7, 8, 9, 11, 12])) :=
  C11_verity_spec_64GiB Toy.env Toy.secsAligned_valid (by decide) (by decide) (by decide)

/-- C11: a first section that is not page aligned is an error. -/
theorem C11_verity_unaligned (env : Env) {c0 : Leaf} {cs : List Leaf} (hv : c0.Valid) (h : c0.contents.length % 4096 ≠ 0) :
    verityDigest env (c0 :: cs) = .ok (.error .verityNotAligned) :=
  verityDigest_unaligned env c0 cs (by rw [← Leaf.contents_length hv]; exact h)

example : verityDigest Toy.env Toy.secs = .ok (.error .verityNotAligned) :=
  C11_verity_unaligned Toy.env (Toy.secs_valid _ (List.mem_cons_self)) (by decide)

/-- C11: a bottom level of 2 GiB or more is an error. -/
theorem C11_verity_level_overflow (env : Env) {c0 : Leaf} {cs : List Leaf} (hv : ∀ l ∈ c0 :: cs, l.Valid)
    (hal : c0.contents.length % 4096 = 0) (hbig : 2 ^ 31 ≤ (merkleLevel env.sha256 (concatContents (c0 :: cs))).length) :
    verityDigest env (c0 :: cs) = .ok (.error (.verityFailed .verityLevelOverflow)) :=
  verityDigest_levelOverflow env hv (by rw [← Leaf.contents_length (hv c0 (by simp))]; exact hal) (by omega)

-- satisfiable: 2^38 zero bytes
example : ∃ c0 : Leaf, ∃ cs, (∀ l ∈ c0 :: cs, l.Valid) ∧ c0.contents.length % 4096 = 0 ∧
    2 ^ 31 ≤ (merkleLevel Toy.env.sha256 (concatContents (c0 :: cs))).length := by
  have aux : ∀ n : Nat, n = 2 ^ 38 → ∃ c0 : Leaf, ∃ cs, (∀ l ∈ c0 :: cs, l.Valid) ∧ c0.contents.length % 4096 = 0 ∧
      2 ^ 31 ≤ (merkleLevel Toy.env.sha256 (concatContents (c0 :: cs))).length := by
    intro n hn
    have hc : concatContents [.bytes (List.replicate n 0)] = List.replicate n 0 := by simp [concatContents, Leaf.contents]
    refine ⟨.bytes (List.replicate n 0), [], by simp [Leaf.Valid], ?_, ?_⟩
    · simp only [Leaf.contents, List.length_replicate]; omega
    · rw [merkleLevel_length Toy.env.sha256_len, hc, List.length_replicate]; omega
  exact aux _ rfl

/-- C11, the remaining case (contents of about 254 to 256 GiB, beyond what 32-bit ZIP offsets can describe): every level
    fits in 31 bits but their sum does not, and the code panics allocating the tree. -/
theorem C11_verity_sum_overflow_panics (env : Env) {c0 : Leaf} {cs : List Leaf} (hv : ∀ l ∈ c0 :: cs, l.Valid)
    (hal : c0.contents.length % 4096 = 0) (hfit : (merkleLevel env.sha256 (concatContents (c0 :: cs))).length < 2 ^ 31)
    (ht : 2 ^ 31 ≤ treeBytes env.sha256 (concatContents (c0 :: cs)).length (concatContents (c0 :: cs))) :
    verityDigest env (c0 :: cs) = .error .sliceOutOfRange :=
  verityDigest_sumOverflow env hv (by rw [← Leaf.contents_length (hv c0 (by simp))]; exact hal) (by omega) (by omega)

/-! ## C12 -/

/-- C12: two page-aligned section lists with the same verity digest have the same concatenation, or two different strings
    hashed on the way collide. -/
theorem C12_verity_binding (env : Env) {c0 c0' : Leaf} {cs cs' : List Leaf} (hv : ∀ l ∈ c0 :: cs, l.Valid)
    (hv' : ∀ l ∈ c0' :: cs', l.Valid) (h0 : concatContents (c0 :: cs) ≠ []) (h0' : concatContents (c0' :: cs') ≠ [])
    {d : Bytes} (h : verityDigest env (c0 :: cs) = .ok (.ok d)) (h' : verityDigest env (c0' :: cs') = .ok (.ok d)) :
    concatContents (c0 :: cs) = concatContents (c0' :: cs') ∨
      CollisionIn env.sha256 (merkleHashed env.sha256 (concatContents (c0 :: cs)))
        (merkleHashed env.sha256 (concatContents (c0' :: cs'))) := by
  have key : ∀ (c0 : Leaf) (cs : List Leaf), (∀ l ∈ c0 :: cs, l.Valid) → concatContents (c0 :: cs) ≠ [] →
      verityDigest env (c0 :: cs) = .ok (.ok d) →
      d = veritySpec env.sha256 (concatContents (c0 :: cs)) ∧ (concatContents (c0 :: cs)).length < 2 ^ 64 := by
    intro c0 cs hv h0 h
    by_cases hal : c0.contents.length % 4096 = 0
    · by_cases hfit : (merkleLevel env.sha256 (concatContents (c0 :: cs))).length < 2 ^ 31
      · have hsz : (concatContents (c0 :: cs)).length < 2 ^ 64 := by
          rw [merkleLevel_length env.sha256_len] at hfit; omega
        by_cases ht : treeBytes env.sha256 (concatContents (c0 :: cs)).length (concatContents (c0 :: cs)) < 2 ^ 31
        · rw [C11_verity_spec env hv hal h0 ht] at h
          simp only [Except.ok.injEq] at h
          exact ⟨h.symm, hsz⟩
        · rw [C11_verity_sum_overflow_panics env hv hal hfit (by omega)] at h; cases h
      · rw [C11_verity_level_overflow env hv hal (by omega)] at h; simp at h
    · rw [C11_verity_unaligned env (hv _ (by simp)) hal] at h; simp at h
  obtain ⟨e, hl⟩ := key c0 cs hv h0 h
  obtain ⟨e', hl'⟩ := key c0' cs' hv' h0' h'
  exact veritySpec_binding env.sha256_len hl hl' (e.symm.trans e')

example : ∃ d, verityDigest Toy.env Toy.secsAligned = .ok (.ok d) ∧
    verityDigest Toy.env [.bytes [], .bytes [7, 8, 9, 11, 12]] = .ok (.ok d) := by
  refine ⟨_, C11_verity_spec_64GiB Toy.env Toy.secsAligned_valid (by decide) (by decide) (by decide), ?_⟩
  exact C11_verity_spec_64GiB Toy.env (by
    intro l hl
    simp only [List.mem_cons, List.not_mem_nil, or_false] at hl
    rcases hl with rfl | rfl <;> trivial) (by decide) (by decide) (by decide)

end Apk
