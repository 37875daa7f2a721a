import Verif.Props.Sign
/-!
# C14: the exceptional case of the verity digest does occur

Two unsigned ZIPs with the same entries and different central directories and EOCD records whose sections, written one after the other,
are the same bytes. A verity digest covers only that concatenation, so the signing block made for one of them fits the other as well.
The entries take 0x054b5000 bytes: the four bytes of the offset of the central directory, followed by the length of the comment, contain
the magic number of an EOCD record.
-/
namespace Apk
open Sign

/-- The comment of the first ZIP. -/
def splitComment : Bytes := [0, 0, 0, 0, 0, 0, 0, 18, 0, 0, 0, 0, 0x50, 0x4b, 0x05, 0xF5, 0] ++ List.replicate 245 0

/-- The first ZIP: a central directory of one byte and a comment. -/
def splitOne (head : Bytes) : Unsigned :=
  ⟨head, [0], [0, 0, 0, 0, 0, 0, 0, 0], splitComment⟩

/-- The second ZIP: the central directory extends over the first seventeen bytes of the EOCD record of the first one. -/
def splitTwo (head : Bytes) : Unsigned :=
  ⟨head, [0, 0x50, 0x4b, 0x05, 0x06, 0, 0, 0, 0, 0, 0, 0, 0, 1, 0, 0, 0, 0], [1, 0, 0, 0, 0, 0, 0, 0], List.replicate 245 0⟩

/-- The number of bytes of the entries. -/
def splitLength : Nat := 0x054b5000

theorem split_same {head : Bytes} (h : head.length = splitLength) : (splitOne head).sections.flatten = (splitTwo head).sections.flatten := by
  have e : ∀ x : Bytes, x.length = splitLength → leBytes 4 x.length = [0, 0x50, 0x4b, 0x05] := fun x h => by rw [h]; decide
  simp only [Unsigned.sections, splitOne, splitTwo, List.flatten_cons, List.flatten_nil, eocd]
  rw [e head h]
  rw [List.append_cancel_left_eq]
  decide +kernel

theorem split_digest (env : Env) {head : Bytes} (h : head.length = splitLength) {a : Nat} (ha : a ∈ [0x0421, 0x0423, 0x0425]) :
    digestFor env (splitOne head) a = digestFor env (splitTwo head) a := by
  have e : algDigest a = .verity256 := by
    have : ∀ a ∈ [0x0421, 0x0423, 0x0425], algDigest a = .verity256 := by decide
    exact this a ha
  unfold digestFor
  rw [e]
  simp only [contentDigest]
  rw [split_same h]
  rfl

theorem split_block (env : Env) {head : Bytes} (h : head.length = splitLength) (s : Signer) (ha : s.alg ∈ [0x0421, 0x0423, 0x0425]) :
    pairsV2 env (splitOne head) [s] = pairsV2 env (splitTwo head) [s] := by
  simp only [pairsV2, signerV2, signedDataV2, List.map_cons, List.map_nil, split_digest env h ha]

theorem split_ok_one (head : Bytes) : (splitOne head).Ok :=
  ⟨rfl, (by decide +kernel : splitComment.length ≤ 65535), (by decide : ([0] : Bytes) ≠ []), (by decide : (([0] : Bytes).drop (1 - 20)).take 4 ≠ _)⟩

theorem split_ok_two (head : Bytes) : (splitTwo head).Ok :=
  ⟨rfl, (by decide +kernel : (List.replicate 245 0 : Bytes).length ≤ 65535),
   (by decide : ([0, 0x50, 0x4b, 0x05, 0x06, 0, 0, 0, 0, 0, 0, 0, 0, 1, 0, 0, 0, 0] : Bytes) ≠ []),
   (by decide : (([0, 0x50, 0x4b, 0x05, 0x06, 0, 0, 0, 0, 0, 0, 0, 0, 1, 0, 0, 0, 0] : Bytes).drop (18 - 20)).take 4 ≠ _)⟩

/-- There is no later EOCD record if the magic number does not occur later in the record. -/
theorem last_of_magic {u : Unsigned} (hf : u.fields.length = 8) {ps : List (Nat × Bytes)}
    (h : ∀ j, 0 < j → j ≤ u.comment.length →
      ((eocd u.fields u.cd.length (u.head ++ sigBlock (encPairs ps)).length u.comment).drop j).take 4 ≠ [0x50, 0x4b, 0x05, 0x06]) : u.Last ps := by
  intro c hc pre rec hr
  have hl : (eocd u.fields u.cd.length (u.head ++ sigBlock (encPairs ps)).length u.comment).length = 22 + u.comment.length := by simp [eocd, hf]; omega
  have hs := hr.split
  unfold Unsigned.signed at hs
  generalize eocd u.fields u.cd.length (u.head ++ sigBlock (encPairs ps)).length u.comment = r at hs hl h
  have e : rec = r.drop (u.comment.length - c) := by
    have h1 := congrArg (List.drop pre.length) hs
    rw [List.drop_left' rfl] at h1
    rw [← h1]
    have hlen := congrArg List.length hs
    simp only [List.length_append, hl, hr.len] at hlen
    rw [List.drop_append, List.drop_eq_nil_of_le (by simp only [List.length_append]; omega), List.nil_append]
    congr 1
    simp only [List.length_append]; omega
  have hm := hr.magic
  rw [e] at hm
  exact h _ (by omega) (by omega) hm

theorem leBytes_off {B : Nat} (h1 : 256 ≤ B) (h2 : B < 45056) :
    ∃ x y : UInt8, leBytes 4 (splitLength + B) = [x, y, 0x4b, 0x05] ∧ y ≠ 0x50 := by
  refine ⟨UInt8.ofNat ((splitLength + B) % 256), UInt8.ofNat ((splitLength + B) / 256 % 256), ?_, ?_⟩
  · have a : (splitLength + B) / 256 / 256 % 256 = 0x4b := by unfold splitLength; omega
    have b : (splitLength + B) / 256 / 256 / 256 % 256 = 0x05 := by unfold splitLength; omega
    simp only [leBytes, a, b]
    rfl
  · intro h
    have := congrArg UInt8.toNat h
    rw [UInt8.toNat_ofNat_of_lt' (by show _ < 256; omega)] at this
    have k : (0x50 : UInt8).toNat = 80 := rfl
    rw [k] at this
    unfold splitLength at this
    omega

theorem split_last_one {head : Bytes} (h : head.length = splitLength) {ps : List (Nat × Bytes)} (h1 : 256 ≤ (sigBlock (encPairs ps)).length)
    (h2 : (sigBlock (encPairs ps)).length < 45056) : (splitOne head).Last ps := by
  refine last_of_magic rfl (fun j h0 hj => ?_)
  obtain ⟨x, y, e, hy⟩ := leBytes_off h1 h2
  have el : (head ++ sigBlock (encPairs ps)).length = splitLength + (sigBlock (encPairs ps)).length := by rw [List.length_append, h]
  have hj' : j ≤ 262 := Nat.le_trans hj (by decide +kernel : splitComment.length ≤ 262)
  show ((eocd [0, 0, 0, 0, 0, 0, 0, 0] 1 (head ++ sigBlock (encPairs ps)).length splitComment).drop j).take 4 ≠ _
  unfold eocd
  rw [el, e]
  have r : ([0x50, 0x4b, 0x05, 0x06] ++ [0, 0, 0, 0, 0, 0, 0, 0] ++ leBytes 4 1 ++ [x, y, 0x4b, 0x05] ++ (leBytes 2 splitComment.length ++ splitComment) : Bytes) =
      [0x50, 0x4b, 0x05, 0x06, 0, 0, 0, 0, 0, 0, 0, 0, 1, 0, 0, 0, x, y] ++ ([0x4b, 0x05, 0x06, 0x01] ++ splitComment) := by
    have : leBytes 2 splitComment.length = [0x06, 0x01] := by decide +kernel
    rw [this]; rfl
  rw [r]
  by_cases hs : 18 ≤ j
  · rw [List.drop_append, List.drop_eq_nil_of_le (by simpa using hs), List.nil_append]
    have : ∀ k : Fin 245, (([0x4b, 0x05, 0x06, 0x01] ++ splitComment : Bytes).drop k.val).take 4 ≠ [0x50, 0x4b, 0x05, 0x06] := by decide +kernel
    exact this ⟨j - 18, by omega⟩
  · have : j = 1 ∨ j = 2 ∨ j = 3 ∨ j = 4 ∨ j = 5 ∨ j = 6 ∨ j = 7 ∨ j = 8 ∨ j = 9 ∨ j = 10 ∨ j = 11 ∨ j = 12 ∨ j = 13 ∨ j = 14 ∨ j = 15 ∨ j = 16 ∨ j = 17 := by omega
    rcases this with rfl | rfl | rfl | rfl | rfl | rfl | rfl | rfl | rfl | rfl | rfl | rfl | rfl | rfl | rfl | rfl | rfl <;>
      intro hc <;> simp at hc
    exact hy hc

theorem split_last_two {head : Bytes} (h : head.length = splitLength) {ps : List (Nat × Bytes)} (h1 : 256 ≤ (sigBlock (encPairs ps)).length)
    (h2 : (sigBlock (encPairs ps)).length < 45056) : (splitTwo head).Last ps := by
  refine last_of_magic rfl (fun j h0 hj => ?_)
  obtain ⟨x, y, e, hy⟩ := leBytes_off h1 h2
  have el : (head ++ sigBlock (encPairs ps)).length = splitLength + (sigBlock (encPairs ps)).length := by rw [List.length_append, h]
  have hj' : j ≤ 245 := Nat.le_trans hj (by decide +kernel : (List.replicate 245 0 : Bytes).length ≤ 245)
  show ((eocd [1, 0, 0, 0, 0, 0, 0, 0] 18 (head ++ sigBlock (encPairs ps)).length (List.replicate 245 0)).drop j).take 4 ≠ _
  unfold eocd
  rw [el, e]
  have r : ([0x50, 0x4b, 0x05, 0x06] ++ [1, 0, 0, 0, 0, 0, 0, 0] ++ leBytes 4 18 ++ [x, y, 0x4b, 0x05] ++ (leBytes 2 (List.replicate 245 (0 : UInt8)).length ++ List.replicate 245 0) : Bytes) =
      [0x50, 0x4b, 0x05, 0x06, 1, 0, 0, 0, 0, 0, 0, 0, 18, 0, 0, 0, x, y] ++ ([0x4b, 0x05, 0xF5, 0x00] ++ List.replicate 245 0) := by
    have : leBytes 2 (List.replicate 245 (0 : UInt8)).length = [0xF5, 0x00] := by decide +kernel
    rw [this]; rfl
  rw [r]
  by_cases hs : 18 ≤ j
  · rw [List.drop_append, List.drop_eq_nil_of_le (by simpa using hs), List.nil_append]
    have : ∀ k : Fin 245, (([0x4b, 0x05, 0xF5, 0x00] ++ List.replicate 245 0 : Bytes).drop k.val).take 4 ≠ [0x50, 0x4b, 0x05, 0x06] := by decide +kernel
    exact this ⟨j - 18, by omega⟩
  · have : j = 1 ∨ j = 2 ∨ j = 3 ∨ j = 4 ∨ j = 5 ∨ j = 6 ∨ j = 7 ∨ j = 8 ∨ j = 9 ∨ j = 10 ∨ j = 11 ∨ j = 12 ∨ j = 13 ∨ j = 14 ∨ j = 15 ∨ j = 16 ∨ j = 17 := by omega
    generalize List.replicate 245 (0 : UInt8) = z
    rcases this with rfl | rfl | rfl | rfl | rfl | rfl | rfl | rfl | rfl | rfl | rfl | rfl | rfl | rfl | rfl | rfl | rfl <;>
      intro hc <;> simp at hc

/-- C14 fails in the exceptional case, whatever the hash functions: for any 0x054b5000 bytes of entries and any signer with a verity
    algorithm (and a signing block of 256 to 45055 bytes) there are two files with the same entries and the same signing block that are
    both accepted, with different central directories. -/
theorem C14_verity_split (env : Env) (zip zip' : Zip) (head : Bytes) (h : head.length = splitLength) (s : Signer) (main : Cert) (more : List Cert)
    (g : s.Good env main more) (ha : s.alg ∈ [0x0421, 0x0423, 0x0425]) (h1 : 256 ≤ (sigBlock (encPairs (pairsV2 env (splitOne head) [s]))).length)
    (h2 : (sigBlock (encPairs (pairsV2 env (splitOne head) [s]))).length < 45056) (minSdk maxSdk : Int) (hm : 24 ≤ maxSdk) :
    ∃ file file' area cd cd' rec rec', ApkLayout file head area cd rec ∧ ApkLayout file' head area cd' rec' ∧ cd.length ≠ cd'.length ∧
      AcceptedAs env zip file minSdk maxSdk 2 [main :: more] ∧ AcceptedAs env zip' file' minSdk maxSdk 2 [main :: more] := by
  have e := split_block env h s ha
  have hp : ∀ u : Unsigned, u.head = head → Paged u s := fun u hu _ => by rw [hu, h]; rfl
  have hb : (sigBlock (encPairs (pairsV2 env (splitOne head) [s]))).length = (encPairs (pairsV2 env (splitOne head) [s])).length + 32 := by
    simp [sigBlock, sigBlockMagic]; omega
  have l1 := split_last_one h h1 h2
  have l2 := split_last_two h h1 h2
  have z1 : ((splitOne head).signed (pairsV2 env (splitOne head) [s])).length < 2147483648 := by
    rw [pairs_length _ _ (split_ok_one head)]
    show head.length + 1 + _ + 54 + splitComment.length < _
    have : splitComment.length = 262 := by decide +kernel
    unfold splitLength at h
    omega
  have z2 : ((splitTwo head).signed (pairsV2 env (splitOne head) [s])).length < 2147483648 := by
    rw [pairs_length _ _ (split_ok_two head)]
    show head.length + 18 + _ + 54 + (List.replicate 245 (0 : UInt8)).length < _
    have : (List.replicate 245 (0 : UInt8)).length = 245 := by decide +kernel
    unfold splitLength at h
    omega
  refine ⟨_, _, _, _, _, _, _, sign_layout _ (split_ok_one head) _ z1 l1, sign_layout _ (split_ok_two head) _ z2 l2, (by decide : ¬ 1 = 18), ?_, ?_⟩
  · exact C71_signed_v2_accepted env zip (splitOne head) (split_ok_one head) [(s, main, more)] (by simp) (by simp)
      (by intro p hp'; rw [List.mem_singleton.1 hp']; exact ⟨g, hp _ rfl⟩) z1 l1 minSdk maxSdk hm
  · rw [e] at z2 l2 ⊢
    exact C71_signed_v2_accepted env zip' (splitTwo head) (split_ok_two head) [(s, main, more)] (by simp) (by simp)
      (by intro p hp'; rw [List.mem_singleton.1 hp']; exact ⟨g, hp _ rfl⟩) z2 l2 minSdk maxSdk hm

/-- A key of the toy environment that is long enough. -/
def splitKey : Bytes := 1 :: List.replicate 100 7

/-- A signer of the toy environment with a verity algorithm. -/
def splitSigner : Signer := ⟨0x0421, splitKey, [0xC0 :: splitKey], Toy.sign splitKey⟩

theorem splitSigner_good : splitSigner.Good Toy.env (Toy.certOf splitKey) [] :=
  ⟨by decide, by decide +kernel, rfl, ⟨.rsa, 0, splitKey⟩, rfl, fun data => .inr (.inr (.inl ⟨.inr rfl, rfl, by simp [Toy.env, Toy.sign, splitSigner]⟩))⟩

theorem verity_length (env : Env) (u : Unsigned) (h : u.head.length % 4096 = 0) : (digestFor env u 0x0421).length = 40 := by
  have e : algDigest 0x0421 = .verity256 := by decide
  have e2 : contentDigest env .verity256 u.sections = some (veritySpec env.sha256 u.sections.flatten) := if_pos h
  unfold digestFor
  rw [e, e2]
  simp [veritySpec, merkleRoot, env.sha256_len]

theorem exists_bytes (n : Nat) : ∃ l : Bytes, l.length = n := ⟨List.replicate n 0, List.length_replicate⟩

/-- C14: the hypotheses are met. -/
theorem C14_verity_split_example : ∃ file file' head area cd cd' rec rec', ApkLayout file head area cd rec ∧ ApkLayout file' head area cd' rec' ∧
    cd.length ≠ cd'.length ∧ AcceptedAs Toy.env Toy.noZip file 24 35 2 [[Toy.certOf splitKey]] ∧ AcceptedAs Toy.env Toy.noZip file' 24 35 2 [[Toy.certOf splitKey]] := by
  have hk : splitKey.length = 101 := by decide +kernel
  obtain ⟨head, hh⟩ := exists_bytes splitLength
  have hd : (digestFor Toy.env (splitOne head) 0x0421).length = 40 := by
    refine verity_length _ _ ?_
    show head.length % 4096 = 0
    rw [hh]; decide
  have hl : (sigBlock (encPairs (pairsV2 Toy.env (splitOne head) [splitSigner]))).length = 480 := by
    generalize splitOne head = u at hd
    have hs : ∀ d, (Toy.sign splitKey d).length = 133 := fun d => by simp [Toy.sign, hk]
    simp only [sigBlock, sigBlockMagic, encPairs, encPair, pairsV2, signers, signerV2, signedDataV2, splitSigner, List.map_cons, List.map_nil, List.flatten_cons,
      List.flatten_nil, List.length_append, leBytes_length, lp_length, lpSeq_cons, lpSeq_nil, record_length, hd, hs, hk, List.length_cons, List.length_nil]
  obtain ⟨file, file', area, cd, cd', rec, rec', h⟩ := C14_verity_split Toy.env Toy.noZip Toy.noZip head hh
    splitSigner _ _ splitSigner_good (by decide) (by rw [hl]; decide) (by rw [hl]; decide) 24 35 (by decide)
  exact ⟨file, file', _, area, cd, cd', rec, rec', h⟩

end Apk
