import Verif.Spec.Io
import Verif.Proofs.Verdict
import Verif.Proofs.IntegrityEq
import Verif.Spec.Marshal
/-! # Failing readers: every step gives what it gives on the file, or fails -/
namespace Apk

section
variable {d : Disk} {file : Bytes} (ho : d.Over file)
include ho

theorem read_cases (t off n : Nat) :
    d.read t off n = readFull file off n ∨ (d.read t off n = none ∧ d.Fails file) := by
  cases h : d.read t off n with
  | some b =>
    obtain ⟨h1, h2⟩ := ho.read t off n b h
    left
    unfold readFull
    rw [if_pos h1, h2]; rfl
  | none =>
    by_cases hb : off + n ≤ file.length
    · exact .inr ⟨rfl, .inr ⟨t, off, n, hb, h⟩⟩
    · left; unfold readFull; rw [if_neg hb]

theorem eocdMaxIo_cases (m t : Nat) :
    (eocdMaxIo d file.length m t).1 = findEocdMax file m ∨ ((eocdMaxIo d file.length m t).1 = .error .ioErr ∧ d.Fails file) := by
  unfold eocdMaxIo findEocdMax
  simp only
  generalize (if m > file.length - 22 then file.length - 22 else m) = k
  rcases read_cases ho t (file.length - (22 + k)) (22 + k) with h | ⟨h, hf⟩
  · left
    rw [h]
    cases readFull file (file.length - (22 + k)) (22 + k) <;> rfl
  · right
    rw [h]; exact ⟨rfl, hf⟩

omit ho in
theorem findEocd_second {m : Nat} (h : 22 ≤ file.length) (hm : m = 65535) :
    findEocdMax file m = findEocd file := by
  subst hm
  unfold findEocd
  rw [if_neg (by omega)]
  cases h0 : findEocdMax file 0 with
  | error e => rfl
  | ok l =>
    rw [findEocdMax_eq file 0 (by omega) h] at h0
    rw [findEocdMax_eq file 65535 (by omega) h]
    obtain ⟨c0, h1, h2, h3, h4, h5⟩ := eocdScan_ok.1 h0
    exact eocdScan_ok.2 ⟨c0, h1, by omega, h3, h4, h5⟩

theorem eocdIo_cases (t : Nat) :
    (eocdIo d file.length t).1 = findEocd file ∨ ((eocdIo d file.length t).1 = .error .ioErr ∧ d.Fails file) := by
  unfold eocdIo
  by_cases hl : file.length < 22
  · left; rw [if_pos hl]; unfold findEocd; rw [if_pos hl]
  · rw [if_neg hl]
    have h0 := eocdMaxIo_cases ho 0 t
    cases hx : eocdMaxIo d file.length 0 t with
    | mk x t1 =>
      rw [hx] at h0
      simp only at h0
      cases x with
      | ok l =>
        rcases h0 with h0 | ⟨h0, _⟩
        · left; unfold findEocd; rw [if_neg hl, ← h0]
        · cases h0
      | error e =>
        simp only
        rcases eocdMaxIo_cases ho 65535 t1 with h1 | h1
        · left; rw [h1]; exact findEocd_second (by omega) rfl
        · exact .inr h1

theorem zip64Io_cases (l : Loc) (t : Nat) :
    (zip64Io d l t).1 = isZip64 file l ∨ ((zip64Io d l t).1 = false ∧ d.Fails file) := by
  unfold zip64Io isZip64
  split
  · left; rfl
  · rcases read_cases ho t (l.eocdOff - 20) 4 with h | ⟨h, hf⟩
    · left; rw [h]; cases readFull file (l.eocdOff - 20) 4 <;> rfl
    · right; rw [h]; exact ⟨rfl, hf⟩

theorem sigBlockIo_cases (l : Loc) (t : Nat) :
    (sigBlockIo d l t).1 = findApkSigningBlock file l ∨ ((sigBlockIo d l t).1 = .error .ioErr ∧ d.Fails file) := by
  unfold sigBlockIo findApkSigningBlock
  split
  · left; rfl
  · rcases read_cases ho t (l.cdOff - 24) 24 with h | ⟨h, hf⟩
    · rw [h]
      cases readFull file (l.cdOff - 24) 24 with
      | none => left; rfl
      | some footer =>
        simp only
        split
        · left; rfl
        · split
          · left; rfl
          · split
            · left; rfl
            · split
              · left; rfl
              · rcases read_cases ho (t + 1) (l.cdOff - (u64At footer 0 + 8)) (u64At footer 0 + 8) with h | ⟨h, hf⟩
                · rw [h]
                  cases readFull file (l.cdOff - (u64At footer 0 + 8)) (u64At footer 0 + 8) with
                  | none => left; rfl
                  | some block => left; simp only; split <;> rfl
                · right; rw [h]; exact ⟨rfl, hf⟩
    · right; rw [h]; exact ⟨rfl, hf⟩

/-- The search for the blocks: as on the file, or an I/O error, or the ZIP64 check was skipped. -/
theorem findBlocksIo_cases (env : Env) (maxSdk : Int) (t : Nat) :
    (∃ t', findBlocksIo env d file.length maxSdk t = (findSignatureBlocks env file maxSdk).map (·, t')) ∨
    (d.Fails file ∧ ∃ t', findBlocksIo env d file.length maxSdk t = .ok ((none, {}, some .ioErr), t')) ∨
    (d.Fails file ∧ ∃ l, findEocd file = .ok l ∧ isZip64 file l = true) := by
  unfold findBlocksIo findSignatureBlocks
  have h0 := eocdIo_cases ho t
  cases hx : eocdIo d file.length t with
  | mk x t1 =>
    rw [hx] at h0
    simp only at h0
    rcases h0 with rfl | ⟨rfl, hf⟩
    · cases hE : findEocd file with
      | error e => left; exact ⟨t1, rfl⟩
      | ok l =>
        simp only
        have h1 := zip64Io_cases ho l t1
        cases hz : zip64Io d l t1 with
        | mk y t2 =>
          rw [hz] at h1
          simp only at h1
          rcases h1 with rfl | ⟨rfl, hf⟩
          · cases hZ : isZip64 file l with
            | true => left; exact ⟨t2, rfl⟩
            | false =>
              simp only [Bool.false_eq_true, if_false]
              have h2 := sigBlockIo_cases ho l t2
              cases hs : sigBlockIo d l t2 with
              | mk w t3 =>
                rw [hs] at h2
                simp only at h2
                rcases h2 with rfl | ⟨rfl, hf⟩
                · left
                  refine ⟨t3, ?_⟩
                  cases findApkSigningBlock file l with
                  | error e => rfl
                  | ok bo =>
                    obtain ⟨block, off⟩ := bo
                    simp only
                    cases parsePairs env maxSdk (slice block 8 (block.length - 32)) <;> rfl
                · right; left; exact ⟨hf, t3, rfl⟩
          · cases hZ : isZip64 file l with
            | true => right; right; exact ⟨hf, l, rfl, hZ⟩
            | false =>
              simp only [Bool.false_eq_true, if_false]
              have h2 := sigBlockIo_cases ho l t2
              cases hs : sigBlockIo d l t2 with
              | mk w t3 =>
                rw [hs] at h2
                simp only at h2
                rcases h2 with rfl | ⟨rfl, hf⟩
                · left
                  refine ⟨t3, ?_⟩
                  cases findApkSigningBlock file l with
                  | error e => rfl
                  | ok bo =>
                    obtain ⟨block, off⟩ := bo
                    simp only
                    cases parsePairs env maxSdk (slice block 8 (block.length - 32)) <;> rfl
                · right; left; exact ⟨hf, t3, rfl⟩
    · right; left; exact ⟨hf, t1, rfl⟩

/-! ## Digests -/

/-- The source on the file. -/
def IoLeaf.on (file : Bytes) : IoLeaf → Leaf
  | .disk a b => .apk file a b
  | .bytes x => .bytes x

omit ho in
theorem IoLeaf.on_length (l : IoLeaf) : (l.on file).length = l.length := by cases l <;> rfl
omit ho in
theorem IoLeaf.on_chunks (l : IoLeaf) : (l.on file).chunkCount = l.chunkCount := by
  unfold IoLeaf.chunkCount Leaf.chunkCount; rw [IoLeaf.on_length]
omit ho in
theorem chainedLengthIo_on (ls : List IoLeaf) : chainedLength (ls.map (IoLeaf.on file)) = chainedLengthIo ls := by
  unfold chainedLength chainedLengthIo
  rw [List.map_map]
  congr 1
  exact List.map_congr_left (fun l _ => IoLeaf.on_length l)

theorem writeTo_cases (l : IoLeaf) (o s t : Nat) :
    (l.writeTo d o s t).1 = (l.on file).writeTo o s ∨ ((l.writeTo d o s t).1 = .error .ioErr ∧ d.Fails file) := by
  cases l with
  | disk a b =>
    simp only [IoLeaf.writeTo, IoLeaf.on, Leaf.writeTo]
    split
    · left; rfl
    · split
      · left; rfl
      · rcases read_cases ho t (a + o) s with h | ⟨h, hf⟩
        · left; rw [h]; cases readFull file (a + o) s <;> rfl
        · right; rw [h]; exact ⟨rfl, hf⟩
  | bytes x =>
    left
    simp only [IoLeaf.writeTo, IoLeaf.on, Leaf.writeTo]
    split
    · rfl
    · split <;> rfl

theorem chainedLoopIo_cases (ls : List IoLeaf) : ∀ o s t,
    (chainedLoopIo d ls o s t).1 = chainedLoop (ls.map (IoLeaf.on file)) o s ∨
      ((chainedLoopIo d ls o s t).1 = .error .ioErr ∧ d.Fails file) := by
  induction ls with
  | nil => intro o s t; left; rfl
  | cons l ls ih =>
    intro o s t
    simp only [chainedLoopIo, List.map_cons, chainedLoop, IoLeaf.on_length]
    split
    · exact ih _ _ _
    · split
      · exact writeTo_cases ho l o s t
      · have h0 := writeTo_cases ho l o (l.length - o) t
        cases hx : l.writeTo d o (l.length - o) t with
        | mk x t1 =>
          rw [hx] at h0
          simp only at h0
          rcases h0 with rfl | ⟨rfl, hf⟩
          · cases (l.on file).writeTo o (l.length - o) with
            | error e => left; rfl
            | ok b =>
              simp only
              have h1 := ih 0 (s - (l.length - o)) t1
              cases hy : chainedLoopIo d ls 0 (s - (l.length - o)) t1 with
              | mk y t2 =>
                rw [hy] at h1
                simp only at h1
                rcases h1 with rfl | ⟨rfl, hf⟩
                · left
                  cases chainedLoop (ls.map (IoLeaf.on file)) 0 (s - (l.length - o)) <;> rfl
                · right; exact ⟨rfl, hf⟩
          · right; exact ⟨rfl, hf⟩

theorem chainedWriteIo_cases (ls : List IoLeaf) (o s t : Nat) :
    (chainedWriteIo d ls o s t).1 = chainedWriteTo (ls.map (IoLeaf.on file)) o s ∨
      ((chainedWriteIo d ls o s t).1 = .error .ioErr ∧ d.Fails file) := by
  unfold chainedWriteIo chainedWriteTo
  rw [chainedLengthIo_on]
  split
  · left; rfl
  · split
    · left; rfl
    · exact chainedLoopIo_cases ho ls o s t

theorem fullPagesIo_cases (env : Env) (ls : List IoLeaf) (fuel : Nat) : ∀ o k t,
    (fullPagesIo env d ls fuel o k t).1 = digestFullPages env (.chained (ls.map (IoLeaf.on file))) fuel o k ∨
      ((fullPagesIo env d ls fuel o k t).1 = .error .ioErr ∧ d.Fails file) := by
  induction fuel with
  | zero => intro o k t; left; rfl
  | succ fuel ih =>
    intro o k t
    simp only [fullPagesIo, digestFullPages, Src.length, Src.writeTo, chainedLengthIo_on]
    split
    · have h0 := chainedWriteIo_cases ho ls o verityChunkSize t
      cases hx : chainedWriteIo d ls o verityChunkSize t with
      | mk x t1 =>
        rw [hx] at h0
        simp only at h0
        rcases h0 with rfl | ⟨rfl, hf⟩
        · cases chainedWriteTo (ls.map (IoLeaf.on file)) o verityChunkSize with
          | error e => left; rfl
          | ok page =>
            simp only
            cases k.write (saltedDigest env page) with
            | error e => left; rfl
            | ok k' => exact ih _ _ _
        · right; exact ⟨rfl, hf⟩
    · left; rfl

theorem digestDataIo_cases (env : Env) (ls : List IoLeaf) (k : Sink) (t : Nat) :
    (digestDataIo env d ls k t).1 = digestDataByChunks env (.chained (ls.map (IoLeaf.on file))) k ∨
      ((digestDataIo env d ls k t).1 = .error .ioErr ∧ d.Fails file) := by
  unfold digestDataIo digestDataByChunks
  simp only [Src.length, Src.writeTo, chainedLengthIo_on]
  have h0 := fullPagesIo_cases ho env ls (chainedLengthIo ls + 1) 0 k t
  cases hx : fullPagesIo env d ls (chainedLengthIo ls + 1) 0 k t with
  | mk x t1 =>
    rw [hx] at h0
    simp only at h0
    rcases h0 with rfl | ⟨rfl, hf⟩
    · cases digestFullPages env (.chained (ls.map (IoLeaf.on file))) (chainedLengthIo ls + 1) 0 k with
      | error e => left; rfl
      | ok z =>
        obtain ⟨o, k'⟩ := z
        simp only
        split
        · have h1 := chainedWriteIo_cases ho ls o (chainedLengthIo ls % verityChunkSize) t1
          cases hy : chainedWriteIo d ls o (chainedLengthIo ls % verityChunkSize) t1 with
          | mk y t2 =>
            rw [hy] at h1
            simp only at h1
            rcases h1 with rfl | ⟨rfl, hf⟩
            · left
              cases chainedWriteTo (ls.map (IoLeaf.on file)) o (chainedLengthIo ls % verityChunkSize) <;> rfl
            · right; exact ⟨rfl, hf⟩
        · left; rfl
    · right; exact ⟨rfl, hf⟩

theorem bottomLevelIo_cases (env : Env) (ls : List IoLeaf) (buf : Bytes) (lo hi t : Nat) :
    (bottomLevelIo env d ls buf lo hi t).1 = verityLevel env (.chained (ls.map (IoLeaf.on file))) buf lo hi ∨
      ((bottomLevelIo env d ls buf lo hi t).1 = .error .ioErr ∧ d.Fails file) := by
  unfold bottomLevelIo verityLevel
  simp only [Src.length, chainedLengthIo_on]
  have h0 := digestDataIo_cases ho env ls ⟨buf, lo, hi, 0⟩ t
  cases hx : digestDataIo env d ls ⟨buf, lo, hi, 0⟩ t with
  | mk x t1 =>
    rw [hx] at h0
    simp only at h0
    rcases h0 with rfl | ⟨rfl, hf⟩
    · left
      cases digestDataByChunks env (.chained (ls.map (IoLeaf.on file))) ⟨buf, lo, hi, 0⟩ with
      | error e => rfl
      | ok k =>
        simp only
        split
        · cases k.write (List.replicate (verityChunkSize - divideRoundup (chainedLengthIo ls) verityChunkSize * 32 % verityChunkSize) 0) <;> rfl
        · rfl
    · right; exact ⟨rfl, hf⟩

omit ho in
theorem verityLevels_src (env : Env) (c c' : Src) (offs : List Int) : ∀ p buf,
    verityLevels env c offs (some p) buf = verityLevels env c' offs (some p) buf := by
  induction offs with
  | nil => intro p buf; rfl
  | cons hi offs ih =>
    intro p buf
    cases offs with
    | nil => rfl
    | cons lo rest =>
      simp only [verityLevels]
      split
      · rfl
      · have : levelSource c (some p) buf = levelSource c' (some p) buf := rfl
        rw [this]
        cases verityLevel env (levelSource c' (some p) buf) buf lo.toNat hi.toNat with
        | error e => rfl
        | ok b => exact ih _ _

theorem treeRootIo_cases (env : Env) (ls : List IoLeaf) (t : Nat) :
    (∃ t', treeRootIo env d ls t = (generateTreeRootHash env (.chained (ls.map (IoLeaf.on file)))).map (·, t')) ∨
      (d.Fails file ∧ ∃ t', treeRootIo env d ls t = .ok (.error .ioErr, t')) := by
  unfold treeRootIo generateTreeRootHash
  simp only [Src.length, chainedLengthIo_on]
  cases calculateLevelOffset (chainedLengthIo ls) 32 with
  | error e => left; exact ⟨t, rfl⟩
  | ok offs =>
    simp only
    split
    · left; exact ⟨t, rfl⟩
    · generalize List.replicate (offs.getLast?.getD 0).toNat (0 : UInt8) = buf
      generalize offs.reverse = os
      have key : (∃ t', verityLevelsIo env d ls os buf t = (verityLevels env (.chained (ls.map (IoLeaf.on file))) os none buf).map (·, t')) ∨
          (d.Fails file ∧ ∃ t', verityLevelsIo env d ls os buf t = .ok (.error .ioErr, t')) := by
        match os with
        | [] => left; exact ⟨t, rfl⟩
        | [_] => left; exact ⟨t, rfl⟩
        | hi :: lo :: rest =>
          simp only [verityLevelsIo, verityLevels]
          split
          · left; exact ⟨t, rfl⟩
          · have h0 := bottomLevelIo_cases ho env ls buf lo.toNat hi.toNat t
            have hs : levelSource (.chained (ls.map (IoLeaf.on file))) none buf = .chained (ls.map (IoLeaf.on file)) := rfl
            rw [hs]
            cases hx : bottomLevelIo env d ls buf lo.toNat hi.toNat t with
            | mk x t1 =>
              rw [hx] at h0
              simp only at h0
              rcases h0 with rfl | ⟨rfl, hf⟩
              · left
                refine ⟨t1, ?_⟩
                cases verityLevel env (.chained (ls.map (IoLeaf.on file))) buf lo.toNat hi.toNat with
                | error e => rfl
                | ok b =>
                  simp only
                  rw [verityLevels_src env (.chained []) (.chained (ls.map (IoLeaf.on file)))]
                  cases verityLevels env (.chained (ls.map (IoLeaf.on file))) (lo :: rest) (some (lo.toNat, hi.toNat)) b <;> rfl
              · right; exact ⟨hf, t1, rfl⟩
      rcases key with ⟨t', h⟩ | ⟨hf, t', h⟩
      · left
        refine ⟨t', ?_⟩
        rw [h]
        cases verityLevels env (.chained (ls.map (IoLeaf.on file))) os none buf with
        | error p => rfl
        | ok x =>
          cases x with
          | error e => rfl
          | ok b => simp only [Except.map]; split <;> rfl
      · right; refine ⟨hf, t', ?_⟩; rw [h]

theorem verityIo_cases (env : Env) (ls : List IoLeaf) (t : Nat) :
    (∃ t', verityIo env d ls t = (verityDigest env (ls.map (IoLeaf.on file))).map (·, t')) ∨
      (d.Fails file ∧ ∃ t', verityIo env d ls t = .ok (.error (.verityFailed .ioErr), t')) := by
  cases ls with
  | nil => left; exact ⟨t, rfl⟩
  | cons c0 cs =>
    simp only [verityIo, List.map_cons, verityDigest, IoLeaf.on_length]
    split
    · left; exact ⟨t, rfl⟩
    · have hc := chainedLengthIo_on (file := file) (c0 :: cs)
      rw [List.map_cons] at hc
      rw [hc]
      have h0 := treeRootIo_cases ho env (c0 :: cs) t
      rw [List.map_cons] at h0
      rcases h0 with ⟨t', h⟩ | ⟨hf, t', h⟩
      · left
        refine ⟨t', ?_⟩
        rw [h]
        cases generateTreeRootHash env (.chained (IoLeaf.on file c0 :: cs.map (IoLeaf.on file))) with
        | error p => rfl
        | ok x => cases x <;> rfl
      · right; refine ⟨hf, t', ?_⟩; rw [h]


/-! ## The hashers in lock step -/

theorem chunkIo_cases (env : Env) (l : IoLeaf) (o s idx : Nat) (bufs : List (CD × Bytes)) : ∀ t,
    (∀ p ∈ bufs, ∃ data buf', (l.on file).writeTo o s = .ok data ∧
      copyAt p.2 (5 + idx * (p.1.hash env (((0xa5 : UInt8) :: leBytes 4 s) ++ data)).length)
        (p.1.hash env (((0xa5 : UInt8) :: leBytes 4 s) ++ data)) = .ok buf') →
    (∃ t' bufs', chunkIo env d l o s idx bufs t = .ok (.ok bufs', t') ∧
      ListRel (fun p q => q.1 = p.1 ∧ ∃ data, (l.on file).writeTo o s = .ok data ∧
        copyAt p.2 (5 + idx * (p.1.hash env (((0xa5 : UInt8) :: leBytes 4 s) ++ data)).length)
          (p.1.hash env (((0xa5 : UInt8) :: leBytes 4 s) ++ data)) = .ok q.2) bufs bufs') ∨
    (d.Fails file ∧ ∃ t', chunkIo env d l o s idx bufs t = .ok (.error .digestChunkFailed, t')) := by
  induction bufs with
  | nil => intro t _; left; exact ⟨t, [], rfl, .nil⟩
  | cons p bufs ih =>
    intro t h
    obtain ⟨algo, buf⟩ := p
    obtain ⟨data, buf', h1, h2⟩ := h (algo, buf) (by simp)
    simp only [chunkIo]
    have h0 := writeTo_cases ho l o s t
    cases hx : l.writeTo d o s t with
    | mk x t1 =>
      rw [hx] at h0
      simp only at h0
      rcases h0 with rfl | ⟨rfl, hf⟩
      · rw [h1]
        simp only at h2 ⊢
        rw [h2]
        simp only
        rcases ih t1 (fun p hp => h p (List.mem_cons_of_mem _ hp)) with ⟨t', bufs', e, hr⟩ | ⟨hf, t', e⟩
        · left
          rw [e]
          exact ⟨t', _, rfl, .cons ⟨rfl, data, rfl, h2⟩ (by rw [h1] at hr; exact hr)⟩
        · right; rw [e]; exact ⟨hf, t', rfl⟩
      · right; exact ⟨hf, t1, rfl⟩

omit ho in
theorem listRel_and_left {α β : Type} {R S : α → β → Prop} {as : List α} {bs : List β} (P : α → Prop)
    (hP : ∀ a ∈ as, P a) (h : ListRel R as bs) (hi : ∀ a b, P a → R a b → S a b) : ListRel S as bs := by
  induction h with
  | nil => exact .nil
  | cons h1 _ ih => exact .cons (hi _ _ (hP _ (by simp)) h1) (ih (fun a ha => hP a (List.mem_cons_of_mem _ ha)))

omit ho in
theorem listRel_comp {α β γ : Type} {R : α → β → Prop} {S : β → γ → Prop} {T : α → γ → Prop} {as : List α} {bs : List β} {cs : List γ}
    (h : ListRel R as bs) (h' : ListRel S bs cs) (hi : ∀ a b c, R a b → S b c → T a c) : ListRel T as cs := by
  induction h generalizing cs with
  | nil => cases h'; exact .nil
  | cons h1 _ ih => cases h' with | cons h2 h3 => exact .cons (hi _ _ _ h1 h2) (ih h3)

omit ho in
theorem listRel_refl {α : Type} {R : α → α → Prop} (h : ∀ a, R a a) : ∀ as, ListRel R as as
  | [] => .nil
  | a :: as => .cons (h a) (listRel_refl h as)

omit ho in
theorem listRel_right {α β : Type} {R : α → β → Prop} {as : List α} {bs : List β} (h : ListRel R as bs) :
    ∀ b ∈ bs, ∃ a ∈ as, R a b := by
  induction h with
  | nil => intro b hb; cases hb
  | cons h1 _ ih =>
    intro b hb
    rcases List.mem_cons.1 hb with rfl | hb
    · exact ⟨_, by simp, h1⟩
    · obtain ⟨a, ha, hr⟩ := ih b hb
      exact ⟨a, List.mem_cons_of_mem _ ha, hr⟩

theorem sectionIo_cases (env : Env) (l : IoLeaf) (fuel : Nat) : ∀ o rem idx bufs t,
    (∀ p ∈ bufs, ∃ r, oneMbSection env p.1 (l.on file) fuel o rem (idx, p.2) = .ok (.ok r)) →
    (∃ t' idx' bufs', sectionIo env d l fuel o rem (idx, bufs) t = .ok (.ok (idx', bufs'), t') ∧
      ListRel (fun p q => q.1 = p.1 ∧ oneMbSection env p.1 (l.on file) fuel o rem (idx, p.2) = .ok (.ok (idx', q.2))) bufs bufs') ∨
    (d.Fails file ∧ ∃ t', sectionIo env d l fuel o rem (idx, bufs) t = .ok (.error .digestChunkFailed, t')) := by
  induction fuel with
  | zero =>
    intro o rem idx bufs t _
    left
    exact ⟨t, idx, bufs, rfl, listRel_refl (fun _ => ⟨rfl, rfl⟩) bufs⟩
  | succ fuel ih =>
    intro o rem idx bufs t h
    simp only [sectionIo, oneMbSection] at h ⊢
    by_cases hr : rem > 0
    · simp only [if_pos hr] at h ⊢
      generalize (if rem > maxChunkSize then maxChunkSize else rem) = cs at h ⊢
      have hstep : ∀ p ∈ bufs, ∃ data buf', (l.on file).writeTo o cs = .ok data ∧
          copyAt p.2 (5 + idx * (p.1.hash env (((0xa5 : UInt8) :: leBytes 4 cs) ++ data)).length)
            (p.1.hash env (((0xa5 : UInt8) :: leBytes 4 cs) ++ data)) = .ok buf' ∧
          ∃ r, oneMbSection env p.1 (l.on file) fuel (o + cs) (rem - cs) (idx + 1, buf') = .ok (.ok r) := by
        intro p hp
        obtain ⟨r, hr⟩ := h p hp
        cases hw : (l.on file).writeTo o cs with
        | error e => rw [hw] at hr; cases hr
        | ok data =>
          rw [hw] at hr
          simp only at hr
          cases hc : copyAt p.2 (5 + idx * (p.1.hash env (((0xa5 : UInt8) :: leBytes 4 cs) ++ data)).length)
            (p.1.hash env (((0xa5 : UInt8) :: leBytes 4 cs) ++ data)) with
          | error q => rw [hc] at hr; cases hr
          | ok buf' =>
            rw [hc] at hr
            exact ⟨data, buf', rfl, hc, r, hr⟩
      rcases chunkIo_cases ho env l o cs idx bufs t (fun p hp => by
        obtain ⟨data, buf', h1, h2, _⟩ := hstep p hp
        exact ⟨data, buf', h1, h2⟩) with ⟨t', bufs1, e, hrel⟩ | ⟨hf, t', e⟩
      · rw [e]
        simp only
        rcases ih (o + cs) (rem - cs) (idx + 1) bufs1 t' (by
          intro q hq
          obtain ⟨p, hp, hq1, data, hw, hc⟩ := listRel_right hrel q hq
          obtain ⟨data', buf', h1, h2, r, hr⟩ := hstep p hp
          rw [hw] at h1
          cases h1
          rw [hc] at h2
          cases h2
          exact ⟨r, by rw [hq1]; exact hr⟩) with ⟨t'', idx', bufs', e', hrel'⟩ | ⟨hf, t'', e'⟩
        · left
          refine ⟨t'', idx', bufs', e', ?_⟩
          refine listRel_comp hrel hrel' ?_
          rintro p q w ⟨hq1, data, hw, hc⟩ ⟨hw1, hs⟩
          refine ⟨by rw [hw1, hq1], ?_⟩
          rw [hw]
          simp only
          rw [hc]
          simp only
          rw [← hq1]; exact hs
        · right; exact ⟨hf, t'', e'⟩
      · right; rw [e]; exact ⟨hf, t', rfl⟩
    · simp only [if_neg hr] at h ⊢
      left
      exact ⟨t, idx, bufs, rfl, listRel_refl (fun _ => ⟨rfl, rfl⟩) bufs⟩

theorem sectionsIo_cases (env : Env) (ls : List IoLeaf) : ∀ idx bufs t,
    (∀ p ∈ bufs, ∃ r, oneMbSections env p.1 (ls.map (IoLeaf.on file)) (idx, p.2) = .ok (.ok r)) →
    (∃ t' idx' bufs', sectionsIo env d ls (idx, bufs) t = .ok (.ok (idx', bufs'), t') ∧
      ListRel (fun p q => q.1 = p.1 ∧ oneMbSections env p.1 (ls.map (IoLeaf.on file)) (idx, p.2) = .ok (.ok (idx', q.2))) bufs bufs') ∨
    (d.Fails file ∧ ∃ t', sectionsIo env d ls (idx, bufs) t = .ok (.error .digestChunkFailed, t')) := by
  induction ls with
  | nil =>
    intro idx bufs t _
    left
    exact ⟨t, idx, bufs, rfl, listRel_refl (fun _ => ⟨rfl, rfl⟩) bufs⟩
  | cons l ls ih =>
    intro idx bufs t h
    simp only [sectionsIo, List.map_cons, oneMbSections, IoLeaf.on_length] at h ⊢
    have hstep : ∀ p ∈ bufs, ∃ r, oneMbSection env p.1 (l.on file) (l.length + 1) 0 l.length (idx, p.2) = .ok (.ok r) ∧
        ∃ r', oneMbSections env p.1 (ls.map (IoLeaf.on file)) r = .ok (.ok r') := by
      intro p hp
      obtain ⟨r, hr⟩ := h p hp
      cases hx : oneMbSection env p.1 (l.on file) (l.length + 1) 0 l.length (idx, p.2) with
      | error q => rw [hx] at hr; cases hr
      | ok x =>
        rw [hx] at hr
        cases x with
        | error e => cases hr
        | ok st => exact ⟨st, rfl, r, hr⟩
    rcases sectionIo_cases ho env l (l.length + 1) 0 l.length idx bufs t (fun p hp => by
      obtain ⟨r, hr, _⟩ := hstep p hp
      exact ⟨r, hr⟩) with ⟨t', idx1, bufs1, e, hrel⟩ | ⟨hf, t', e⟩
    · rw [e]
      simp only
      rcases ih idx1 bufs1 t' (by
        intro q hq
        obtain ⟨p, hp, hq1, hs⟩ := listRel_right hrel q hq
        obtain ⟨r, hr, r', hr'⟩ := hstep p hp
        rw [hs] at hr
        cases hr
        exact ⟨r', by rw [hq1]; exact hr'⟩) with ⟨t'', idx', bufs', e', hrel'⟩ | ⟨hf, t'', e'⟩
      · left
        refine ⟨t'', idx', bufs', e', ?_⟩
        refine listRel_comp hrel hrel' ?_
        rintro p q w ⟨hq1, hs1⟩ ⟨hw1, hs2⟩
        refine ⟨by rw [hw1, hq1], ?_⟩
        rw [hs1]
        simp only
        rw [← hq1]; exact hs2
      · right; exact ⟨hf, t'', e'⟩
    · right; rw [e]; exact ⟨hf, t', rfl⟩

omit ho in
/-- The algorithms one after the other, starting from the buffers of `oneMbIo`. -/
theorem computeOneMb_fold (env : Env) (ls : List Leaf) (n : Nat) (hn : (ls.map Leaf.chunkCount).sum = n) (hsm : ¬ n ≥ 2097151) (as : List CD)
    (idx : Nat) : ∀ bufs' acc, ListRel (fun (p q : CD × Bytes) => q.1 = p.1 ∧ oneMbSections env p.1 ls (0, p.2) = .ok (.ok (idx, q.2)))
      (as.map (fun a => (a, ((0x5a : UInt8) :: leBytes 4 n) ++ List.replicate (n * a.size) 0))) bufs' →
    computeOneMb env ls as acc = .ok (.ok (bufs'.foldl (fun m p => mset m p.1 (p.1.hash env p.2)) acc)) := by
  induction as with
  | nil => intro bufs' acc h; cases h; rfl
  | cons a as ih =>
    intro bufs' acc h
    rw [List.map_cons] at h
    cases h with
    | @cons _ b _ bs h1 h2 =>
      obtain ⟨e1, e2⟩ := h1
      simp only at e1 e2
      have e3 : oneMbDigest env a ls = .ok (.ok (a.hash env b.2)) := by
        unfold oneMbDigest
        simp only [hn]
        rw [if_neg hsm, e2]
      rw [computeOneMb, e3]
      simp only
      rw [ih _ _ h2, List.foldl_cons, e1]

omit ho in
theorem oneMb_start (env : Env) {ls : List Leaf} (hv : ∀ l ∈ ls, l.Valid) (a : CD) (n : Nat) (hn : (ls.map Leaf.chunkCount).sum = n) :
    ∃ r, oneMbSections env a ls (0, ((0x5a : UInt8) :: leBytes 4 n) ++ List.replicate (n * a.size) 0) = .ok (.ok r) :=
  ⟨_, oneMbSections_spec env a ls hv 0 n _ (by rw [List.length_cons, leBytes_length, Nat.zero_mul]) (by rw [mibChunks_length hv, hn]; exact Nat.le_refl _)⟩

omit ho in
theorem computeOneMb_many (env : Env) (ls : List Leaf) (n : Nat) (hn : (ls.map Leaf.chunkCount).sum = n) (hsm : n ≥ 2097151)
    {as : List CD} (hne : as ≠ []) (acc : Digests) : computeOneMb env ls as acc = .ok (.error .tooManyChunks) := by
  cases as with
  | nil => exact absurd rfl hne
  | cons a as =>
    have e : oneMbDigest env a ls = .ok (.error .tooManyChunks) := by
      unfold oneMbDigest
      simp only [hn]
      rw [if_pos hsm]
    rw [computeOneMb, e]

omit ho in
theorem oneMbIo_many (env : Env) (ls : List IoLeaf) (n : Nat) (hn : (ls.map IoLeaf.chunkCount).sum = n) (hsm : n ≥ 2097151) (as : List CD)
    (t : Nat) : oneMbIo env d as ls t = .ok (.error .tooManyChunks, t) := by
  unfold oneMbIo
  simp only [hn]
  rw [if_pos hsm]

omit ho in
theorem oneMbIo_few (env : Env) (ls : List IoLeaf) (n : Nat) (hn : (ls.map IoLeaf.chunkCount).sum = n) (hsm : ¬ n ≥ 2097151) (as : List CD)
    (t : Nat) {x : Except E (Nat × List (CD × Bytes)) × Nat}
    (hx : sectionsIo env d ls (0, as.map (fun a => (a, ((0x5a : UInt8) :: leBytes 4 n) ++ List.replicate (n * a.size) 0))) t = .ok x) :
    oneMbIo env d as ls t = .ok (x.1.map (fun y => y.2.foldl (fun m p => mset m p.1 (p.1.hash env p.2)) []), x.2) := by
  unfold oneMbIo
  simp only [hn]
  rw [if_neg hsm, hx]
  obtain ⟨y, t'⟩ := x
  cases y <;> rfl

/-- The digest buffers before the first chunk. -/
def startBufs (n : Nat) (as : List CD) : List (CD × Bytes) :=
  as.map (fun a => (a, ((0x5a : UInt8) :: leBytes 4 n) ++ List.replicate (n * a.size) 0))

omit ho in
theorem startBufs_run (env : Env) {ls : List Leaf} (hv : ∀ l ∈ ls, l.Valid) (n : Nat) (hn : (ls.map Leaf.chunkCount).sum = n) (as : List CD)
    (p : CD × Bytes) (hp : p ∈ startBufs n as) : ∃ r, oneMbSections env p.1 ls (0, p.2) = .ok (.ok r) := by
  obtain ⟨a, _, rfl⟩ := List.mem_map.1 hp
  exact oneMb_start env hv a n hn

omit ho in
theorem oneMbIo_done (env : Env) (ls : List IoLeaf) (n : Nat) (hn : (ls.map IoLeaf.chunkCount).sum = n)
    (hn' : ((ls.map (IoLeaf.on file)).map Leaf.chunkCount).sum = n) (hsm : ¬ n ≥ 2097151) (as : List CD) (t t' idx' : Nat)
    (bufs' : List (CD × Bytes)) (e : sectionsIo env d ls (0, startBufs n as) t = .ok (.ok (idx', bufs'), t'))
    (hrel : ListRel (fun (p q : CD × Bytes) => q.1 = p.1 ∧ oneMbSections env p.1 (ls.map (IoLeaf.on file)) (0, p.2) = .ok (.ok (idx', q.2)))
      (startBufs n as) bufs') :
    oneMbIo env d as ls t = (computeOneMb env (ls.map (IoLeaf.on file)) as []).map (·, t') := by
  rw [oneMbIo_few env ls n hn hsm as t e, computeOneMb_fold env _ n hn' hsm as idx' bufs' [] hrel]
  rfl

omit ho in
theorem oneMbIo_stop (env : Env) (ls : List IoLeaf) (n : Nat) (hn : (ls.map IoLeaf.chunkCount).sum = n) (hsm : ¬ n ≥ 2097151)
    (as : List CD) (t t' : Nat) (e : sectionsIo env d ls (0, startBufs n as) t = .ok (.error .digestChunkFailed, t')) :
    oneMbIo env d as ls t = .ok (.error .digestChunkFailed, t') := by
  rw [oneMbIo_few env ls n hn hsm as t e]; rfl

theorem oneMbIo_run (env : Env) (ls : List IoLeaf) (hv : ∀ l ∈ ls.map (IoLeaf.on file), l.Valid) (n : Nat)
    (hn : (ls.map IoLeaf.chunkCount).sum = n)
    (hn' : ((ls.map (IoLeaf.on file)).map Leaf.chunkCount).sum = n) (hsm : ¬ n ≥ 2097151) (as : List CD) (t : Nat) :
    (∃ t', oneMbIo env d as ls t = (computeOneMb env (ls.map (IoLeaf.on file)) as []).map (·, t')) ∨
    (d.Fails file ∧ ∃ t', oneMbIo env d as ls t = .ok (.error .digestChunkFailed, t')) := by
  rcases sectionsIo_cases ho env ls 0 (startBufs n as) t (startBufs_run env hv n hn' as) with ⟨t', idx', bufs', e, hrel⟩ | ⟨hf, t', e⟩
  · exact .inl ⟨t', oneMbIo_done env ls n hn hn' hsm as t t' idx' bufs' e hrel⟩
  · exact .inr ⟨hf, t', oneMbIo_stop env ls n hn hsm as t t' e⟩

omit ho in
theorem oneMbIo_over (env : Env) (ls : List IoLeaf) (n : Nat) (hn : (ls.map IoLeaf.chunkCount).sum = n)
    (hn' : ((ls.map (IoLeaf.on file)).map Leaf.chunkCount).sum = n) (hsm : n ≥ 2097151) (as : List CD) (hne : as ≠ []) (t : Nat) :
    oneMbIo env d as ls t = (computeOneMb env (ls.map (IoLeaf.on file)) as []).map (·, t) := by
  have h1 := oneMbIo_many (d := d) env ls n hn hsm as t
  have h2 := computeOneMb_many env (ls.map (IoLeaf.on file)) n hn' hsm hne []
  rw [h1, h2]
  rfl

omit ho in
theorem chunkCounts_on (ls : List IoLeaf) : ((ls.map (IoLeaf.on file)).map Leaf.chunkCount).sum = (ls.map IoLeaf.chunkCount).sum := by
  induction ls with
  | nil => rfl
  | cons l ls ih => rw [List.map_cons, List.map_cons, List.map_cons, List.sum_cons, List.sum_cons, ih, IoLeaf.on_chunks]

omit ho in
theorem valid_on {ls : List IoLeaf} (hv : ∀ l ∈ ls, (l.on file).Valid) : ∀ l ∈ ls.map (IoLeaf.on file), l.Valid := by
  intro l hl
  obtain ⟨x, hx, rfl⟩ := List.mem_map.1 hl
  exact hv x hx

theorem oneMbIo_at (env : Env) (ls : List IoLeaf) (hv : ∀ l ∈ ls.map (IoLeaf.on file), l.Valid) (as : List CD) (hne : as ≠ []) (t n : Nat)
    (hn : (ls.map IoLeaf.chunkCount).sum = n) (hn' : ((ls.map (IoLeaf.on file)).map Leaf.chunkCount).sum = n) :
    (∃ t', oneMbIo env d as ls t = (computeOneMb env (ls.map (IoLeaf.on file)) as []).map (·, t')) ∨
    (d.Fails file ∧ ∃ t', oneMbIo env d as ls t = .ok (.error .digestChunkFailed, t')) := by
  rcases Classical.em (n ≥ 2097151) with hsm | hsm
  · exact .inl ⟨t, oneMbIo_over env ls n hn hn' hsm as hne t⟩
  · exact oneMbIo_run ho env ls hv n hn hn' hsm as t

theorem oneMbIo_cases (env : Env) (ls : List IoLeaf) (hv : ∀ l ∈ ls, (l.on file).Valid) (as : List CD) (hne : as ≠ []) (t : Nat) :
    (∃ t', oneMbIo env d as ls t = (computeOneMb env (ls.map (IoLeaf.on file)) as []).map (·, t')) ∨
    (d.Fails file ∧ ∃ t', oneMbIo env d as ls t = .ok (.error .digestChunkFailed, t')) :=
  oneMbIo_at ho env ls (valid_on hv) as hne t _ rfl (chunkCounts_on ls)

theorem contentDigestsIo_cases (env : Env) (ls : List IoLeaf) (hv : ∀ l ∈ ls, (l.on file).Valid) (as : List CD) (t : Nat) :
    (∃ t', contentDigestsIo env d as ls t = (computeContentDigests env as (ls.map (IoLeaf.on file))).map (·, t')) ∨
    (d.Fails file ∧ ∃ e t', contentDigestsIo env d as ls t = .ok (.error e, t')) := by
  unfold contentDigestsIo computeContentDigests
  by_cases hc : as.contains .nonChunked256 = true
  · rw [if_pos hc, if_pos hc]; left; exact ⟨t, rfl⟩
  · rw [if_neg hc, if_neg hc]
    simp only
    generalize as.filter (fun a => a = .chunked256 || a = .chunked512) = os
    have key : (∃ t', (if os = [] then .ok (.ok [], t) else oneMbIo env d os ls t : Go (Except E (List (CD × Bytes)) × Nat)) =
          (computeOneMb env (ls.map (IoLeaf.on file)) os []).map (·, t')) ∨
        (d.Fails file ∧ ∃ t', (if os = [] then .ok (.ok [], t) else oneMbIo env d os ls t : Go (Except E (List (CD × Bytes)) × Nat)) =
          .ok (.error .digestChunkFailed, t')) := by
      by_cases ho' : os = []
      · subst ho'; left; exact ⟨t, rfl⟩
      · rw [if_neg ho']; exact oneMbIo_cases ho env ls hv os ho' t
    rcases key with ⟨t', h⟩ | ⟨hf, t', h⟩
    · rw [h]
      cases computeOneMb env (ls.map (IoLeaf.on file)) os [] with
      | error p => left; exact ⟨t', rfl⟩
      | ok x =>
        cases x with
        | error e => left; exact ⟨t', rfl⟩
        | ok r =>
          simp only [Except.map]
          split
          · rcases verityIo_cases ho env ls t' with ⟨t'', h'⟩ | ⟨hf, t'', h'⟩
            · left
              refine ⟨t'', ?_⟩
              rw [h']
              cases verityDigest env (ls.map (IoLeaf.on file)) with
              | error p => rfl
              | ok x => cases x <;> rfl
            · right; rw [h']; exact ⟨hf, _, t'', rfl⟩
          · left
            refine ⟨t', ?_⟩
            split <;> rfl
    · right; rw [h]; exact ⟨hf, _, t', rfl⟩

/-! ## Verification -/

omit ho in
theorem sectionsOf_on (f : Found) : (sectionsOf f).map (IoLeaf.on file) = sections file f := rfl

theorem integrityIo_cases (env : Env) {f : Found} (hv : ∀ l ∈ sections file f, l.Valid) (m : Digests) (r : Core) (t : Nat) :
    (∃ t', integrityIo env d f m r t = (verifyIntegrity env file f m r).map (·, t')) ∨
    (d.Fails file ∧ ∃ e t', integrityIo env d f m r t = .ok ((r.addError (.digestCompute e), false), t')) := by
  unfold integrityIo verifyIntegrity
  simp only
  have hv' : ∀ l ∈ sectionsOf f, (l.on file).Valid := by
    intro l hl
    exact hv _ (by rw [← sectionsOf_on]; exact List.mem_map.2 ⟨l, hl, rfl⟩)
  rcases contentDigestsIo_cases ho env (sectionsOf f) hv' ((env.cdOrder m).map (·.1)) t with ⟨t', h⟩ | ⟨hf, e, t', h⟩
  · left
    refine ⟨t', ?_⟩
    rw [h, sectionsOf_on]
    cases computeContentDigests env ((env.cdOrder m).map (·.1)) (sections file f) with
    | error p => rfl
    | ok x => cases x <;> rfl
  · right; rw [h]; exact ⟨hf, e, t', rfl⟩

/-- What `verify` leaves behind when the file cannot be read during the digests: the result of parsing the signers, plus one error. -/
def Unread (env : Env) (scheme : Scheme) (maxSdk : Int) (block : Bytes) (r : Core) (v3 : Option Core)
    (x : Core × Option Core × Digests) : Prop :=
  ∃ r1 v3' cd fin e, extractCerts env scheme maxSdk block r v3 = .ok (r1, v3', cd, fin) ∧ r1.certs.length ≠ 0 ∧ cd.length ≠ 0 ∧
    x = (r1.addError (.digestCompute e), v3', cd)

theorem schemeIo_cases (env : Env) {f : Found} (hv : ∀ l ∈ sections file f, l.Valid) (s : Scheme) (mn mx : Int) (b : Bytes) (r : Core)
    (v3 : Option Core) (t : Nat) :
    (∃ t', schemeIo env d f s mn mx b r v3 t = (verifyScheme env file f s mn mx b r v3).map (·, t')) ∨
    (d.Fails file ∧ ∃ x t', schemeIo env d f s mn mx b r v3 t = .ok (x, t') ∧ Unread env s mx b r v3 x) := by
  unfold schemeIo verifyScheme
  cases hx : extractCerts env s mx b r v3 with
  | error p => left; exact ⟨t, rfl⟩
  | ok z =>
    obtain ⟨r1, v3', cd, fin⟩ := z
    simp only [bind, Except.bind]
    by_cases hc : r1.certs.length = 0
    · rw [if_pos hc, if_pos hc]; left; exact ⟨t, rfl⟩
    · rw [if_neg hc, if_neg hc]
      by_cases hd : cd.length = 0
      · rw [if_pos hd, if_pos hd]; left; exact ⟨t, rfl⟩
      · rw [if_neg hd, if_neg hd]
        rcases integrityIo_cases ho env hv cd r1 t with ⟨t', h⟩ | ⟨hf, e, t', h⟩
        · left
          refine ⟨t', ?_⟩
          rw [h]
          cases verifyIntegrity env file f cd r1 with
          | error p => rfl
          | ok y =>
            obtain ⟨r2, ok⟩ := y
            cases ok <;> rfl
        · right
          rw [h]
          exact ⟨hf, _, t', rfl, r1, v3', cd, fin, e, hx, hc, hd, rfl⟩

theorem pickIo_cases (env : Env) {f : Found} (hv : ∀ l ∈ sections file f, l.Valid) (bs : List (Nat × Bytes)) (mn mx : Int) (r : Core)
    (v3 : Option Core) (t : Nat) :
    (∃ t', pickIo env d f bs mn mx r v3 t = (pickAndVerify env file f bs mn mx r v3).map (·, t')) ∨
    (d.Fails file ∧ ∃ s b x t', supportsSigV2 mx = true ∧ pickScheme bs = some (s, b) ∧
      pickIo env d f bs mn mx r v3 t = .ok (x, t') ∧ Unread env s mx b { r with schemeId := s.id } v3 x) := by
  unfold pickIo pickAndVerify
  cases hs : supportsSigV2 mx with
  | false => left; exact ⟨t, rfl⟩
  | true =>
    simp only [Bool.not_true, Bool.false_eq_true, if_false]
    cases hp : pickScheme bs with
    | none => left; exact ⟨t, rfl⟩
    | some x =>
      obtain ⟨s, b⟩ := x
      simp only
      rcases schemeIo_cases ho env hv s mn mx b { r with schemeId := s.id } v3 t with h | ⟨hf, x, t', h, hu⟩
      · exact .inl h
      · exact .inr ⟨hf, s, b, x, t', trivial, rfl, h, hu⟩

end
end Apk
