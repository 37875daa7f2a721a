import Verif.Proofs.Binding
namespace Apk

/-! ## Sources and sinks -/

/-- The bytes of a source. -/
def Src.contents : Src → Bytes
  | .chained ls => concatContents ls
  | .leaf l => l.contents

/-- All leaves lie inside the file. -/
def Src.Valid : Src → Prop
  | .chained ls => ∀ l ∈ ls, l.Valid
  | .leaf l => l.Valid

theorem Src.contents_length {s : Src} (h : s.Valid) : s.contents.length = s.length := by
  cases s with
  | chained ls => exact concat_length h
  | leaf l => exact Leaf.contents_length h

theorem Src.writeTo_ok {src : Src} (h : src.Valid) {o s : Nat} (ho : o < src.length) (hs : o + s ≤ src.length) :
    src.writeTo o s = .ok (slice src.contents o s) := by
  cases src with
  | chained ls =>
    simp only [Src.length] at ho hs
    simp only [Src.writeTo, chainedWriteTo]
    rw [if_neg (by omega), if_neg (by omega)]
    exact chainedLoop_ok h (Or.inl ho) (Or.inl hs)
  | leaf l => exact Leaf.writeTo_ok h ho hs

/-- Writing inside the window replaces the next bytes. -/
theorem Sink.write_mid {pre w mid post p : Bytes} {lo hi : Nat} (hlo : pre.length = lo)
    (hhi : lo + w.length + mid.length = hi) (hp : p.length ≤ mid.length) (hpos : 0 < p.length) :
    Sink.write ⟨pre ++ w ++ mid ++ post, lo, hi, w.length⟩ p =
      .ok ⟨pre ++ (w ++ p) ++ mid.drop p.length ++ post, lo, hi, (w ++ p).length⟩ := by
  unfold Sink.write
  simp only
  rw [if_neg (by omega), if_pos (by omega)]
  have e1 : (pre ++ w ++ mid ++ post).take (lo + w.length) = pre ++ w := by
    rw [List.append_assoc (pre ++ w)]
    exact take_append_len (by rw [List.length_append]; omega)
  have e2 : (pre ++ w ++ mid ++ post).drop (lo + w.length + p.length) = mid.drop p.length ++ post := by
    rw [← List.drop_drop, List.append_assoc (pre ++ w),
      drop_append_len (a := pre ++ w) (by rw [List.length_append]; omega),
      List.drop_append_of_le_length hp]
  rw [e1, e2]
  simp

theorem padPage_drop {d : Bytes} (h : 4096 ≤ d.length) : (padPage d).drop 4096 = padPage (d.drop 4096) := by
  unfold padPage
  rw [List.drop_append_of_le_length h, List.length_drop, ← Nat.mod_eq_sub_mod h]

theorem pages_cons {d : Bytes} (h : 4096 ≤ d.length) : pages d = d.take 4096 :: pages (d.drop 4096) := by
  unfold pages
  have hne : padPage d ≠ [] := by
    intro h0; have := congrArg List.length h0; rw [padPage_length] at this; simp at this; omega
  rw [cut_cons (by decide) hne, padPage_drop h]
  congr 1
  unfold padPage
  rw [List.take_append_of_le_length h]

theorem padPage_full {d : Bytes} (h : d.length % 4096 = 0) : padPage d = d := by
  unfold padPage; rw [h]; simp

theorem pages_last {d : Bytes} (h0 : 0 < d.length) (h : d.length < 4096) :
    pages d = [d ++ List.replicate (4096 - d.length) 0] := by
  have e : padPage d = d ++ List.replicate (4096 - d.length) 0 := by
    unfold padPage; congr 2; omega
  unfold pages
  rw [e]
  have hlen : (d ++ List.replicate (4096 - d.length) (0 : UInt8)).length = 4096 := by
    rw [List.length_append, List.length_replicate]; omega
  have hne : d ++ List.replicate (4096 - d.length) (0 : UInt8) ≠ [] := by
    intro h0; rw [h0] at hlen; simp at hlen
  rw [cut_cons (by decide) hne, List.take_of_length_le (by omega), List.drop_of_length_le (by omega)]
  rfl

/-- Concatenated salted digests of pages. -/
def pageDigests (env : Env) (ps : List Bytes) : Bytes := (ps.map (fun p => env.sha256 (pageMsg p))).flatten

theorem pageDigests_length (env : Env) (ps : List Bytes) : (pageDigests env ps).length = ps.length * 32 :=
  flatten_map_length _ (fun _ => env.sha256_len _) _

theorem pageDigests_cons (env : Env) (p : Bytes) (ps : List Bytes) :
    pageDigests env (p :: ps) = env.sha256 (pageMsg p) ++ pageDigests env ps := rfl

theorem pageDigests_append (env : Env) (ps qs : List Bytes) :
    pageDigests env (ps ++ qs) = pageDigests env ps ++ pageDigests env qs := by simp [pageDigests]

theorem saltedDigest_eq (env : Env) (p : Bytes) : saltedDigest env p = env.sha256 (pageMsg p) := rfl

theorem digestFullPages_spec (env : Env) {src : Src} (hv : src.Valid) {pre post : Bytes} {lo hi : Nat} (hlo : pre.length = lo)
    (fuel : Nat) :
    ∀ (offset : Nat) (w mid : Bytes), offset ≤ src.length → src.length - offset < fuel →
      lo + w.length + mid.length = hi → (pages (src.contents.drop offset)).length * 32 ≤ mid.length →
      ∃ off' cs, digestFullPages env src fuel offset ⟨pre ++ w ++ mid ++ post, lo, hi, w.length⟩ =
          .ok (off', ⟨pre ++ (w ++ pageDigests env cs) ++ mid.drop (cs.length * 32) ++ post, lo, hi,
            (w ++ pageDigests env cs).length⟩) ∧
        pages (src.contents.drop offset) = cs ++ pages (src.contents.drop off') ∧ off' ≤ src.length ∧
        src.length - off' < 4096 ∧ (src.length - off') % 4096 = (src.length - offset) % 4096 := by
  have hl := Src.contents_length hv
  induction fuel with
  | zero => intros; omega
  | succ fuel ih =>
    intro offset w mid ho hf hhi hmid
    unfold digestFullPages
    by_cases hc : offset + verityChunkSize ≤ src.length
    · rw [if_pos hc]
      unfold verityChunkSize at hc
      unfold verityChunkSize
      rw [Src.writeTo_ok hv (by omega) (by omega)]
      simp only
      have hp : pages (src.contents.drop offset) = slice src.contents offset 4096 :: pages (src.contents.drop (offset + 4096)) := by
        rw [pages_cons (by rw [List.length_drop]; omega), List.drop_drop]; rfl
      rw [hp, List.length_cons] at hmid
      rw [saltedDigest_eq, Sink.write_mid hlo hhi (by rw [env.sha256_len]; omega) (by rw [env.sha256_len]; omega)]
      simp only
      rw [env.sha256_len]
      obtain ⟨off', cs, h1, h2, h3, h4, h5⟩ := ih (offset + 4096) (w ++ env.sha256 (pageMsg (slice src.contents offset 4096)))
        (mid.drop 32) (by omega) (by omega) (by
          rw [List.length_append, env.sha256_len, List.length_drop]; omega) (by rw [List.length_drop]; omega)
      refine ⟨off', slice src.contents offset 4096 :: cs, ?_, ?_, h3, h4, ?_⟩
      · rw [h1]
        congr 3
        · rw [pageDigests_cons, List.drop_drop, List.length_cons]
          congr 2
          · simp
          · congr 1; omega
        · rw [pageDigests_cons, List.append_assoc]
      · rw [hp, h2]; rfl
      · rw [h5]; omega
    · rw [if_neg hc]
      unfold verityChunkSize at hc
      refine ⟨offset, [], ?_, rfl, ho, by omega, rfl⟩
      simp [pageDigests]

theorem digestDataByChunks_spec (env : Env) {src : Src} (hv : src.Valid) {pre post mid : Bytes} {lo hi : Nat} (hlo : pre.length = lo)
    (hhi : lo + mid.length = hi) (hmid : (pages src.contents).length * 32 ≤ mid.length) :
    digestDataByChunks env src ⟨pre ++ mid ++ post, lo, hi, 0⟩ =
      .ok ⟨pre ++ pageDigests env (pages src.contents) ++ mid.drop ((pages src.contents).length * 32) ++ post, lo, hi,
        (pageDigests env (pages src.contents)).length⟩ := by
  have hl := Src.contents_length hv
  obtain ⟨off', cs, h1, h2, h3, h4, h5⟩ := digestFullPages_spec env hv (post := post) hlo (hi := hi) (src.length + 1) 0 [] mid (by omega) (by omega)
    (by simpa using hhi) (by simpa using hmid)
  simp only [List.append_nil, List.nil_append, List.length_nil, List.drop_zero, Nat.sub_zero] at h1 h2 h5
  unfold digestDataByChunks
  rw [h1]
  simp only
  have hrem : src.length % verityChunkSize = src.length - off' := by
    unfold verityChunkSize; rw [← h5]; exact Nat.mod_eq_of_lt h4
  rw [hrem]
  have hcl : (pages src.contents).length = cs.length + (pages (src.contents.drop off')).length := by
    rw [h2, List.length_append]
  by_cases hr : src.length - off' > 0
  · simp only [hr, if_true]
    rw [Src.writeTo_ok hv (by omega) (by omega)]
    simp only
    have hsl : slice src.contents off' (src.length - off') = src.contents.drop off' := by
      unfold slice; exact List.take_of_length_le (by rw [List.length_drop]; omega)
    have hpl : pages (src.contents.drop off') = [src.contents.drop off' ++ List.replicate (verityChunkSize - (src.length - off')) 0] := by
      rw [pages_last (by rw [List.length_drop]; omega) (by rw [List.length_drop]; omega), List.length_drop, hl]
      rfl
    rw [hsl, saltedDigest_eq]
    rw [hpl, List.length_singleton] at hcl
    rw [Sink.write_mid hlo (by rw [pageDigests_length, List.length_drop]; omega)
      (by rw [env.sha256_len, List.length_drop]; omega) (by rw [env.sha256_len]; omega)]
    rw [env.sha256_len, List.drop_drop]
    have hpd : pageDigests env (pages src.contents) = pageDigests env cs ++
        env.sha256 (pageMsg (src.contents.drop off' ++ List.replicate (verityChunkSize - (src.length - off')) 0)) := by
      rw [h2, pageDigests_append, hpl]; simp [pageDigests]
    rw [hpd, hcl]
    congr 5
    omega
  · simp only [hr, if_false]
    have hnil : src.contents.drop off' = [] := List.drop_of_length_le (by omega)
    rw [hnil] at h2
    have : pages ([] : Bytes) = [] := rfl
    rw [this, List.append_nil] at h2
    rw [h2]

/-- A level writes exactly the padded page digests into its window. -/
theorem verityLevel_spec (env : Env) {src : Src} (hv : src.Valid) {pre post mid : Bytes} {lo hi : Nat} (hlo : pre.length = lo)
    (hhi : lo + mid.length = hi) (hmid : mid.length = (merkleLevel env.sha256 src.contents).length) :
    verityLevel env src (pre ++ mid ++ post) lo hi = .ok (pre ++ merkleLevel env.sha256 src.contents ++ post) := by
  have hl := Src.contents_length hv
  rw [merkleLevel_length env.sha256_len] at hmid
  have hpl := pages_length src.contents
  unfold verityLevel
  rw [digestDataByChunks_spec env hv hlo hhi (by omega)]
  simp only
  have htot : divideRoundup src.length verityChunkSize * 32 = (pages src.contents).length * 32 := by
    unfold divideRoundup verityChunkSize; rw [hpl, hl]; rfl
  rw [htot]
  have hml : merkleLevel env.sha256 src.contents = padPage (pageDigests env (pages src.contents)) := rfl
  have hpd := pageDigests_length env (pages src.contents)
  unfold verityChunkSize
  by_cases hi0 : (pages src.contents).length * 32 % 4096 > 0
  · simp only [hi0, if_true]
    rw [Sink.write_mid hlo (by rw [hpd, List.length_drop]; omega)
      (by rw [List.length_replicate, List.length_drop]; omega) (by rw [List.length_replicate]; omega)]
    simp only
    rw [hml]
    have : mid.drop ((pages src.contents).length * 32 + (4096 - (pages src.contents).length * 32 % 4096)) = [] :=
      List.drop_of_length_le (by omega)
    rw [List.length_replicate, List.drop_drop, this, List.append_nil]
    unfold padPage
    rw [hpd]
    congr 6
    omega
  · simp only [hi0, if_false]
    rw [hml, padPage_full (by rw [hpd]; omega)]
    have : mid.drop ((pages src.contents).length * 32) = [] := List.drop_of_length_le (by omega)
    rw [this, List.append_nil]

/-! ## Offsets -/

/-- Offsets from the bottom level up, without overflow. -/
def descOffs : List Nat → List Int
  | [] => [0]
  | s :: r => ((s :: r).sum : Nat) :: descOffs r

theorem descOffs_head (l : List Nat) : ∃ t, descOffs l = ((l.sum : Nat) : Int) :: t := by
  cases l with
  | nil => exact ⟨[], rfl⟩
  | cons s r => exact ⟨_, rfl⟩

/-- Running sums. -/
def upOffs : Nat → List Nat → List Int
  | _, [] => []
  | c, s :: r => ((c + s : Nat) : Int) :: upOffs (c + s) r

theorem upOffs_append (c : Nat) (l : List Nat) (x : Nat) : upOffs c (l ++ [x]) = upOffs c l ++ [((c + l.sum + x : Nat) : Int)] := by
  induction l generalizing c with
  | nil => simp [upOffs]
  | cons s r ih => simp only [List.cons_append, upOffs, ih, List.sum_cons]; rw [Nat.add_assoc c s]

theorem upOffs_reverse (l : List Nat) : ((0 : Int) :: upOffs 0 l.reverse).reverse = descOffs l := by
  induction l with
  | nil => rfl
  | cons s r ih =>
    rw [List.reverse_cons (as := r), upOffs_append, ← List.cons_append, List.reverse_append, ih]
    simp only [List.reverse_cons, List.reverse_nil, List.nil_append, List.singleton_append, descOffs, List.sum_reverse, List.sum_cons]
    congr 2; omega

theorem levelOffsetsAux_ok (l : List Nat) (c : Nat) (h : c + l.sum ≤ 2147483647) : levelOffsetsAux c l = .ok (upOffs c l) := by
  induction l generalizing c with
  | nil => rfl
  | cons s r ih =>
    rw [List.sum_cons] at h
    unfold levelOffsetsAux
    rw [if_neg (by unfold maxInt32; omega)]
    simp only
    rw [wrap32_of_range (by omega) (by omega)]
    have := ih (c + s) (by omega)
    rw [Int.natCast_add] at this
    rw [this]
    simp [upOffs]

theorem levelOffsetsAux_overflow (l : List Nat) (c s : Nat) (h : c + l.sum ≤ 2147483647) (hs : s ≤ 2147483647) :
    levelOffsetsAux c (l ++ [s]) = .ok (upOffs c l ++ [wrap32 ((c + l.sum + s : Nat) : Int)]) := by
  induction l generalizing c with
  | nil =>
    simp only [List.nil_append, levelOffsetsAux, upOffs, List.sum_nil, Nat.add_zero]
    rw [if_neg (by unfold maxInt32; omega)]
    simp
  | cons x r ih =>
    rw [List.sum_cons] at h
    rw [List.cons_append]
    unfold levelOffsetsAux
    rw [if_neg (by unfold maxInt32; omega)]
    simp only
    rw [wrap32_of_range (by omega) (by omega)]
    have := ih (c + x) (by omega)
    rw [Int.natCast_add] at this
    rw [this]
    simp only [upOffs, List.cons_append, List.sum_cons]
    rw [← Int.natCast_add, Nat.add_assoc c x]

theorem levelOffsetsAux_error (l : List Nat) (c : Int) (h : ∃ s ∈ l, s > 2147483647) :
    levelOffsetsAux c l = .error .verityLevelOverflow := by
  induction l generalizing c with
  | nil => simp at h
  | cons s r ih =>
    unfold levelOffsetsAux
    by_cases hs : (s : Int) > maxInt32
    · rw [if_pos hs]
    · rw [if_neg hs]
      unfold maxInt32 at hs
      simp only
      rw [ih _ (by
        obtain ⟨x, hx, hx'⟩ := h
        rcases List.mem_cons.1 hx with rfl | hx
        · omega
        · exact ⟨x, hx, hx'⟩)]

/-! ## The levels -/

theorem levelSizes_step (fuel n : Nat) : levelSizes 32 (fuel + 1) n =
    4096 * (((n + 4095) / 4096 * 32 + 4095) / 4096) ::
      (if (n + 4095) / 4096 * 32 ≤ 4096 then [] else levelSizes 32 fuel ((n + 4095) / 4096 * 32)) := by
  rw [levelSizes]
  simp only [divideRoundup, verityChunkSize]
  have e : ∀ m : Nat, m + 4096 - 1 = m + 4095 := fun m => by omega
  simp only [e]
  by_cases h : (n + 4095) / 4096 * 32 ≤ 4096
  · rw [if_pos h, if_pos h]
  · rw [if_neg h, if_neg h]

theorem verityLevels_spec (env : Env) (c : Src) (fuel : Nat) :
    ∀ (n : Nat) (prev : Option (Nat × Nat)) (pre post : Bytes) (src : Src),
      n ≤ fuel → pre.length = (levelSizes 32 (fuel + 1) n).sum →
      src = levelSource c prev (pre ++ post) →
      src.Valid → (src.contents.length + 4095) / 4096 = (n + 4095) / 4096 → 0 < n →
      ∃ buf', verityLevels env c (descOffs (levelSizes 32 (fuel + 1) n)) prev (pre ++ post) = .ok (.ok buf') ∧
        buf'.take 4096 = merkleTop env.sha256 fuel src.contents ∧ 4096 ≤ buf'.length := by
  induction fuel with
  | zero => intros; omega
  | succ fuel ih =>
    intro n prev pre post src hf hpre hsrc hv hpc hn
    rw [levelSizes_step] at hpre ⊢
    have hml := merkleLevel_length env.sha256_len src.contents
    rw [hpc] at hml
    generalize hr : (if (n + 4095) / 4096 * 32 ≤ 4096 then [] else levelSizes 32 (fuel + 1) ((n + 4095) / 4096 * 32)) = r at hpre ⊢
    rw [← hml] at hpre ⊢
    rw [List.sum_cons] at hpre
    obtain ⟨t, ht⟩ := descOffs_head r
    have hd : descOffs ((merkleLevel env.sha256 src.contents).length :: r) =
        (((merkleLevel env.sha256 src.contents).length + r.sum : Nat) : Int) :: ((r.sum : Nat) : Int) :: t := by
      rw [descOffs, ht, List.sum_cons]
    rw [hd]
    unfold verityLevels
    rw [if_neg (by rw [List.length_append]; omega)]
    simp only [Int.toNat_natCast]
    rw [← hsrc]
    -- split the prefix into the part above and the window
    have hsplit : pre ++ post = pre.take r.sum ++ pre.drop r.sum ++ post := by rw [List.take_append_drop]
    rw [hsplit]
    rw [verityLevel_spec env hv (by rw [List.length_take]; omega)
      (by rw [List.length_drop]; omega) (by rw [List.length_drop]; omega)]
    simp only
    rw [← ht]
    have hpl : (pre.take r.sum).length = r.sum := by rw [List.length_take]; omega
    by_cases hstop : (n + 4095) / 4096 * 32 ≤ 4096
    · rw [if_pos hstop] at hr
      subst hr
      refine ⟨_, by simp only [descOffs]; rfl, ?_, ?_⟩
      · simp only [List.sum_nil, List.take_zero, List.nil_append]
        have h4 : (merkleLevel env.sha256 src.contents).length = 4096 := by omega
        rw [take_append_len h4]
        unfold merkleTop
        rw [if_pos (by omega)]
      · rw [List.length_append, List.length_append]; omega
    · rw [if_neg hstop] at hr
      have hlt : (n + 4095) / 4096 * 32 < n := by omega
      subst hr
      have key := ih ((n + 4095) / 4096 * 32)
        (some ((levelSizes 32 (fuel + 1) ((n + 4095) / 4096 * 32)).sum,
          (merkleLevel env.sha256 src.contents).length + (levelSizes 32 (fuel + 1) ((n + 4095) / 4096 * 32)).sum))
        (pre.take (levelSizes 32 (fuel + 1) ((n + 4095) / 4096 * 32)).sum)
        (merkleLevel env.sha256 src.contents ++ post)
        (.leaf (.bytes (merkleLevel env.sha256 src.contents)))
        (by omega) hpl (by
          simp only [levelSource]
          congr 2
          unfold slice
          rw [drop_append_len hpl, Nat.add_sub_cancel]
          exact (take_append_len rfl).symm) trivial (by
          change ((merkleLevel env.sha256 src.contents).length + 4095) / 4096 = _
          rw [hml]; omega) (by omega)
      rw [← List.append_assoc] at key
      obtain ⟨buf', h1, h2, h3⟩ := key
      refine ⟨buf', h1, ?_, h3⟩
      rw [h2]
      conv => rhs; unfold merkleTop
      rw [if_neg (by omega)]
      rfl

theorem treeBytes_eq (env : Env) (fuel : Nat) : ∀ (n : Nat) (b : Bytes), n ≤ fuel →
    (b.length + 4095) / 4096 = (n + 4095) / 4096 →
    (levelSizes 32 (fuel + 1) n).sum = treeBytes env.sha256 fuel b := by
  induction fuel with
  | zero =>
    intro n b hn hp
    rw [levelSizes_step, treeBytes, merkleLevel_length env.sha256_len, hp, if_pos (by omega)]
    simp
  | succ fuel ih =>
    intro n b hn hp
    have hml := merkleLevel_length env.sha256_len b
    rw [hp] at hml
    rw [levelSizes_step, treeBytes, hml, List.sum_cons]
    congr 1
    by_cases h : (n + 4095) / 4096 * 32 ≤ 4096
    · rw [if_pos h, if_pos (by omega)]; rfl
    · rw [if_neg h, if_neg (by omega)]
      exact ih _ _ (by omega) (by rw [hml]; omega)

theorem levelSizes_sum_le (fuel : Nat) : ∀ (n : Nat), n ≤ fuel →
    (levelSizes 32 (fuel + 1) n).sum ≤ 2 * (4096 * (((n + 4095) / 4096 * 32 + 4095) / 4096)) := by
  induction fuel with
  | zero =>
    intro n hn
    rw [levelSizes_step, if_pos (by omega)]
    simp only [List.sum_cons, List.sum_nil]; omega
  | succ fuel ih =>
    intro n hn
    rw [levelSizes_step, List.sum_cons]
    by_cases h : (n + 4095) / 4096 * 32 ≤ 4096
    · rw [if_pos h]; simp only [List.sum_nil]; omega
    · rw [if_neg h]
      have := ih ((n + 4095) / 4096 * 32) (by omega)
      omega

theorem levelSizes_cons (fuel n : Nat) (hf : n ≤ fuel) : ∃ r, levelSizes 32 (fuel + 1) n =
    4096 * (((n + 4095) / 4096 * 32 + 4095) / 4096) :: r ∧ r.sum ≤ 4096 * (((n + 4095) / 4096 * 32 + 4095) / 4096) := by
  refine ⟨_, levelSizes_step fuel n, ?_⟩
  have := levelSizes_sum_le fuel n hf
  rw [levelSizes_step, List.sum_cons] at this
  omega

theorem generateTreeRootHash_ok (env : Env) {c : Src} (hv : c.Valid) (h0 : 0 < c.length)
    (ht : treeBytes env.sha256 c.contents.length c.contents ≤ 2147483647) :
    generateTreeRootHash env c = .ok (.ok (merkleRoot env.sha256 c.contents)) := by
  have hl := Src.contents_length hv
  rw [← treeBytes_eq env c.contents.length c.length c.contents (by omega) (by omega), hl] at ht
  unfold generateTreeRootHash calculateLevelOffset
  have hok := levelOffsetsAux_ok (levelSizes 32 (c.length + 1) c.length).reverse 0 (by rw [List.sum_reverse]; omega)
  rw [show ((0 : Nat) : Int) = (0 : Int) from rfl] at hok
  rw [hok]
  simp only
  have hr := upOffs_reverse (levelSizes 32 (c.length + 1) c.length)
  obtain ⟨t, hd⟩ := descOffs_head (levelSizes 32 (c.length + 1) c.length)
  have hlast : ((0 : Int) :: upOffs 0 (levelSizes 32 (c.length + 1) c.length).reverse).getLast?.getD 0 =
      (((levelSizes 32 (c.length + 1) c.length).sum : Nat) : Int) := by
    rw [← List.head?_reverse]
    rw [hr, hd]; rfl
  rw [hr, hlast, if_neg (by omega), Int.toNat_natCast]
  obtain ⟨buf', h1, h2, h3⟩ := verityLevels_spec env c c.length c.length none
    (List.replicate (levelSizes 32 (c.length + 1) c.length).sum 0) [] c (Nat.le_refl _) (List.length_replicate) rfl hv
    (by omega) h0
  rw [List.append_nil] at h1
  rw [h1]
  simp only
  rw [if_neg (by unfold verityChunkSize; omega)]
  unfold verityChunkSize
  rw [h2, saltedDigest_eq, ← hl]
  rfl

theorem verityDigest_ok (env : Env) {c0 : Leaf} {cs : List Leaf} (hv : ∀ l ∈ c0 :: cs, l.Valid)
    (hal : c0.length % 4096 = 0) (h0 : 0 < (concatContents (c0 :: cs)).length)
    (ht : treeBytes env.sha256 (concatContents (c0 :: cs)).length (concatContents (c0 :: cs)) ≤ 2147483647) :
    verityDigest env (c0 :: cs) = .ok (.ok (veritySpec env.sha256 (concatContents (c0 :: cs)))) := by
  have hl := concat_length hv
  unfold verityDigest
  simp only
  rw [if_neg (by unfold verityChunkSize; omega)]
  rw [generateTreeRootHash_ok env (c := .chained (c0 :: cs)) hv (by change 0 < chainedLength _; omega) ht]
  simp only
  rw [← hl]
  rfl

theorem verityDigest_unaligned (env : Env) (c0 : Leaf) (cs : List Leaf) (h : c0.length % 4096 ≠ 0) :
    verityDigest env (c0 :: cs) = .ok (.error .verityNotAligned) := by
  unfold verityDigest
  simp only
  rw [if_pos (by unfold verityChunkSize; exact h)]

theorem verityDigest_levelOverflow (env : Env) {c0 : Leaf} {cs : List Leaf} (hv : ∀ l ∈ c0 :: cs, l.Valid)
    (hal : c0.length % 4096 = 0) (hbig : (merkleLevel env.sha256 (concatContents (c0 :: cs))).length > 2147483647) :
    verityDigest env (c0 :: cs) = .ok (.error (.verityFailed .verityLevelOverflow)) := by
  have hl := concat_length hv
  rw [merkleLevel_length env.sha256_len, hl] at hbig
  unfold verityDigest
  simp only
  rw [if_neg (by unfold verityChunkSize; omega)]
  unfold generateTreeRootHash calculateLevelOffset
  have hs : Src.length (.chained (c0 :: cs)) = chainedLength (c0 :: cs) := rfl
  obtain ⟨r, hr, _⟩ := levelSizes_cons (chainedLength (c0 :: cs)) (chainedLength (c0 :: cs)) (Nat.le_refl _)
  rw [hs, levelOffsetsAux_error _ _ ⟨_, by rw [hr]; simp, hbig⟩]

/-- Between the two: every level fits but their sum does not. `make` is called with a negative length. -/
theorem verityDigest_sumOverflow (env : Env) {c0 : Leaf} {cs : List Leaf} (hv : ∀ l ∈ c0 :: cs, l.Valid)
    (hal : c0.length % 4096 = 0) (hfit : (merkleLevel env.sha256 (concatContents (c0 :: cs))).length ≤ 2147483647)
    (ht : treeBytes env.sha256 (concatContents (c0 :: cs)).length (concatContents (c0 :: cs)) > 2147483647) :
    verityDigest env (c0 :: cs) = .error .sliceOutOfRange := by
  have hl := concat_length hv
  rw [← treeBytes_eq env _ (concatContents (c0 :: cs)).length _ (Nat.le_refl _) rfl, hl] at ht
  rw [merkleLevel_length env.sha256_len, hl] at hfit
  obtain ⟨r, hr, hrs⟩ := levelSizes_cons (chainedLength (c0 :: cs)) (chainedLength (c0 :: cs)) (Nat.le_refl _)
  unfold verityDigest
  simp only
  rw [if_neg (by unfold verityChunkSize; omega)]
  unfold generateTreeRootHash calculateLevelOffset
  have hs : Src.length (.chained (c0 :: cs)) = chainedLength (c0 :: cs) := rfl
  rw [hr, List.sum_cons] at ht
  rw [hs, hr, List.reverse_cons, show (0 : Int) = ((0 : Nat) : Int) from rfl,
    levelOffsetsAux_overflow _ _ _ (by rw [List.sum_reverse]; omega) hfit]
  simp only
  have hlast : ∀ (x y : Int) (l : List Int), (x :: (l ++ [y])).getLast?.getD 0 = y := by
    intro x y l
    rw [← List.cons_append, List.getLast?_append]; rfl
  have h00 : ((0 : Nat) : Int) = 0 := rfl
  rw [h00, hlast, List.sum_reverse]
  have hneg : wrap32 ((0 + r.sum + 4096 * (((chainedLength (c0 :: cs) + 4095) / 4096 * 32 + 4095) / 4096) : Nat) : Int) < 0 := by
    generalize hT : 0 + r.sum + 4096 * (((chainedLength (c0 :: cs) + 4095) / 4096 * 32 + 4095) / 4096) = T
    have h1 : 2147483647 < T := by omega
    have h2 : T < 4294967296 := by omega
    unfold wrap32 toI32
    simp only
    split <;> omega
  rw [if_pos hneg]

/-- Up to 64 GiB of data the tree fits. -/
theorem treeBytes_fits (env : Env) (b : Bytes) (h : b.length ≤ 68719476736) : treeBytes env.sha256 b.length b ≤ 2147483647 := by
  rw [← treeBytes_eq env b.length b.length b (Nat.le_refl _) rfl]
  have := levelSizes_sum_le b.length b.length (Nat.le_refl _)
  omega

end Apk
