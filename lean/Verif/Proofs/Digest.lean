import Verif.Spec.Sections
import Verif.Spec.Digest
import Verif.Proofs.Base
import Verif.Proofs.Container
namespace Apk

/-! ## `cut` -/

theorem cutAux_succ {n : Nat} (hn : 0 < n) (g : Nat) (d : Bytes) (hd : d.length ≤ g) :
    cutAux n (g + 1) d = cutAux n g d := by
  induction g generalizing d with
  | zero =>
    have : d = [] := List.length_eq_zero_iff.1 (by omega)
    subst this; simp [cutAux]
  | succ g ih =>
    by_cases hd0 : d = []
    · subst hd0; simp [cutAux]
    · have : 0 < d.length := List.length_pos_iff.2 hd0
      rw [cutAux, if_neg hd0]
      conv => rhs; rw [cutAux, if_neg hd0]
      rw [ih (d.drop n) (by rw [List.length_drop]; omega)]

theorem cutAux_fuel {n : Nat} (hn : 0 < n) (fuel : Nat) (b : Bytes) (h : b.length ≤ fuel) :
    cutAux n fuel b = cut n b := by
  obtain ⟨k, rfl⟩ : ∃ k, fuel = b.length + k := ⟨fuel - b.length, by omega⟩
  clear h
  induction k with
  | zero => rfl
  | succ k ih => rw [← Nat.add_assoc, cutAux_succ hn _ _ (by omega), ih]

@[simp] theorem cut_nil (n : Nat) : cut n [] = [] := rfl

theorem cut_cons {n : Nat} (hn : 0 < n) {b : Bytes} (hb : b ≠ []) : cut n b = b.take n :: cut n (b.drop n) := by
  have hl : 0 < b.length := List.length_pos_iff.2 hb
  obtain ⟨k, hk⟩ : ∃ k, b.length = k + 1 := ⟨b.length - 1, by omega⟩
  unfold cut
  rw [hk, cutAux, if_neg hb]
  congr 1
  exact cutAux_fuel hn k _ (by rw [List.length_drop]; omega)

theorem cut_induction {n : Nat} (hn : 0 < n) {P : Bytes → Prop} (h0 : P [])
    (h1 : ∀ b, b ≠ [] → P (b.drop n) → P b) (b : Bytes) : P b := by
  generalize hk : b.length = k
  induction k using Nat.strongRecOn generalizing b with
  | ind k ih =>
    by_cases hb : b = []
    · subst hb; exact h0
    · have hl : 0 < b.length := List.length_pos_iff.2 hb
      exact h1 b hb (ih (b.drop n).length (by rw [List.length_drop]; omega) _ rfl)

theorem cut_flatten {n : Nat} (hn : 0 < n) (b : Bytes) : (cut n b).flatten = b := by
  refine cut_induction (P := fun b => (cut n b).flatten = b) hn ?_ ?_ b
  · rfl
  · intro b hb ih
    rw [cut_cons hn hb, List.flatten_cons, ih, List.take_append_drop]

theorem cut_length {n : Nat} (hn : 0 < n) (b : Bytes) : (cut n b).length = (b.length + n - 1) / n := by
  refine cut_induction (P := fun b => (cut n b).length = (b.length + n - 1) / n) hn ?_ ?_ b
  · simp only [cut_nil, List.length_nil]
    rw [Nat.div_eq_of_lt (by omega)]
  · intro b hb ih
    have hl : 0 < b.length := List.length_pos_iff.2 hb
    rw [cut_cons hn hb, List.length_cons, ih, List.length_drop]
    by_cases h : n ≤ b.length
    · rw [show b.length + n - 1 = (b.length - n + n - 1) + n by omega, Nat.add_div_right _ hn]
    · rw [show b.length - n = 0 by omega]
      rw [Nat.div_eq_of_lt (show 0 + n - 1 < n by omega)]
      rw [show b.length + n - 1 = (b.length - 1) + n by omega, Nat.add_div_right _ hn,
        Nat.div_eq_of_lt (by omega)]

theorem cut_mem {n : Nat} (hn : 0 < n) (b c : Bytes) (hc : c ∈ cut n b) : 0 < c.length ∧ c.length ≤ n := by
  revert hc
  refine cut_induction (P := fun b => c ∈ cut n b → _) hn ?_ ?_ b
  · simp
  · intro b hb ih hc
    have hl : 0 < b.length := List.length_pos_iff.2 hb
    rw [cut_cons hn hb] at hc
    rcases List.mem_cons.1 hc with rfl | h
    · rw [List.length_take]; omega
    · exact ih h

theorem cut_inj {n : Nat} (hn : 0 < n) {a b : Bytes} (h : cut n a = cut n b) : a = b := by
  rw [← cut_flatten hn a, ← cut_flatten hn b, h]

/-- When the length is a multiple of `n` every chunk has exactly `n` bytes. -/
theorem cut_mem_full {n : Nat} (hn : 0 < n) (b c : Bytes) (hb : b.length % n = 0) (hc : c ∈ cut n b) : c.length = n := by
  revert hb hc
  refine cut_induction (P := fun b => b.length % n = 0 → c ∈ cut n b → c.length = n) hn ?_ ?_ b
  · simp
  · intro b hb ih hm hc
    have hl : 0 < b.length := List.length_pos_iff.2 hb
    have hge : n ≤ b.length := by
      rcases Nat.lt_or_ge b.length n with h | h
      · rw [Nat.mod_eq_of_lt h] at hm; omega
      · exact h
    rw [cut_cons hn hb] at hc
    rcases List.mem_cons.1 hc with rfl | h
    · rw [List.length_take]; omega
    · refine ih ?_ h
      rw [List.length_drop]
      rw [← Nat.mod_eq_sub_mod hge]; exact hm

/-! ## Sources -/

theorem slice_slice {b : Bytes} {a n o s : Nat} (h : o + s ≤ n) : slice (slice b a n) o s = slice b (a + o) s := by
  unfold slice
  rw [List.drop_take, List.drop_drop, List.take_take]
  congr 1; omega

theorem slice_append_drop {b : Bytes} {a n : Nat} : slice b a n ++ b.drop (a + n) = b.drop a := by
  unfold slice; rw [← List.drop_drop, List.take_append_drop]

theorem slice_append {b : Bytes} {a n m : Nat} : slice b a n ++ slice b (a + n) m = slice b a (n + m) := by
  unfold slice; rw [← List.drop_drop, List.take_add]

theorem slice_append_left {a b : Bytes} {o s : Nat} (h : o + s ≤ a.length) : slice (a ++ b) o s = slice a o s := by
  unfold slice
  rw [List.drop_append_of_le_length (by omega), List.take_append_of_le_length (by rw [List.length_drop]; omega)]

theorem slice_append_right {a b : Bytes} {o s : Nat} (h : a.length ≤ o) : slice (a ++ b) o s = slice b (o - a.length) s := by
  unfold slice
  rw [List.drop_append, List.drop_of_length_le h, List.nil_append]

theorem Leaf.contents_length {l : Leaf} (h : l.Valid) : l.contents.length = l.length := by
  cases l with
  | apk f a b => simp only [Leaf.Valid] at h; exact slice_length (by omega)
  | bytes d => rfl

theorem Leaf.writeTo_ok {l : Leaf} (h : l.Valid) {o s : Nat} (ho : o < l.length) (hs : o + s ≤ l.length) :
    l.writeTo o s = .ok (slice l.contents o s) := by
  cases l with
  | apk f a b =>
    simp only [Leaf.Valid] at h
    simp only [Leaf.length] at ho hs
    simp only [Leaf.writeTo, Leaf.contents]
    rw [if_neg (by omega), if_neg (by omega), slice_slice (by omega)]
    unfold readFull
    rw [if_pos (by omega)]
  | bytes d =>
    simp only [Leaf.length] at ho hs
    simp only [Leaf.writeTo, Leaf.contents]
    rw [if_neg (by omega), if_neg (by omega)]

theorem concat_length {ls : List Leaf} (h : ∀ l ∈ ls, l.Valid) : (concatContents ls).length = chainedLength ls := by
  induction ls with
  | nil => rfl
  | cons l ls ih =>
    simp only [List.mem_cons, forall_eq_or_imp] at h
    simp only [concatContents, chainedLength, List.map_cons, List.flatten_cons, List.length_append, List.sum_cons] at *
    rw [Leaf.contents_length h.1, ih h.2]

theorem chainedLoop_ok {ls : List Leaf} (h : ∀ l ∈ ls, l.Valid) {o s : Nat} (ho : o < chainedLength ls ∨ s = 0)
    (hs : o + s ≤ chainedLength ls ∨ s = 0) : chainedLoop ls o s = .ok (slice (concatContents ls) o s) := by
  induction ls generalizing o s with
  | nil =>
    have : s = 0 := by
      rcases hs with h | h
      · simp [chainedLength] at h; omega
      · exact h
    subst this
    simp [chainedLoop, concatContents, slice]
  | cons l ls ih =>
    simp only [List.mem_cons, forall_eq_or_imp] at h
    have hl := Leaf.contents_length h.1
    have htot : chainedLength (l :: ls) = l.length + chainedLength ls := by simp [chainedLength]
    rw [htot] at ho hs
    have hcc : concatContents (l :: ls) = l.contents ++ concatContents ls := rfl
    unfold chainedLoop
    split
    · rename_i hge
      rw [ih h.2 (by omega) (by omega), hcc, slice_append_right (by omega), hl]
    · rename_i hlt
      simp only
      split
      · rename_i hrem
        rw [Leaf.writeTo_ok h.1 (by omega) (by omega), hcc, slice_append_left (by omega)]
      · rename_i hrem
        rw [Leaf.writeTo_ok h.1 (by omega) (by omega)]
        simp only
        rw [ih h.2 (by omega) (by omega)]
        simp only
        congr 1
        rw [hcc]
        have e1 : slice l.contents o (l.length - o) = slice (l.contents ++ concatContents ls) o (l.length - o) := by
          rw [slice_append_left (by omega)]
        have e2 : slice (concatContents ls) 0 (s - (l.length - o)) =
            slice (l.contents ++ concatContents ls) (o + (l.length - o)) (s - (l.length - o)) := by
          rw [slice_append_right (by omega)]; congr 1; omega
        rw [e1, e2, slice_append]
        congr 1; omega

/-! ## The 1 MiB chunk digest -/

theorem copyAt_mid {pre mid src post : Bytes} {off : Nat} (ho : pre.length = off) (hl : mid.length = src.length) :
    copyAt (pre ++ mid ++ post) off src = .ok (pre ++ src ++ post) := by
  unfold copyAt
  have h1 : ¬ off > (pre ++ mid ++ post).length := by simp; omega
  rw [if_neg h1]
  have h2 : src.take ((pre ++ mid ++ post).length - off) = src := by
    apply List.take_of_length_le; simp; omega
  simp only [h2]
  rw [List.append_assoc pre mid post, take_append_len ho, ← List.append_assoc pre mid post]
  rw [drop_append_len (a := pre ++ mid) (by simp; omega)]

/-- Digest algorithms of the chunked kind. -/
def CD.chunked : CD → Bool
  | .chunked256 | .chunked512 => true
  | _ => false

theorem CD.hash_length (env : Env) (a : CD) (b : Bytes) : (a.hash env b).length = a.size := by
  cases a <;> simp [CD.hash, CD.size, env.sha256_len, env.sha512_len]

theorem CD.size_pos (a : CD) : 0 < a.size := by cases a <;> simp [CD.size]

/-- Concatenated chunk digests. -/
def chunkDigests (env : Env) (algo : CD) (cs : List Bytes) : Bytes := (cs.map (fun c => algo.hash env (chunkMsg c))).flatten

theorem chunkDigests_length (env : Env) (algo : CD) (cs : List Bytes) :
    (chunkDigests env algo cs).length = cs.length * algo.size := by
  unfold chunkDigests
  induction cs with
  | nil => simp
  | cons c cs ih =>
    simp only [List.map_cons, List.flatten_cons, List.length_append, ih, CD.hash_length, List.length_cons]
    rw [Nat.add_mul]; omega

theorem oneMbSection_spec (env : Env) (algo : CD) (l : Leaf) (hv : l.Valid) (fuel : Nat) :
    ∀ (offset remaining idx k : Nat) (pre : Bytes), offset + remaining = l.length → remaining < fuel →
      pre.length = 5 + idx * algo.size → (cut maxChunkSize (l.contents.drop offset)).length ≤ k →
      oneMbSection env algo l fuel offset remaining (idx, pre ++ List.replicate (k * algo.size) 0) =
        .ok (.ok (idx + (cut maxChunkSize (l.contents.drop offset)).length,
          pre ++ chunkDigests env algo (cut maxChunkSize (l.contents.drop offset)) ++
            List.replicate ((k - (cut maxChunkSize (l.contents.drop offset)).length) * algo.size) 0)) := by
  have hl := Leaf.contents_length hv
  induction fuel with
  | zero => intros; omega
  | succ fuel ih =>
    intro offset remaining idx k pre hoff hfuel hpre hk
    unfold oneMbSection
    by_cases hr : remaining > 0
    · rw [if_pos hr]
      simp only
      generalize hcs : (if remaining > maxChunkSize then maxChunkSize else remaining) = cs
      have hcs' : 0 < cs ∧ cs ≤ remaining ∧ cs ≤ maxChunkSize ∧ (cs = maxChunkSize ∨ cs = remaining) := by
        unfold maxChunkSize at *; split at hcs <;> omega
      rw [Leaf.writeTo_ok hv (by omega) (by omega)]
      simp only
      have hne : l.contents.drop offset ≠ [] := by
        intro h; have := congrArg List.length h; rw [List.length_drop] at this; simp at this; omega
      have hcut := cut_cons (n := maxChunkSize) (by decide) hne
      have htake : (l.contents.drop offset).take maxChunkSize = slice l.contents offset cs := by
        unfold slice
        rcases hcs'.2.2.2 with h | h
        · rw [h]
        · rw [List.take_of_length_le (by rw [List.length_drop]; omega),
            List.take_of_length_le (by rw [List.length_drop]; omega)]
      have hdrop : (l.contents.drop offset).drop maxChunkSize = l.contents.drop (offset + cs) := by
        rw [List.drop_drop]
        rcases hcs'.2.2.2 with h | h
        · rw [h]
        · rw [List.drop_of_length_le (by omega), List.drop_of_length_le (by omega)]
      have hslen : (slice l.contents offset cs).length = cs := slice_length (by omega)
      have hmsg : (0xa5 : UInt8) :: leBytes 4 cs ++ slice l.contents offset cs = chunkMsg (slice l.contents offset cs) := by
        unfold chunkMsg; rw [hslen]; rfl
      rw [htake, hdrop] at hcut
      rw [hcut] at hk ⊢
      simp only [List.length_cons] at hk ⊢
      obtain ⟨k', rfl⟩ : ∃ k', k = k' + 1 := ⟨k - 1, by omega⟩
      have hrep : List.replicate ((k' + 1) * algo.size) (0 : UInt8) =
          List.replicate algo.size 0 ++ List.replicate (k' * algo.size) 0 := by
        rw [List.replicate_append_replicate]; congr 1; rw [Nat.add_mul]; omega
      rw [hmsg, hrep, ← List.append_assoc]
      rw [copyAt_mid (by rw [hpre, CD.hash_length]) (by rw [CD.hash_length, List.length_replicate])]
      simp only
      rw [ih (offset + cs) (remaining - cs) (idx + 1) k' _ (by omega) (by omega)
        (by rw [List.length_append, hpre, CD.hash_length, Nat.add_mul]; omega) (by omega)]
      congr 3
      · omega
      · have e : k' + 1 - ((cut maxChunkSize (l.contents.drop (offset + cs))).length + 1)
            = k' - (cut maxChunkSize (l.contents.drop (offset + cs))).length := by omega
        rw [e]
        simp [chunkDigests]
    · rw [if_neg hr]
      have hnil : l.contents.drop offset = [] := List.drop_of_length_le (by omega)
      rw [hnil]
      simp [chunkDigests]

theorem oneMbSections_spec (env : Env) (algo : CD) (ls : List Leaf) (hv : ∀ l ∈ ls, l.Valid) :
    ∀ (idx k : Nat) (pre : Bytes), pre.length = 5 + idx * algo.size →
      (mibChunks (ls.map Leaf.contents)).length ≤ k →
      oneMbSections env algo ls (idx, pre ++ List.replicate (k * algo.size) 0) =
        .ok (.ok (idx + (mibChunks (ls.map Leaf.contents)).length,
          pre ++ chunkDigests env algo (mibChunks (ls.map Leaf.contents)) ++
            List.replicate ((k - (mibChunks (ls.map Leaf.contents)).length) * algo.size) 0)) := by
  induction ls with
  | nil => intro idx k pre _ _; simp [oneMbSections, mibChunks, chunkDigests]
  | cons l ls ih =>
    intro idx k pre hpre hk
    simp only [List.mem_cons, forall_eq_or_imp] at hv
    have hm : mibChunks ((l :: ls).map Leaf.contents) = cut maxChunkSize l.contents ++ mibChunks (ls.map Leaf.contents) := rfl
    rw [hm] at hk ⊢
    rw [List.length_append] at hk
    unfold oneMbSections
    have := oneMbSection_spec env algo l hv.1 (l.length + 1) 0 l.length idx k pre (by omega) (by omega) hpre
      (by simp only [List.drop_zero]; omega)
    simp only [List.drop_zero] at this
    rw [this]
    simp only
    rw [ih hv.2 _ _ _ (by
      rw [List.length_append, hpre, chunkDigests_length, Nat.add_mul]; omega) (by omega)]
    congr 3
    · rw [List.length_append]; omega
    · rw [List.length_append]
      have e : k - (cut maxChunkSize l.contents).length - (mibChunks (ls.map Leaf.contents)).length =
        k - ((cut maxChunkSize l.contents).length + (mibChunks (ls.map Leaf.contents)).length) := by omega
      rw [e]
      simp [chunkDigests]

theorem mibChunks_length {ls : List Leaf} (hv : ∀ l ∈ ls, l.Valid) :
    (mibChunks (ls.map Leaf.contents)).length = (ls.map Leaf.chunkCount).sum := by
  induction ls with
  | nil => rfl
  | cons l ls ih =>
    simp only [List.mem_cons, forall_eq_or_imp] at hv
    have hm : mibChunks ((l :: ls).map Leaf.contents) = cut maxChunkSize l.contents ++ mibChunks (ls.map Leaf.contents) := rfl
    rw [hm, List.length_append, ih hv.2, cut_length (by decide), Leaf.contents_length hv.1]
    rw [List.map_cons, List.sum_cons, Leaf.chunkCount]

theorem oneMbDigest_spec (env : Env) (algo : CD) (ls : List Leaf) (hv : ∀ l ∈ ls, l.Valid) :
    oneMbDigest env algo ls =
      if (mibChunks (ls.map Leaf.contents)).length ≥ 2097151 then .ok (.error .tooManyChunks)
      else .ok (.ok (chunkedDigest (algo.hash env) (ls.map Leaf.contents))) := by
  unfold oneMbDigest
  rw [← mibChunks_length hv]
  by_cases h : (mibChunks (ls.map Leaf.contents)).length ≥ 2097151
  · simp only [h, if_true]
  · simp only [h, if_false]
    have h5 : ((0x5a : UInt8) :: leBytes 4 (mibChunks (ls.map Leaf.contents)).length).length = 5 + 0 * algo.size := by
      rw [List.length_cons, leBytes_length, Nat.zero_mul]
    rw [oneMbSections_spec env algo ls hv 0 _ _ h5 (Nat.le_refl _)]
    simp only [Nat.sub_self, Nat.zero_mul, List.replicate_zero, List.append_nil]
    rfl

end Apk
