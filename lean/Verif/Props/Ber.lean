import Verif.Proofs.BerRead
/-!
# C41: BER to DER conversion of a PKCS#7 block

`Asn1` is a tree of tagged values; `DerEnc`/`BerEnc` (Spec/Ber) say when a byte string is a DER/BER encoding of a tree.
-/
namespace Apk

/-- **C41.** A BER encoding of a tree (any mix of definite lengths and non-empty indefinite-length values, of any depth)
    is converted to the DER encoding of the same tree, whatever follows it. What is missing: indefinite-length values
    without children, which the code misreads (`C41_empty_indefinite_misread`). -/
theorem C41_flattened_to_the_same_tree_partial {t : Asn1} {b d : Bytes} (hb : BerEnc t b) (hd : DerEnc t d)
    (hl : d.length < 2 ^ 63) (rest : Bytes) : ber2der (b ++ rest) = .ok (.ok d) := by
  rw [ber2der_ber hb rest, hd.encode hl]

/-- **C41.** A DER encoding (shorter than 2 GiB) is left unchanged. -/
theorem C41_identity_on_der {t : Asn1} {d : Bytes} (hd : DerEnc t d) (hl : d.length < 2 ^ 31) (rest : Bytes) :
    ber2der (d ++ rest) = .ok (.ok d) :=
  C41_flattened_to_the_same_tree_partial (hd.ber hl) hd (by omega) rest

/-- **C41.** Whatever the input, a successful conversion returns the DER encoding of some tree: definite lengths in
    shortest form and well-formed tags everywhere (for outputs an `int` can measure). -/
theorem C41_output_is_der {b d : Bytes} (h : ber2der b = .ok (.ok d)) (hl : d.length < 2 ^ 63) :
    ∃ t, DerEnc t d := by
  obtain ⟨o, rest, hr, rfl⟩ := ber2der_ok h
  exact ⟨o, (readObject_der _).1 _ _ _ hr hl⟩

/-- **C41.** Converting a second time changes nothing (for outputs shorter than 2 GiB). -/
theorem C41_idempotent {b d : Bytes} (h : ber2der b = .ok (.ok d)) (hl : d.length < 2 ^ 31) :
    ber2der d = .ok (.ok d) := by
  obtain ⟨t, ht⟩ := C41_output_is_der h (by omega)
  simpa using C41_identity_on_der ht hl []

/-- **C41.** The converted bytes determine the tree, so nothing is lost or confused in the conversion. -/
theorem C41_der_determines_the_tree {t t' : Asn1} {d : Bytes} (h : DerEnc t d) (h' : DerEnc t' d)
    (hl : d.length < 2 ^ 31) : t = t' := by
  have e := readObject_ber (h.ber hl) (d.length + 1) [] (by omega)
  have e' := readObject_ber (h'.ber hl) (d.length + 1) [] (by omega)
  rw [e] at e'
  simp only [Except.ok.injEq, Prod.mk.injEq] at e'
  exact e'.1

/-- **C41.** Exactly which inputs are converted: those from whose start a value can be read in the (lenient) grammar `BerReads`;
    the result is the encoding of that value. In particular lengths take at most four octets and are below `2 ^ 31`. -/
theorem C41_converted_iff (b d : Bytes) : ber2der b = .ok (.ok d) ↔ ∃ t r, BerReads b t r ∧ d = t.encode := ber2der_iff

/-- **C41.** Exactly which inputs make the converter panic: those that are not empty and that end within the header of a value
    that is to be read. All other inputs that are not converted are rejected with an error. -/
theorem C41_panics_iff (b : Bytes) : (∃ p, ber2der b = .error p) ↔ b ≠ [] ∧ RunsOff b := ber2der_panic_iff

/-! ## The exceptions -/

/-- An empty indefinite-length SEQUENCE `30 80 00 00` is not understood: it is an error at the end of the data, and with
    two more zero bytes behind it the closing bytes are taken for a child. (Its DER encoding is `30 00`.) -/
theorem C41_empty_indefinite_misread :
    ber2der [0x30, 0x80, 0, 0] = .ok (.error .format) ∧
    ber2der [0x30, 0x80, 0, 0, 0, 0] = .ok (.ok [0x30, 2, 0, 0]) := by
  constructor <;> decide +kernel

/-- The converter panics on truncated headers. -/
theorem C41_panics : ber2der [0x30] = .error .indexOutOfRange ∧ ber2der [0x1f, 0x80] = .error .indexOutOfRange ∧
    ber2der [0x30, 0x82, 0x01] = .error .indexOutOfRange ∧
    ber2der [0x30, 2, 0x30, 0x81] = .error .indexOutOfRange := by
  refine ⟨?_, ?_, ?_, ?_⟩ <;> decide +kernel

/-- A child may run past the end of its parent: the two bytes behind the outer SEQUENCE become part of it. -/
theorem C41_child_overruns_parent :
    ber2der [0x30, 2, 0x30, 2, 5, 0] = .ok (.ok [0x30, 4, 0x30, 2, 5, 0]) := by decide +kernel

/-! ### Exponential growth -/

/-- `30 06 30 02` repeated `k` times, then two NULL values. -/
def bomb : Nat → Bytes
  | 0 => [5, 0, 5, 0]
  | k + 1 => 0x30 :: 6 :: 0x30 :: 2 :: bomb k

theorem bomb_length (k : Nat) : (bomb k).length = 4 * k + 4 := by
  induction k with
  | zero => rfl
  | succ k ih => simp only [bomb, List.length_cons, ih]; omega

/-- What the converter makes of `bomb k`. -/
def bombTree : Nat → Asn1
  | 0 => .prim [5] []
  | 1 => .con [0x30] [.con [0x30] [.prim [5] []], .prim [5] []]
  | k + 2 => .con [0x30] [.con [0x30] [bombTree (k + 1)], .con [0x30] [bombTree k]]

theorem readSeq {fuel : Nat} {n : UInt8} {r : Bytes} (hn : n.toNat < 128) (hr : n.toNat ≤ r.length) :
    readObject (fuel + 1) (0x30 :: n :: r) =
      match readKids fuel r (some (r.length - n.toNat)) with
      | .error p => .error p
      | .ok (.error e) => .ok (.error e)
      | .ok (.ok (kids, _)) => .ok (.ok (.con [0x30] kids, r.drop n.toNat)) := by
  have h1 : readTag (0x30 :: n :: r) = .ok ([0x30], n :: r) := by simp [readTag]
  have h2 : readLength (n :: r) = .ok (.ok (some n.toNat, r)) := by
    simp only [readLength]; rw [if_neg (by omega), if_neg (by omega)]
  simp only [readObject, h1, h2]
  rw [if_neg (by omega), if_pos (by decide)]
  rfl

theorem readKids_step {fuel k : Nat} {b rest : Bytes} {o : Asn1} (hk : k < b.length)
    (h : readObject fuel b = .ok (.ok (o, rest))) :
    readKids (fuel + 1) b (some k) =
      match readKids fuel rest (some k) with
      | .error p => .error p
      | .ok (.error e) => .ok (.error e)
      | .ok (.ok (os, rest')) => .ok (.ok (o :: os, rest')) := by
  simp only [readKids, h]
  rw [if_pos hk]
  rfl

theorem readKids_done {fuel k : Nat} {b : Bytes} (hk : b.length ≤ k) : readKids (fuel + 1) b (some k) = .ok (.ok ([], b)) := by
  simp only [readKids]
  rw [if_neg (by omega)]

theorem readObject_null {fuel : Nat} (r : Bytes) : readObject (fuel + 1) (5 :: 0 :: r) = .ok (.ok (.prim [5] [], r)) := by
  have h1 : readTag (5 :: 0 :: r) = .ok ([5], 0 :: r) := by simp [readTag]
  have h2 : readLength (0 :: r) = .ok (.ok (some 0, r)) := by simp [readLength]
  simp only [readObject, h1, h2]
  rw [if_neg (by omega), if_neg (by decide)]
  simp

theorem bomb_spec (k : Nat) :
    (∀ fuel, (bomb k).length < fuel → ∃ r, readObject fuel (bomb k) = .ok (.ok (bombTree k, r)) ∧ r.length + 2 ≤ (bomb k).length) ∧
    (∀ fuel, (bomb (k + 1)).length < fuel →
      ∃ r, readObject fuel (bomb (k + 1)) = .ok (.ok (bombTree (k + 1), r)) ∧ r.length + 2 ≤ (bomb (k + 1)).length) := by
  have mk : ∀ {k t}, (∀ fuel, (bomb k).length < fuel → ∃ r, readObject fuel (bomb k) = .ok (.ok (t, r)) ∧
      r.length + 2 ≤ (bomb k).length) → ∀ fuel, (bomb k).length + 2 < fuel →
      readObject fuel (0x30 :: 2 :: bomb k) = .ok (.ok (.con [0x30] [t], (bomb k).drop 2)) := by
    intro k t h fuel hf
    obtain ⟨f, rfl⟩ : ∃ f, fuel = f + 3 := ⟨fuel - 3, by omega⟩
    obtain ⟨r, hr, hl⟩ := h (f + 1) (by omega)
    have hb := bomb_length k
    rw [readSeq (by decide) (by simp; omega), readKids_step (by simp; omega) hr, readKids_done]
    · rfl
    · simp; omega
  induction k with
  | zero =>
    have h0 : ∀ fuel, (bomb 0).length < fuel → ∃ r, readObject fuel (bomb 0) = .ok (.ok (bombTree 0, r)) ∧
        r.length + 2 ≤ (bomb 0).length := by
      intro fuel hf
      obtain ⟨f, rfl⟩ : ∃ f, fuel = f + 1 := ⟨fuel - 1, by omega⟩
      exact ⟨[5, 0], by rw [bomb, readObject_null]; rfl, by simp [bomb]⟩
    refine ⟨h0, ?_⟩
    intro fuel hf
    have hf' : 8 < fuel := by simpa [bomb] using hf
    obtain ⟨f, rfl⟩ : ∃ f, fuel = f + 4 := ⟨fuel - 4, by omega⟩
    have h1 := mk h0 (f + 2) (by simp [bomb]; omega)
    refine ⟨[], ?_, by simp [bomb]⟩
    rw [bomb, readSeq (by decide) (by simp [bomb]), readKids_step (by simp; omega) h1]
    have h2 : (bomb 0).drop 2 = 5 :: 0 :: [] := rfl
    rw [h2, readKids_step (by simp [bomb]) (readObject_null []), readKids_done (by simp)]
    rfl
  | succ k ih =>
    refine ⟨ih.2, ?_⟩
    intro fuel hf
    have hb := bomb_length k
    have e : (bomb (k + 1 + 1)).length = (bomb k).length + 8 := by simp [bomb]
    rw [e] at hf
    obtain ⟨f, rfl⟩ : ∃ f, fuel = f + 4 := ⟨fuel - 4, by omega⟩
    have h1 := mk ih.2 (f + 2) (by simp [bomb]; omega)
    have h2 := mk ih.1 (f + 1) (by omega)
    have e2 : (bomb (k + 1)).drop 2 = 0x30 :: 2 :: bomb k := rfl
    refine ⟨(bomb k).drop 0, ?_, by rw [e]; simp⟩
    rw [bomb, readSeq (by decide) (by simp [bomb]), readKids_step (by simp [bomb]; omega) h1, e2,
      readKids_step (by simp [bomb]; omega) h2, readKids_done (by simp [bomb])]
    rfl

theorem bombTree_length (n : Nat) : 2 ^ n ≤ (bombTree (2 * n)).encode.length ∧
    2 ^ n ≤ (bombTree (2 * n + 1)).encode.length := by
  have grow : ∀ k, (bombTree (k + 1)).encode.length + (bombTree k).encode.length ≤ (bombTree (k + 2)).encode.length := by
    intro k
    simp only [bombTree, Asn1.encode, Asn1.encodeAll, List.length_append]
    omega
  induction n with
  | zero => exact ⟨by decide +kernel, by decide +kernel⟩
  | succ n ih =>
    have g1 := grow (2 * n)
    have g2 := grow (2 * n + 1)
    have e1 : 2 * (n + 1) = 2 * n + 2 := by omega
    rw [e1, Nat.pow_succ]
    have e2 : 2 * n + 2 + 1 = 2 * n + 1 + 2 := by omega
    rw [e2]
    have e3 : 2 * n + 1 + 1 = 2 * n + 2 := by omega
    rw [e3] at g2
    omega

/-- **C41 (resource use).** Conversion is not linear: because children may overlap, inputs of `8 n + 4` bytes are converted
    to outputs of at least `2 ^ n` bytes. -/
theorem C41_exponential_output (n : Nat) :
    ∃ b d, b.length = 8 * n + 4 ∧ ber2der b = .ok (.ok d) ∧ 2 ^ n ≤ d.length := by
  obtain ⟨r, hr, -⟩ := (bomb_spec (2 * n)).1 ((bomb (2 * n)).length + 1) (by omega)
  refine ⟨bomb (2 * n), (bombTree (2 * n)).encode, by rw [bomb_length]; omega, ?_, (bombTree_length n).1⟩
  unfold ber2der
  rw [if_neg (by intro h; have := bomb_length (2 * n); rw [h] at this; simp at this), hr]

/-! ## A concrete case -/

/-- `30 80 (04 81 01 41) (30 80 (05 00) 00 00) 00 00`: nested indefinite lengths and an over-long length. -/
def berExample : Bytes := [0x30, 0x80, 4, 0x81, 1, 0x41, 0x30, 0x80, 5, 0, 0, 0, 0, 0]
def berExampleTree : Asn1 := .con [0x30] [.prim [4] [0x41], .con [0x30] [.prim [5] []]]

theorem berExample_ber : BerEnc berExampleTree berExample := by
  have t30 : ConTag [0x30] := ⟨.inl ⟨0x30, by decide, rfl⟩, 0x30, [], rfl, by decide⟩
  have t4 : PrimTag [4] := ⟨.inl ⟨4, by decide, rfl⟩, 4, [], rfl, by decide⟩
  have t5 : PrimTag [5] := ⟨.inl ⟨5, by decide, rfl⟩, 5, [], rfl, by decide⟩
  have k1 : BerEnc (.prim [4] [0x41]) ([4] ++ [0x81, 1] ++ [0x41]) :=
    .prim t4 (.inr ⟨by decide, 0x81, [1], by decide, by decide, by decide, by decide, rfl⟩)
  have k2 : BerEnc (.prim [5] []) ([5] ++ [0] ++ []) := .prim t5 (.inl ⟨by decide, 0, by decide, rfl⟩)
  have k3 := BerEnc.indef t30 (BerEncs.cons k2 .nil) (by simp) (by simp)
  exact BerEnc.indef t30 (BerEncs.cons k1 (.cons k3 .nil)) (by simp) (by simp)

example : ber2der berExample = .ok (.ok [0x30, 7, 4, 1, 0x41, 0x30, 2, 5, 0]) := by decide +kernel

example : ∃ d, ber2der (berExample ++ [1, 2, 3]) = .ok (.ok d) ∧ DerEnc berExampleTree d ∧ ber2der d = .ok (.ok d) := by
  have h := ber2der_ber berExample_ber []
  have e : berExampleTree.encode.length < 2 ^ 31 := by decide +kernel
  obtain ⟨o, rest, hr, ho⟩ := ber2der_ok h
  have hd : DerEnc berExampleTree berExampleTree.encode := by
    have := readObject_ber berExample_ber (berExample.length + 1) [] (by omega)
    exact (readObject_der _).1 _ _ _ this (by omega)
  exact ⟨_, ber2der_ber berExample_ber _, hd, C41_idempotent h e⟩

end Apk
