import Verif.Proofs.Layout
import Verif.Model.Block
import Verif.Toy
/-! # Properties of the container layer (C01–C05, C29) -/
namespace Apk

/-! ## A concrete APK used to show that the hypotheses are satisfiable -/
namespace Toy

/-- A pair area: an unknown block, padding, a v2 block (empty signers list). -/
def area1 : List (Nat × Bytes) := [(0x12345678, [1, 2, 3]), (0x42726577, [0, 0]), (0x7109871a, [0, 0, 0, 0])]
/-- file head -/
def head1 : Bytes := [0x50, 0x4b, 3, 4, 9, 9]
/-- central directory -/
def cd1 : Bytes := [0x50, 0x4b, 1, 2, 8]
/-- An APK with signing block around `area`. -/
def apk (head area cd : Bytes) : Bytes :=
  head ++ sigBlock area ++ cd ++ eocd cd.length (head ++ sigBlock area).length

theorem eocdRecord_zero (pre : Bytes) (a b : Nat) : EocdRecord (pre ++ eocd a b) pre (eocd a b) 0 := by
  refine ⟨rfl, by simp [eocd], by omega, by simp [eocd], ?_⟩
  simp [eocd, leBytes]

theorem apk_layout (head area cd : Bytes) (h1 : cd ≠ []) (h2 : (head ++ sigBlock area ++ cd).length < 2 ^ 31)
    (hz : ¬ Zip64Before (head ++ sigBlock area ++ cd)) :
    ApkLayout (apk head area cd) head area cd (eocd cd.length (head ++ sigBlock area).length) := by
  have hs : (sigBlock area).length = area.length + 32 := by simp [sigBlock, sigBlockMagic]; omega
  simp only [List.length_append] at h2
  have hne : 0 < cd.length := List.length_pos_iff.2 h1
  refine ⟨rfl, ⟨0, eocdRecord_zero _ _ _, by omega⟩, ⟨?_, ?_, ?_, ?_, ?_, ?_⟩, hz, ?_⟩
  · simp [eocd, leBytes]
  · simp only [List.length_append]; omega
  · simp [eocd, leBytes]
  · omega
  · simp only [List.length_append]; omega
  · simp only [List.length_append]
  · omega

theorem layout1 : ApkLayout (apk head1 (encPairs area1) cd1) head1 (encPairs area1) cd1
    (eocd cd1.length (head1 ++ sigBlock (encPairs area1)).length) := by
  apply apk_layout
  · decide
  · decide +kernel
  · intro h; revert h; unfold Zip64Before; decide +kernel

theorem pairArea1 : PairArea (encPairs area1) area1 := by
  refine ⟨rfl, ?_, ?_⟩
  · intro p hp
    simp only [area1, List.mem_cons, List.not_mem_nil, or_false] at hp
    rcases hp with rfl | rfl | rfl <;> constructor <;> decide
  · intro p hp h
    simp only [area1, List.getLast?_cons_cons, List.getLast?_singleton, Option.some.injEq] at hp
    subst hp; cases h

end Toy

/-! ## C01 -/

/-- C01: the record used is exactly the end-of-central-directory record with the shortest comment, provided the central
    directory it names ends where the record starts (and is located before it); otherwise no record is used. -/
theorem C01_eocd_located_iff {file : Bytes} {l : Loc} :
    findEocd file = .ok l ↔ ∃ pre rec c, ShortestEocd file pre rec c ∧ CdBefore pre rec l.cdOff l.cdSize ∧
      l.eocdOff = pre.length ∧ l.eocd = rec :=
  findEocd_iff

example : ∃ l, findEocd (Toy.apk Toy.head1 (encPairs Toy.area1) Toy.cd1) = .ok l :=
  ⟨_, layout_findEocd Toy.layout1⟩

/-- C01: at most one record has the shortest comment, so the choice is deterministic. -/
theorem C01_eocd_unique {file pre rec pre' rec' : Bytes} {c c' : Nat} (h : ShortestEocd file pre rec c)
    (h' : ShortestEocd file pre' rec' c') : c = c' ∧ pre = pre' ∧ rec = rec' := by
  have hc : c = c' := by
    rcases Nat.lt_trichotomy c c' with hlt | he | hlt
    · exact absurd h.1 (h'.2 c hlt pre rec)
    · exact he
    · exact absurd h'.1 (h.2 c' hlt pre' rec')
  subst hc
  obtain ⟨_, rfl, rfl⟩ := eocdRecord_pos h.1
  obtain ⟨_, rfl, rfl⟩ := eocdRecord_pos h'.1
  exact ⟨rfl, rfl, rfl⟩

/-! ## C02 -/

/-- C02: a file of at least four bytes that is not laid out as an APK with a signing block (no usable EOCD record, a
    ZIP64 locator, no signing block) gives a "not found" error, no certificates and no panic. -/
theorem C02_unlocatable_not_found (env : Env) (zip : Zip) (file : Bytes) (minSdk maxSdk : Int) (h4 : 4 ≤ file.length)
    (h : ∀ head area cd rec, ¬ ApkLayout file head area cd rec) :
    ∃ out res, verifySigningBlock env zip file minSdk maxSdk = .ok out ∧ isNotFound out.err = true ∧
      out.res = some res ∧ res.core.certs = [] ∧ res.core.lineage = none ∧ res.frosting = none ∧ res.stamp = none := by
  obtain ⟨e, he⟩ := no_layout_find env maxSdk h
  refine ⟨⟨some ⟨{}, none, none, none⟩, leNat (file.take 4), some (.notFound e)⟩, ⟨{}, none, none, none⟩, ?_, rfl, rfl, rfl, rfl, rfl, rfl⟩
  unfold verifySigningBlock
  rw [if_neg (by omega), he]
  rfl

/-- C02 for `ExtractCerts`. -/
theorem C02_extract_not_found (env : Env) (file : Bytes) (maxSdk : Int) (h4 : 4 ≤ file.length)
    (h : ∀ head area cd rec, ¬ ApkLayout file head area cd rec) :
    ∃ e, extractCertsReader env file maxSdk = .ok ([], some (.notFound e)) := by
  obtain ⟨e, he⟩ := no_layout_find env maxSdk h
  refine ⟨e, ?_⟩
  unfold extractCertsReader
  rw [if_neg (by omega), he]

example : ∃ file : Bytes, 4 ≤ file.length ∧ ∀ head area cd rec, ¬ ApkLayout file head area cd rec := by
  refine ⟨[1, 2, 3, 4, 5], by decide, ?_⟩
  intro head area cd rec h
  have := layout_findEocd h
  have h2 : findEocd [1, 2, 3, 4, 5] = .error .apkTooShort := by decide
  rw [h2] at this; cases this

/-- C02: a ZIP64 locator before the record makes the container unlocatable, whatever else the file contains. -/
theorem C02_zip64_unlocatable {file pre rec : Bytes} {c : Nat} (hs : ShortestEocd file pre rec c) (hz : Zip64Before pre) :
    ∀ head area cd rec', ¬ ApkLayout file head area cd rec' := by
  intro head area cd rec' h
  obtain ⟨c', hc'⟩ := h.eocd
  obtain ⟨_, rfl, _⟩ := C01_eocd_unique hs hc'
  exact h.noZip64 hz

/-- C02: a file shorter than four bytes gives a different error, and no result. -/
theorem C02_short_file (env : Env) (zip : Zip) (file : Bytes) (minSdk maxSdk : Int) (h4 : file.length < 4) :
    ∃ out, verifySigningBlock env zip file minSdk maxSdk = .ok out ∧ out.res = none ∧ out.err ≠ none ∧
      isNotFound out.err = false := by
  refine ⟨_, by unfold verifySigningBlock; rw [if_pos h4], rfl, by simp, rfl⟩

/-! ## C03 -/

/-- C03 (soundness): if verification gets past locating the block, the file is an APK with a signing block located right
    before the central directory, with agreeing sizes and the right magic, and its pair area is well formed. -/
theorem C03_block_layout (env : Env) (zip : Zip) (file : Bytes) (minSdk maxSdk : Int) (out : Outcome)
    (h4 : 4 ≤ file.length) (h : verifySigningBlock env zip file minSdk maxSdk = .ok out)
    (hn : isNotFound out.err = false) :
    ∃ head area cd rec ps, ApkLayout file head area cd rec ∧ PairArea area ps := by
  by_cases hl : ∃ head area cd rec, ApkLayout file head area cd rec
  · obtain ⟨head, area, cd, rec, hl⟩ := hl
    refine ⟨head, area, cd, rec, ?_⟩
    unfold verifySigningBlock at h
    rw [if_neg (by omega), layout_find env maxSdk hl] at h
    cases hp : parsePairs env maxSdk area with
    | error q => rw [hp] at h; cases h
    | ok r =>
      obtain ⟨st, e⟩ := r
      rw [hp] at h
      cases e with
      | some e => simp only [Except.ok.injEq] at h; subst h; simp [isNotFound] at hn
      | none =>
        obtain ⟨ps, ha, _⟩ := parsePairsAux_sound _ (Nat.lt_succ_self _) hp
        exact ⟨ps, hl, ha⟩
  · have hl' : ∀ head area cd rec, ¬ ApkLayout file head area cd rec := by
      intro a b c d h; exact hl ⟨a, b, c, d, h⟩
    obtain ⟨out', res, h1, h2, _⟩ := C02_unlocatable_not_found env zip file minSdk maxSdk h4 hl'
    rw [h] at h1
    cases h1
    rw [hn] at h2; cases h2

/-- C03 (completeness): every file laid out that way has its block found and exactly that block is parsed. -/
theorem C03_layout_found (env : Env) (maxSdk : Int) {file head area cd rec : Bytes} (h : ApkLayout file head area cd rec) :
    findSignatureBlocks env file maxSdk =
      match parsePairs env maxSdk area with
      | .error p => .error p
      | .ok (st, e) => .ok (some ⟨⟨head.length + (sigBlock area).length + cd.length, head.length + (sigBlock area).length,
          cd.length, rec⟩, head.length⟩, st, e) := by
  rw [layout_find env maxSdk h]
  simp only [layoutFound, List.length_append]
  rfl

/-- C03: the layout of a file is unique. -/
theorem C03_layout_unique {file head area cd rec head' area' cd' rec' : Bytes} (h : ApkLayout file head area cd rec)
    (h' : ApkLayout file head' area' cd' rec') : head = head' ∧ area = area' ∧ cd = cd' ∧ rec = rec' :=
  layout_unique h h'

example : ∃ file head area cd rec, ApkLayout file head area cd rec ∧ area ≠ [] :=
  ⟨_, _, _, _, _, Toy.layout1, by decide +kernel⟩

/-! ## C04 -/

/-- C04: parsing the encoding of any list of well-formed pairs gives back exactly its contents: for the ids in use the
    last value is used for verification, for the others the last value is in `ExtraBlocks`, and frosting values are
    parsed in order. -/
theorem C04_pairs_roundtrip (env : Env) (maxSdk : Int) (area : Bytes) (ps : List (Nat × Bytes)) (ha : PairArea area ps)
    (hfr : ∀ v ∈ frostingValues ps, ∃ fr, frParse env v = .ok fr) :
    ∃ st, parsePairs env maxSdk area = .ok (st, none) ∧
      (∀ id, mget st.blocks id = if usedId id maxSdk then lastVal ps id else none) ∧
      (∀ id, mget st.extra id = if extraId id maxSdk then lastVal ps id else none) ∧
      (∃ frs : List FrostParse, (frostingValues ps).map (frParse env) = frs.map .ok ∧ st.frosting = frs.getLast? ∧
        st.warnings = (frs.filter (fun fr => fr.info.toOption.isNone)).map (fun _ => W.frosting)) := by
  obtain ⟨st, h1, h2⟩ := parsePairsAux_complete (env := env) (maxSdk := maxSdk) ps _ area {} (Nat.lt_succ_self _) ha hfr
  refine ⟨st, h1, ?_, ?_, ?_⟩
  · intro id; rw [h2.blocks id]; simp
  · intro id; rw [h2.extra id]; simp
  · obtain ⟨frs, f1, f2, f3, f4⟩ := h2.frosting
    exact ⟨frs, f1, by simpa using f2, by simpa using f4⟩

example : PairArea (encPairs Toy.area1) Toy.area1 ∧ (∀ v ∈ frostingValues Toy.area1, ∃ fr, frParse Toy.env v = .ok fr) :=
  ⟨Toy.pairArea1, by intro v hv; simp [frostingValues, Toy.area1] at hv⟩

/-- C04: whatever is accepted is the encoding of a list of pairs, and the parse has the meaning described above. -/
theorem C04_pairs_sound (env : Env) (maxSdk : Int) (area : Bytes) (st : PairState)
    (h : parsePairs env maxSdk area = .ok (st, none)) :
    ∃ ps, PairArea area ps ∧
      (∀ id, mget st.blocks id = if usedId id maxSdk then lastVal ps id else none) ∧
      (∀ id, mget st.extra id = if extraId id maxSdk then lastVal ps id else none) := by
  obtain ⟨ps, ha, h2⟩ := parsePairsAux_sound _ (Nat.lt_succ_self _) h
  exact ⟨ps, ha, fun id => by rw [h2.blocks id]; simp, fun id => by rw [h2.extra id]; simp⟩

/-- C04 read literally asks for every list of pairs with non-empty values; non-emptiness of the last one suffices. -/
theorem C04_nonempty_pairs (ps : List (Nat × Bytes)) (h : ∀ p ∈ ps, PairOK p) (hne : ∀ p ∈ ps, p.2 ≠ []) :
    PairArea (encPairs ps) ps :=
  ⟨rfl, h, fun p hp he => absurd he (hne p (List.mem_of_mem_getLast? hp))⟩

/-! ## C05 -/

/-- C05: a pair area that is not a well-formed pair sequence is rejected with an error, unless the frosting parser
    panics on a value inside the area (finding: it can, see C26). -/
theorem C05_malformed_rejected (env : Env) (maxSdk : Int) (area : Bytes) (h : ∀ ps, ¬ PairArea area ps) :
    (∃ st e, parsePairs env maxSdk area = .ok (st, some e)) ∨
    (∃ v q, v <:+: area ∧ frParse env v = .error q ∧ parsePairs env maxSdk area = .error q) := by
  cases hp : parsePairs env maxSdk area with
  | error q =>
    right
    obtain ⟨v, hv, he⟩ := parsePairsAux_panic _ hp
    exact ⟨v, q, hv, he, rfl⟩
  | ok r =>
    obtain ⟨st, e⟩ := r
    cases e with
    | some e => exact Or.inl ⟨st, e, rfl⟩
    | none =>
      obtain ⟨ps, ha, _⟩ := parsePairsAux_sound _ (Nat.lt_succ_self _) hp
      exact absurd ha (h ps)

/-- C05 at the API: such an APK is reported as "not found", with no certificates. -/
theorem C05_malformed_not_found (env : Env) (zip : Zip) (minSdk maxSdk : Int) {file head area cd rec : Bytes}
    (hl : ApkLayout file head area cd rec) (h : ∀ ps, ¬ PairArea area ps)
    (hfr : ∀ v, v <:+: area → ∃ fr, frParse env v = .ok fr) :
    ∃ out res, verifySigningBlock env zip file minSdk maxSdk = .ok out ∧ isNotFound out.err = true ∧
      out.res = some res ∧ res.core.certs = [] := by
  have h4 : ¬ file.length < 4 := by
    have := congrArg List.length hl.split
    simp [sigBlock, sigBlockMagic] at this; omega
  rcases C05_malformed_rejected env maxSdk area h with ⟨st, e, hp⟩ | ⟨v, q, hv, he, _⟩
  · have hv : verifySigningBlock env zip file minSdk maxSdk = .ok ⟨some ⟨{ extraBlocks := st.extra, warnings := st.warnings },
        none, frostingResult env file (layoutFound head area cd rec) st, none⟩, leNat (file.take 4), some (.notFound e)⟩ := by
      unfold verifySigningBlock
      rw [if_neg h4, layout_find env maxSdk hl, hp]
    exact ⟨_, _, hv, rfl, rfl, rfl⟩
  · obtain ⟨fr, hfr0⟩ := hfr v hv
    rw [hfr0] at he; cases he

example : ∃ area : Bytes, (∀ ps, ¬ PairArea area ps) ∧ (∀ v, v <:+: area → ∃ fr, frParse Toy.env v = .ok fr) ∧
    area.length = 3 := by
  refine ⟨[0, 0, 0], ?_, ?_, rfl⟩
  · rintro ps ⟨h1, _, _⟩
    cases ps with
    | nil => simp [encPairs] at h1
    | cons p ps =>
      rw [encPairs_cons] at h1
      have := congrArg List.length h1
      simp at this; omega
  · intro v hv
    have hz : ∀ x ∈ v, x = 0 := by
      intro x hx
      have := hv.subset hx
      simpa using this
    unfold frParse frRead
    cases v with
    | nil => exact ⟨_, rfl⟩
    | cons x xs =>
      have hx : x = 0 := hz x (by simp)
      subst hx
      exact ⟨_, rfl⟩

/-! ## C29 -/

/-- C29: reading a length-prefixed field from its encoding followed by anything returns the field and the rest. -/
theorem C29_roundtrip (x rest : Bytes) (h : x.length < 2 ^ 31) :
    rdLP (leBytes 4 x.length ++ x ++ rest) = .ok (x, rest) := rdLP_lp x rest h

/-- C29: a successful read returns bytes of the input: the input is the encoding followed by the rest. -/
theorem C29_sound {b x rest : Bytes} (h : rdLP b = .ok (x, rest)) :
    b = leBytes 4 x.length ++ x ++ rest ∧ x.length < 2 ^ 31 := ⟨(rdLP_ok h).2, (rdLP_ok h).1⟩

/-- C29: it fails exactly when fewer than four bytes remain, the length is negative as an int32, or exceeds the rest. -/
theorem C29_fails_iff (b : Bytes) :
    (∃ e, rdLP b = .error e) ↔ b.length < 4 ∨ 2 ^ 31 ≤ leNat (b.take 4) ∨ b.length - 4 < leNat (b.take 4) := by
  have hlt : leNat (b.take 4) < 2 ^ 32 := by
    have h := leNat_lt (b.take 4)
    have h2 : (b.take 4).length ≤ 4 := List.length_take_le _ _
    calc leNat (b.take 4) < 256 ^ (b.take 4).length := h
      _ ≤ 256 ^ 4 := Nat.pow_le_pow_right (by decide) h2
      _ = 2 ^ 32 := by decide
  unfold rdLP
  by_cases h4 : b.length < 4
  · simp [h4]
  · rw [if_neg h4]
    simp only
    by_cases hn : leNat (b.take 4) < 2 ^ 31
    · rw [if_neg (by have := (toI32_nonneg hlt).2 hn; omega), toI32_of_lt hn, List.length_drop]
      by_cases hl : b.length - 4 < leNat (b.take 4)
      · rw [if_pos (by omega)]; simp [hl]
      · rw [if_neg (by omega)]
        constructor
        · rintro ⟨e, he⟩; cases he
        · rintro (h | h | h)
          · omega
          · omega
          · exact absurd h hl
    · have : ¬ 0 ≤ toI32 (leNat (b.take 4)) := fun h => hn ((toI32_nonneg hlt).1 h)
      rw [if_pos (by omega)]
      constructor
      · intro _; right; left; omega
      · intro _; exact ⟨_, rfl⟩

example : (∃ e, rdLP [255, 255, 255, 255, 1] = .error e) ∧ rdLP [1, 0, 0, 0, 7, 8] = .ok ([7], [8]) :=
  ⟨⟨.negative, by decide⟩, by decide⟩

end Apk
