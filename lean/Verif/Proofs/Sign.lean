import Verif.Spec.Sign
import Verif.Proofs.Verdict
/-! # APKs signed by the reference signer are accepted -/
namespace Apk
open Sign

/-- Acceptance without assuming that the program returns: no frosting and no stamp is in the block. -/
theorem accept_total {env : Env} {zip : Zip} {file head area cd rec : Bytes} {minSdk maxSdk : Int} {ps : List (Nat × Bytes)}
    (hl : ApkLayout file head area cd rec) (ha : PairArea area ps) (hfr : frostingValues ps = []) (hst : lastVal ps 0x6dff800d = none)
    {s : Nat} {cs : List (List Cert)} {top : Option (List LNode)} (hV : Verdict env (signedSections head cd rec) minSdk maxSdk ps s cs top) :
    ∃ out res, verifySigningBlock env zip file minSdk maxSdk = .ok out ∧ out.err = none ∧ out.res = some res ∧ res.core.errors = [] ∧
      res.core.schemeId = s ∧ res.core.certs = cs ∧
      Verdict env (signedSections head cd rec) minSdk maxSdk ps s cs (res.core.lineage.map Lineage.nodes) := by
  have h4 : ¬ file.length < 4 := by
    have := congrArg List.length hl.split
    simp [sigBlock, sigBlockMagic] at this; omega
  obtain ⟨st, hp, hr⟩ := parsePairsAux_complete (env := env) (maxSdk := maxSdk) ps (area.length + 1) area {} (Nat.lt_succ_self _) ha (by rw [hfr]; simp)
  have hm : Means ps maxSdk st.blocks st.extra :=
    ⟨fun id => by rw [hr.blocks id]; simp, fun id => by rw [hr.extra id]; simp⟩
  obtain ⟨top', ws', v3, dg, hV', hpk⟩ := pick_ok hl hm (ws := st.warnings) hV
  have hfb : ∀ r : Core, r.errors = [] → withFallback env file (layoutFound head area cd rec) st.blocks minSdk maxSdk (r, v3, dg) = .ok (r, v3, dg) :=
    fun r h => withFallback_none (.inl h)
  have hsb : mget st.blocks blockIdSourceStampV2 = none := by
    rw [hm.blocks]; split
    · exact hst
    · rfl
  have hrun : ∃ out, verifySigningBlock env zip file minSdk maxSdk = .ok out := by
    unfold verifySigningBlock
    rw [if_neg h4, layout_find env maxSdk hl]
    have : parsePairs env maxSdk area = .ok (st, none) := hp
    rw [this]
    simp only [bind, Except.bind]
    rw [hpk]
    simp only
    rw [hfb _ rfl]
    simp only
    rw [hsb]
    unfold verifyStamp
    simp only
    cases zip.file stampEntryName <;> exact ⟨_, rfl⟩
  obtain ⟨out, hout⟩ := hrun
  obtain ⟨h1, res, h2, h3, h5, h6, h7⟩ := verdict_complete hl ha hout hV
  exact ⟨out, res, hout, h1, h2, h3, h5, h6, h7⟩

/-! ## The layout of a signed ZIP -/

theorem sign_redirected (u : Unsigned) (hu : u.Ok) (off : Nat) :
    redirected (eocd u.fields u.cd.length off u.comment) u.head.length = eocd u.fields u.cd.length u.head.length u.comment := by
  have hf := hu.fields
  have e1 : ([0x50, 0x4b, 0x05, 0x06] ++ u.fields ++ leBytes 4 u.cd.length : Bytes).length = 16 := by simp [hf]
  unfold redirected eocd
  have t : ([0x50, 0x4b, 0x05, 0x06] ++ u.fields ++ leBytes 4 u.cd.length ++ leBytes 4 off ++ (leBytes 2 u.comment.length ++ u.comment) : Bytes).take 16 =
      [0x50, 0x4b, 0x05, 0x06] ++ u.fields ++ leBytes 4 u.cd.length := by
    rw [List.append_assoc _ (leBytes 4 off)]; exact List.take_left' e1
  have d : ([0x50, 0x4b, 0x05, 0x06] ++ u.fields ++ leBytes 4 u.cd.length ++ leBytes 4 off ++ (leBytes 2 u.comment.length ++ u.comment) : Bytes).drop 20 = leBytes 2 u.comment.length ++ u.comment :=
    List.drop_left' (by simp [hf])
  rw [t, d]

theorem sign_sections (u : Unsigned) (hu : u.Ok) (off : Nat) :
    signedSections u.head u.cd (eocd u.fields u.cd.length off u.comment) = u.sections := by
  unfold signedSections Unsigned.sections
  rw [sign_redirected u hu]

theorem sigBlock_tail (area : Bytes) (h : area.length + 24 < 2 ^ 40) : ∃ y, sigBlock area = y ++ ([0, 0, 0] ++ sigBlockMagic) := by
  refine ⟨leBytes 8 (area.length + 24) ++ area ++ leBytes 5 (area.length + 24), ?_⟩
  unfold sigBlock
  have : leBytes 8 (area.length + 24) = leBytes 5 (area.length + 24) ++ [0, 0, 0] := by
    generalize area.length + 24 = n at h
    simp only [leBytes, List.cons_append, List.nil_append, List.cons.injEq, and_true, true_and]
    refine ⟨?_, ?_, ?_⟩ <;>
    · apply UInt8.toNat_inj.1
      rw [UInt8.toNat_ofNat']
      simp; omega
  rw [show leBytes 8 (area.length + 24) ++ area ++ leBytes 8 (area.length + 24) ++ sigBlockMagic =
    leBytes 8 (area.length + 24) ++ area ++ (leBytes 5 (area.length + 24) ++ [0, 0, 0]) ++ sigBlockMagic from by rw [← this]]
  simp

theorem sign_layout (u : Unsigned) (hu : u.Ok) (ps : List (Nat × Bytes)) (hs : (u.signed ps).length < 2147483648) (hx : u.Last ps) :
    ApkLayout (u.signed ps) u.head (encPairs ps) u.cd (eocd u.fields u.cd.length (u.head ++ sigBlock (encPairs ps)).length u.comment) := by
  have hf := hu.fields
  have hcd := List.length_pos_iff.2 hu.cd
  have hlen : (u.signed ps).length = u.head.length + (sigBlock (encPairs ps)).length + u.cd.length + 22 + u.comment.length := by
    simp [Unsigned.signed, eocd, hf]; omega
  have hsl : (sigBlock (encPairs ps)).length = (encPairs ps).length + 32 := by simp [sigBlock, sigBlockMagic]; omega
  have rl : (eocd u.fields u.cd.length (u.head ++ sigBlock (encPairs ps)).length u.comment).length = 22 + u.comment.length := by simp [eocd, hf]; omega
  refine ⟨rfl, ⟨u.comment.length, ⟨⟨rfl, rl, hu.comment, rfl, ?_⟩, hx⟩⟩, ?_, ?_, ?_⟩
  · unfold eocd
    rw [List.drop_left' (by simp [hf]), List.take_left' (by simp)]
  · refine ⟨?_, ?_, ?_, ?_, ?_, ?_⟩
    · unfold eocd
      rw [List.append_assoc _ (leBytes 4 _), List.drop_left' (by simp [hf]), List.take_left' (by simp)]
    · simp only [List.length_append]; omega
    · unfold eocd
      rw [List.append_assoc _ (leBytes 4 _), List.append_assoc _ (leBytes 4 _), List.drop_left' (by simp [hf]), List.take_left' (by simp)]
    · omega
    · simp only [List.length_append]; omega
    · simp only [List.length_append]
  · rintro ⟨h20, hz⟩
    by_cases hc : 20 ≤ u.cd.length
    · apply hu.noZip64
      rw [← hz]
      congr 1
      rw [List.drop_append]
      have : (u.head ++ sigBlock (encPairs ps)).drop ((u.head ++ sigBlock (encPairs ps) ++ u.cd).length - 20) = [] := by
        apply List.drop_eq_nil_of_le
        simp only [List.length_append]; omega
      rw [this, List.nil_append]
      congr 1
      simp only [List.length_append]; omega
    · obtain ⟨y, hy⟩ := sigBlock_tail (encPairs ps) (by omega)
      have e : u.head ++ sigBlock (encPairs ps) ++ u.cd = (u.head ++ y) ++ (([0, 0, 0] ++ sigBlockMagic) ++ u.cd) := by
        rw [hy]; simp
      have el : (([0, 0, 0] ++ sigBlockMagic : Bytes) ++ u.cd).length = 19 + u.cd.length := by simp [sigBlockMagic]; omega
      rw [e, List.drop_append] at hz
      have : (u.head ++ y).drop ((u.head ++ y ++ (([0, 0, 0] ++ sigBlockMagic) ++ u.cd)).length - 20) = [] := by
        apply List.drop_eq_nil_of_le
        have := List.length_append (as := u.head ++ y) (bs := ([0, 0, 0] ++ sigBlockMagic) ++ u.cd)
        omega
      rw [this, List.nil_append] at hz
      have k : (u.head ++ y ++ (([0, 0, 0] ++ sigBlockMagic) ++ u.cd)).length - 20 - (u.head ++ y).length = u.cd.length - 1 := by
        rw [List.length_append (as := u.head ++ y), el]; omega
      rw [k, List.drop_append_of_le_length (by simp [sigBlockMagic]; omega)] at hz
      have fin : ∀ j : Fin 19, ¬ ((([0, 0, 0] ++ sigBlockMagic : Bytes).drop j.val).take 4 <+: [0x50, 0x4b, 0x06, 0x07]) := by decide
      apply fin ⟨u.cd.length - 1, by omega⟩
      rw [← hz, List.take_append]
      exact List.prefix_append _ _
  · omega

/-! ## Signers -/

theorem recAlg_record {a : Nat} (h : a < 2 ^ 32) (x : Bytes) : recAlg (record a x) = a := by
  unfold recAlg record
  rw [List.take_left' (leBytes_length 4 a), leNat_leBytes]
  exact Nat.mod_eq_of_lt h

theorem recBody_record (a : Nat) {x : Bytes} (h : Small x) : RecBody (record a x) x :=
  ⟨h, [], by unfold record; rw [List.drop_left' (leBytes_length 4 a), List.append_nil]⟩

theorem record_length (a : Nat) (x : Bytes) : (record a x).length = 8 + x.length := by simp [record]; omega

theorem good_alg {a : Nat} (h : a ∈ [0x0101, 0x0102, 0x0103, 0x0104, 0x0201, 0x0202, 0x0301, 0x0421, 0x0423, 0x0425]) :
    a < 2 ^ 32 ∧ 0 < algStrength a := by
  have : ∀ a ∈ [0x0101, 0x0102, 0x0103, 0x0104, 0x0201, 0x0202, 0x0301, 0x0421, 0x0423, 0x0425], a < 2 ^ 32 ∧ 0 < algStrength a := by decide
  exact this a h

theorem lpSeq_mem_len {l : List Bytes} {x : Bytes} (h : x ∈ l) : x.length + 4 ≤ (lpSeq l).length := by
  induction l with
  | nil => cases h
  | cons y l ih =>
    rw [lpSeq_cons, List.length_append, lp_length]
    rcases List.mem_cons.1 h with rfl | h
    · omega
    · have := ih h; omega

theorem sigList_record {a : Nat} (ha : a ∈ [0x0101, 0x0102, 0x0103, 0x0104, 0x0201, 0x0202, 0x0301, 0x0421, 0x0423, 0x0425]) {x : Bytes} (hx : x.length + 8 < 2 ^ 31) :
    SigList (lpSeq [record a x]) [record a x] a x := by
  obtain ⟨h1, h2⟩ := good_alg ha
  have hs : Small x := by unfold Small; omega
  refine ⟨⟨rfl, ?_⟩, ⟨?_, ?_⟩, [], _, [], rfl, recAlg_record h1 x, recBody_record a hs, h2, by simp, by simp⟩
  · intro y hy; rw [List.mem_singleton.1 hy]; unfold Small; rw [record_length]; omega
  · intro y hy; rw [List.mem_singleton.1 hy, record_length]; omega
  · intro pre rec post e _ _
    have hm : rec ∈ [record a x] := by rw [e]; simp
    rw [List.mem_singleton.1 hm]
    exact ⟨x, recBody_record a hs⟩

theorem digestList_record {a : Nat} (h1 : a < 2 ^ 32) {x : Bytes} (hx : x.length + 8 < 2 ^ 31) :
    DigestList (lpSeq [record a x]) [record a x] a x := by
  have hs : Small x := by unfold Small; omega
  refine ⟨⟨rfl, ?_⟩, ?_, ?_, [], _, [], rfl, recAlg_record h1 x, recBody_record a hs, by simp⟩
  · intro y hy; rw [List.mem_singleton.1 hy]; unfold Small; rw [record_length]; omega
  · intro y hy; rw [List.mem_singleton.1 hy, record_length]; omega
  · intro y hy _; rw [List.mem_singleton.1 hy]
    exact ⟨x, recBody_record a hs⟩

theorem lpList_of_len {l : List Bytes} (h : (lpSeq l).length < 2 ^ 31) : LPList (lpSeq l) l :=
  ⟨rfl, fun x hx => by have := lpSeq_mem_len hx; unfold Small; omega⟩

theorem signerV2_ok {env : Env} {u : Unsigned} {s : Signer} {main : Cert} {more : List Cert} (g : s.Good env main more) {attrs : List Bytes}
    (hs : Small (signerV2 env u attrs s)) {maxSdk : Int} {present : Nat → Prop} (hat : ∀ x ∈ attrs, V2AttrOK maxSdk present x) :
    V2SignerOK env maxSdk present (signerV2 env u attrs s) (main :: more) s.alg (digestFor env u s.alg) := by
  have hs' := hs
  unfold Small at hs'
  simp only [signerV2, signedDataV2, List.length_append, lp_length, lpSeq_cons, lpSeq_nil, record_length, List.length_nil] at hs'
  generalize hD : digestFor env u s.alg = d at *
  obtain ⟨key, hk, hv⟩ := g.valid
  refine ⟨signedDataV2 env u attrs s, lpSeq [record s.alg (s.sign (signedDataV2 env u attrs s))], s.pk, [],
    [record s.alg (s.sign (signedDataV2 env u attrs s))], s.sign (signedDataV2 env u attrs s), lpSeq [record s.alg d], lpSeq s.certs, lpSeq attrs, [],
    [record s.alg d], attrs, main, more, ?_, ?_, ?_, ?_, ?_, ?_, ?_, ?_, ?_, ⟨key, hk, hv _⟩, ⟨s.certs, ?_, g.certs, g.main⟩, rfl, ?_, ?_, ?_, hat⟩
  · simp [signerV2]
  · unfold Small
    simp only [signedDataV2, hD, List.length_append, lp_length, lpSeq_cons, lpSeq_nil, record_length, List.length_nil]
    omega
  · unfold Small
    simp only [lpSeq_cons, lpSeq_nil, List.length_append, lp_length, record_length, List.length_nil, signedDataV2, hD] at hs' ⊢
    omega
  · unfold Small; omega
  · simp [signedDataV2, hD]
  · unfold Small
    simp only [lpSeq_cons, lpSeq_nil, List.length_append, lp_length, record_length, List.length_nil]
    omega
  · unfold Small; omega
  · unfold Small; omega
  · refine sigList_record g.alg ?_
    simp only [signedDataV2, lpSeq_cons, lpSeq_nil, hD] at hs' ⊢
    omega
  · exact lpList_of_len (by omega)
  · exact digestList_record (good_alg g.alg).1 (by omega)
  · simp [recAlg_record (good_alg g.alg).1]
  · exact lpList_of_len (by omega)

theorem signerV3_ok {env : Env} {u : Unsigned} {s : Signer} {main : Cert} {more : List Cert} (g : s.Good env main more) {attrs : List Bytes} {mn mx : Nat}
    (hs : Small (signerV3 env u attrs s mn mx)) (h1 : 1 ≤ mn) (h2 : mn ≤ mx) (h3 : mx ≤ 2147483647) {maxSdk rotationMin : Int} {lin : Option (List LNode)}
    (hat : ∀ x ∈ attrs, V3AttrOK env maxSdk rotationMin main x) (hlin : LineageOf env attrs lin) :
    V3SignerOK env maxSdk rotationMin (signerV3 env u attrs s mn mx) ⟨main :: more, s.alg, digestFor env u s.alg, mn, mx, mn, mx, lin⟩ := by
  have hs' := hs
  unfold Small at hs'
  simp only [signerV3, signedDataV3, List.length_append, lp_length, lpSeq_cons, lpSeq_nil, record_length, List.length_nil, leBytes_length] at hs'
  have i32 : ∀ n : Nat, n ≤ 2147483647 → toI32 n = n := by
    intro n h
    have e : n % 4294967296 = n := by omega
    unfold toI32
    simp only [e]
    rw [if_pos (by omega)]
  generalize hD : digestFor env u s.alg = d at *
  obtain ⟨key, hk, hv⟩ := g.valid
  refine ⟨signedDataV3 env u attrs s mn mx, mn, mx, lpSeq [record s.alg (s.sign (signedDataV3 env u attrs s mn mx))], s.pk, [],
    [record s.alg (s.sign (signedDataV3 env u attrs s mn mx))], s.sign (signedDataV3 env u attrs s mn mx), lpSeq [record s.alg d], lpSeq s.certs, mn, mx, lpSeq attrs, [],
    [record s.alg d], attrs, main, more, ?_, ?_, ?_, ?_, by omega, by omega, (i32 mn (by omega)).symm, (i32 mx h3).symm, ?_, ?_, ?_, ?_, by omega, by omega,
    (i32 mn (by omega)).symm, (i32 mx h3).symm, by show (1 : Int) ≤ (mn : Int); omega, by show (mn : Int) ≤ (mx : Int); omega, rfl, ?_, ⟨key, hk, hv _⟩, ⟨s.certs, ?_, g.certs, g.main⟩, rfl, ?_, ?_, ?_, hat, hlin⟩
  · simp [signerV3]
  · unfold Small
    simp only [signedDataV3, hD, List.length_append, lp_length, lpSeq_cons, lpSeq_nil, record_length, List.length_nil, leBytes_length]
    omega
  · unfold Small
    simp only [lpSeq_cons, lpSeq_nil, List.length_append, lp_length, record_length, List.length_nil, signedDataV3, hD] at hs' ⊢
    omega
  · unfold Small; omega
  · simp [signedDataV3, hD]
  · unfold Small
    simp only [lpSeq_cons, lpSeq_nil, List.length_append, lp_length, record_length, List.length_nil]
    omega
  · unfold Small; omega
  · unfold Small; omega
  · refine sigList_record g.alg ?_
    simp only [signedDataV3, lpSeq_cons, lpSeq_nil, hD] at hs' ⊢
    omega
  · exact lpList_of_len (by omega)
  · exact digestList_record (good_alg g.alg).1 (by omega)
  · simp [recAlg_record (good_alg g.alg).1]
  · exact lpList_of_len (by omega)

/-! ## Blocks -/

theorem digest_defined {env : Env} {u : Unsigned} {a : Nat} (hu : u.Ok) (hs : u.head.length + u.cd.length < 2147483648)
    (hv : a ∈ [0x0421, 0x0423, 0x0425] → u.head.length % 4096 = 0) :
    contentDigest env (algDigest a) u.sections = some (digestFor env u a) := by
  have key : (contentDigest env (algDigest a) u.sections).isSome = true := by
    have hc : (mibChunks u.sections).length < 2 ^ 21 - 1 := by
      have he : (eocd u.fields u.cd.length u.head.length u.comment).length = 22 + u.comment.length := by simp [eocd, hu.fields]; omega
      have := hu.comment
      simp only [mibChunks, Unsigned.sections, List.map_cons, List.map_nil, List.flatten_cons, List.flatten_nil, List.length_append, List.length_nil,
        cut_length (n := 1048576) (by decide), he]
      omega
    unfold algDigest
    split
    · show (if (mibChunks u.sections).length < 2 ^ 21 - 1 then _ else _ : Option Bytes).isSome = true
      rw [if_pos hc]; rfl
    · split
      · rename_i h
        show (if u.head.length % 4096 = 0 then _ else _ : Option Bytes).isSome = true
        rw [if_pos (hv h)]; rfl
      · show (if (mibChunks u.sections).length < 2 ^ 21 - 1 then _ else _ : Option Bytes).isSome = true
        rw [if_pos hc]; rfl
  unfold digestFor
  cases h : contentDigest env (algDigest a) u.sections with
  | none => rw [h] at key; cases key
  | some d => rfl

theorem pairs_length (u : Unsigned) (ps : List (Nat × Bytes)) (hu : u.Ok) :
    (u.signed ps).length = u.head.length + u.cd.length + (encPairs ps).length + 54 + u.comment.length := by
  simp [Unsigned.signed, eocd, hu.fields, sigBlock, sigBlockMagic]; omega

theorem encPairs_mem_len {ps : List (Nat × Bytes)} {p : Nat × Bytes} (h : p ∈ ps) : p.2.length + 12 ≤ (encPairs ps).length := by
  induction ps with
  | nil => cases h
  | cons q ps ih =>
    rw [encPairs_cons, List.length_append, encPair_length]
    rcases List.mem_cons.1 h with rfl | h
    · omega
    · have := ih h; omega

theorem signers_length (l : List Bytes) : (signers l).length = 4 + (lpSeq l).length := by simp [signers]

theorem sign_area {u : Unsigned} {ps : List (Nat × Bytes)} (hu : u.Ok) (hs : (u.signed ps).length < 2147483648) (hid : ∀ p ∈ ps, p.1 < 2 ^ 32)
    (hne : ∀ p ∈ ps, p.2 ≠ []) : PairArea (encPairs ps) ps := by
  rw [pairs_length u ps hu] at hs
  refine ⟨rfl, fun p hp => ⟨hid p hp, ?_⟩, fun p hp he => absurd he (hne p (List.mem_of_getLast? hp))⟩
  have := encPairs_mem_len hp
  omega

theorem signers_ne (l : List Bytes) : signers l ≠ [] := by
  intro h
  have := congrArg List.length h
  rw [signers_length] at this
  simp at this

theorem v2_block {env : Env} {u : Unsigned} {l : List (Signer × Cert × List Cert)} (hg : ∀ p ∈ l, p.1.Good env p.2.1 p.2.2) {attrs : List Bytes} {maxSdk : Int}
    {present : Nat → Prop} (hat : ∀ x ∈ attrs, V2AttrOK maxSdk present x) (hs : (signers (l.map (fun p => signerV2 env u attrs p.1))).length < 2147483648) :
    V2Block env maxSdk present (signers (l.map (fun p => signerV2 env u attrs p.1)))
      (l.map (fun p => ⟨p.2.1 :: p.2.2, p.1.alg, digestFor env u p.1.alg⟩)) := by
  rw [signers_length] at hs
  have hsm : ∀ p ∈ l, Small (signerV2 env u attrs p.1) := by
    intro p hp
    have := lpSeq_mem_len (List.mem_map_of_mem (f := fun p => signerV2 env u attrs p.1) hp)
    unfold Small; omega
  refine ⟨lpSeq (l.map (fun p => signerV2 env u attrs p.1)), [], l.map (fun p => (signerV2 env u attrs p.1, ⟨p.2.1 :: p.2.2, p.1.alg, digestFor env u p.1.alg⟩)),
    by simp [signers], by unfold Small; omega, ?_, by simp [Function.comp_def], ?_, ?_⟩
  · rw [List.map_map]
    exact lpList_of_len (by show (lpSeq (l.map (fun p => signerV2 env u attrs p.1))).length < _; omega)
  · intro q hq
    obtain ⟨p, hp, rfl⟩ := List.mem_map.1 hq
    exact signerV2_ok (hg p hp) (hsm p hp) hat
  · intro a ha b hb e
    simp only [List.map_map, List.mem_map, Function.comp_apply] at ha hb
    obtain ⟨p, _, rfl⟩ := ha
    obtain ⟨q, _, rfl⟩ := hb
    simp only at e ⊢
    unfold digestFor
    rw [e]

theorem v3_block {env : Env} {u : Unsigned} {s : Signer} {main : Cert} {more : List Cert} (g : s.Good env main more) {attrs : List Bytes} {mn mx : Nat}
    (h1 : 1 ≤ mn) (h2 : mn ≤ mx) (h3 : mx ≤ 2147483647) {maxSdk rotationMin : Int} {lin : Option (List LNode)}
    (hat : ∀ x ∈ attrs, V3AttrOK env maxSdk rotationMin main x) (hlin : LineageOf env attrs lin)
    (hs : (signers [signerV3 env u attrs s mn mx]).length < 2147483648) :
    V3Block env maxSdk rotationMin (signers [signerV3 env u attrs s mn mx]) [⟨main :: more, s.alg, digestFor env u s.alg, mn, mx, mn, mx, lin⟩] := by
  rw [signers_length] at hs
  have hsm : Small (signerV3 env u attrs s mn mx) := by
    have := lpSeq_mem_len (l := [signerV3 env u attrs s mn mx]) (List.mem_singleton.2 rfl)
    unfold Small; omega
  refine ⟨lpSeq [signerV3 env u attrs s mn mx], [], [(signerV3 env u attrs s mn mx, ⟨main :: more, s.alg, digestFor env u s.alg, mn, mx, mn, mx, lin⟩)],
    by simp [signers], by unfold Small; omega, lpList_of_len (by omega), rfl, ?_, ?_⟩
  · intro q hq
    rw [List.mem_singleton.1 hq]
    exact signerV3_ok g hsm h1 h2 h3 hat hlin
  · intro a ha b hb _
    simp only [List.map_cons, List.map_nil, List.mem_singleton] at ha hb
    rw [ha, hb]

theorem covers_one (v : V3View) {lo hi : Int} (h1 : v.minSdk ≤ lo) (h2 : hi ≤ v.maxSdk) : V3Covers [v] lo hi v.lineage := by
  refine ⟨[v], v.minSdk, v.maxSdk, .refl _, .one v, h1, h2, ?_, ?_⟩
  · cases h : v.lineage <;> simp [h]
  · cases h : v.lineage with
    | none => intro w hw; rw [List.mem_singleton.1 hw]; exact h
    | some t =>
      refine ⟨⟨v, by simp, h⟩, fun w hw l hl => ?_⟩
      rw [List.mem_singleton.1 hw, h] at hl
      rw [Option.some.inj hl]
      exact List.prefix_rfl

/-! ## Lineages -/

theorem entries_chain {env : Env} : ∀ (ms : List (Member × Cert)) (prev : Option (Member × Cert)), (∀ p ∈ ms, p.1.Good env p.2) →
    (∀ p, prev = some p → p.1.Good env p.2) → (∀ x ∈ lineageEntries (prev.map (·.1)) (ms.map (·.1)), x.length < 2 ^ 31) → ∀ prevNode : Option LNode,
    (∀ n, prevNode = some n → ∃ p, prev = some p ∧ n.cert = p.2 ∧ n.algo = p.1.signer.alg) →
    ChainOK env env.parseCertStd prevNode (lineageEntries (prev.map (·.1)) (ms.map (·.1))) (lineageNodes (prev.map (·.1)) ms)
  | [], _, _, _, _, _, _ => trivial
  | (m, c) :: ms, prev, hg, hp, hs, prevNode, hn => by
    have g := hg (m, c) (by simp)
    have hs0 := hs _ (List.mem_cons_self ..)
    simp only [memberEntry, List.length_append, lp_length, leBytes_length] at hs0
    have hpa : (((prev.map (·.1)).map (·.signer.alg)).getD 0) < 2 ^ 32 := by
      cases prev with
      | none => decide
      | some p => exact (hp p rfl).alg
    refine ⟨⟨memberData (((prev.map (·.1)).map (·.signer.alg)).getD 0) m, m.cert, [], [], by simp [memberNode, memberEntry], by simp [memberData, memberNode], ?_, ?_, ?_,
      g.flags, g.alg, hpa, g.cert, ?_⟩, ?_⟩
    · unfold Small; omega
    · unfold Small
      simp only [memberData, List.length_append, lp_length, leBytes_length] at hs0
      omega
    · show _ < 2 ^ 31
      simp only [memberNode]
      omega
    · intro n hnode
      obtain ⟨p, rfl, h1, h2⟩ := hn n hnode
      refine ⟨?_, by show p.1.signer.alg = _; rw [h2]⟩
      rw [h1, h2]
      exact (hp p rfl).valid _
    · refine entries_chain ms (some (m, c)) (fun p h => hg p (List.mem_cons_of_mem _ h)) ?_ (fun x hx => hs x (List.mem_cons_of_mem _ hx)) _ ?_
      · intro p h; rw [← Option.some.inj h]; exact g
      · intro n h; rw [← Option.some.inj h]; exact ⟨(m, c), rfl, rfl, rfl⟩

theorem lineageNodes_raw : ∀ (ms : List (Member × Cert)) (prev : Option Member), (lineageNodes prev ms).map (·.cert) = ms.map (·.2)
  | [], _ => rfl
  | (m, c) :: ms, prev => by
    show c :: (lineageNodes (some m) ms).map (·.cert) = c :: ms.map (·.2)
    rw [lineageNodes_raw ms]

theorem lineageAttr_ok {env : Env} {ms : List (Member × Cert)} (hg : ∀ p ∈ ms, p.1.Good env p.2) (hs : (lineageAttr (ms.map (·.1))).length < 2 ^ 31)
    (hd : (ms.map (·.2.raw)).Nodup) : LineageOK env ((lineageAttr (ms.map (·.1))).drop 4) (lineageNodes none ms) := by
  have hl : ∀ x ∈ lineageEntries none (ms.map (·.1)), x.length < 2 ^ 31 := by
    intro x hx
    have := lpSeq_mem_len hx
    simp only [lineageAttr, List.length_append, leBytes_length] at hs
    omega
  refine .inr ⟨lineageEntries none (ms.map (·.1)), List.drop_left' (leBytes_length _ _), hl, ?_, ?_⟩
  · exact entries_chain ms none hg (by intro p h; cases h) hl none (by intro n h; cases h)
  · have := lineageNodes_raw ms none
    have e : (lineageNodes none ms).map (·.cert.raw) = ms.map (·.2.raw) := by
      have := congrArg (List.map Cert.raw) this
      simpa [List.map_map, Function.comp_def] using this
    rw [e]; exact hd

end Apk
