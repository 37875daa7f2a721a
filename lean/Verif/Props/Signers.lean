import Verif.Proofs.Functional
/-! # Signers, SDK ranges and lineages (C15, C16, C19–C22) -/
namespace Apk
set_option linter.unusedSimpArgs false

/-! ## C15 -/

/-- C15: the algorithm comparison never panics on supported algorithms and is a total preorder: it orders them by strength. -/
theorem C15_compare_total_preorder {a b c : Nat} (ha : 0 < algStrength a) (hb : 0 < algStrength b) (hc : 0 < algStrength c) :
    ∃ ab ba bc ac, compareAlgos a b = .ok ab ∧ compareAlgos b a = .ok ba ∧ compareAlgos b c = .ok bc ∧ compareAlgos a c = .ok ac ∧
      (0 < ab ↔ ba < 0) ∧ (ab = 0 ↔ ba = 0) ∧ (ab ≤ 0 → bc ≤ 0 → ac ≤ 0) ∧ (0 < ab ↔ algStrength b < algStrength a) := by
  obtain ⟨ab, h1, p1, n1⟩ := compareAlgos_spec ha hb
  obtain ⟨ba, h2, p2, n2⟩ := compareAlgos_spec hb ha
  obtain ⟨bc, h3, p3, n3⟩ := compareAlgos_spec hb hc
  obtain ⟨ac, h4, p4, n4⟩ := compareAlgos_spec ha hc
  refine ⟨ab, ba, bc, ac, h1, h2, h3, h4, ?_, ?_, ?_, p1⟩
  · rw [p1, n2]
  · have : ab = 0 ↔ ¬ (0 < ab) ∧ ¬ (ab < 0) := by omega
    have : ba = 0 ↔ ¬ (0 < ba) ∧ ¬ (ba < 0) := by omega
    omega
  · intro q1 q2
    have e1 : ¬ algStrength b < algStrength a := fun h => by have := p1.2 h; omega
    have e2 : ¬ algStrength c < algStrength b := fun h => by have := p3.2 h; omega
    refine Classical.byContradiction (fun hn => ?_)
    have := p4.1 (by omega)
    omega

/-- C15: the strengths: SHA-512 chunked over verity over SHA-256 chunked; anything else is unsupported. -/
theorem C15_strength_table (a : Nat) :
    (algStrength a = 3 ↔ a = 0x0102 ∨ a = 0x0104 ∨ a = 0x0202) ∧
    (algStrength a = 2 ↔ a = 0x0421 ∨ a = 0x0423 ∨ a = 0x0425) ∧
    (algStrength a = 1 ↔ a = 0x0101 ∨ a = 0x0103 ∨ a = 0x0201 ∨ a = 0x0301) ∧
    (algStrength a = 0 ↔ isSupportedAlgo a = false) := by
  refine ⟨?_, ?_, ?_, (algStrength_zero a).symm⟩ <;>
  · unfold algStrength
    simp only [List.mem_cons, List.not_mem_nil, or_false]
    split
    · omega
    · split
      · omega
      · split <;> omega

/-- C15: signature selection succeeds exactly on well-formed lists with a supported algorithm, selects the first signature of
    maximal strength, adds no error, and warns once per unsupported algorithm. -/
theorem C15_selects_strongest {sigs : Bytes} {r r' : Core} {ctx : SigCtx} (h : parseSignatures sigs r = .ok (r', ctx, true)) :
    ∃ recs a s, LPList sigs recs ∧ SigSelected recs a s ∧ ctx.best = some (a, s) ∧ ctx.algos = recs.map recAlg ∧
      r'.errors = r.errors ∧ r'.certs = r.certs ∧
      r'.warnings = r.warnings ++ (recs.filter (fun x => decide (algStrength (recAlg x) = 0))).map (fun x => W.unsupportedAlgo (recAlg x)) := by
  by_cases hs : ∃ recs a s, SigList sigs recs a s
  · obtain ⟨recs, a, s, hs⟩ := hs
    rw [parseSignatures_ok hs] at h
    simp only [Except.ok.injEq, Prod.mk.injEq, and_true] at h
    obtain ⟨rfl, rfl⟩ := h
    exact ⟨recs, a, s, hs.1, hs.2.2, rfl, rfl, rfl, rfl, rfl⟩
  · obtain ⟨r1, c1, h1, _⟩ := parseSignatures_fail hs r
    rw [h1] at h
    simp at h

/-- C15: a list without supported algorithm, or an ill-formed one, is an error; selection never panics. -/
theorem C15_no_supported_is_error {sigs : Bytes} (r : Core)
    (h : ∀ recs, LPList sigs recs → ∀ x ∈ recs, algStrength (recAlg x) = 0) :
    ∃ r' ctx, parseSignatures sigs r = .ok (r', ctx, false) ∧ r'.errors ≠ r.errors := by
  have hn : ¬ ∃ recs a s, SigList sigs recs a s := by
    rintro ⟨recs, a, s, h1, _, h3⟩
    obtain ⟨pre, rc, post, q1, q2, _, q4, _⟩ := h3
    have := h recs h1 rc (by rw [q1]; simp)
    rw [q2] at this; omega
  obtain ⟨r', ctx, h1, _, h2⟩ := parseSignatures_fail hn r
  exact ⟨r', ctx, h1, h2.ne⟩

theorem C15_selection_total (sigs : Bytes) (r : Core) : ∃ x, parseSignatures sigs r = .ok x := by
  by_cases hs : ∃ recs a s, SigList sigs recs a s
  · obtain ⟨recs, a, s, hs⟩ := hs
    exact ⟨_, parseSignatures_ok hs r⟩
  · obtain ⟨r1, c1, h1, _⟩ := parseSignatures_fail hs r
    exact ⟨_, h1⟩

/-- C15, seen from an accepted v2 signer: a signature of maximal strength among those listed was valid over the signed data
    under the declared public key. -/
theorem C15_v2_strongest_verified {env : Env} {maxSdk : Int} {signer : Bytes} {r r' : Core} {cd cd' : Digests}
    (h : v2VerifySigner env maxSdk signer cd r = .ok (r', cd')) (he : r'.errors = r.errors) :
    ∃ signedData sigs pk tail recs a sig key, signer = lp signedData ++ lp sigs ++ lp pk ++ tail ∧ LPList sigs recs ∧
      SigSelected recs a sig ∧ env.parsePKIX pk = some key ∧ SigValid env key a signedData sig := by
  by_cases hs : ∃ chain a d, V2SignerOK env maxSdk (Present r) signer chain a d ∧ Agrees cd (algDigest a) d
  · obtain ⟨chain, a, d, ⟨sd, sg, pk, tl, sr, sig, dg, ct, at_, tl', dr, ar, mn, mo, b1, b2, b3, b4, b5, b6, b7, b8, b9, b10, _⟩, _⟩ := hs
    obtain ⟨key, k1, k2⟩ := b10
    exact ⟨sd, sg, pk, tl, sr, a, sig, key, b1, b9.1, b9.2.2, k1, k2⟩
  · exact absurd he (v2VerifySigner_fail hs h).2.ne

/-- A list with an unsupported and two supported algorithms of different strength: the stronger one is selected. -/
example : ∃ r' ctx, parseSignatures (lpSeq [Toy.algRec 0x9999 [], Toy.algRec 0x0103 [1], Toy.algRec 0x0421 [2]]) {} = .ok (r', ctx, true) ∧
    ctx.best = some (0x0421, [2]) ∧ r'.warnings = [W.unsupportedAlgo 0x9999] := by
  exact ⟨_, _, rfl, rfl, rfl⟩

/-! ## C16 -/

/-- C16: processing a v2 signer adds no error exactly when it satisfies the specification and its digest agrees with the
    digests of preceding signers. Then its certificates become one more chain and its digest is recorded. -/
theorem C16_v2_signer_iff_spec {env : Env} {maxSdk : Int} {signer : Bytes} {r r' : Core} {cd cd' : Digests}
    (h : v2VerifySigner env maxSdk signer cd r = .ok (r', cd')) :
    r'.errors = r.errors ↔
      ∃ chain a d, V2SignerOK env maxSdk (fun id => mget r.extraBlocks id ≠ none) signer chain a d ∧
        (∀ d', mget cd (algDigest a) = some d' → d' = d) := by
  have hP : (fun id => mget r.extraBlocks id ≠ none) = Present r := by
    funext id; unfold Present; cases mget r.extraBlocks id <;> simp
  rw [hP]
  constructor
  · intro he
    refine Classical.byContradiction (fun hs => ?_)
    exact absurd he (v2VerifySigner_fail hs h).2.ne
  · rintro ⟨chain, a, d, h1, h2⟩
    obtain ⟨ws, hw⟩ := v2VerifySigner_ok (cd := cd) h1 h2
    rw [hw] at h
    simp only [Except.ok.injEq, Prod.mk.injEq] at h
    rw [← h.1]

/-- C16: the effect of an accepted signer. -/
theorem C16_v2_signer_effect {env : Env} {maxSdk : Int} {signer : Bytes} {r : Core} {cd : Digests} {chain : List Cert} {a : Nat} {d : Bytes}
    (h : V2SignerOK env maxSdk (fun id => mget r.extraBlocks id ≠ none) signer chain a d)
    (hd : ∀ d', mget cd (algDigest a) = some d' → d' = d) :
    ∃ r' cd', v2VerifySigner env maxSdk signer cd r = .ok (r', cd') ∧ r'.errors = r.errors ∧ r'.certs = r.certs ++ [chain] ∧
      mget cd' (algDigest a) = some d := by
  have hP : (fun id => mget r.extraBlocks id ≠ none) = Present r := by
    funext id; unfold Present; cases mget r.extraBlocks id <;> simp
  rw [hP] at h
  obtain ⟨ws, hw⟩ := v2VerifySigner_ok (cd := cd) h hd
  exact ⟨_, _, hw, rfl, rfl, mget_mset_self _ _ _⟩

/-- The toy signer meets the specification. -/
example : ∃ chain a d, V2SignerOK Toy.env 35 (fun id => mget ({} : Core).extraBlocks id ≠ none) (Toy.v2signer Toy.k1 Toy.digest []) chain a d ∧
    (∀ d', mget ([] : Digests) (algDigest a) = some d' → d' = d) := by
  have hd : (match v2VerifySigner Toy.env 35 (Toy.v2signer Toy.k1 Toy.digest []) [] {} with
    | .ok x => decide (x.1.errors = []) | .error _ => false) = true := by decide +kernel
  split at hd
  · rename_i x hx
    exact (C16_v2_signer_iff_spec hx).1 (of_decide_eq_true hd)
  · cases hd

/-! ## C19 -/

/-- C19, partial: processing a v3 signer adds no error exactly when it satisfies the specification `V3SignerOK` - in which the
    signed minimum SDK version equals the unsigned one - and its digest agrees with those of preceding signers. Missing from
    the full claim: equality of the maximum SDK versions (`C19_signed_max_sdk_not_checked` shows it cannot be added). -/
theorem C19_v3_signer_iff_spec_partial {env : Env} {p : V3Params} {signer : Bytes} {r r' : Core} {cd cd' : Digests} {i : Option SignerInfo}
    (h : v3VerifySigner env p signer cd r = .ok (r', cd', i)) :
    r'.errors = r.errors ↔ ∃ v, V3SignerOK env p.maxSdk p.rotationMin signer v ∧ v.signedMin = v.minSdk ∧
      (∀ d', mget cd (algDigest v.alg) = some d' → d' = v.digest) := by
  constructor
  · intro he
    refine Classical.byContradiction (fun hs => ?_)
    refine absurd he (v3VerifySigner_fail (fun hx => hs ?_) h).2.ne
    obtain ⟨v, h1, h2⟩ := hx
    have h1' := h1
    obtain ⟨_, _, _, _, _, _, _, _, _, _, _, _, _, _, _, _, _, _, _, _, _, _, _, _, _, _, _, _, _, _, _, _, _, _, _, _, c3, _⟩ := h1
    exact ⟨v, h1', c3, h2⟩
  · rintro ⟨v, h1, _, h2⟩
    obtain ⟨ws, hw⟩ := v3VerifySigner_ok (cd := cd) (r := r) h1 h2
    rw [hw] at h
    simp only [Except.ok.injEq, Prod.mk.injEq] at h
    rw [← h.1]

/-- What a signer of known layout declares. -/
theorem V3SignerOK.sdks {env : Env} {m r : Int} {v : V3View} {sd rest dg ct rest' : Bytes} {mn mx smin smax : Nat}
    (h : V3SignerOK env m r (lp sd ++ leBytes 4 mn ++ leBytes 4 mx ++ rest) v) (hs : Small sd)
    (hsd : sd = lp dg ++ lp ct ++ leBytes 4 smin ++ leBytes 4 smax ++ rest') (h1 : Small dg) (h2 : Small ct) (n1 : mn < 2 ^ 32)
    (n2 : mx < 2 ^ 32) (n3 : smin < 2 ^ 32) (n4 : smax < 2 ^ 32) :
    v.minSdk = toI32 mn ∧ v.maxSdk = toI32 mx ∧ v.signedMin = toI32 smin ∧ v.signedMax = toI32 smax := by
  obtain ⟨sd', mn', mx', sg', pk', tl2, sr', sig', dg', ct', smin', smax', at', tl2', dr', ar', main', more', c1, c2, c3, c4, c5, c6, c7, c8, c9, c10, c11, c12, c13, c14,
    c15, c16, _⟩ := h
  simp only [List.append_assoc] at c1
  obtain ⟨e1, c1⟩ := lp_inj_tail hs c2 c1
  obtain ⟨f1, c1⟩ := List.append_inj c1 (by simp)
  obtain ⟨f2, c1⟩ := List.append_inj c1 (by simp)
  subst e1
  rw [hsd] at c9
  simp only [List.append_assoc] at c9
  obtain ⟨e3, c9⟩ := lp_inj_tail h1 c10 c9
  obtain ⟨e4, c9⟩ := lp_inj_tail h2 c11 c9
  obtain ⟨f3, c9⟩ := List.append_inj c9 (by simp)
  obtain ⟨f4, c9⟩ := List.append_inj c9 (by simp)
  have g1 := leBytes_inj f1 (by omega) (by omega)
  have g2 := leBytes_inj f2 (by omega) (by omega)
  have g3 := leBytes_inj f3 (by omega) (by omega)
  have g4 := leBytes_inj f4 (by omega) (by omega)
  subst g1; subst g2; subst g3; subst g4
  exact ⟨c7, c8, c15, c16⟩

/-- What the acceptance by v3 says. -/
theorem accepted_v3 {env : Env} {zip : Zip} {file : Bytes} {minSdk maxSdk : Int} {out : Outcome}
    {head area cd rec : Bytes} (hl : ApkLayout file head area cd rec)
    (h : verifySigningBlock env zip file minSdk maxSdk = .ok out) (he : out.err = none)
    (hs : out.res.map (·.core.schemeId) = some 3) :
    ∃ ps b vs res, PairArea area ps ∧ lastVal ps idV3 = some b ∧ out.res = some res ∧ res.core.certs = vs.map V3View.chain ∧
      V3Accepts env (signedSections head cd rec) minSdk maxSdk b vs (res.core.lineage.map Lineage.nodes) := by
  obtain ⟨ps, res, ha, h1, h2, h3⟩ := verdict_sound hl h he
  rw [h1] at hs
  simp only [Option.map_some, Option.some.injEq] at hs
  rcases h3 with h3 | ⟨stale, vs, h3, h4, _⟩
  · rw [hs] at h3
    generalize hcs : res.core.certs = cs at h3
    generalize hln : res.core.lineage.map Lineage.nodes = ln at h3
    cases h3 with
    | v3 _ _ hb hA => exact ⟨ps, _, _, res, ha, hb, h1, hcs, hln ▸ hA⟩
  · rw [hs] at h4; cases h4

/-- What the acceptance by v3.1 says. -/
theorem accepted_v31 {env : Env} {zip : Zip} {file : Bytes} {minSdk maxSdk : Int} {out : Outcome}
    {head area cd rec : Bytes} (hl : ApkLayout file head area cd rec)
    (h : verifySigningBlock env zip file minSdk maxSdk = .ok out) (he : out.err = none)
    (hs : out.res.map (·.core.schemeId) = some 31) :
    ∃ ps b b3 vs vs3 top3 res, PairArea area ps ∧ lastVal ps idV31 = some b ∧ lastVal ps idV3 = some b3 ∧ out.res = some res ∧
      res.core.certs = vs.map V3View.chain ∧
      V31Accepts env (signedSections head cd rec) minSdk maxSdk b b3 vs vs3 (res.core.lineage.map Lineage.nodes) top3 := by
  obtain ⟨ps, res, ha, h1, h2, h3⟩ := verdict_sound hl h he
  rw [h1] at hs
  simp only [Option.map_some, Option.some.injEq] at hs
  rcases h3 with h3 | ⟨stale, vs, h3, h4, _⟩
  · rw [hs] at h3
    generalize hcs : res.core.certs = cs at h3
    generalize hln : res.core.lineage.map Lineage.nodes = ln at h3
    cases h3 with
    | v31 _ hb hb3 hA => exact ⟨ps, _, _, _, _, _, res, ha, hb, hb3, h1, hcs, hln ▸ hA⟩
  · rw [hs] at h4; cases h4

namespace Toy
/-- A v3 signer by `k1` whose signed maximum SDK version is 30 while the unsigned one is unlimited. -/
def maxSigner : Bytes := v3signer k1 digest 28 0x7fffffff 28 30 []
/-- An APK with that signer. -/
def psMax : List (Nat × Bytes) := [(idV3, block [maxSigner])]
theorem layoutMax : ApkLayout (apkOf psMax) head (encPairs psMax) cdir (eocd cdir.length (head ++ sigBlock (encPairs psMax)).length) :=
  apkOf_layout _ (by decide +kernel) (by unfold Zip64Before; decide +kernel)
theorem pairAreaMax : PairArea (encPairs psMax) psMax := area_of (by decide +kernel) (by decide +kernel)
end Toy

/-- C19 is false of the code for the maximum SDK version: an APK is accepted under v3 although one of its v3 signers signed
    another maximum SDK version than the one its block states (and that is used for the SDK range). -/
theorem C19_signed_max_sdk_not_checked :
    ∃ (env : Env) (zip : Zip) (file : Bytes) (minSdk maxSdk : Int) (out : Outcome) (head area cd rec : Bytes)
      (ps : List (Nat × Bytes)) (block : Bytes) (vs : List V3View),
      verifySigningBlock env zip file minSdk maxSdk = .ok out ∧ out.err = none ∧ out.res.map (·.core.schemeId) = some 3 ∧
      ApkLayout file head area cd rec ∧ PairArea area ps ∧ lastVal ps idV3 = some block ∧ V3Block env maxSdk 0 block vs ∧
      ∃ v ∈ vs, v.signedMax = 30 ∧ v.maxSdk = 2147483647 := by
  obtain ⟨out, h, hs⟩ := Toy.run_sum (ps := Toy.psMax) (a := 24) (b := 35) (some (3, [[Toy.certOf Toy.k1]], []), none) (by decide +kernel)
  obtain ⟨res0, h1, h2, _⟩ := Toy.sum_res hs
  have hsid : out.res.map (·.core.schemeId) = some 3 := by rw [h1]; simp [h2]
  obtain ⟨ps, b, vs, res, ha, hb, _, _, hA⟩ := accepted_v3 Toy.layoutMax h (Toy.sum_err hs) hsid
  have := pairArea_unique ha Toy.pairAreaMax
  subst this
  refine ⟨_, _, _, _, _, out, _, _, _, _, _, b, vs, h, Toy.sum_err hs, hsid, Toy.layoutMax, Toy.pairAreaMax, hb, hA.1, ?_⟩
  have hb' : lastVal Toy.psMax idV3 = some (Toy.block [Toy.maxSigner]) := by decide +kernel
  rw [hb] at hb'
  have hb' := Option.some.inj hb'
  obtain ⟨s, t, l, g1, g2, g3, g4, g5, _⟩ := hA.1
  rw [hb'] at g1
  have e : lp (lpSeq [Toy.maxSigner]) ++ [] = lp s ++ t := by rw [List.append_nil]; exact g1
  obtain ⟨e, _⟩ := lp_inj_tail (by decide +kernel) g2 e
  subst e
  have e := lpList_unique g3 ⟨rfl, by decide +kernel⟩
  cases l with
  | nil => cases e
  | cons x l =>
    simp only [List.map_cons, List.cons.injEq] at e
    have hx := g5 x (by simp)
    rw [e.1] at hx
    refine ⟨x.2, by rw [g4]; simp, ?_⟩
    unfold Toy.maxSigner Toy.v3signer at hx
    simp only [] at hx
    rw [List.append_assoc _ (lp _) (lp _)] at hx
    obtain ⟨q1, q2, q3, q4⟩ := hx.sdks (by decide +kernel) rfl (by decide +kernel) (by decide +kernel) (by decide) (by decide) (by decide) (by decide)
    rw [q4, q2]
    exact ⟨rfl, rfl⟩

/-- A signer that meets the specification with equal signed and unsigned ranges. -/
example : ∃ v, V3SignerOK Toy.env 35 0 (Toy.v3signer Toy.k1 Toy.digest 28 32 28 32 []) v ∧ v.signedMin = v.minSdk ∧
    (∀ d', mget ([] : Digests) (algDigest v.alg) = some d' → d' = v.digest) := by
  have hd : (match v3VerifySigner Toy.env ⟨false, 35, 0⟩ (Toy.v3signer Toy.k1 Toy.digest 28 32 28 32 []) [] {} with
    | .ok x => decide (x.1.errors = []) | .error _ => false) = true := by decide +kernel
  split at hd
  · rename_i x hx
    exact (C19_v3_signer_iff_spec_partial (p := ⟨false, 35, 0⟩) hx).1 (of_decide_eq_true hd)
  · cases hd

end Apk
