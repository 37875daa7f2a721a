import Verif.Props.Verdict
/-! # Stripping protection, v3.1, fallback, errors, extraction (C18, C23–C25, C45) -/
namespace Apk
set_option linter.unusedSimpArgs false

theorem lp_inj_tail {a b s t : Bytes} (ha : Small a) (hb : Small b) (h : lp a ++ s = lp b ++ t) : a = b ∧ s = t := by
  have e := congrArg rdLP h
  rw [rdLP_lp _ _ ha, rdLP_lp _ _ hb] at e
  simpa using e

theorem lpList_unique {b : Bytes} {xs ys : List Bytes} (h : LPList b xs) (h' : LPList b ys) : xs = ys := by
  have e1 := (lpSplit_ok_iff b xs).2 ⟨h.2, h.1⟩
  rw [(lpSplit_ok_iff b ys).2 ⟨h'.2, h'.1⟩] at e1
  simpa using e1.symm

theorem signersOf_unique {b : Bytes} {xs ys : List Bytes} (h : SignersOf b xs) (h' : SignersOf b ys) : xs = ys := by
  obtain ⟨c, t, h1, h2, h3⟩ := h
  obtain ⟨c', t', h1', h2', h3'⟩ := h'
  rw [h1] at h1'
  obtain ⟨rfl, _⟩ := lp_inj_tail h2 h2' h1'
  exact lpList_unique h3 h3'

/-- A conforming signer's declaration is honoured. -/
theorem declares_present {env : Env} {maxSdk : Int} {present : Nat → Prop} {signer : Bytes} {chain : List Cert} {a : Nat} {d : Bytes}
    (h : V2SignerOK env maxSdk present signer chain a d) (hm : 28 ≤ maxSdk) {k : Nat} (hk : DeclaresScheme signer k) :
    ∃ bid, schemeBlock k = some bid ∧ present bid := by
  obtain ⟨sd, sigs, pk, tail, _, _, digests, certs, attrs, tail', _, attrRecs, _, _, h1, s1, _, _, h2, s4, s5, s6, _, _, _, _, _, _, h3, h4⟩ := h
  obtain ⟨sd', dg', ct', at', tl, tl', recs, attr, g1, t1, g2, t4, t5, t6, g3, g4, g5, g6⟩ := hk
  rw [h1, List.append_assoc, List.append_assoc] at g1
  obtain ⟨rfl, _⟩ := lp_inj_tail s1 t1 g1
  rw [h2] at g2
  simp only [List.append_assoc] at g2
  obtain ⟨rfl, k2⟩ := lp_inj_tail s4 t4 g2
  obtain ⟨rfl, k3⟩ := lp_inj_tail s5 t5 k2
  obtain ⟨rfl, _⟩ := lp_inj_tail s6 t6 k3
  have := lpList_unique g3 h3
  subst this
  obtain ⟨_, bid, h5, h6⟩ := (h4 attr g4).2 g5 hm
  exact ⟨bid, by rw [← g6]; exact h5, h6⟩

section
variable {env : Env} {zip : Zip} {file : Bytes} {minSdk maxSdk : Int} {out : Outcome}

/-! ## C18 -/

/-- C18: if an APK is accepted under v2 for a range reaching Android 9, every scheme a v2 signer declares is a known one and
    its block is present; it is reported as extra block, or it is the v3 block that failed before the fallback. -/
theorem C18_declared_schemes_present {head area cd rec : Bytes} {ps : List (Nat × Bytes)} (hl : ApkLayout file head area cd rec)
    (ha : PairArea area ps) (h : verifySigningBlock env zip file minSdk maxSdk = .ok out) (he : out.err = none)
    (hs : out.res.map (·.core.schemeId) = some 2) (hm : 28 ≤ maxSdk) {block : Bytes} (hb : lastVal ps idV2 = some block)
    {signers : List Bytes} (hss : SignersOf block signers) {s : Bytes} (hsm : s ∈ signers) {k : Nat} (hk : DeclaresScheme s k) :
    ∃ bid, schemeBlock k = some bid ∧ InBlock ps bid ∧
      (ExtraPresent ps maxSdk bid ∨ (bid = idV3 ∧ strongest ps maxSdk = some 3 ∧ minSdk < 28)) := by
  obtain ⟨ps', res, ha', h1, h2, h3⟩ := verdict_sound hl h he
  have := pairArea_unique ha ha'
  subst this
  rw [h1] at hs
  simp only [Option.map_some, Option.some.injEq] at hs
  have key : ∀ {present : Nat → Prop} {b : Bytes} {vs : List V2View}, lastVal ps idV2 = some b → V2Block env maxSdk present b vs →
      ∃ bid, schemeBlock k = some bid ∧ present bid := by
    intro present b vs hb' hv
    rw [hb] at hb'
    have := Option.some.inj hb'
    subst this
    obtain ⟨sg, tl, l, e1, e2, e3, e4, e5, _⟩ := hv
    have := signersOf_unique hss ⟨sg, tl, e1, e2, e3⟩
    subst this
    obtain ⟨p, hp, rfl⟩ := List.mem_map.1 hsm
    exact declares_present (e5 p hp) hm hk
  rcases h3 with h3 | ⟨stale, vs, h3, _⟩
  · rw [hs] at h3
    generalize hcs : res.core.certs = cs at h3
    generalize hln : res.core.lineage.map Lineage.nodes = ln at h3
    cases h3 with
    | v2 _ _ _ hb' hA _ =>
      obtain ⟨bid, e1, e2⟩ := key hb' hA.1
      exact ⟨bid, e1, e2.2, .inl e2⟩
  · cases h3 with
    | mk a1 a2 a3 a4 _ hb' hA _ =>
      obtain ⟨bid, e1, e2⟩ := key hb' hA.1
      rcases e2 with rfl | e2
      · exact ⟨_, e1, by unfold InBlock; rw [a4]; simp, .inr ⟨rfl, strongest_3 a3 a1 a4, a2⟩⟩
      · exact ⟨bid, e1, e2.2, .inl e2⟩

/-- C18: stripping the v3 block from an APK whose v2 signer declares it makes verification fail (from Android 9 on). -/
theorem C18_stripped_v3_rejected {head area cd rec : Bytes} {ps : List (Nat × Bytes)} (hl : ApkLayout file head area cd rec)
    (ha : PairArea area ps) (h : verifySigningBlock env zip file minSdk maxSdk = .ok out) (hm : 28 ≤ maxSdk)
    (h31 : lastVal ps idV31 = none) (h3 : lastVal ps idV3 = none) {block : Bytes} (hb : lastVal ps idV2 = some block)
    {signers : List Bytes} (hss : SignersOf block signers) {s : Bytes} (hsm : s ∈ signers) (hk : DeclaresScheme s 3) :
    out.err ≠ none := by
  intro he
  obtain ⟨res, h1, h2⟩ := C06_strongest_scheme hl ha (by omega) h
  have hst : strongest ps maxSdk = some 2 := strongest_2 (fun _ => h31) (fun _ => h3) (by omega) hb
  have hid : res.core.schemeId = 2 := by
    rcases h2 with ⟨h, _⟩ | h | ⟨h, _⟩
    · rw [hst] at h; cases h
    · rw [hst] at h; exact (Option.some.inj h).symm
    · rw [hst] at h; cases h
  obtain ⟨bid, e1, e2, _⟩ := C18_declared_schemes_present hl ha h he (by rw [h1]; simp [hid]) hm hb hss hsm hk
  have : bid = idV3 := by
    have : schemeBlock 3 = some idV3 := rfl
    rw [this] at e1; exact (Option.some.inj e1).symm
  subst this
  exact e2 h3

/-- C18: below Android 9 the attribute is ignored: acceptance of a v2 block does not depend on which blocks are present. -/
theorem C18_ignored_before_28 (hm : maxSdk < 28) (present present' : Nat → Prop) (block : Bytes) (vs : List V2View) :
    V2Block env maxSdk present block vs → V2Block env maxSdk present' block vs := by
  rintro ⟨signers, tail, l, h1, h2, h3, h4, h5, h6⟩
  refine ⟨signers, tail, l, h1, h2, h3, h4, fun p hp' => ?_, h6⟩
  obtain ⟨a1, a2, a3, a4, a5, a6, a7, a8, a9, a10, a11, a12, a13, a14, b1, b2, b3, b4, b5, b6, b7, b8, b9, b10, b11, b12, b13,
    b14, b15, b16⟩ := h5 p hp'
  exact ⟨a1, a2, a3, a4, a5, a6, a7, a8, a9, a10, a11, a12, a13, a14, b1, b2, b3, b4, b5, b6, b7, b8, b9, b10, b11, b12, b13,
    b14, b15, fun x hx => ⟨(b16 x hx).1, fun _ c2 => by omega⟩⟩

end

namespace Toy
/-- The stripping-protection attribute. -/
def stripAttr (k : Nat) : Bytes := leBytes 4 0xbeeff00d ++ leBytes 4 k
/-- A v2 signer that declares scheme 3. -/
def stripSigner : Bytes := v2signer k1 digest [stripAttr 3]
/-- A v2 block whose signer declares scheme 3, without v3 block. -/
def psStripped : List (Nat × Bytes) := [(idV2, block [stripSigner])]
/-- The same with the v3 block. -/
def psUnstripped : List (Nat × Bytes) :=
  [(idV3, block [v3signer k1 digest 28 0x7fffffff 28 0x7fffffff []]), (idV2, block [stripSigner])]

theorem strip_declares : DeclaresScheme stripSigner 3 := by
  refine ⟨lp (lpSeq [algRec 0x0103 digest]) ++ lp (lpSeq [0xC0 :: k1]) ++ lp (lpSeq [stripAttr 3]), lpSeq [algRec 0x0103 digest],
    lpSeq [0xC0 :: k1], lpSeq [stripAttr 3],
    lp (lpSeq [algRec 0x0103 (sign k1 (lp (lpSeq [algRec 0x0103 digest]) ++ lp (lpSeq [0xC0 :: k1]) ++ lp (lpSeq [stripAttr 3])))]) ++ lp k1,
    [], [stripAttr 3], stripAttr 3, ?_, by decide +kernel, by simp, by decide +kernel, by decide +kernel,
    by decide +kernel, ⟨rfl, by decide +kernel⟩, by simp, by decide +kernel, by decide +kernel⟩
  · unfold stripSigner v2signer
    simp only [List.append_assoc]

theorem strip_signers : SignersOf (block [stripSigner]) [stripSigner] :=
  ⟨lpSeq [stripSigner], [], by simp [block], by decide +kernel, rfl, by decide +kernel⟩

theorem layoutStripped : ApkLayout (apkOf psStripped) head (encPairs psStripped) cdir (eocd cdir.length (head ++ sigBlock (encPairs psStripped)).length) :=
  apkOf_layout _ (by decide +kernel) (by unfold Zip64Before; decide +kernel)
theorem pairAreaStripped : PairArea (encPairs psStripped) psStripped := area_of (by decide +kernel) (by decide +kernel)

end Toy

/-- The hypotheses of `C18_stripped_v3_rejected` are met: the stripped APK is rejected. -/
example : ∃ out, Toy.run Toy.psStripped 24 30 = .ok out ∧ out.err ≠ none := by
  obtain ⟨out, h, _⟩ := Toy.run_sum (ps := Toy.psStripped) (a := 24) (b := 30) (some (2, [[Toy.certOf Toy.k1]], [.stripped]), some .stripped) (by decide +kernel)
  exact ⟨out, h, C18_stripped_v3_rejected Toy.layoutStripped Toy.pairAreaStripped h (by decide) (by decide +kernel) (by decide +kernel)
    (by decide +kernel) Toy.strip_signers (by simp) Toy.strip_declares⟩
/-- With the v3 block, or below Android 9, it is accepted. -/
example : ∃ out, Toy.run Toy.psUnstripped 24 30 = .ok out ∧ out.err = none := by
  obtain ⟨out, h, hs⟩ := Toy.run_sum (ps := Toy.psUnstripped) (a := 24) (b := 30) (some (3, [[Toy.certOf Toy.k1]], []), none) (by decide +kernel)
  exact ⟨out, h, Toy.sum_err hs⟩
example : ∃ out, Toy.run Toy.psStripped 24 27 = .ok out ∧ out.err = none := by
  obtain ⟨out, h, hs⟩ := Toy.run_sum (ps := Toy.psStripped) (a := 24) (b := 27) (some (2, [[Toy.certOf Toy.k1]], []), none) (by decide +kernel)
  exact ⟨out, h, Toy.sum_err hs⟩

/-! ## C23 -/

namespace Toy
/-- Content digest of some other APK. -/
def otherDigest : Bytes := leBytes 32 424242
/-- A v3.1 block signed by the victim `k2` for another APK, and a v3 block by the attacker `k1` for this APK. -/
def psForeign : List (Nat × Bytes) :=
  [(idV31, block [v3signer k2 otherDigest 33 0x7fffffff 33 0x7fffffff []]), (idV3, block [v3signer k1 digest 28 32 28 32 []])]
theorem layoutForeign : ApkLayout (apkOf psForeign) head (encPairs psForeign) cdir (eocd cdir.length (head ++ sigBlock (encPairs psForeign)).length) :=
  apkOf_layout _ (by decide +kernel) (by unfold Zip64Before; decide +kernel)
theorem pairAreaForeign : PairArea (encPairs psForeign) psForeign := area_of (by decide +kernel) (by decide +kernel)
end Toy

/-- Digests that the parser collects from an accepted v3 or v3.1 block are declared by its signers. -/
theorem declared_of_parse {env : Env} {acting : Bool} {maxSdk : Int} {block : Bytes} {vs : List V3View} (h : V3Block env maxSdk 0 block vs)
    {x : Core × Digests × List SignerInfo} (hx : v3ParseSigners env ⟨acting, maxSdk, 0⟩ block [] {} = .ok x) {t : CD} {d : Bytes}
    (hm : (t, d) ∈ x.2.1) : ∃ p ∈ v3Digests vs, algDigest p.1 = t ∧ p.2 = d := by
  have hagree : DigestsAgree (v3Digests vs) := by obtain ⟨_, _, _, _, _, _, _, _, h⟩ := h; exact h
  obtain ⟨ws, hw⟩ := v3ParseSigners_ok (p := ⟨acting, maxSdk, 0⟩) (r := {}) (V3BlockOK_iff.2 ⟨h, rfl⟩)
  rw [hw] at hx
  have hx := Except.ok.inj hx
  subst hx
  exact (mem_addDigests hagree t d).1 hm

/-- C23 is false of the code: there are an environment, an APK and an outcome with a nil error and scheme 3.1 in which a
    content digest declared by the v3.1 signers, whose certificates are reported, is not the digest of the file. -/
theorem C23_v31_digests_not_checked :
    ∃ (env : Env) (zip : Zip) (file : Bytes) (minSdk maxSdk : Int) (out : Outcome) (res : VRes) (head area cd rec : Bytes)
      (ps : List (Nat × Bytes)) (block : Bytes) (vs : List V3View),
      verifySigningBlock env zip file minSdk maxSdk = .ok out ∧ out.err = none ∧ out.res = some res ∧ res.core.schemeId = 31 ∧
      ApkLayout file head area cd rec ∧ PairArea area ps ∧ lastVal ps idV31 = some block ∧ V3Block env maxSdk 0 block vs ∧
      res.core.certs = vs.map V3View.chain ∧ ¬ DigestsMatch env (signedSections head cd rec) (v3Digests vs) := by
  obtain ⟨out, h, hs⟩ := Toy.run_sum (ps := Toy.psForeign) (a := 24) (b := 35) (some (31, [[Toy.certOf Toy.k2]], []), none) (by decide +kernel)
  obtain ⟨res, h1, h2, h3, _⟩ := Toy.sum_res hs
  obtain ⟨ps, res', ha, r1, _, hv⟩ := verdict_sound Toy.layoutForeign h (Toy.sum_err hs)
  have := pairArea_unique ha Toy.pairAreaForeign
  subst this
  rw [r1] at h1
  have h1 := Option.some.inj h1
  subst h1
  rcases hv with hv | ⟨_, _, _, h4, _⟩
  · rw [h2] at hv
    generalize hln : res'.core.lineage.map Lineage.nodes = ln at hv
    generalize hcs : res'.core.certs = cs at hv
    cases hv with
    | v31 u1 hb u2 hA =>
      rename_i b31 b3 vs vs3 top3
      refine ⟨_, _, _, _, _, out, res', _, _, _, _, _, b31, vs, h, Toy.sum_err hs, r1, h2, Toy.layoutForeign, Toy.pairAreaForeign, hb, hA.1, hcs, ?_⟩
      have hb' : lastVal Toy.psForeign idV31 = some (Toy.block [Toy.v3signer Toy.k2 Toy.otherDigest 33 0x7fffffff 33 0x7fffffff []]) := by
        decide +kernel
      rw [hb] at hb'
      have hb' := Option.some.inj hb'
      subst hb'
      have hx : ∃ x, v3ParseSigners Toy.env ⟨true, 35, 0⟩ (Toy.block [Toy.v3signer Toy.k2 Toy.otherDigest 33 0x7fffffff 33 0x7fffffff []]) [] {} = .ok x ∧
          (CD.chunked256, Toy.otherDigest) ∈ x.2.1 := by
        have hd : (match v3ParseSigners Toy.env ⟨true, 35, 0⟩ (Toy.block [Toy.v3signer Toy.k2 Toy.otherDigest 33 0x7fffffff 33 0x7fffffff []]) [] {} with
          | .ok x => decide ((CD.chunked256, Toy.otherDigest) ∈ x.2.1) | .error _ => false) = true := by decide +kernel
        split at hd
        · rename_i x hx; exact ⟨x, hx, of_decide_eq_true hd⟩
        · cases hd
      obtain ⟨x, hx, hm⟩ := hx
      obtain ⟨p, hp, e1, e2⟩ := declared_of_parse hA.1 hx hm
      intro hM
      have := hM p hp
      rw [e1, e2] at this
      revert this
      decide +kernel
  · rw [h2] at h4; cases h4

/-- C23, what holds: under scheme 3.1 the v3.1 signers conform (their signatures, certificates, SDK ranges and lineages), a
    v3 base block is present, its signers conform and agree with the rotation, and their content digests match the file.
    Missing: the content digests of the v3.1 signers (`C23_v31_digests_not_checked` shows it cannot be added). -/
theorem C23_v31_bound_to_file_partial {env : Env} {zip : Zip} {file : Bytes} {minSdk maxSdk : Int} {out : Outcome}
    (h : verifySigningBlock env zip file minSdk maxSdk = .ok out) (he : out.err = none)
    (hs : out.res.map (·.core.schemeId) = some 31) :
    ∃ head area cd rec ps block31 block3 vs31 vs3 top top3, ApkLayout file head area cd rec ∧ PairArea area ps ∧
      lastVal ps idV31 = some block31 ∧ lastVal ps idV3 = some block3 ∧
      V31Accepts env (signedSections head cd rec) minSdk maxSdk block31 block3 vs31 vs3 top top3 ∧
      out.res.map (·.core.certs) = some (vs31.map V3View.chain) := by
  obtain ⟨head, area, cd, rec, ps, res, hl, ha, h1, h2, h3⟩ := accepted h he
  rw [h1] at hs ⊢
  simp only [Option.map_some, Option.some.injEq] at hs ⊢
  rcases h3 with h3 | ⟨stale, vs, h3, h4, _⟩
  · rw [hs] at h3
    generalize hln : res.core.lineage.map Lineage.nodes = ln at h3
    generalize hcs : res.core.certs = cs at h3 ⊢
    cases h3 with
    | v31 _ hb hb3 hA => exact ⟨_, _, _, _, _, _, _, _, _, _, _, hl, ha, hb, hb3, hA, rfl⟩
  · rw [hs] at h4; cases h4

/-- C23: a v3.1 block without v3 block is never accepted (from Android 13 on). -/
theorem C23_v31_needs_v3 {env : Env} {zip : Zip} {file head area cd rec : Bytes} {minSdk maxSdk : Int} {out : Outcome}
    {ps : List (Nat × Bytes)} (hl : ApkLayout file head area cd rec) (ha : PairArea area ps)
    (h : verifySigningBlock env zip file minSdk maxSdk = .ok out) (hm : 33 ≤ maxSdk) (h31 : lastVal ps idV31 ≠ none)
    (h3 : lastVal ps idV3 = none) : out.err ≠ none := by
  intro he
  obtain ⟨ps', res, ha', h1, h2, hv⟩ := verdict_sound hl h he
  have := pairArea_unique ha ha'
  subst this
  rcases hv with hv | ⟨stale, vs, hv, _⟩
  · generalize hln : res.core.lineage.map Lineage.nodes = ln at hv
    generalize hcs : res.core.certs = cs at hv
    generalize hid : res.core.schemeId = id at hv
    cases hv with
    | old h => omega
    | v31 _ _ hb3 _ => rw [h3] at hb3; cases hb3
    | v3 _ _ hb3 _ => rw [h3] at hb3; cases hb3
    | v2 _ hn _ _ _ _ => exact h31 (hn hm)
  · cases hv with
    | mk _ _ _ hb3 _ _ _ _ => rw [h3] at hb3; cases hb3

namespace Toy
/-- v3.1 without v3. -/
def psOnly31 : List (Nat × Bytes) := [(idV31, block [v3signer k2 digest 33 0x7fffffff 33 0x7fffffff []]), (idV2, block [v2signer k1 digest []])]
theorem layoutOnly31 : ApkLayout (apkOf psOnly31) head (encPairs psOnly31) cdir (eocd cdir.length (head ++ sigBlock (encPairs psOnly31)).length) :=
  apkOf_layout _ (by decide +kernel) (by unfold Zip64Before; decide +kernel)
theorem pairAreaOnly31 : PairArea (encPairs psOnly31) psOnly31 := area_of (by decide +kernel) (by decide +kernel)
end Toy

example : ∃ out, Toy.run Toy.psOnly31 24 35 = .ok out ∧ out.err ≠ none := by
  have hd : Toy.check (Toy.run Toy.psOnly31 24 35) (fun _ => true) = true := by decide +kernel
  obtain ⟨out, h, _⟩ := Toy.of_check hd
  exact ⟨out, h, C23_v31_needs_v3 Toy.layoutOnly31 Toy.pairAreaOnly31 h (by decide) (by decide +kernel) (by decide +kernel)⟩

/-! ## C24 -/

/-- C24: an APK with a v3 or v3.1 block in use that is accepted under v2 has no v3.1 block in use, its v3 block is not valid,
    the minimum SDK is below 28, a valid v2 block is present, and an error of v3 is kept as a warning. -/
theorem C24_fallback_conditions {env : Env} {zip : Zip} {file head area cd rec : Bytes} {minSdk maxSdk : Int} {out : Outcome}
    {ps : List (Nat × Bytes)} (hl : ApkLayout file head area cd rec) (ha : PairArea area ps)
    (h : verifySigningBlock env zip file minSdk maxSdk = .ok out) (he : out.err = none)
    (hs : out.res.map (·.core.schemeId) = some 2) (hst : strongest ps maxSdk = some 3 ∨ strongest ps maxSdk = some 31) :
    strongest ps maxSdk = some 3 ∧ minSdk < 28 ∧
    (∀ b3, lastVal ps idV3 = some b3 → ¬ ∃ vs top, V3Accepts env (signedSections head cd rec) minSdk maxSdk b3 vs top) ∧
    (∃ b2 vs, lastVal ps idV2 = some b2 ∧ V2Accepts env (signedSections head cd rec) maxSdk (InBlock ps) b2 vs) ∧
    ∃ res e, out.res = some res ∧ W.v3Error e ∈ res.core.warnings := by
  obtain ⟨ps', res, ha', h1, h2, hv⟩ := verdict_sound hl h he
  have := pairArea_unique ha ha'
  subst this
  rw [h1] at hs
  simp only [Option.map_some, Option.some.injEq] at hs
  rcases hv with hv | ⟨stale, vs, hv, _, _, e, hw⟩
  · exfalso
    rw [hs] at hv
    generalize hln : res.core.lineage.map Lineage.nodes = ln at hv
    generalize hcs : res.core.certs = cs at hv
    cases hv with
    | v2 hm h31 h3 hb _ _ =>
      rw [strongest_2 h31 h3 hm hb] at hst
      rcases hst with h | h <;> cases h
  · cases hv with
    | mk a1 a2 a3 a4 a5 hb hA _ =>
      refine ⟨strongest_3 a3 a1 a4, a2, ?_, ⟨_, vs, hb, hA.1.mono (fun id h => ?_), hA.2⟩, res, e, h1, hw⟩
      · intro b3 hb3
        rw [a4] at hb3
        have := Option.some.inj hb3
        subst this
        exact a5
      · rcases h with rfl | h
        · unfold InBlock; rw [a4]; simp
        · exact h.2

namespace Toy
/-- A v3 signer by the attacker key `k1` whose certificate list holds the victim's certificate `k2`. -/
def staleSigner : Bytes :=
  let signedData := lp (lpSeq [algRec 0x0103 digest]) ++ lp (lpSeq [0xC0 :: k2]) ++ leBytes 4 28 ++ leBytes 4 0x7fffffff ++ lp []
  lp signedData ++ leBytes 4 28 ++ leBytes 4 0x7fffffff ++ lp (lpSeq [algRec 0x0103 (sign k1 signedData)]) ++ lp k1
/-- That v3 block and a valid v2 block of the attacker. -/
def psStale : List (Nat × Bytes) := [(idV3, block [staleSigner]), (idV2, block [v2signer k1 digest []])]
theorem layoutStale : ApkLayout (apkOf psStale) head (encPairs psStale) cdir (eocd cdir.length (head ++ sigBlock (encPairs psStale)).length) :=
  apkOf_layout _ (by decide +kernel) (by unfold Zip64Before; decide +kernel)
theorem pairAreaStale : PairArea (encPairs psStale) psStale := area_of (by decide +kernel) (by decide +kernel)
theorem runStale : ∃ out, run psStale 24 35 = .ok out ∧ summary out = (some (2, [[certOf k2], [certOf k1]], []), none) :=
  run_sum (ps := psStale) (a := 24) (b := 35) (some (2, [[certOf k2], [certOf k1]], []), none) (by decide +kernel)
end Toy

/-- The hypotheses of `C24_fallback_conditions` are met. -/
example : ∃ out, Toy.run Toy.psStale 24 35 = .ok out ∧ out.err = none ∧ out.res.map (·.core.schemeId) = some 2 ∧
    strongest Toy.psStale 35 = some 3 := by
  obtain ⟨out, h, hs⟩ := Toy.runStale
  obtain ⟨res, h1, h2, _⟩ := Toy.sum_res hs
  exact ⟨out, h, Toy.sum_err hs, by rw [h1]; simp [h2], by decide +kernel⟩

/-- C24, last sentence, is false of the code: an APK accepted under v2 (nil error) whose first reported certificate chain is
    not a chain of any v2 signer but comes from the v3 block that failed. -/
theorem C24_stale_certificates_reported :
    ∃ (env : Env) (zip : Zip) (file : Bytes) (minSdk maxSdk : Int) (out : Outcome) (res : VRes) (head area cd rec : Bytes)
      (ps : List (Nat × Bytes)) (chain : List Cert),
      ApkLayout file head area cd rec ∧ PairArea area ps ∧
      verifySigningBlock env zip file minSdk maxSdk = .ok out ∧ out.err = none ∧ out.res = some res ∧ res.core.schemeId = 2 ∧
      res.core.certs.head? = some chain ∧
      ∀ b2 present vs, lastVal ps idV2 = some b2 → V2Block env maxSdk present b2 vs → chain ∉ vs.map V2View.chain := by
  obtain ⟨out, h, hs⟩ := Toy.runStale
  obtain ⟨res, h1, h2, h3, _⟩ := Toy.sum_res hs
  refine ⟨_, _, _, _, _, out, res, _, _, _, _, _, [Toy.certOf Toy.k2], Toy.layoutStale, Toy.pairAreaStale, h, Toy.sum_err hs, h1, h2, by rw [h3]; rfl, ?_⟩
  intro b2 present vs hb hv
  have hb' : lastVal Toy.psStale idV2 = some (Toy.block [Toy.v2signer Toy.k1 Toy.digest []]) := by decide +kernel
  rw [hb] at hb'
  have hb' := Option.some.inj hb'
  subst hb'
  -- run the parser on the block with no other block present
  have hv' : V2Block Toy.env 0 (Present {}) (Toy.block [Toy.v2signer Toy.k1 Toy.digest []]) vs := by
    obtain ⟨signers, tail, l, h1, h2, h3, h4, h5, h6⟩ := hv
    refine ⟨signers, tail, l, h1, h2, h3, h4, fun p hp' => ?_, h6⟩
    obtain ⟨a1, a2, a3, a4, a5, a6, a7, a8, a9, a10, a11, a12, a13, a14, b1, b2, b3, b4, b5, b6, b7, b8, b9, b10, b11, b12, b13,
      b14, b15, b16⟩ := h5 p hp'
    exact ⟨a1, a2, a3, a4, a5, a6, a7, a8, a9, a10, a11, a12, a13, a14, b1, b2, b3, b4, b5, b6, b7, b8, b9, b10, b11, b12, b13,
      b14, b15, fun x hx => ⟨(b16 x hx).1, fun _ c2 => by omega⟩⟩
  have hv0 := hv'
  obtain ⟨signers, tail, l, e1, e2, e3, e4, _, _⟩ := hv0
  have hlen : vs.length = 1 := by
    have : SignersOf (Toy.block [Toy.v2signer Toy.k1 Toy.digest []]) [Toy.v2signer Toy.k1 Toy.digest []] :=
      ⟨lpSeq [Toy.v2signer Toy.k1 Toy.digest []], [], by simp [Toy.block], by decide +kernel, rfl, by decide +kernel⟩
    have := signersOf_unique this ⟨signers, tail, e1, e2, e3⟩
    have := congrArg List.length this
    rw [e4]
    simpa using this.symm
  obtain ⟨ws, hw⟩ := v2ParseSigners_ok (r := {}) (V2BlockOK_iff.2 ⟨vs, rfl, hv', rfl⟩) (by simp [hlen])
  have hd : (match v2ParseSigners Toy.env 0 (Toy.block [Toy.v2signer Toy.k1 Toy.digest []]) [] {} with
          | .ok x => decide (x.1.certs = [[Toy.certOf Toy.k1]]) | .error _ => false) = true := by decide +kernel
  rw [hw] at hd
  have hd := of_decide_eq_true hd
  simp only [List.nil_append, List.map_map] at hd
  intro hmem
  have : vs.map V2View.chain = [[Toy.certOf Toy.k1]] := hd
  rw [this] at hmem
  revert hmem
  decide

/-- C24, what holds of the reported certificates: those of the v2 signers come last, in order; without a v3 block in use
    there are no others. Missing: absence of certificates of the failed v3 block (refuted above). -/
theorem C24_fallback_certificates_partial {env : Env} {zip : Zip} {file : Bytes} {minSdk maxSdk : Int} {out : Outcome}
    (h : verifySigningBlock env zip file minSdk maxSdk = .ok out) (he : out.err = none)
    (hs : out.res.map (·.core.schemeId) = some 2) :
    ∃ head area cd rec ps res block vs stale, ApkLayout file head area cd rec ∧ PairArea area ps ∧
      out.res = some res ∧ lastVal ps idV2 = some block ∧ V2Block env maxSdk (InBlock ps) block vs ∧
      res.core.certs = stale ++ vs.map V2View.chain ∧ (strongest ps maxSdk = some 2 → stale = []) := by
  obtain ⟨head, area, cd, rec, ps, res, block, vs, stale, h1, h2, h3, h4, h5, _, _, h6, h7⟩ := C17_all_v2_signers h he hs
  exact ⟨head, area, cd, rec, ps, res, block, vs, stale, h1, h2, h3, h4, h5, h6, h7⟩

/-! ## C25 -/

/-- C25: once the blocks are located, the error returned is the last recorded one, and there is one exactly if any was
    recorded. -/
theorem C25_error_is_last {env : Env} {zip : Zip} {file head area cd rec : Bytes} {minSdk maxSdk : Int} {out : Outcome}
    {ps : List (Nat × Bytes)} (hl : ApkLayout file head area cd rec) (ha : PairArea area ps)
    (h : verifySigningBlock env zip file minSdk maxSdk = .ok out) :
    ∃ res, out.res = some res ∧ out.err = res.core.errors.getLast? ∧ (out.err = none ↔ res.core.errors = []) := by
  rcases located_inv hl h with ⟨e, _, hn⟩ | ⟨ps', st, q, r, v3, dg, stamp, fr, ha', hpp, hm, hq, hw, hs, hfr, hres, herr⟩
  · exact absurd ha (hn ps)
  refine ⟨_, hres, herr, ?_⟩
  rw [herr]; exact lastError_none

example : ∃ out res, Toy.run Toy.psStripped 24 30 = .ok out ∧ out.res = some res ∧ out.err = res.core.errors.getLast? ∧ res.core.errors ≠ [] := by
  obtain ⟨out, h, hs⟩ := Toy.run_sum (ps := Toy.psStripped) (a := 24) (b := 30) (some (2, [[Toy.certOf Toy.k1]], [.stripped]), some .stripped) (by decide +kernel)
  obtain ⟨res, h1, h2, h3⟩ := C25_error_is_last Toy.layoutStripped Toy.pairAreaStripped h
  refine ⟨out, res, h, h1, h2, fun hn => ?_⟩
  have := Toy.sum_err hs
  rw [h3.2 hn] at this; cases this

/-! ## C45 -/

/-- C45: `ExtractCerts` returns the certificates that verification reports when no fallback happened, and if it returns an
    error then verification has an error too. -/
theorem C45_extract_agrees {env : Env} {zip : Zip} {file head area cd rec : Bytes} {minSdk maxSdk : Int} {out : Outcome}
    {ps : List (Nat × Bytes)} (hl : ApkLayout file head area cd rec) (ha : PairArea area ps) (h24 : 24 ≤ maxSdk)
    (h : verifySigningBlock env zip file minSdk maxSdk = .ok out) {cs : List (List Cert)} {e : Option E}
    (hx : extractCertsReader env file maxSdk = .ok (cs, e)) :
    ∃ res, out.res = some res ∧
      (strongest ps maxSdk = none → cs = [] ∧ isNotFound e = true) ∧
      (strongest ps maxSdk = some res.core.schemeId → 28 ≤ minSdk ∨ res.core.schemeId = 2 ∨ lastVal ps idV2 = none ∨ out.err = none →
        cs = res.core.certs ∧ (e ≠ none → out.err ≠ none)) := by
  rcases located_inv hl h with ⟨e, _, hn⟩ | ⟨ps', st, q, r, v3, dg, stamp, fr, ha', hpp, hm, hq, hw, hs, hfr, hres, herr⟩
  · exact absurd ha (hn ps)
  have := pairArea_unique ha ha'
  subst this
  refine ⟨_, hres, ?_⟩
  have h4 : ¬ file.length < 4 := by
    have := congrArg List.length hl.split
    simp [sigBlock, sigBlockMagic] at this; omega
  have h24' : ¬ (!supportsSigV2 maxSdk) = true := by simp only [supportsSigV2, Bool.not_eq_true', decide_eq_false_iff_not]; omega
  unfold extractCertsReader at hx
  rw [if_neg h4, layout_find env maxSdk hl, hpp] at hx
  simp only at hx
  have hq0 := hq
  unfold pickAndVerify at hq
  rw [if_neg h24'] at hq
  cases hp : pickScheme st.blocks with
  | none =>
    rw [hp] at hx
    simp only [Except.ok.injEq, Prod.mk.injEq] at hx
    obtain ⟨rfl, rfl⟩ := hx
    refine ⟨fun _ => ⟨rfl, rfl⟩, fun hst => ?_⟩
    obtain ⟨p1, p2, p3⟩ := pick_none.1 hp
    have b2 := hm.b2
    rw [if_pos h24, p3] at b2
    rw [strongest_none (hm.noV31.1 p1) (hm.noV3.1 p2) (fun _ => b2.symm)] at hst
    cases hst
  | some x =>
    obtain ⟨sch, block⟩ := x
    rw [hp] at hx hq
    simp only [bind, Except.bind] at hx hq
    constructor
    · intro hst
      exfalso
      obtain ⟨_, _, _, hn⟩ := C06_strongest_spec ps maxSdk
      obtain ⟨n1, n2, n3⟩ := hn.1 hst
      have b2 := hm.b2
      rw [if_pos h24, n3 h24] at b2
      rw [pick_none.2 ⟨hm.noV31.2 n1, hm.noV3.2 n2, b2⟩] at hp
      cases hp
    · intro hst hc
      obtain ⟨r1, v31, dg1⟩ := q
      have hno : withFallback env file (layoutFound head area cd rec) st.blocks minSdk maxSdk (r1, v31, dg1) = .ok (r1, v31, dg1) := by
        rcases hc with hc | hc | hc | hc
        · exact withFallback_none (.inr (.inr (.inl hc)))
        · simp only at hst hc
          rw [hc] at hst
          obtain ⟨_, _, h2, _⟩ := C06_strongest_spec ps maxSdk
          obtain ⟨s1, s2, s3, s4⟩ := h2.1 hst
          have n31 : NoV31 ps maxSdk := fun hm => Classical.byContradiction (fun hn => s1 ⟨hm, hn⟩)
          have n3 : NoV3 ps maxSdk := fun hm => Classical.byContradiction (fun hn => s2 ⟨hm, hn⟩)
          cases hb : lastVal ps idV2 with
          | none => exact absurd hb s4
          | some b2 =>
            rw [pick_v2 (hm.noV31.2 n31) (hm.noV3.2 n3) (hm.some2.2 ⟨h24, hb⟩)] at hp
            simp only [Option.some.injEq, Prod.mk.injEq] at hp
            obtain ⟨rfl, rfl⟩ := hp
            have g := (verifyScheme_grow hq).schemeId
            exact withFallback_none (.inr (.inl (by rw [g]; show 2 < 3; omega)))
        · refine withFallback_none (.inr (.inr (.inr ?_)))
          rw [hm.b2, if_pos h24, hc]
        · obtain ⟨ps', res, ha', k1, k2, hv⟩ := verdict_sound hl h hc
          have := pairArea_unique ha ha'
          subst this
          rw [hres] at k1
          have k1 := Option.some.inj k1
          subst k1
          rcases hv with hv | ⟨_, _, hv, k3, _⟩
          · obtain ⟨top', ws', w3, dg', _, hpk⟩ := pick_ok hl hm (ws := st.warnings) hv
            rw [hpk] at hq0
            have hq0 := Except.ok.inj hq0
            simp only [Prod.mk.injEq] at hq0
            exact withFallback_none (.inl (by rw [← hq0.1]))
          · cases hv with
            | mk a1 a2 a3 a4 a5 _ _ _ =>
              rw [strongest_3 a3 a1 a4, k3] at hst
              cases hst
      rw [hno] at hw
      simp only [Except.ok.injEq, Prod.mk.injEq] at hw
      obtain ⟨rfl, rfl, rfl⟩ := hw
      obtain ⟨q1, v3a, cd1, fin, hex, hce, es, hee⟩ := verifyScheme_certs hq
      rw [hex] at hx
      simp only [Except.ok.injEq, Prod.mk.injEq] at hx
      obtain ⟨rfl, rfl⟩ := hx
      refine ⟨hce.symm, fun hne hnn => hne ?_⟩
      rw [herr] at hnn
      have := lastError_none.1 hnn
      rw [hee] at this
      exact lastError_none.2 (List.append_eq_nil_iff.1 this).1

/-- The hypotheses of `C45_extract_agrees` are met. -/
example : ∃ cs e, extractCertsReader Toy.env (Toy.apkOf Toy.psV31) 35 = .ok (cs, e) ∧ cs = [[Toy.certOf Toy.k2]] ∧ e = none := by
  have hd : (match extractCertsReader Toy.env (Toy.apkOf Toy.psV31) 35 with
    | .ok (cs, e) => decide (cs = [[Toy.certOf Toy.k2]] ∧ e = none) | .error _ => false) = true := by decide +kernel
  split at hd
  · rename_i cs e hx; exact ⟨cs, e, hx, of_decide_eq_true hd⟩
  · cases hd

/-- C45: `ExtractCerts` checks no content digest: replacing the bytes covered by the digests (keeping the signing block)
    does not change its answer. -/
theorem C45_extract_checks_no_digest {env : Env} {file head area cd rec file' head' cd' rec' : Bytes} {maxSdk : Int}
    (hl : ApkLayout file head area cd rec) (hl' : ApkLayout file' head' area cd' rec') :
    extractCertsReader env file maxSdk = extractCertsReader env file' maxSdk := by
  have h4 : ¬ file.length < 4 := by
    have := congrArg List.length hl.split
    simp [sigBlock, sigBlockMagic] at this; omega
  have h4' : ¬ file'.length < 4 := by
    have := congrArg List.length hl'.split
    simp [sigBlock, sigBlockMagic] at this; omega
  unfold extractCertsReader
  rw [if_neg h4, if_neg h4', layout_find env maxSdk hl, layout_find env maxSdk hl']
  cases parsePairs env maxSdk area with
  | error e => rfl
  | ok x =>
    obtain ⟨st, e⟩ := x
    cases e <;> rfl

example : extractCertsReader Toy.env (Toy.apk Toy.head1 (encPairs Toy.psV2) Toy.cd1) 30 = extractCertsReader Toy.env (Toy.apkOf Toy.psV2) 30 :=
  C45_extract_checks_no_digest (Toy.apk_layout _ _ _ (by decide) (by decide +kernel) (by unfold Zip64Before; decide +kernel)) Toy.layoutV2

/-- C45: `ExtractCerts` reports an error whenever a signer of the chosen block does not conform: without error, the block of
    the strongest scheme consists of conforming signers and exactly their certificates are returned. -/
theorem C45_extract_nil_error {env : Env} {file head area cd rec : Bytes} {maxSdk : Int} {ps : List (Nat × Bytes)}
    (hl : ApkLayout file head area cd rec) (ha : PairArea area ps) {cs : List (List Cert)}
    (hx : extractCertsReader env file maxSdk = .ok (cs, none)) :
    (strongest ps maxSdk = some 2 ∧ ∃ b vs, lastVal ps idV2 = some b ∧ V2Block env maxSdk (ExtraPresent ps maxSdk) b vs ∧
      vs.length ≤ 10 ∧ cs = vs.map V2View.chain) ∨
    (strongest ps maxSdk = some 3 ∧ ∃ b vs, lastVal ps idV3 = some b ∧ V3Block env maxSdk 0 b vs ∧ cs = vs.map V3View.chain) ∨
    (strongest ps maxSdk = some 31 ∧ ∃ b vs, lastVal ps idV31 = some b ∧ V3Block env maxSdk 0 b vs ∧ cs = vs.map V3View.chain ∧
      lastVal ps idV3 ≠ none) := by
  have h4 : ¬ file.length < 4 := by
    have := congrArg List.length hl.split
    simp [sigBlock, sigBlockMagic] at this; omega
  unfold extractCertsReader at hx
  rw [if_neg h4, layout_find env maxSdk hl] at hx
  cases hpp : parsePairs env maxSdk area with
  | error e => rw [hpp] at hx; cases hx
  | ok x =>
    obtain ⟨st, e⟩ := x
    rw [hpp] at hx
    cases e with
    | some e => simp only [Except.ok.injEq, Prod.mk.injEq] at hx; cases hx.2
    | none =>
      obtain ⟨ps', ha', m1, m2⟩ := C04_pairs_sound env maxSdk area st hpp
      have := pairArea_unique ha ha'
      subst this
      have hm : Means ps maxSdk st.blocks st.extra := ⟨m1, m2⟩
      simp only at hx
      cases h31 : mget st.blocks blockIdSchemeV31 with
      | some b31 =>
        obtain ⟨hs31, h31'⟩ := hm.some31.1 h31
        right; right
        refine ⟨strongest_31 hs31 h31', ?_⟩
        rw [pick_v31 h31] at hx
        simp only [bind, Except.bind] at hx
        cases hex : extractCerts env .v31 maxSdk b31 { schemeId := Scheme.v31.id, extraBlocks := st.extra, warnings := st.warnings } none with
        | error e => rw [hex] at hx; cases hx
        | ok y =>
          obtain ⟨r, v3, dg, fin⟩ := y
          rw [hex] at hx
          simp only [Except.ok.injEq, Prod.mk.injEq] at hx
          obtain ⟨hc, he⟩ := hx
          have he := lastError_none.1 he
          obtain ⟨r1, cd31, s31, hp, hb⟩ := extract_v31 hex
          rcases hb with ⟨_, cdx, hy⟩ | ⟨b3, r3, cdx, s3, hg, _, hy⟩
          · simp only [Prod.mk.injEq] at hy
            rw [hy.1] at he
            simp [Core.addError] at he
          · simp only [Prod.mk.injEq] at hy
            rw [hy.1] at he hc
            obtain ⟨vs, ws, hB, hr, _⟩ := v3ParseSigners_inv hp (by simpa using he)
            have hB := (V3BlockOK_iff.1 hB).1
            refine ⟨b31, vs, h31', hB, ?_, ?_⟩
            · rw [← hc, hr]; simp
            · have hg' : mget st.extra blockIdSchemeV3 = some b3 := by
                rw [hr] at hg; exact hg
              rw [hm.e3, if_pos (.inr hs31)] at hg'
              rw [hg']; simp
      | none =>
        cases h3 : mget st.blocks blockIdSchemeV3 with
        | some b3 =>
          obtain ⟨hs3, h3'⟩ := hm.some3.1 h3
          right; left
          refine ⟨strongest_3 (hm.noV31.1 h31) hs3 h3', ?_⟩
          rw [pick_v3 h31 h3] at hx
          simp only [bind, Except.bind] at hx
          unfold extractCerts at hx
          simp only [bind, Except.bind] at hx
          cases hex : v3ParseSigners env ⟨false, maxSdk, 0⟩ b3 [] { schemeId := Scheme.v3.id, extraBlocks := st.extra, warnings := st.warnings } with
          | error e => rw [hex] at hx; cases hx
          | ok y =>
            obtain ⟨r, dg, fin⟩ := y
            rw [hex] at hx
            simp only [Except.ok.injEq, Prod.mk.injEq] at hx
            obtain ⟨hc, he⟩ := hx
            have he := lastError_none.1 he
            obtain ⟨vs, ws, hB, hr, _⟩ := v3ParseSigners_inv hex (by simpa using he)
            refine ⟨b3, vs, h3', (V3BlockOK_iff.1 hB).1, ?_⟩
            rw [← hc, hr]; simp
        | none =>
          cases h2 : mget st.blocks blockIdSchemeV2 with
          | none =>
            rw [pick_none.2 ⟨h31, h3, h2⟩] at hx
            simp only [Except.ok.injEq, Prod.mk.injEq] at hx
            cases hx.2
          | some b2 =>
            obtain ⟨hs2, h2'⟩ := hm.some2.1 h2
            left
            refine ⟨strongest_2 (hm.noV31.1 h31) (hm.noV3.1 h3) hs2 h2', ?_⟩
            rw [pick_v2 h31 h3 h2] at hx
            simp only [bind, Except.bind] at hx
            unfold extractCerts at hx
            simp only [bind, Except.bind] at hx
            cases hex : v2ParseSigners env maxSdk b2 [] { schemeId := Scheme.v2.id, extraBlocks := st.extra, warnings := st.warnings } with
            | error e => rw [hex] at hx; cases hx
            | ok y =>
              obtain ⟨r, dg⟩ := y
              rw [hex] at hx
              simp only [Except.ok.injEq, Prod.mk.injEq] at hx
              obtain ⟨hc, he⟩ := hx
              have he := lastError_none.1 he
              obtain ⟨vs, ws, hB, hn, hr⟩ := v2ParseSigners_inv hex (by simpa using he)
              obtain ⟨vs', e1, hB2, _⟩ := V2BlockOK_iff.1 hB
              rw [hm.present rfl] at hB2
              subst e1
              refine ⟨b2, vs', h2', hB2, by simpa using hn, ?_⟩
              rw [← hc, hr]; simp

end Apk
