import Verif.Proofs.Trace
import Verif.Props.Container
import Verif.ToyApk
/-! # Properties of the whole signing-block verdict (C06, C07, C13, C17, C18, C23–C25, C45) -/
namespace Apk
set_option linter.unusedSimpArgs false

namespace Toy

theorem apkOf_layout (ps : List (Nat × Bytes)) (h : (encPairs ps).length < 2 ^ 30)
    (hz : ¬ Zip64Before (head ++ sigBlock (encPairs ps) ++ cdir)) :
    ApkLayout (apkOf ps) head (encPairs ps) cdir (eocd cdir.length (head ++ sigBlock (encPairs ps)).length) := by
  apply apk_layout
  · decide
  · have hs : (sigBlock (encPairs ps)).length = (encPairs ps).length + 32 := by simp [sigBlock, sigBlockMagic]; omega
    have e1 : head.length = 7 := rfl
    have e2 : cdir.length = 5 := rfl
    simp only [List.length_append, hs, e1, e2]; omega
  · exact hz

theorem layoutV2 : ApkLayout (apkOf psV2) head (encPairs psV2) cdir (eocd cdir.length (head ++ sigBlock (encPairs psV2)).length) :=
  apkOf_layout _ (by decide +kernel) (by unfold Zip64Before; decide +kernel)
theorem layoutV3 : ApkLayout (apkOf psV3) head (encPairs psV3) cdir (eocd cdir.length (head ++ sigBlock (encPairs psV3)).length) :=
  apkOf_layout _ (by decide +kernel) (by unfold Zip64Before; decide +kernel)
theorem layoutV31 : ApkLayout (apkOf psV31) head (encPairs psV31) cdir (eocd cdir.length (head ++ sigBlock (encPairs psV31)).length) :=
  apkOf_layout _ (by decide +kernel) (by unfold Zip64Before; decide +kernel)

theorem area_of {ps : List (Nat × Bytes)} (h : ∀ p ∈ ps, PairOK p) (hne : ∀ p ∈ ps, p.2 ≠ []) : PairArea (encPairs ps) ps :=
  C04_nonempty_pairs ps h hne

instance (p : Nat × Bytes) : Decidable (PairOK p) := inferInstanceAs (Decidable (_ ∧ _))

theorem pairAreaV2 : PairArea (encPairs psV2) psV2 := area_of (by decide +kernel) (by decide +kernel)
theorem pairAreaV3 : PairArea (encPairs psV3) psV3 := area_of (by decide +kernel) (by decide +kernel)
theorem pairAreaV31 : PairArea (encPairs psV31) psV31 := area_of (by decide +kernel) (by decide +kernel)

theorem sum_err {out : Outcome} {x : Option (Nat × List (List Cert) × List E)} {e : Option E} (h : summary out = (x, e)) : out.err = e :=
  congrArg Prod.snd h

theorem sum_res {out : Outcome} {s : Nat} {c : List (List Cert)} {es : List E} {e : Option E} (h : summary out = (some (s, c, es), e)) :
    ∃ res, out.res = some res ∧ res.core.schemeId = s ∧ res.core.certs = c ∧ res.core.errors = es := by
  have h1 := congrArg Prod.fst h
  simp only [summary] at h1
  cases hr : out.res with
  | none => rw [hr] at h1; cases h1
  | some r =>
    rw [hr] at h1
    simp only [Option.map_some, Option.some.injEq, Prod.mk.injEq] at h1
    exact ⟨r, rfl, h1.1, h1.2.1, h1.2.2⟩

/-- Run and summarise. -/
theorem run_sum {ps : List (Nat × Bytes)} {a b : Int} (x : Option (Nat × List (List Cert) × List E) × Option E)
    (h : check (run ps a b) (fun o => decide (summary o = x)) = true) : ∃ out, run ps a b = .ok out ∧ summary out = x := by
  obtain ⟨out, h1, h2⟩ := of_check h
  exact ⟨out, h1, of_decide_eq_true h2⟩

end Toy

section
variable {env : Env} {zip : Zip} {file : Bytes} {minSdk maxSdk : Int} {out : Outcome}

/-- A nil error means the file is an APK with a well-formed signing block that the specification accepts. -/
theorem accepted (h : verifySigningBlock env zip file minSdk maxSdk = .ok out) (he : out.err = none) :
    ∃ head area cd rec ps res, ApkLayout file head area cd rec ∧ PairArea area ps ∧ out.res = some res ∧ res.core.errors = [] ∧
      (Verdict env (signedSections head cd rec) minSdk maxSdk ps res.core.schemeId res.core.certs (res.core.lineage.map Lineage.nodes) ∨
       ∃ stale vs, Fallback env (signedSections head cd rec) minSdk maxSdk ps stale vs ∧ res.core.schemeId = 2 ∧
         res.core.certs = stale ++ vs.map V2View.chain ∧ ∃ e, W.v3Error e ∈ res.core.warnings) := by
  have h4 : 4 ≤ file.length := by
    refine Classical.byContradiction (fun hn => ?_)
    obtain ⟨o, h1, _, h2, _⟩ := C02_short_file env zip file minSdk maxSdk (by omega)
    rw [h] at h1
    simp only [Except.ok.injEq] at h1
    exact h2 (h1 ▸ he)
  obtain ⟨head, area, cd, rec, ps, hl, ha⟩ := C03_block_layout env zip file minSdk maxSdk out h4 h (by rw [he]; rfl)
  obtain ⟨ps', res, ha', h1, h2, h3⟩ := verdict_sound hl h he
  exact ⟨head, area, cd, rec, ps', res, hl, ha', h1, h2, h3⟩

/-- Stripping protection only gets weaker when more blocks are present. -/
theorem V2Block.mono {present present' : Nat → Prop} (hp : ∀ id, present id → present' id) {block : Bytes} {vs : List V2View}
    (h : V2Block env maxSdk present block vs) : V2Block env maxSdk present' block vs := by
  obtain ⟨signers, tail, l, h1, h2, h3, h4, h5, h6⟩ := h
  refine ⟨signers, tail, l, h1, h2, h3, h4, fun p hp' => ?_, h6⟩
  obtain ⟨a1, a2, a3, a4, a5, a6, a7, a8, a9, a10, a11, a12, a13, a14, b1, b2, b3, b4, b5, b6, b7, b8, b9, b10, b11, b12, b13,
    b14, b15, b16⟩ := h5 p hp'
  refine ⟨a1, a2, a3, a4, a5, a6, a7, a8, a9, a10, a11, a12, a13, a14, b1, b2, b3, b4, b5, b6, b7, b8, b9, b10, b11, b12, b13,
    b14, b15, fun x hx => ⟨(b16 x hx).1, fun c1 c2 => ?_⟩⟩
  obtain ⟨d1, bid, d2, d3⟩ := (b16 x hx).2 c1 c2
  exact ⟨d1, bid, d2, hp _ d3⟩

/-! ## C06 -/

/-- C06: with a usable signing block, the scheme reported is the strongest one whose block is present and supported by the
    maximum SDK version, except that a failed v3 may fall back to v2 below Android 9 (C24); if there is none, the result is
    scheme 1, without certificates, and a not-found error. -/
theorem C06_strongest_scheme {head area cd rec : Bytes} {ps : List (Nat × Bytes)} (hl : ApkLayout file head area cd rec)
    (ha : PairArea area ps) (h24 : 24 ≤ maxSdk) (h : verifySigningBlock env zip file minSdk maxSdk = .ok out) :
    ∃ res, out.res = some res ∧
      ((strongest ps maxSdk = none ∧ res.core.schemeId = 1 ∧ res.core.certs = [] ∧ isNotFound out.err = true) ∨
       strongest ps maxSdk = some res.core.schemeId ∨
       (strongest ps maxSdk = some 3 ∧ res.core.schemeId = 2 ∧ minSdk < 28 ∧ (lastVal ps idV2).isSome = true ∧
         ∃ e, W.v3Error e ∈ res.core.warnings)) := by
  rcases located_inv hl h with ⟨e, _, hn⟩ | ⟨ps', st, q, r, v3, dg, stamp, fr, ha', hpp, hm, hq, hw, hs, hfr, hres, herr⟩
  · exact absurd ha (hn ps)
  have hps := pairArea_unique ha ha'
  subst hps
  refine ⟨_, hres, ?_⟩
  simp only
  rcases tried hm h24 rfl rfl hq hw with ⟨h1, h2, h3, h4⟩ | h1 | h1
  · left
    refine ⟨h1, h2, h3, ?_⟩
    rw [herr, Core.lastError, h4]; rfl
  · exact .inr (.inl h1)
  · exact .inr (.inr h1)

/-- C06: on platforms without any usable block but with support for it the verdict is "not found"; on success the scheme is
    the strongest or v2 after a fallback from v3. (No block at all.) -/
theorem C06_strongest_spec (ps : List (Nat × Bytes)) (m : Int) :
    (strongest ps m = some 31 ↔ 33 ≤ m ∧ lastVal ps idV31 ≠ none) ∧
    (strongest ps m = some 3 ↔ ¬ (33 ≤ m ∧ lastVal ps idV31 ≠ none) ∧ 28 ≤ m ∧ lastVal ps idV3 ≠ none) ∧
    (strongest ps m = some 2 ↔ ¬ (33 ≤ m ∧ lastVal ps idV31 ≠ none) ∧ ¬ (28 ≤ m ∧ lastVal ps idV3 ≠ none) ∧ 24 ≤ m ∧
      lastVal ps idV2 ≠ none) ∧
    (strongest ps m = none ↔ (33 ≤ m → lastVal ps idV31 = none) ∧ (28 ≤ m → lastVal ps idV3 = none) ∧
      (24 ≤ m → lastVal ps idV2 = none)) := by
  unfold strongest
  cases lastVal ps idV31 <;> cases lastVal ps idV3 <;> cases lastVal ps idV2 <;>
    by_cases h1 : 33 ≤ m <;> by_cases h2 : 28 ≤ m <;> by_cases h3 : 24 ≤ m <;> simp [h1, h2, h3] <;> omega

example : ∃ out res, Toy.run Toy.psV31 24 35 = .ok out ∧ out.res = some res ∧ res.core.schemeId = 31 := by
  obtain ⟨out, h, hs⟩ := Toy.runV31
  obtain ⟨res, h1, h2, _⟩ := Toy.sum_res hs
  exact ⟨out, res, h, h1, h2⟩

/-- The hypotheses of `C06_strongest_scheme` are met by the toy APK; the strongest scheme is 3. -/
example : ∃ out res, Toy.run Toy.psV3 24 35 = .ok out ∧ out.res = some res ∧ strongest Toy.psV3 35 = some 3 ∧
    (strongest Toy.psV3 35 = some res.core.schemeId ∨ res.core.schemeId = 2) := by
  obtain ⟨out, h, hs⟩ := Toy.runV3
  obtain ⟨res, h1, h2⟩ := C06_strongest_scheme Toy.layoutV3 Toy.pairAreaV3 (by decide) h
  have h3 : strongest Toy.psV3 35 = some 3 := by decide +kernel
  refine ⟨out, res, h, h1, h3, ?_⟩
  rcases h2 with ⟨h, _⟩ | h | ⟨_, h, _⟩
  · rw [h3] at h; cases h
  · exact .inl h
  · exact .inr h

/-! ## C07 -/

/-- C07: below Android 7 the contents of the signing block do not matter: scheme 1, no certificates, no errors. -/
theorem C07_old_platforms_ignore_block {head area cd rec : Bytes} {ps : List (Nat × Bytes)} (hl : ApkLayout file head area cd rec)
    (ha : PairArea area ps) (h24 : maxSdk < 24) (h : verifySigningBlock env zip file minSdk maxSdk = .ok out) :
    out.err = none ∧ ∃ res, out.res = some res ∧ res.core.schemeId = 1 ∧ res.core.certs = [] ∧ res.core.errors = [] ∧
      res.core.lineage = none := by
  obtain ⟨h1, res, h2, h3, h4, h5, h6⟩ := verdict_complete hl ha h (.old h24)
  refine ⟨h1, res, h2, h4, h5, h3, ?_⟩
  cases h7 : res.core.lineage with
  | none => rfl
  | some l =>
    rw [h7] at h6
    rcases located_inv hl h with ⟨e, _, hn⟩ | ⟨ps', st, q, r, v3, dg, stamp, fr, ha', hpp, hm, hq, hw, hs, hfr, hres, herr⟩
    · exact absurd ha (hn ps)
    rw [hres] at h2
    have h2 := (Option.some.inj h2).symm
    subst h2
    unfold pickAndVerify at hq
    rw [if_pos (by simp only [supportsSigV2, Bool.not_eq_true', decide_eq_false_iff_not]; omega)] at hq
    have hq := (Except.ok.inj hq).symm
    subst hq
    rw [withFallback_none (.inl rfl)] at hw
    simp only [Except.ok.injEq, Prod.mk.injEq] at hw
    rw [← hw.1] at h7; cases h7

example : ∃ out, Toy.run Toy.psV2 21 23 = .ok out ∧ out.err = none := by
  obtain ⟨out, h, _⟩ := Toy.run_sum (ps := Toy.psV2) (a := 21) (b := 23) (some (1, [], []), none) (by decide +kernel)
  exact ⟨out, h, (C07_old_platforms_ignore_block Toy.layoutV2 Toy.pairAreaV2 (by decide) h).1⟩

/-! ## C13 -/

/-- C13: a nil error under v2 means there is a v2 block of conforming signers, at least one, and every content digest they
    declare is the digest of the file with the EOCD offset redirected to the signing block. -/
theorem C13_v2_digests_match (h : verifySigningBlock env zip file minSdk maxSdk = .ok out) (he : out.err = none)
    (hs : out.res.map (·.core.schemeId) = some 2) :
    ∃ head area cd rec ps block vs, ApkLayout file head area cd rec ∧ PairArea area ps ∧ lastVal ps idV2 = some block ∧
      V2Block env maxSdk (InBlock ps) block vs ∧ vs ≠ [] ∧ DigestsMatch env (signedSections head cd rec) (v2Digests vs) := by
  obtain ⟨head, area, cd, rec, ps, res, hl, ha, h1, h2, h3⟩ := accepted h he
  rw [h1] at hs
  simp only [Option.map_some, Option.some.injEq] at hs
  rcases h3 with h3 | ⟨stale, vs, h3, _⟩
  · rw [hs] at h3
    generalize hcs : res.core.certs = cs at h3
    generalize hln : res.core.lineage.map Lineage.nodes = ln at h3
    cases h3 with
    | v2 _ _ _ hb hA _ => exact ⟨_, _, _, _, _, _, _, hl, ha, hb, hA.1.mono (fun _ h => h.2), hA.2⟩
  · cases h3 with
    | mk _ _ _ hb3 _ hb hA _ =>
      refine ⟨_, _, _, _, _, _, _, hl, ha, hb, hA.1.mono (fun id h => ?_), hA.2⟩
      rcases h with rfl | h
      · unfold InBlock; rw [hb3]; simp
      · exact h.2

/-- C13: the same for v3. -/
theorem C13_v3_digests_match (h : verifySigningBlock env zip file minSdk maxSdk = .ok out) (he : out.err = none)
    (hs : out.res.map (·.core.schemeId) = some 3) :
    ∃ head area cd rec ps block vs, ApkLayout file head area cd rec ∧ PairArea area ps ∧ lastVal ps idV3 = some block ∧
      V3Block env maxSdk 0 block vs ∧ vs ≠ [] ∧ DigestsMatch env (signedSections head cd rec) (v3Digests vs) ∧
      out.res.map (·.core.certs) = some (vs.map V3View.chain) := by
  obtain ⟨head, area, cd, rec, ps, res, hl, ha, h1, h2, h3⟩ := accepted h he
  rw [h1] at hs ⊢
  simp only [Option.map_some, Option.some.injEq] at hs ⊢
  rcases h3 with h3 | ⟨stale, vs, h3, h4, _⟩
  · rw [hs] at h3
    generalize hcs : res.core.certs = cs at h3 ⊢
    generalize hln : res.core.lineage.map Lineage.nodes = ln at h3
    cases h3 with
    | v3 _ _ hb hA => exact ⟨_, _, _, _, _, _, _, hl, ha, hb, hA.1, hA.2.1, hA.2.2.1, rfl⟩
  · rw [hs] at h4; cases h4

/-- C13: for scheme 3.1 it is the digests of the v3 base block that match (not those of the v3.1 signers, see C23). -/
theorem C13_v31_base_digests_match (h : verifySigningBlock env zip file minSdk maxSdk = .ok out) (he : out.err = none)
    (hs : out.res.map (·.core.schemeId) = some 31) :
    ∃ head area cd rec ps block rot vs, ApkLayout file head area cd rec ∧ PairArea area ps ∧ lastVal ps idV3 = some block ∧
      V3Block env maxSdk rot block vs ∧ vs ≠ [] ∧ DigestsMatch env (signedSections head cd rec) (v3Digests vs) := by
  obtain ⟨head, area, cd, rec, ps, res, hl, ha, h1, h2, h3⟩ := accepted h he
  rw [h1] at hs
  simp only [Option.map_some, Option.some.injEq] at hs
  rcases h3 with h3 | ⟨stale, vs, h3, h4, _⟩
  · rw [hs] at h3
    generalize hcs : res.core.certs = cs at h3
    generalize hln : res.core.lineage.map Lineage.nodes = ln at h3
    cases h3 with
    | v31 _ _ hb hA => exact ⟨_, _, _, _, _, _, _, _, hl, ha, hb, hA.2.2.2.1, hA.2.2.2.2.1, hA.2.2.2.2.2.1⟩
  · rw [hs] at h4; cases h4

example : ∃ out, Toy.run Toy.psV2 24 35 = .ok out ∧ out.err = none ∧ out.res.map (·.core.schemeId) = some 2 := by
  obtain ⟨out, h, hs⟩ := Toy.runV2
  obtain ⟨res, h1, h2, _⟩ := Toy.sum_res hs
  exact ⟨out, h, Toy.sum_err hs, by rw [h1]; simp [h2]⟩
example : ∃ out, Toy.run Toy.psV3 24 35 = .ok out ∧ out.err = none ∧ out.res.map (·.core.schemeId) = some 3 := by
  obtain ⟨out, h, hs⟩ := Toy.runV3
  obtain ⟨res, h1, h2, _⟩ := Toy.sum_res hs
  exact ⟨out, h, Toy.sum_err hs, by rw [h1]; simp [h2]⟩
example : ∃ out, Toy.run Toy.psV31 24 35 = .ok out ∧ out.err = none ∧ out.res.map (·.core.schemeId) = some 31 := by
  obtain ⟨out, h, hs⟩ := Toy.runV31
  obtain ⟨res, h1, h2, _⟩ := Toy.sum_res hs
  exact ⟨out, h, Toy.sum_err hs, by rw [h1]; simp [h2]⟩

/-! ## C17 -/

/-- C17: if v2 is accepted, the v2 block is a list of one to ten signers, every one conforming, and their certificate lists
    are reported in order; other certificates are reported (before them) only when a v3 block was present, failed, and v2
    was used as a fallback. -/
theorem C17_all_v2_signers (h : verifySigningBlock env zip file minSdk maxSdk = .ok out) (he : out.err = none)
    (hs : out.res.map (·.core.schemeId) = some 2) :
    ∃ head area cd rec ps res block vs stale, ApkLayout file head area cd rec ∧ PairArea area ps ∧
      out.res = some res ∧ lastVal ps idV2 = some block ∧ V2Block env maxSdk (InBlock ps) block vs ∧ 1 ≤ vs.length ∧ vs.length ≤ 10 ∧
      res.core.certs = stale ++ vs.map V2View.chain ∧ (strongest ps maxSdk = some 2 → stale = []) := by
  obtain ⟨head, area, cd, rec, ps, res, hl, ha, h1, h2, h3⟩ := accepted h he
  rw [h1] at hs
  simp only [Option.map_some, Option.some.injEq] at hs
  rcases h3 with h3 | ⟨stale, vs, h3, _, h4, _⟩
  · rw [hs] at h3
    generalize hcs : res.core.certs = cs at h3
    generalize hln : res.core.lineage.map Lineage.nodes = ln at h3
    cases h3 with
    | v2 _ _ _ hb hA h10 =>
      exact ⟨_, _, _, _, _, res, _, _, [], hl, ha, h1, hb, hA.1.mono (fun _ h => h.2), List.length_pos_iff.2 hA.2.1, h10, hcs, fun _ => rfl⟩
  · cases h3 with
    | mk a1 _ a2 a3 _ hb hA h10 =>
      refine ⟨_, _, _, _, _, res, _, _, stale, hl, ha, h1, hb, hA.1.mono (fun id h => ?_), List.length_pos_iff.2 hA.2.1, by omega, h4, ?_⟩
      · rcases h with rfl | h
        · unfold InBlock; rw [a3]; simp
        · exact h.2
      intro hst
      rw [strongest_3 a2 a1 a3] at hst
      cases hst

/-- C17: conversely a file whose v2 block consists of one to ten conforming signers with matching digests is accepted, with
    exactly their certificates, when v2 is the strongest scheme. -/
theorem C17_conforming_v2_accepted {head area cd rec : Bytes} {ps : List (Nat × Bytes)} (hl : ApkLayout file head area cd rec)
    (ha : PairArea area ps) (hst : strongest ps maxSdk = some 2) {block : Bytes} (hb : lastVal ps idV2 = some block)
    {vs : List V2View} (hv : V2Block env maxSdk (ExtraPresent ps maxSdk) block vs) (h1 : 1 ≤ vs.length) (h10 : vs.length ≤ 10)
    (hd : DigestsMatch env (signedSections head cd rec) (v2Digests vs))
    (h : verifySigningBlock env zip file minSdk maxSdk = .ok out) :
    out.err = none ∧ ∃ res, out.res = some res ∧ res.core.schemeId = 2 ∧ res.core.certs = vs.map V2View.chain := by
  obtain ⟨_, _, h2, _⟩ := C06_strongest_spec ps maxSdk
  obtain ⟨s1, s2, s3, _⟩ := h2.1 hst
  have n31 : NoV31 ps maxSdk := fun hm => Classical.byContradiction (fun hn => s1 ⟨hm, hn⟩)
  have n3 : NoV3 ps maxSdk := fun hm => Classical.byContradiction (fun hn => s2 ⟨hm, hn⟩)
  have hne : vs ≠ [] := List.length_pos_iff.1 h1
  obtain ⟨r1, res, r2, _, r4, r5, _⟩ := verdict_complete hl ha h (.v2 s3 n31 n3 hb ⟨hv, hne, hd⟩ h10)
  exact ⟨r1, res, r2, r4, r5⟩

example : ∃ block vs, lastVal Toy.psV2 idV2 = some block ∧ V2Block Toy.env 35 (ExtraPresent Toy.psV2 35) block vs ∧ vs.length = 1 := by
  obtain ⟨out, h, hs⟩ := Toy.runV2
  obtain ⟨res, h1, h2, h3, _⟩ := Toy.sum_res hs
  obtain ⟨ps, res', ha, r1, _, hv⟩ := verdict_sound Toy.layoutV2 h (Toy.sum_err hs)
  have := pairArea_unique ha Toy.pairAreaV2
  subst this
  rw [r1] at h1
  have h1 := Option.some.inj h1
  subst h1
  rcases hv with hv | ⟨_, _, hv, _⟩
  · rw [h2] at hv
    generalize hln : res'.core.lineage.map Lineage.nodes = ln at hv
    generalize hcs : res'.core.certs = cs at hv
    cases hv with
    | v2 _ _ _ hb hA _ =>
      refine ⟨_, _, hb, hA.1, ?_⟩
      rw [hcs] at h3
      have := congrArg List.length h3
      simpa using this
  · cases hv with
    | mk _ _ _ h3 _ _ _ _ =>
      have : lastVal Toy.psV2 idV3 = none := by decide +kernel
      rw [this] at h3; cases h3

end

end Apk
