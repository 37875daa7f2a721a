import Verif.Proofs.Warnings
import Verif.ToyApk
/-! # C70: the warnings of an accepted APK -/
namespace Apk
set_option linter.unusedSimpArgs false

theorem verifyIntegrity_warn {env : Env} {file : Bytes} {f : Found} {m : Digests} {r r' : Core} {ok : Bool}
    (hI : verifyIntegrity env file f m r = .ok (r', ok)) : r'.warnings = r.warnings := by
  unfold verifyIntegrity at hI
  simp only at hI
  cases hcc : computeContentDigests env ((env.cdOrder m).map (·.1)) (sections file f) with
  | error e => rw [hcc] at hI; cases hI
  | ok z =>
    rw [hcc] at hI
    simp only [bind, Except.bind] at hI
    cases z with
    | error e =>
      simp only [Except.ok.injEq, Prod.mk.injEq] at hI
      rw [← hI.1]; rfl
    | ok act =>
      simp only [Except.ok.injEq, Prod.mk.injEq] at hI
      rw [← hI.1]

theorem verifyIntegrity_bad {env : Env} {file : Bytes} {f : Found} {m : Digests} {r r' : Core}
    (hI : verifyIntegrity env file f m r = .ok (r', false)) : r.Failed r' := by
  unfold verifyIntegrity at hI
  simp only at hI
  cases hcc : computeContentDigests env ((env.cdOrder m).map (·.1)) (sections file f) with
  | error e => rw [hcc] at hI; cases hI
  | ok z =>
    rw [hcc] at hI
    simp only [bind, Except.bind] at hI
    cases z with
    | error e =>
      simp only [Except.ok.injEq, Prod.mk.injEq] at hI
      rw [← hI.1]; exact Core.Failed.addError _ _
    | ok act => simp at hI

theorem v3Finalize_warn (acting : Bool) (rot a b : Int) (s : List SignerInfo) (r : Core) : (v3Finalize acting rot a b s r).warnings = r.warnings := by
  obtain ⟨es, lin, h, _⟩ := finalizeSorted_eq acting rot a b (sortSigners s) r
  unfold v3Finalize
  rw [h]

/-- A scheme that added no error went through, and every step of it added none. -/
theorem scheme_steps {env : Env} {file : Bytes} {f : Found} {sch : Scheme} {minSdk maxSdk : Int} {block : Bytes}
    {r : Core} {v3 : Option Core} {r' : Core} {v3' : Option Core} {m : Digests}
    (hv : verifyScheme env file f sch minSdk maxSdk block r v3 = .ok (r', v3', m)) (he : r'.errors = r.errors) :
    ∃ r1 v3a cd fin r2, extractCerts env sch maxSdk block r v3 = .ok (r1, v3a, cd, fin) ∧ r1.errors = r.errors ∧ r2.errors = r.errors ∧
      r2.warnings = r1.warnings ∧ (r', v3') = finalizeScheme sch minSdk maxSdk fin r2 v3a := by
  obtain ⟨r1, v3a, cd, fin, hx, hc⟩ := verifyScheme_inv hv
  have g := (extract_grow hx).grow
  rcases hc with ⟨_, rfl, _⟩ | ⟨_, _, rfl, _⟩ | ⟨_, _, _, r2, ok, hI, hc⟩
  · exact absurd he (g.trans_failed (Core.Failed.addError _ _)).ne
  · exact absurd he (g.trans_failed (Core.Failed.addError _ _)).ne
  · rcases hc with ⟨rfl, rfl, _⟩ | ⟨rfl, hc⟩
    · exact absurd he (g.trans_failed (verifyIntegrity_bad hI)).ne
    · have gI := (verifyIntegrity_ext hI).grow
      have gF := finalize_grow sch minSdk maxSdk fin r2 v3a
      rw [← hc] at gF
      have e1 : r1.errors = r.errors := Classical.byContradiction (fun hne =>
        absurd he (((failed_of_ne g hne).trans_grow gI).trans_grow gF).ne)
      have e2 : r2.errors = r.errors := Classical.byContradiction (fun hne =>
        absurd he ((failed_of_ne (g.trans gI) hne).trans_grow gF).ne)
      exact ⟨r1, v3a, cd, fin, r2, hx, e1, e2, verifyIntegrity_warn hI, hc⟩

theorem scheme_warn_v2 {env : Env} {file : Bytes} {f : Found} {minSdk maxSdk : Int} {block : Bytes}
    {r : Core} {v3 : Option Core} {r' : Core} {v3' : Option Core} {m : Digests}
    (hv : verifyScheme env file f .v2 minSdk maxSdk block r v3 = .ok (r', v3', m)) (he : r'.errors = r.errors) :
    ∃ ws, BlockWarnings V2SignerWarnings block ws ∧ r'.warnings = r.warnings ++ ws := by
  obtain ⟨r1, v3a, cd, fin, r2, hx, e1, e2, w, hc⟩ := scheme_steps hv he
  unfold extractCerts at hx
  simp only at hx
  cases hp : v2ParseSigners env maxSdk block [] r with
  | error e => rw [hp] at hx; cases hx
  | ok x =>
    obtain ⟨a, b⟩ := x
    rw [hp] at hx
    simp only [bind, Except.bind, Except.ok.injEq, Prod.mk.injEq] at hx
    obtain ⟨rfl, _⟩ := hx
    obtain ⟨ws, h1, h2⟩ := v2ParseSigners_warn hp e1
    simp only [finalizeScheme, Prod.mk.injEq] at hc
    exact ⟨ws, h1, by rw [hc.1, w, h2]⟩

theorem scheme_warn_v3 {env : Env} {file : Bytes} {f : Found} {minSdk maxSdk : Int} {block : Bytes}
    {r : Core} {v3 : Option Core} {r' : Core} {v3' : Option Core} {m : Digests}
    (hv : verifyScheme env file f .v3 minSdk maxSdk block r v3 = .ok (r', v3', m)) (he : r'.errors = r.errors) :
    ∃ ws, BlockWarnings (V3SignerWarnings false maxSdk 0) block ws ∧ r'.warnings = r.warnings ++ ws := by
  obtain ⟨r1, v3a, cd, fin, r2, hx, e1, e2, w, hc⟩ := scheme_steps hv he
  unfold extractCerts at hx
  simp only at hx
  cases hp : v3ParseSigners env ⟨false, maxSdk, 0⟩ block [] r with
  | error e => rw [hp] at hx; cases hx
  | ok x =>
    obtain ⟨a, b, c⟩ := x
    rw [hp] at hx
    simp only [bind, Except.bind, Except.ok.injEq, Prod.mk.injEq] at hx
    obtain ⟨rfl, _⟩ := hx
    obtain ⟨ws, h1, h2⟩ := v3ParseSigners_warn hp e1
    simp only [finalizeScheme, Prod.mk.injEq] at hc
    exact ⟨ws, h1, by rw [hc.1, v3Finalize_warn, w, h2]⟩

theorem scheme_warn_v31 {env : Env} {file : Bytes} {f : Found} {minSdk maxSdk : Int} {block : Bytes}
    {r : Core} {v3 : Option Core} {r' : Core} {v3' : Option Core} {m : Digests}
    (hv : verifyScheme env file f .v31 minSdk maxSdk block r v3 = .ok (r', v3', m)) (he : r'.errors = r.errors) :
    ∃ b3 vs ws ws3 r3, mget r.extraBlocks blockIdSchemeV3 = some b3 ∧ V3Block env maxSdk 0 block vs ∧
      BlockWarnings (V3SignerWarnings true maxSdk 0) block ws ∧ BlockWarnings (V3SignerWarnings false maxSdk (rotationOf vs)) b3 ws3 ∧
      r'.warnings = r.warnings ++ (ws ++ ws3) ∧ v3' = some r3 ∧ r3.warnings = ws3 ∧ r3.errors = [] := by
  obtain ⟨r1, v3a, cd, fin, r2, hx, e1, e2, w, hc⟩ := scheme_steps hv he
  obtain ⟨q1, cd31, s31, hp, hb⟩ := extract_v31 hx
  have x1 := v3ParseSigners_ext hp
  rcases hb with ⟨_, cdx, hxe⟩ | ⟨b3, r3, cd3, s3, hb3, hp3, hxe⟩
  · simp only [Prod.mk.injEq] at hxe
    rw [hxe.1] at e1
    exact absurd e1 (x1.trans_failed (Core.Failed.addError _ _)).ne
  · simp only [Prod.mk.injEq] at hxe
    obtain ⟨rfl, rfl, rfl, rfl⟩ := hxe
    obtain ⟨ws, h1, h2⟩ := v3ParseSigners_warn hp e1
    obtain ⟨vs, _, hbk, _, hi⟩ := v3ParseSigners_inv hp e1
    obtain ⟨hB, _⟩ := V3BlockOK_iff.1 hbk
    have hrot : rotationMinSdk s31 = rotationOf vs := by rw [hi]; exact rotation_eq vs
    rw [hrot] at hp3 hc
    simp only [finalizeScheme, v31Finalize, Prod.mk.injEq] at hc
    obtain ⟨c1, c2⟩ := hc
    have gA := v3Finalize_grow true 0 (if minSdk < 33 then 33 else minSdk) maxSdk s31 r2
    have gB := v3Finalize_grow false (rotationOf vs) minSdk maxSdk s3 r3
    have hfin : (v3Finalize false (rotationOf vs) minSdk maxSdk s3 r3).errors = [] := by
      have := congrArg Core.errors c1
      simp only at this
      rw [he] at this
      obtain ⟨es, hes⟩ := gA.errors
      rw [hes, e2, List.append_assoc] at this
      have := List.append_cancel_left (this.symm.trans (List.append_nil _).symm)
      exact (List.append_eq_nil_iff.1 this).2
    have e3 : r3.errors = [] := by
      obtain ⟨es, hes⟩ := gB.errors
      rw [hfin] at hes
      exact (List.append_eq_nil_iff.1 hes.symm).1
    obtain ⟨ws3, h3, h4⟩ := v3ParseSigners_warn hp3 (by simpa using e3)
    have h4 : r3.warnings = ws3 := by simpa using h4
    rw [x1.extra] at hb3
    refine ⟨b3, vs, ws, ws3, _, hb3, hB, h1, h3, ?_, c2, ?_, hfin⟩
    · rw [c1]
      simp only [v3Finalize_warn]
      rw [w, h2, h4, List.append_assoc]
    · rw [v3Finalize_warn]; exact h4

theorem frosting_warn {env : Env} (vs : List Bytes) : ∀ {frs : List FrostParse}, vs.map (frParse env) = frs.map .ok →
    FrostingWarnings env vs ((frs.filter (fun fr => fr.info.toOption.isNone)).map (fun _ => W.frosting)) := by
  induction vs with
  | nil =>
    intro frs h
    cases frs with
    | nil => exact .nil
    | cons => simp at h
  | cons v vs ih =>
    intro frs h
    cases frs with
    | nil => simp at h
    | cons fr frs =>
      simp only [List.map_cons, List.cons.injEq] at h
      cases hi : fr.info with
      | ok i =>
        rw [List.filter_cons_of_neg (by simp [hi, Except.toOption])]
        exact .good _ _ ((frParse_iff env v i).1 ⟨fr, h.1, hi⟩) (ih h.2)
      | error e =>
        rw [List.filter_cons_of_pos (by simp [hi, Except.toOption]), List.map_cons]
        refine .bad ?_ (ih h.2)
        rintro ⟨sha, proto, hv⟩
        obtain ⟨fr', k1, k2⟩ := (frParse_iff env v ⟨sha, proto⟩).2 hv
        rw [h.1] at k1
        cases k1
        rw [hi] at k2
        cases k2

section
variable {env : Env} {file head area cd rec : Bytes} (hl : ApkLayout file head area cd rec)
include hl

/-- C70: the warnings of an accepted APK are exactly those of its invalid frosting blocks and of the blocks of the scheme that
    accepted it. -/
theorem C70_warnings {zip : Zip} {minSdk maxSdk : Int} {out : Outcome} {res : VRes} {ps : List (Nat × Bytes)} (ha : PairArea area ps)
    (h : verifySigningBlock env zip file minSdk maxSdk = .ok out) (he : out.err = none) (hres : out.res = some res) :
    ∃ fw ws, FrostingWarnings env (frostingValues ps) fw ∧ SchemeWarnings env minSdk maxSdk ps res.core.schemeId ws ∧
      res.core.warnings = fw ++ ws := by
  obtain ⟨ps0, res', ha0, hres', _, hV0⟩ := verdict_sound hl h he
  obtain rfl := pairArea_unique ha ha0
  rw [hres] at hres'
  cases hres'
  rcases located_inv hl h with ⟨e, h1, hn⟩ | ⟨ps', st, q, r, v3, dg, stamp, fr, ha', hpp, hm, hq, hw, hs, hfr, hr, herr⟩
  · exact absurd ha (hn ps)
  obtain rfl := pairArea_unique ha ha'
  rw [hres] at hr
  cases hr
  have hnil : r.errors = [] := lastError_none.1 (by rw [← herr]; exact he)
  obtain ⟨ps2, ha2, hrun⟩ := parsePairsAux_sound _ (Nat.lt_succ_self _) hpp
  obtain rfl := pairArea_unique ha ha2
  obtain ⟨frs, f1, _, _, f4⟩ := hrun.frosting
  have f4 : st.warnings = (frs.filter (fun fr => fr.info.toOption.isNone)).map (fun _ => W.frosting) := f4.trans (List.nil_append _)
  have hF : FrostingWarnings env (frostingValues ps) st.warnings := by rw [f4]; exact frosting_warn _ f1
  suffices hS : ∃ ws, SchemeWarnings env minSdk maxSdk ps r.schemeId ws ∧ r.warnings = st.warnings ++ ws by
    obtain ⟨ws, k1, k2⟩ := hS
    exact ⟨_, ws, hF, k1, k2⟩
  obtain ⟨r1, v31, dg1⟩ := q
  by_cases hne : r1.errors = []
  · rw [withFallback_none (.inl hne)] at hw
    cases hw
    unfold pickAndVerify at hq
    by_cases h24 : maxSdk < 24
    · rw [if_pos (by simp [supportsSigV2]; omega)] at hq
      cases hq
      exact ⟨[], .old h24, by simp⟩
    · rw [if_neg (by simp [supportsSigV2]; omega)] at hq
      cases h31 : mget st.blocks blockIdSchemeV31 with
      | some b31 =>
        obtain ⟨hs31, h31'⟩ := hm.some31.1 h31
        rw [pick_v31 h31] at hq
        simp only at hq
        obtain ⟨b3, vs, ws, ws3, r3, hb3, hB, w1, w2, w3, _⟩ := scheme_warn_v31 hq hne
        simp only at hb3
        rw [hm.e3, if_pos (.inr hs31)] at hb3
        have hid := (verifyScheme_grow hq).schemeId
        rw [hid]
        exact ⟨_, .v31 h31' hb3 hB w1 w2, w3⟩
      | none =>
        cases h3 : mget st.blocks blockIdSchemeV3 with
        | some b3 =>
          rw [pick_v3 h31 h3] at hq
          simp only at hq
          obtain ⟨_, h3'⟩ := hm.some3.1 h3
          obtain ⟨ws, w1, w3⟩ := scheme_warn_v3 hq hne
          rw [(verifyScheme_grow hq).schemeId]
          exact ⟨_, .v3 h3' w1, w3⟩
        | none =>
          cases h2 : mget st.blocks blockIdSchemeV2 with
          | some b2 =>
            rw [pick_v2 h31 h3 h2] at hq
            simp only at hq
            obtain ⟨_, h2'⟩ := hm.some2.1 h2
            obtain ⟨ws, w1, w3⟩ := scheme_warn_v2 hq hne
            rw [(verifyScheme_grow hq).schemeId]
            exact ⟨_, .v2 h2' (hm.noV31.1 h31) (hm.noV3.1 h3) w1, w3⟩
          | none =>
            rw [pick_none.2 ⟨h31, h3, h2⟩] at hq
            cases hq
            exact absurd hne (by simp [Core.addError])
  · have hq0 := hq
    have hw0 := hw
    unfold withFallback at hw
    simp only at hw
    by_cases hc : r1.errors ≠ [] ∧ r1.schemeId ≥ 3 ∧ minSdk < 28 ∧ (mget st.blocks blockIdSchemeV2).isSome
    · rw [if_pos hc] at hw
      obtain ⟨_, h3s, hmin, hb2⟩ := hc
      obtain ⟨b2, hb2⟩ := Option.isSome_iff_exists.1 hb2
      obtain ⟨h24, hb2'⟩ := hm.some2.1 hb2
      have h24' : ¬ (!supportsSigV2 maxSdk) = true := by simp only [supportsSigV2, Bool.not_eq_true', decide_eq_false_iff_not]; omega
      unfold pickAndVerify at hq hw
      rw [if_neg h24'] at hq hw
      cases h31 : mget st.blocks blockIdSchemeV31 with
      | some b31 =>
        exfalso
        have h31m : mget (mdel st.blocks blockIdSchemeV3) blockIdSchemeV31 = some b31 := by
          rw [mget_mdel, if_neg (by decide)]; exact h31
        rw [pick_v31 h31m] at hw
        have hid := (verifyScheme_grow hw).schemeId
        have hid : r.schemeId = 31 := hid
        rcases hV0 with hV | ⟨_, _, _, h2, _⟩
        · obtain ⟨_, _, _, _, _, hpk⟩ := pick_ok hl hm (ws := st.warnings) hV
          rw [hpk] at hq0
          cases hq0
          exact hne rfl
        · simp only [hid] at h2
          omega
      | none =>
        have h31m : mget (mdel st.blocks blockIdSchemeV3) blockIdSchemeV31 = none := by
          rw [mget_mdel, if_neg (by decide)]; exact h31
        have h3m : mget (mdel st.blocks blockIdSchemeV3) blockIdSchemeV3 = none := by
          rw [mget_mdel, if_pos rfl]
        have h2m : mget (mdel st.blocks blockIdSchemeV3) blockIdSchemeV2 = some b2 := by
          rw [mget_mdel, if_neg (by decide)]; exact hb2
        rw [pick_v2 h31m h3m h2m] at hw
        simp only at hw
        cases h3 : mget st.blocks blockIdSchemeV3 with
        | none =>
          exfalso
          rw [pick_v2 h31 h3 hb2] at hq
          simp only at hq
          have := (verifyScheme_grow hq).schemeId
          simp only [Scheme.id] at this
          omega
        | some b3 =>
          obtain ⟨h28, h3'⟩ := hm.some3.1 h3
          rw [pick_v3 h31 h3] at hq
          obtain ⟨ws0, hws0⟩ := (verifyScheme_grow hq).warnings
          have hws0 : r1.warnings = st.warnings ++ ws0 := hws0
          obtain ⟨ws, w1, w2⟩ := scheme_warn_v2 hw hnil
          have hid : r.schemeId = 2 := (verifyScheme_grow hw).schemeId
          rw [hid]
          refine ⟨_, .fallback (ws0 := ws0) hb2' h3' hmin hne w1, ?_⟩
          rw [w2]
          simp only
          rw [hws0]
          simp only [List.append_assoc]
    · rw [if_neg hc] at hw
      cases hw
      exact absurd hnil hne

/-- C70: the separate result for the v3 base block of a v3.1 APK has the warnings of that block, which come last in the warnings of
    the APK. -/
theorem C70_base_block {zip : Zip} {minSdk maxSdk : Int} {out : Outcome} {res : VRes} {ps : List (Nat × Bytes)} (ha : PairArea area ps)
    (h : verifySigningBlock env zip file minSdk maxSdk = .ok out) (he : out.err = none) (hres : out.res = some res)
    (h31 : res.core.schemeId = 31) :
    ∃ b31 b3 vs r3, lastVal ps idV31 = some b31 ∧ lastVal ps idV3 = some b3 ∧ V3Block env maxSdk 0 b31 vs ∧ res.v3 = some r3 ∧ r3.errors = [] ∧
      BlockWarnings (V3SignerWarnings false maxSdk (rotationOf vs)) b3 r3.warnings ∧ r3.warnings <:+ res.core.warnings := by
  obtain ⟨ps0, res', ha0, hres', _, hV0⟩ := verdict_sound hl h he
  obtain rfl := pairArea_unique ha ha0
  rw [hres] at hres'
  cases hres'
  rcases hV0 with hV | ⟨_, _, _, h2, _⟩
  · rw [h31] at hV
    rcases located_inv hl h with ⟨e, h1, hn⟩ | ⟨ps', st, q, r, v3, dg, stamp, fr, ha', hpp, hm, hq, hw, hs, hfr, hr, herr⟩
    · exact absurd ha (hn ps)
    obtain rfl := pairArea_unique ha ha'
    rw [hres] at hr
    cases hr
    obtain ⟨top', ws', v3', dg', _, hpk⟩ := pick_ok hl hm (ws := st.warnings) hV
    have hq0 := hq
    rw [hpk] at hq
    cases hq
    rw [withFallback_none (.inl rfl)] at hw
    simp only [Except.ok.injEq, Prod.mk.injEq] at hw
    obtain ⟨hr1, hr2, _⟩ := hw
    rw [hr1] at hq0
    rw [hr2] at hq0
    have hnil : r.errors = [] := lastError_none.1 (by rw [← herr]; exact he)
    have hV31 : ∃ b31, 33 ≤ maxSdk ∧ lastVal ps idV31 = some b31 := by
      have key : ∀ {s cs top}, Verdict env (signedSections head cd rec) minSdk maxSdk ps s cs top → s = 31 →
          ∃ b31, 33 ≤ maxSdk ∧ lastVal ps idV31 = some b31 := by
        intro s cs top hV hs
        cases hV with
        | v31 hs31 h31' h3 hA => exact ⟨_, hs31, h31'⟩
        | old => omega
        | v3 => omega
        | v2 => omega
      exact key hV rfl
    obtain ⟨b31, hs31, h31'⟩ := hV31
    clear hV
    have hb31 := hm.some31.2 ⟨hs31, h31'⟩
    unfold pickAndVerify at hq0
    rw [if_neg (by simp [supportsSigV2]; omega), pick_v31 hb31] at hq0
    obtain ⟨b3, vs, ws, ws3, r3, hb3, hB, w1, w2, w3, w4, w5, w6⟩ := scheme_warn_v31 hq0 hnil
    simp only at hb3
    rw [hm.e3, if_pos (.inr hs31)] at hb3
    subst w5
    refine ⟨_, b3, vs, r3, h31', hb3, hB, w4, w6, w2, ⟨st.warnings ++ ws, ?_⟩⟩
    rw [w3, List.append_assoc]
  · rw [h31] at h2; omega

end

/-! ## Warnings are determined by the block -/

theorem lp_front {a a' r r' : Bytes} (h : Small a) (h' : Small a') (e : lp a ++ r = lp a' ++ r') : a = a' ∧ r = r' := by
  have k := rdLP_lp a r h
  rw [e, rdLP_lp a' r' h'] at k
  cases k
  exact ⟨rfl, rfl⟩

theorem u32_front {n n' : Nat} {r r' : Bytes} (h : n < 2 ^ 32) (h' : n' < 2 ^ 32) (e : leBytes 4 n ++ r = leBytes 4 n' ++ r') : n = n' ∧ r = r' := by
  have k := rdU32_le (rest := r) h
  rw [e, rdU32_le h'] at k
  cases k
  exact ⟨rfl, rfl⟩

theorem lpList_unique {b : Bytes} {l l' : List Bytes} (h : LPList b l) (h' : LPList b l') : l = l' := by
  have k := (lpSplit_ok_iff b l).2 ⟨h.2, h.1⟩
  rw [(lpSplit_ok_iff b l').2 ⟨h'.2, h'.1⟩] at k
  cases k
  rfl

/-- C70: the warnings of a signer are determined by its bytes. -/
theorem C70_signer_unique {inV31 : Bool} {maxSdk rot : Int} {signer : Bytes} {ws ws' : List W} :
    (V2SignerWarnings signer ws → V2SignerWarnings signer ws' → ws = ws') ∧
    (V3SignerWarnings inV31 maxSdk rot signer ws → V3SignerWarnings inV31 maxSdk rot signer ws' → ws = ws') := by
  constructor
  · rintro ⟨sd, sg, pk, t, sr, dg, ct, at_, t', ar, h1, s1, s2, s3, h2, s4, s5, s6, l1, l2, rfl⟩
      ⟨sd_, sg_, pk_, t_, sr_, dg_, ct_, at__, t'_, ar_, k1, q1, q2, q3, k2, q4, q5, q6, m1, m2, rfl⟩
    rw [h1] at k1
    simp only [List.append_assoc] at k1
    obtain ⟨rfl, k1_1⟩ := lp_front s1 q1 k1
    obtain ⟨rfl, k1_2⟩ := lp_front s2 q2 k1_1
    rw [h2] at k2
    simp only [List.append_assoc] at k2
    obtain ⟨rfl, k2_3⟩ := lp_front s4 q4 k2
    obtain ⟨rfl, k2_4⟩ := lp_front s5 q5 k2_3
    obtain ⟨rfl, k2_5⟩ := lp_front s6 q6 k2_4
    rw [lpList_unique l1 m1, lpList_unique l2 m2]
  · rintro ⟨sd, mn, mx, sg, pk, t, sr, dg, ct, sm, sx, at_, t', ar, h1, s1, s2, s3, n1, n2, h2, s4, s5, s6, n3, n4, l1, l2, rfl⟩
      ⟨sd_, mn_, mx_, sg_, pk_, t_, sr_, dg_, ct_, sm_, sx_, at__, t'_, ar_, k1, q1, q2, q3, p1, p2, k2, q4, q5, q6, p3, p4, m1, m2, rfl⟩
    rw [h1] at k1
    simp only [List.append_assoc] at k1
    obtain ⟨rfl, k1_6⟩ := lp_front s1 q1 k1
    obtain ⟨rfl, k1_7⟩ := u32_front n1 p1 k1_6
    obtain ⟨rfl, k1_8⟩ := u32_front n2 p2 k1_7
    obtain ⟨rfl, k1_9⟩ := lp_front s2 q2 k1_8
    rw [h2] at k2
    simp only [List.append_assoc] at k2
    obtain ⟨rfl, k2_10⟩ := lp_front s4 q4 k2
    obtain ⟨rfl, k2_11⟩ := lp_front s5 q5 k2_10
    obtain ⟨rfl, k2_12⟩ := u32_front n3 p3 k2_11
    obtain ⟨rfl, k2_13⟩ := u32_front n4 p4 k2_12
    obtain ⟨rfl, k2_14⟩ := lp_front s6 q6 k2_13
    rw [lpList_unique l1 m1, lpList_unique l2 m2]

/-- C70: the warnings of a block are determined by its bytes. -/
theorem C70_block_unique {one : Bytes → List W → Prop} (hu : ∀ s w w', one s w → one s w' → w = w') {block : Bytes} {ws ws' : List W}
    (h : BlockWarnings one block ws) (h' : BlockWarnings one block ws') : ws = ws' := by
  obtain ⟨ss, l, ⟨b, t, h1, h2, h3⟩, rfl, h5, rfl⟩ := h
  obtain ⟨ss', l', ⟨b', t', k1, k2, k3⟩, rfl, k5, rfl⟩ := h'
  rw [h1] at k1
  obtain ⟨rfl, _⟩ := lp_front h2 k2 k1
  have e := lpList_unique h3 k3
  clear h1 h2 h3 k1 k2 k3
  suffices l = l' by rw [this]
  induction l generalizing l' with
  | nil =>
    cases l' with
    | nil => rfl
    | cons => simp at e
  | cons x l ih =>
    cases l' with
    | nil => simp at e
    | cons y l' =>
      simp only [List.map_cons, List.cons.injEq] at e
      have hx : x = y := by
        obtain ⟨x1, x2⟩ := x
        obtain ⟨y1, y2⟩ := y
        have : x1 = y1 := e.1
        subst this
        rw [hu x1 x2 y2 (h5 _ (List.mem_cons_self ..)) (k5 _ (List.mem_cons_self ..))]
      rw [hx, ih (l' := l') (fun p hp => h5 p (List.mem_cons_of_mem _ hp)) (fun p hp => k5 p (List.mem_cons_of_mem _ hp)) e.2]

/-! ## Examples -/

namespace Toy

/-- A v3.1 APK whose signers have unknown and misplaced attributes, with a broken frosting block. -/
def psWarn : List (Nat × Bytes) :=
  [(0x2146444e, [1, 2, 3]),
   (idV31, block [v3signer k2 digest 33 35 33 35 [leBytes 4 0xc2a6b3ba, leBytes 4 77]]),
   (idV3, block [v3signer k1 digest 24 32 24 32 [leBytes 4 0xc2a6b3ba, leBytes 4 78]])]

/-- It is accepted; the v3 signer also lacks the attribute that says where rotation starts. -/
theorem C70_example : ∃ out, run psWarn 24 35 = .ok out ∧ out.err = none ∧
    out.res.map (fun r => r.core.warnings) =
      some [.frosting, .unknownAttr 77, .rotationOnDevIgnored, .unknownAttr 78, .rotationAttrMissing] := by
  obtain ⟨out, h1, h2⟩ := of_check (x := run psWarn 24 35) (P := fun o => decide (o.err = none) &&
    decide (o.res.map (fun r => r.core.warnings) = some [.frosting, .unknownAttr 77, .rotationOnDevIgnored, .unknownAttr 78, .rotationAttrMissing]))
    (by decide +kernel)
  simp only [Bool.and_eq_true, decide_eq_true_eq] at h2
  exact ⟨out, h1, h2.1, h2.2⟩

end Toy

end Apk
