import Verif.Proofs.Scheme
/-! # Verification of a v3.1 block with its v3 base block -/
namespace Apk
set_option linter.unusedSimpArgs false

theorem foldl_min (vs : List V3View) : ∀ m : Int,
    (vs.map V3View.info).foldl (fun m s => if s.minSdk < m then s.minSdk else m) m =
      min m (vs.foldr (fun v m => min v.minSdk m) 2147483647) ∨
    2147483647 < m := by
  induction vs with
  | nil => intro m; simp only [List.map_nil, List.foldl_nil, List.foldr_nil]; omega
  | cons v vs ih =>
    intro m
    simp only [List.map_cons, List.foldl_cons, List.foldr_cons]
    by_cases hm : 2147483647 < m
    · exact .inr hm
    · left
      have e : (V3View.info v).minSdk = v.minSdk := rfl
      rw [e]
      by_cases hv : v.minSdk < m
      · rw [if_pos hv]
        rcases ih v.minSdk with h | h
        · rw [h]; omega
        · omega
      · rw [if_neg hv]
        rcases ih m with h | h
        · rw [h]; omega
        · omega

theorem foldr_min_le (vs : List V3View) : vs.foldr (fun v m => min v.minSdk m) 2147483647 ≤ 2147483647 := by
  induction vs with
  | nil => simp
  | cons v vs ih => simp only [List.foldr_cons]; omega

theorem foldr_min_ge {vs : List V3View} (h : ∀ v ∈ vs, v.Good) : 1 ≤ vs.foldr (fun v m => min v.minSdk m) 2147483647 := by
  induction vs with
  | nil => simp
  | cons v vs ih =>
    simp only [List.foldr_cons]
    have h1 := (h v (by simp)).1
    have h2 := ih (fun w hw => h w (by simp [hw]))
    omega

theorem rotation_eq (vs : List V3View) : rotationMinSdk (vs.map V3View.info) = rotationOf vs := by
  unfold rotationMinSdk rotationOf
  have h := foldl_min vs maxInt32
  have h2 := foldr_min_le vs
  have e : maxInt32 = 2147483647 := rfl
  rw [e] at h
  simp only [e]
  rcases h with h | h
  · rw [h]
    have : min 2147483647 (vs.foldr (fun v m => min v.minSdk m) 2147483647) = vs.foldr (fun v m => min v.minSdk m) 2147483647 := by omega
    rw [this]
  · omega

theorem rotation_range {vs : List V3View} (h : ∀ v ∈ vs, v.Good) : rotationOf vs = 0 ∨ (1 ≤ rotationOf vs ∧ rotationOf vs < 2147483647) := by
  unfold rotationOf
  have h1 := foldr_min_ge h
  have h2 := foldr_min_le vs
  split <;> omega

theorem wrap32_id {i : Int} (h0 : 0 ≤ i) (h1 : i < 2147483648) : wrap32 i = i := by
  unfold wrap32 toI32
  have : (i % 4294967296).toNat % 4294967296 = i.toNat := by omega
  simp only [this]
  split <;> omega

theorem reqHi_rot {vs : List V3View} (h : ∀ v ∈ vs, v.Good) (maxSdk : Int) :
    reqHi (rotationOf vs) maxSdk = if rotationOf vs = 0 then maxSdk else rotationOf vs - 1 := by
  unfold reqHi
  rcases rotation_range h with h0 | ⟨h1, h2⟩
  · rw [if_neg (by simp [h0]), if_pos h0]
  · rw [if_pos (by omega), if_neg (by omega), wrap32_id (by omega) (by omega)]

theorem verifyScheme_inv {env : Env} {file : Bytes} {f : Found} {sch : Scheme} {minSdk maxSdk : Int} {block : Bytes}
    {r : Core} {v3 : Option Core} {r' : Core} {v3' : Option Core} {m : Digests}
    (hv : verifyScheme env file f sch minSdk maxSdk block r v3 = .ok (r', v3', m)) :
    ∃ r1 v3a cd fin, extractCerts env sch maxSdk block r v3 = .ok (r1, v3a, cd, fin) ∧
      ((r1.certs.length = 0 ∧ r' = r1.addError .noSigners ∧ v3' = v3a ∧ m = []) ∨
       (r1.certs.length ≠ 0 ∧ cd.length = 0 ∧ r' = r1.addError .noContentDigests ∧ v3' = v3a ∧ m = []) ∨
       (r1.certs.length ≠ 0 ∧ cd.length ≠ 0 ∧ m = cd ∧ ∃ r2 ok, verifyIntegrity env file f cd r1 = .ok (r2, ok) ∧
         ((ok = false ∧ r' = r2 ∧ v3' = v3a) ∨ (ok = true ∧ (r', v3') = finalizeScheme sch minSdk maxSdk fin r2 v3a)))) := by
  unfold verifyScheme at hv
  cases hp : extractCerts env sch maxSdk block r v3 with
  | error e => rw [hp] at hv; cases hv
  | ok x =>
    obtain ⟨r1, v3a, cd1, fin⟩ := x
    rw [hp] at hv
    simp only [bind, Except.bind] at hv
    refine ⟨r1, v3a, cd1, fin, rfl, ?_⟩
    by_cases hc : r1.certs.length = 0
    · rw [if_pos hc] at hv
      simp only [Except.ok.injEq, Prod.mk.injEq] at hv
      exact .inl ⟨hc, hv.1.symm, hv.2.1.symm, hv.2.2.symm⟩
    · rw [if_neg hc] at hv
      by_cases hd : cd1.length = 0
      · rw [if_pos hd] at hv
        simp only [Except.ok.injEq, Prod.mk.injEq] at hv
        exact .inr (.inl ⟨hc, hd, hv.1.symm, hv.2.1.symm, hv.2.2.symm⟩)
      · rw [if_neg hd] at hv
        cases hI : verifyIntegrity env file f cd1 r1 with
        | error e => rw [hI] at hv; cases hv
        | ok y =>
          obtain ⟨r2, ok⟩ := y
          rw [hI] at hv
          simp only at hv
          refine .inr (.inr ⟨hc, hd, ?_, r2, ok, rfl, ?_⟩)
          · cases ok <;> simp only [Bool.not_false, Bool.not_true, Bool.false_eq_true, if_true, if_false, Except.ok.injEq, Prod.mk.injEq] at hv <;> exact hv.2.2.symm
          · cases ok with
            | false =>
              simp only [Bool.not_false, if_true, Except.ok.injEq, Prod.mk.injEq] at hv
              exact .inl ⟨rfl, hv.1.symm, hv.2.1.symm⟩
            | true =>
              simp only [Bool.not_true, Bool.false_eq_true, if_false, Except.ok.injEq, Prod.mk.injEq] at hv
              right
              refine ⟨rfl, ?_⟩
              rw [← hv.1, ← hv.2.1]

/-- What extraction of a v3.1 block does. -/
theorem extract_v31 {env : Env} {maxSdk : Int} {block : Bytes} {r : Core} {v3 : Option Core} {x}
    (h : extractCerts env .v31 maxSdk block r v3 = .ok x) :
    ∃ r1 cd31 s31, v3ParseSigners env ⟨true, maxSdk, 0⟩ block [] r = .ok (r1, cd31, s31) ∧
      ((mget r1.extraBlocks blockIdSchemeV3 = none ∧ ∃ cd, x = (r1.addError .v31WithoutV3, v3, cd, ⟨s31, [], rotationMinSdk s31⟩)) ∨
       (∃ b3 r3 cd s3, mget r1.extraBlocks blockIdSchemeV3 = some b3 ∧
         v3ParseSigners env ⟨false, maxSdk, rotationMinSdk s31⟩ b3 [] { schemeId := 3 } = .ok (r3, cd, s3) ∧
         x = (r1, some r3, cd, ⟨s31, s3, rotationMinSdk s31⟩))) := by
  unfold extractCerts at h
  simp only at h
  unfold v31ParseSigners at h
  cases hp : v3ParseSigners env ⟨true, maxSdk, 0⟩ block [] r with
  | error e => rw [hp] at h; cases h
  | ok y =>
    obtain ⟨r1, cd31, s31⟩ := y
    rw [hp] at h
    simp only [bind, Except.bind] at h
    refine ⟨r1, cd31, s31, rfl, ?_⟩
    cases hb : mget r1.extraBlocks blockIdSchemeV3 with
    | none =>
      rw [hb] at h
      simp only [Except.ok.injEq] at h
      exact .inl ⟨rfl, _, h.symm⟩
    | some b3 =>
      rw [hb] at h
      simp only at h
      cases hp3 : v3ParseSigners env ⟨false, maxSdk, rotationMinSdk s31⟩ b3 [] { schemeId := 3 } with
      | error e => rw [hp3] at h; cases h
      | ok z =>
        obtain ⟨r3, cd, s3⟩ := z
        rw [hp3] at h
        simp only [Except.ok.injEq] at h
        exact .inr ⟨b3, r3, cd, s3, rfl, hp3, h.symm⟩

theorem extract_grow {env : Env} {sch : Scheme} {maxSdk : Int} {block : Bytes} {r : Core} {v3 : Option Core} {r1 v3a dg fin}
    (h : extractCerts env sch maxSdk block r v3 = .ok (r1, v3a, dg, fin)) : r.Ext r1 := by
  cases sch with
  | v2 =>
    unfold extractCerts at h
    simp only at h
    cases hp : v2ParseSigners env maxSdk block [] r with
    | error e => rw [hp] at h; cases h
    | ok x =>
      obtain ⟨a, b⟩ := x
      rw [hp] at h
      simp only [bind, Except.bind, Except.ok.injEq, Prod.mk.injEq] at h
      rw [← h.1]; exact v2ParseSigners_ext hp
  | v3 =>
    unfold extractCerts at h
    simp only at h
    cases hp : v3ParseSigners env ⟨false, maxSdk, 0⟩ block [] r with
    | error e => rw [hp] at h; cases h
    | ok x =>
      obtain ⟨a, b, c⟩ := x
      rw [hp] at h
      simp only [bind, Except.bind, Except.ok.injEq, Prod.mk.injEq] at h
      rw [← h.1]; exact v3ParseSigners_ext hp
  | v31 =>
    obtain ⟨q1, _, s31, hp, hb⟩ := extract_v31 h
    have x1 := v3ParseSigners_ext hp
    rcases hb with ⟨_, cdx, hxe⟩ | ⟨b3, r3, cd3, s3, hb3, hp3, hxe⟩
    · simp only [Prod.mk.injEq] at hxe
      rw [hxe.1]; exact x1.trans (Core.Ext.addError _ _)
    · simp only [Prod.mk.injEq] at hxe
      rw [hxe.1]; exact x1

theorem finalize_grow (sch : Scheme) (minSdk maxSdk : Int) (fin : FinState) (r : Core) (v3 : Option Core) :
    r.Grow (finalizeScheme sch minSdk maxSdk fin r v3).1 := by
  cases sch with
  | v2 => exact (Core.Ext.refl _).grow
  | v3 => exact v3Finalize_grow _ _ _ _ _ _
  | v31 =>
    simp only [finalizeScheme, v31Finalize]
    have g := v3Finalize_grow true 0 (if minSdk < 33 then 33 else minSdk) maxSdk fin.signers r
    cases v3 with
    | none => exact g
    | some v => exact g.trans ⟨⟨[], by simp⟩, rfl, rfl, ⟨_, rfl⟩, ⟨_, rfl⟩⟩

/-- Verification of a scheme only adds to the result (except for the lineage). -/
theorem verifyScheme_grow {env : Env} {file : Bytes} {f : Found} {sch : Scheme} {minSdk maxSdk : Int} {block : Bytes}
    {r : Core} {v3 : Option Core} {r' : Core} {v3' : Option Core} {m : Digests}
    (hv : verifyScheme env file f sch minSdk maxSdk block r v3 = .ok (r', v3', m)) : r.Grow r' := by
  obtain ⟨r1, v3a, cd1, fin, hx, hcase⟩ := verifyScheme_inv hv
  have x1 := (extract_grow hx).grow
  rcases hcase with ⟨_, rfl, _⟩ | ⟨_, _, rfl, _⟩ | ⟨_, _, _, r2, ok, hI, hc⟩
  · exact x1.trans (Core.Ext.addError _ _).grow
  · exact x1.trans (Core.Ext.addError _ _).grow
  · have x2 := x1.trans (verifyIntegrity_ext hI).grow
    rcases hc with ⟨_, rfl, _⟩ | ⟨_, hc⟩
    · exact x2
    · have := finalize_grow sch minSdk maxSdk fin r2 v3a
      rw [← hc] at this
      exact x2.trans this

/-- The finalisation condition on the signers of a block, for a result that may already carry a lineage. -/
def FinCond (acting : Bool) (rot minSdk maxSdk : Int) (s : List SignerInfo) (r : Core) : Prop :=
  (finLoop {} (sortSigners s)).error = none ∧
  ¬ ((finLoop {} (sortSigners s)).firstMin > reqLo acting minSdk maxSdk ∨ (finLoop {} (sortSigners s)).lastMax < reqHi rot maxSdk) ∧
  (r.lineage = none → ∃ o, consolidateLineages (finLoop {} (sortSigners s)).lineages = .ok o)

theorem finCond_covers {vs : List V3View} (hne : vs ≠ []) (hg : ∀ v ∈ vs, v.Good) {acting : Bool} {rot a b : Int}
    {r : Core} (h : FinCond acting rot a b (vs.map V3View.info) r) (hr : r.lineage = none ∨ ∃ o, consolidateLineages (finLoop {} (sortSigners (vs.map V3View.info))).lineages = .ok o) :
    ∃ top, V3Covers vs (reqLo acting a b) (reqHi rot b) top := by
  obtain ⟨sp, ss⟩ := sortSigners_spec (vs.map V3View.info)
  refine Classical.byContradiction (fun hn => ?_)
  obtain ⟨es, lin, hes, hf⟩ := (finalizeSorted_views hne hg sp ss acting rot a b (r := ({} : Core)) rfl).2 hn
  obtain ⟨es', lin', hf', hiff, _⟩ := finalizeSorted_eq acting rot a b (sortSigners (vs.map V3View.info)) ({} : Core)
  rw [hf] at hf'
  have : es = es' := by have := congrArg Core.errors hf'; simpa using this
  subst this
  apply hes
  rw [hiff]
  refine ⟨h.1, h.2.1, fun _ => ?_⟩
  rcases hr with hr | hr
  · exact h.2.2 hr
  · exact hr

section
variable {env : Env} {file head area cd rec : Bytes} (hl : ApkLayout file head area cd rec)
include hl

/-- v3.1: a block with its base block that passes the checks is accepted. -/
theorem verifyScheme_v31_ok {minSdk maxSdk : Int} {block b3 : Bytes} {vs vs3 : List V3View} {r : Core} {v3 : Option Core}
    {top0 top30 : Option (List LNode)} (hb3 : mget r.extraBlocks blockIdSchemeV3 = some b3)
    (h : V31Accepts env (signedSections head cd rec) minSdk maxSdk block b3 vs vs3 top0 top30) (hr : r.lineage = none) :
    ∃ ws r3 top top3, V31Accepts env (signedSections head cd rec) minSdk maxSdk block b3 vs vs3 top top3 ∧
      verifyScheme env file (layoutFound head area cd rec) .v31 minSdk maxSdk block r v3 =
      .ok ({ r with certs := r.certs ++ vs.map V3View.chain, warnings := r.warnings ++ ws, lineage := mkLin top }, some r3,
        addDigests [] (v3Digests vs3)) ∧ r3.certs = vs3.map V3View.chain ∧ r3.errors = [] ∧ r3.lineage = mkLin top3 ∧ r3.schemeId = 3 := by
  obtain ⟨hb, hne, hcov, hbk3, hne3, hm, hcov3⟩ := h
  have hagree : DigestsAgree (v3Digests vs3) := by obtain ⟨_, _, _, _, _, _, _, _, h⟩ := hbk3; exact h
  obtain ⟨ws, hw⟩ := v3ParseSigners_ok (p := ⟨true, maxSdk, 0⟩) (r := r) (V3BlockOK_iff.2 ⟨hb, rfl⟩)
  obtain ⟨ws3, hw3⟩ := v3ParseSigners_ok (p := ⟨false, maxSdk, rotationOf vs⟩) (r := { schemeId := 3 }) (V3BlockOK_iff.2 ⟨hbk3, rfl⟩)
  obtain ⟨sp, ss⟩ := sortSigners_spec (vs.map V3View.info)
  obtain ⟨sp3, ss3⟩ := sortSigners_spec (vs3.map V3View.info)
  have hcov' : V3Covers vs (reqLo true (if minSdk < 33 then 33 else minSdk) maxSdk) (reqHi 0 maxSdk) top0 := hcov
  obtain ⟨top, hc1, hfin⟩ := (finalizeSorted_views hne hb.good sp ss true 0 (if minSdk < 33 then 33 else minSdk) maxSdk
    (r := { r with certs := r.certs ++ vs.map V3View.chain, warnings := r.warnings ++ ws }) hr).1 ⟨top0, hcov'⟩
  have hcov3' : V3Covers vs3 (reqLo false minSdk maxSdk) (reqHi (rotationOf vs) maxSdk) top30 := by
    rw [reqHi_rot hb.good]; exact hcov3
  obtain ⟨top3, hc3, hfin3⟩ := (finalizeSorted_views hne3 hbk3.good sp3 ss3 false (rotationOf vs) minSdk maxSdk
    (r := { schemeId := 3, certs := [] ++ vs3.map V3View.chain, warnings := [] ++ ws3 }) rfl).1 ⟨top30, hcov3'⟩
  rw [reqHi_rot hb.good] at hc3
  refine ⟨ws ++ ([] ++ ws3), { schemeId := 3, certs := [] ++ vs3.map V3View.chain, warnings := [] ++ ws3, lineage := mkLin top3 }, top, top3,
    ⟨hb, hne, hc1, hbk3, hne3, hm, hc3⟩, ?_, by simp, rfl, rfl, rfl⟩
  unfold verifyScheme extractCerts
  simp only [v31ParseSigners, hw, bind, Except.bind, hb3, rotation_eq, hw3]
  rw [if_neg (certs_len_pos hne)]
  have hdne : v3Digests vs3 ≠ [] := by simpa [v3Digests] using hne3
  rw [if_neg (by simpa using addDigests_ne_nil.2 hdne)]
  rw [(integrity_declared env hl hagree hdne _).1 hm]
  simp only [Bool.not_true, Bool.false_eq_true, if_false, finalizeScheme, v31Finalize, v3Finalize, hfin, hfin3]
  simp

/-- v3.1: what is known when no error was added. -/
theorem verifyScheme_v31_inv {minSdk maxSdk : Int} {block : Bytes} {r : Core} {v3 : Option Core}
    {r' : Core} {v3' : Option Core} {m : Digests}
    (hv : verifyScheme env file (layoutFound head area cd rec) .v31 minSdk maxSdk block r v3 = .ok (r', v3', m))
    (he : r'.errors = r.errors) :
    ∃ b3 vs vs3 top3, mget r.extraBlocks blockIdSchemeV3 = some b3 ∧ V3Block env maxSdk 0 block vs ∧ (r.certs ≠ [] ∨ vs ≠ []) ∧
      FinCond true 0 (if minSdk < 33 then 33 else minSdk) maxSdk (vs.map V3View.info) r ∧
      V3Block env maxSdk (rotationOf vs) b3 vs3 ∧ vs3 ≠ [] ∧ DigestsMatch env (signedSections head cd rec) (v3Digests vs3) ∧
      V3Covers vs3 (max minSdk 28) (if rotationOf vs = 0 then maxSdk else rotationOf vs - 1) top3 := by
  obtain ⟨r1, v3a, cd1, fin, hx, hcase⟩ := verifyScheme_inv hv
  obtain ⟨q1, cd31, s31, hp, hb⟩ := extract_v31 hx
  have x1 := v3ParseSigners_ext hp
  have nofail : ¬ r.Failed r' := by
    rintro ⟨es, hne, h⟩
    rw [he] at h
    exact hne (by simpa using h)
  rcases hb with ⟨_, cdx, hxe⟩ | ⟨b3, r3, cd3, s3, hb3, hp3, hxe⟩
  · exfalso
    simp only [Prod.mk.injEq] at hxe
    obtain ⟨rfl, rfl, rfl, rfl⟩ := hxe
    have f1 : r.Failed (q1.addError .v31WithoutV3) := x1.trans_failed (Core.Failed.addError _ _)
    rcases hcase with ⟨_, rfl, _⟩ | ⟨_, _, rfl, _⟩ | ⟨_, _, _, r2, ok, hI, hc⟩
    · exact nofail (f1.trans_ext (Core.Ext.addError _ _).errors)
    · exact nofail (f1.trans_ext (Core.Ext.addError _ _).errors)
    · have f2 := f1.trans_ext (verifyIntegrity_ext hI).errors
      rcases hc with ⟨_, rfl, _⟩ | ⟨_, hc⟩
      · exact nofail f2
      · simp only [finalizeScheme, v31Finalize] at hc
        have g := v3Finalize_grow true 0 (if minSdk < 33 then 33 else minSdk) maxSdk s31 r2
        cases v3a with
        | none =>
          simp only [Prod.mk.injEq] at hc
          rw [hc.1] at nofail
          exact nofail (f2.trans_grow g)
        | some v =>
          simp only [Prod.mk.injEq] at hc
          rw [hc.1] at nofail
          exact nofail ((f2.trans_grow g).trans_ext ⟨_, rfl⟩)
  · simp only [Prod.mk.injEq] at hxe
    obtain ⟨rfl, rfl, rfl, rfl⟩ := hxe
    rcases hcase with ⟨_, rfl, _⟩ | ⟨_, _, rfl, _⟩ | ⟨hcl, hdl, rfl, r2, ok, hI, hc⟩
    · exact absurd (x1.trans_failed (Core.Failed.addError _ _)) nofail
    · exact absurd (x1.trans_failed (Core.Failed.addError _ _)) nofail
    · have x2 := verifyIntegrity_ext hI
      -- no error may have been added on the way
      have h1 : r1.errors = r.errors := by
        refine Classical.byContradiction (fun hn => ?_)
        have f1 := failed_of_ne x1.grow hn
        have f2 := f1.trans_ext x2.errors
        rcases hc with ⟨_, rfl, _⟩ | ⟨_, hc⟩
        · exact nofail f2
        · simp only [finalizeScheme, v31Finalize, Prod.mk.injEq] at hc
          rw [hc.1] at nofail
          exact nofail ((f2.trans_grow (v3Finalize_grow true 0 (if minSdk < 33 then 33 else minSdk) maxSdk s31 r2)).trans_ext ⟨_, rfl⟩)
      obtain ⟨vs, ws, hbk, hr1, rfl⟩ := v3ParseSigners_inv hp h1
      obtain ⟨hbl, _⟩ := V3BlockOK_iff.1 hbk
      simp only at hbl
      rw [rotation_eq] at hp3 hc
      have h2 : r2.errors = r1.errors := by
        refine Classical.byContradiction (fun hn => ?_)
        have f2 := x1.trans_failed (failed_of_ne x2.grow hn)
        rcases hc with ⟨_, rfl, _⟩ | ⟨_, hc⟩
        · exact nofail f2
        · simp only [finalizeScheme, v31Finalize, Prod.mk.injEq] at hc
          rw [hc.1] at nofail
          exact nofail ((f2.trans_grow (v3Finalize_grow true 0 (if minSdk < 33 then 33 else minSdk) maxSdk (vs.map V3View.info) r2)).trans_ext ⟨_, rfl⟩)
      have hok : ok = true ∧ (r', v3') = finalizeScheme .v31 minSdk maxSdk ⟨vs.map V3View.info, s3, rotationOf vs⟩ r2 (some r3) := by
        rcases hc with ⟨rfl, rfl, _⟩ | hc
        · exfalso
          unfold verifyIntegrity at hI
          simp only at hI
          cases hcc : computeContentDigests env ((env.cdOrder m).map (·.1)) (sections file (layoutFound head area cd rec)) with
          | error e => rw [hcc] at hI; cases hI
          | ok z =>
            rw [hcc] at hI
            simp only [bind, Except.bind] at hI
            cases z with
            | error e =>
              simp only [Except.ok.injEq, Prod.mk.injEq] at hI
              rw [← hI.1] at h2
              simp [Core.addError] at h2
            | ok act => simp at hI
        · exact hc
      obtain ⟨rfl, hfz⟩ := hok
      simp only [finalizeScheme, v31Finalize, Prod.mk.injEq] at hfz
      obtain ⟨es, lin, hf, hiff, _⟩ := finalizeSorted_eq true 0 (if minSdk < 33 then 33 else minSdk) maxSdk (sortSigners (vs.map V3View.info)) r2
      obtain ⟨es3, lin3, hf3, hiff3, _⟩ := finalizeSorted_eq false (rotationOf vs) minSdk maxSdk (sortSigners s3) r3
      have x3 := v3ParseSigners_ext hp3
      obtain ⟨e3, he3⟩ := x3.errors
      simp only [v3Finalize] at hfz
      rw [hf, hf3] at hfz
      have hers := congrArg Core.errors hfz.1
      simp only at hers
      rw [he, h2, h1, he3] at hers
      have hz : es = [] ∧ e3 = [] ∧ es3 = [] := by
        have : r.errors ++ [] = r.errors ++ (es ++ ([] ++ e3 ++ es3)) := by rw [← List.append_assoc, ← hers]; simp
        have := List.append_cancel_left this
        simp only [List.nil_append] at this
        have := this.symm
        simp only [List.append_eq_nil_iff] at this
        exact ⟨this.1, this.2.1, this.2.2⟩
      obtain ⟨rfl, rfl, rfl⟩ := hz
      obtain ⟨vs3, ws3, hbk3, hr3, rfl⟩ := v3ParseSigners_inv hp3 (by simpa using he3)
      obtain ⟨hbl3, rfl⟩ := V3BlockOK_iff.1 hbk3
      simp only at hbl3
      have hagree : DigestsAgree (v3Digests vs3) := by obtain ⟨_, _, _, _, _, _, _, _, h⟩ := hbl3; exact h
      have hdne : v3Digests vs3 ≠ [] := addDigests_ne_nil.1 (by intro h; exact hdl (by rw [h]; rfl))
      have hne3 : vs3 ≠ [] := by simpa [v3Digests] using hdne
      have hm : DigestsMatch env (signedSections head cd rec) (v3Digests vs3) := by
        refine Classical.byContradiction (fun hm => ?_)
        obtain ⟨es, ok', hes, hI'⟩ := (integrity_declared env hl hagree hdne r1).2 hm
        rw [hI] at hI'
        simp only [Except.ok.injEq, Prod.mk.injEq] at hI'
        rw [hI'.1] at h2
        simp only at h2
        exact hes (by simpa using h2)
      have fc3 : FinCond false (rotationOf vs) minSdk maxSdk (vs3.map V3View.info) r3 := hiff3.1 rfl
      have fc : FinCond true 0 (if minSdk < 33 then 33 else minSdk) maxSdk (vs.map V3View.info) r2 := hiff.1 rfl
      obtain ⟨top3, ht3⟩ := finCond_covers hne3 hbl3.good fc3 (.inl (by rw [hr3]))
      rw [reqHi_rot hbl.good] at ht3
      refine ⟨b3, vs, vs3, top3, by rw [← x1.extra]; exact hb3, hbl, ?_, ?_, hbl3, hne3, hm, ht3⟩
      · by_cases hc0 : r.certs = []
        · right
          rintro rfl
          apply hcl
          rw [hr1]; simp [hc0]
        · exact .inl hc0
      · refine ⟨fc.1, fc.2.1, fun hr => fc.2.2 ?_⟩
        rw [x2.lineage, x1.lineage]; exact hr

/-- v3.1 on a fresh result: no error exactly when the checks pass. -/
theorem verifyScheme_v31_accepts {minSdk maxSdk : Int} {block : Bytes} {r : Core} {v3 : Option Core} (hr : r.lineage = none)
    (hc : r.certs = []) {r' : Core} {v3' : Option Core} {m : Digests}
    (hv : verifyScheme env file (layoutFound head area cd rec) .v31 minSdk maxSdk block r v3 = .ok (r', v3', m))
    (he : r'.errors = r.errors) :
    ∃ b3 vs vs3 top top3, mget r.extraBlocks blockIdSchemeV3 = some b3 ∧
      V31Accepts env (signedSections head cd rec) minSdk maxSdk block b3 vs vs3 top top3 := by
  obtain ⟨b3, vs, vs3, top3, h1, h2, h3, h4, h5, h6, h7, h8⟩ := verifyScheme_v31_inv hl hv he
  have hne : vs ≠ [] := h3.resolve_left (fun h => h hc)
  obtain ⟨top, ht⟩ := finCond_covers hne h2.good h4 (.inl hr)
  exact ⟨b3, vs, vs3, top, top3, h1, h2, hne, ht, h5, h6, h7, h8⟩

omit hl in
/-- Where certificates and lineage of a failed v3.1 verification come from. -/
theorem verifyScheme_v31_prov {minSdk maxSdk : Int} {block : Bytes} {r : Core} {v3 : Option Core} (hr : r.lineage = none)
    (hc : r.certs = []) {r' : Core} {v3' : Option Core} {m : Digests} {vs : List V3View}
    (hv : verifyScheme env file (layoutFound head area cd rec) .v31 minSdk maxSdk block r v3 = .ok (r', v3', m))
    (hb : V3Block env maxSdk 0 block vs) :
    (vs = [] → r'.certs = []) ∧
    (r'.lineage = none ∨ ∃ o, consolidateLineages (finLoop {} (sortSigners (vs.map V3View.info))).lineages = .ok o) := by
  obtain ⟨r1, v3a, cd1, fin, hx, hcase⟩ := verifyScheme_inv hv
  obtain ⟨q1, cd31, s31, hp, hbb⟩ := extract_v31 hx
  obtain ⟨ws, hw⟩ := v3ParseSigners_ok (p := ⟨true, maxSdk, 0⟩) (r := r) (V3BlockOK_iff.2 ⟨hb, rfl⟩)
  rw [hw] at hp
  simp only [Except.ok.injEq, Prod.mk.injEq] at hp
  obtain ⟨hq, -, rfl⟩ := hp
  have hr1 : r1.lineage = none ∧ r1.certs = vs.map V3View.chain ∧ fin.signers = vs.map V3View.info := by
    rcases hbb with ⟨_, cdx, hxe⟩ | ⟨b3, r3, cd3, s3, hb3, hp3, hxe⟩ <;>
    · simp only [Prod.mk.injEq] at hxe
      obtain ⟨rfl, -, -, rfl⟩ := hxe
      rw [← hq]
      exact ⟨hr, by simp [hc, Core.addError], rfl⟩
  obtain ⟨h1, h2, h3⟩ := hr1
  rcases hcase with ⟨_, rfl, _⟩ | ⟨_, _, rfl, _⟩ | ⟨hcl, _, _, r2, ok, hI, hc'⟩
  · exact ⟨fun h => by subst h; exact h2, .inl h1⟩
  · exact ⟨fun h => by subst h; exact h2, .inl h1⟩
  · have x2 := verifyIntegrity_ext hI
    refine ⟨fun h => by subst h; exact absurd (by rw [h2]; rfl) hcl, ?_⟩
    rcases hc' with ⟨_, rfl, _⟩ | ⟨_, hfz⟩
    · left; rw [x2.lineage]; exact h1
    · simp only [finalizeScheme, v31Finalize, v3Finalize, h3] at hfz
      obtain ⟨es, lin, hf, _, _, _, hnone⟩ := finalizeSorted_eq true 0 (if minSdk < 33 then 33 else minSdk) maxSdk (sortSigners (vs.map V3View.info)) r2
      by_cases hco : ∃ o, consolidateLineages (finLoop {} (sortSigners (vs.map V3View.info))).lineages = .ok o
      · exact .inr hco
      · left
        have hl0 : lin = none := hnone (by rw [x2.lineage]; exact h1) (fun o ho => hco ⟨o, ho⟩)
        rw [hf, hl0] at hfz
        cases v3a with
        | none => simp only [Prod.mk.injEq] at hfz; rw [hfz.1]
        | some v => simp only [Prod.mk.injEq] at hfz; rw [hfz.1]

/-- A v3.1 verification that failed fails again when repeated on the left-over result. -/
theorem verifyScheme_v31_again {minSdk maxSdk : Int} {block : Bytes} {r : Core} {v3 : Option Core} (hr : r.lineage = none)
    (hc : r.certs = []) {r' : Core} {v3' : Option Core} {m : Digests}
    (hv : verifyScheme env file (layoutFound head area cd rec) .v31 minSdk maxSdk block r v3 = .ok (r', v3', m))
    (hf : ¬ ∃ b3 vs vs3 top top3, mget r.extraBlocks blockIdSchemeV3 = some b3 ∧
      V31Accepts env (signedSections head cd rec) minSdk maxSdk block b3 vs vs3 top top3)
    {q q' : Core} {w w' : Option Core} {m' : Digests} (hq1 : q.certs = r'.certs) (hq2 : q.lineage = r'.lineage)
    (hq3 : mget q.extraBlocks blockIdSchemeV3 = mget r.extraBlocks blockIdSchemeV3)
    (hv' : verifyScheme env file (layoutFound head area cd rec) .v31 minSdk maxSdk block q w = .ok (q', w', m')) :
    q'.errors ≠ q.errors := by
  intro he
  obtain ⟨b3, vs, vs3, top3, h1, h2, h3, h4, h5, h6, h7, h8⟩ := verifyScheme_v31_inv hl hv' he
  obtain ⟨p1, p2⟩ := verifyScheme_v31_prov hr hc hv h2
  have hne : vs ≠ [] := by
    rcases h3 with h3 | h3
    · intro h0; exact h3 (by rw [hq1]; exact p1 h0)
    · exact h3
  obtain ⟨top, ht⟩ := finCond_covers hne h2.good h4 (by rw [hq2]; exact p2)
  exact hf ⟨b3, vs, vs3, top, top3, by rw [← hq3]; exact h1, h2, hne, ht, h5, h6, h7, h8⟩

end
end Apk
