import Verif.Proofs.Finalize
/-! # Verification of a picked scheme block -/
namespace Apk
set_option linter.unusedSimpArgs false

/-- What verification of one scheme may do to a result: only add, except for the lineage. -/
structure Core.Grow (r r' : Core) : Prop where
  certs : ∃ cs, r'.certs = r.certs ++ cs
  schemeId : r'.schemeId = r.schemeId
  extra : r'.extraBlocks = r.extraBlocks
  errors : ∃ es, r'.errors = r.errors ++ es
  warnings : ∃ ws, r'.warnings = r.warnings ++ ws

theorem Core.Ext.grow {r r' : Core} (h : r.Ext r') : r.Grow r' := ⟨h.certs, h.schemeId, h.extra, h.errors, h.warnings⟩

theorem Core.Grow.trans {a b c : Core} (h : a.Grow b) (h' : b.Grow c) : a.Grow c := by
  obtain ⟨es, he⟩ := h.errors
  obtain ⟨es', he'⟩ := h'.errors
  obtain ⟨ws, hw⟩ := h.warnings
  obtain ⟨ws', hw'⟩ := h'.warnings
  obtain ⟨cs, hc⟩ := h.certs
  obtain ⟨cs', hc'⟩ := h'.certs
  exact ⟨⟨cs ++ cs', by rw [hc', hc, List.append_assoc]⟩, h'.schemeId.trans h.schemeId, h'.extra.trans h.extra,
    ⟨es ++ es', by rw [he', he, List.append_assoc]⟩, ⟨ws ++ ws', by rw [hw', hw, List.append_assoc]⟩⟩

theorem Core.Grow.errs (r : Core) (es : List E) (lin : Option Lineage) :
    r.Grow { r with errors := r.errors ++ es, lineage := lin } :=
  ⟨⟨[], by simp⟩, rfl, rfl, ⟨es, rfl⟩, ⟨[], by simp⟩⟩

theorem certs_len_pos {r : Core} {α : Type} {vs : List α} {f : α → List Cert} (h : vs ≠ []) : ¬ (r.certs ++ vs.map f).length = 0 := by
  cases vs with
  | nil => exact absurd rfl h
  | cons => simp

theorem verifyIntegrity_ext {env : Env} {file : Bytes} {f : Found} {m : Digests} {r r' : Core} {ok : Bool}
    (hI : verifyIntegrity env file f m r = .ok (r', ok)) : r.Ext r' := by
  unfold verifyIntegrity at hI
  simp only at hI
  cases hcc : computeContentDigests env ((env.cdOrder m).map (·.1)) (sections file f) with
  | error e => rw [hcc] at hI; cases hI
  | ok z =>
    rw [hcc] at hI
    simp only [bind, Except.bind] at hI
    cases z with
    | error e =>
      simp only [Except.ok.injEq, Prod.mk.injEq] at hI
      rw [← hI.1]; exact Core.Ext.addError _ _
    | ok act =>
      simp only [Except.ok.injEq, Prod.mk.injEq] at hI
      rw [← hI.1]; exact ⟨⟨[], by simp⟩, rfl, rfl, rfl, ⟨_, rfl⟩, ⟨[], by simp⟩⟩

theorem v3Finalize_grow (acting : Bool) (rot a b : Int) (s : List SignerInfo) (r : Core) :
    r.Grow (v3Finalize acting rot a b s r) := by
  obtain ⟨es, lin, h, _⟩ := finalizeSorted_eq acting rot a b (sortSigners s) r
  unfold v3Finalize
  rw [h]; exact Core.Grow.errs _ _ _

theorem Core.Failed.trans_grow {a b c : Core} (h : a.Failed b) (h' : b.Grow c) : a.Failed c := h.trans_ext h'.errors

theorem Core.Grow.trans_failed {a b c : Core} (h : a.Grow b) (h' : b.Failed c) : a.Failed c := by
  obtain ⟨es, h1⟩ := h.errors
  obtain ⟨es', h2, h3⟩ := h'
  exact ⟨es ++ es', by simp [h2], by rw [h3, h1, List.append_assoc]⟩

theorem failed_of_ne {r r' : Core} (h : r.Grow r') (he : r'.errors ≠ r.errors) : r.Failed r' := by
  obtain ⟨es, hes⟩ := h.errors
  exact ⟨es, by rintro rfl; exact he (by simpa using hes), hes⟩

section
variable {env : Env} {file head area cd rec : Bytes} (hl : ApkLayout file head area cd rec)
include hl

/-- v2: a valid block is accepted. -/
theorem verifyScheme_v2_ok {minSdk maxSdk : Int} {block : Bytes} {vs : List V2View} {r : Core} {v3 : Option Core}
    (h : V2Accepts env (signedSections head cd rec) maxSdk (Present r) block vs) (hn : r.certs.length + vs.length ≤ 10) :
    ∃ ws, verifyScheme env file (layoutFound head area cd rec) .v2 minSdk maxSdk block r v3 =
      .ok ({ r with certs := r.certs ++ vs.map V2View.chain, warnings := r.warnings ++ ws }, v3, addDigests [] (v2Digests vs)) := by
  obtain ⟨hb, hne, hm⟩ := h
  have hagree : DigestsAgree (v2Digests vs) := by obtain ⟨_, _, _, _, _, _, _, _, h⟩ := hb; exact h
  have hbk := V2BlockOK_iff.2 ⟨vs, rfl, hb, rfl⟩
  obtain ⟨ws, hw⟩ := v2ParseSigners_ok hbk (by simpa using hn)
  refine ⟨ws, ?_⟩
  unfold verifyScheme extractCerts
  simp only [hw, bind, Except.bind]
  have hc : (vs.map (fun v => (v.chain, v.alg, v.digest))).map (·.1) = vs.map V2View.chain := by rw [List.map_map]; rfl
  rw [hc, if_neg (certs_len_pos hne)]
  have hdne : v2Digests vs ≠ [] := by simpa [v2Digests] using hne
  rw [if_neg (by simpa using addDigests_ne_nil.2 hdne)]
  rw [(integrity_declared env hl hagree hdne _).1 hm]
  rfl

/-- v2: anything else adds an error. -/
theorem verifyScheme_v2_fail {minSdk maxSdk : Int} {block : Bytes} {r : Core} {v3 : Option Core}
    (h : ¬ ∃ vs, V2Accepts env (signedSections head cd rec) maxSdk (Present r) block vs ∧ r.certs.length + vs.length ≤ 10)
    {r' : Core} {v3' : Option Core} {m : Digests}
    (hv : verifyScheme env file (layoutFound head area cd rec) .v2 minSdk maxSdk block r v3 = .ok (r', v3', m)) :
    r.Ext r' ∧ r.Failed r' := by
  unfold verifyScheme extractCerts at hv
  simp only at hv
  cases hp : v2ParseSigners env maxSdk block [] r with
  | error e => rw [hp] at hv; cases hv
  | ok x =>
    obtain ⟨r1, cd1⟩ := x
    rw [hp] at hv
    simp only [bind, Except.bind] at hv
    have x1 := v2ParseSigners_ext hp
    by_cases hc : r1.certs.length = 0
    · rw [if_pos hc] at hv
      simp only [Except.ok.injEq, Prod.mk.injEq] at hv
      rw [← hv.1]
      exact ⟨x1.trans (Core.Ext.addError _ _), x1.trans_failed (Core.Failed.addError _ _)⟩
    · rw [if_neg hc] at hv
      by_cases hd : cd1.length = 0
      · rw [if_pos hd] at hv
        simp only [Except.ok.injEq, Prod.mk.injEq] at hv
        rw [← hv.1]
        exact ⟨x1.trans (Core.Ext.addError _ _), x1.trans_failed (Core.Failed.addError _ _)⟩
      · rw [if_neg hd] at hv
        have fin : ∀ {r2 : Core} {ok : Bool}, (if (!ok) = true then (.ok (r2, v3, cd1) : Go (Core × Option Core × Digests)) else
            match finalizeScheme .v2 minSdk maxSdk {} r2 v3 with | (r, v3) => .ok (r, v3, cd1)) = .ok (r', v3', m) → r2 = r' := by
          intro r2 ok h
          cases ok with
          | false => simp only [Bool.not_false, if_true, Except.ok.injEq, Prod.mk.injEq] at h; exact h.1
          | true => simp only [Bool.not_true, Bool.false_eq_true, if_false, finalizeScheme, Except.ok.injEq, Prod.mk.injEq] at h; exact h.1
        -- integrity never panics here only if the map is one of ours; otherwise an error was recorded already
        cases hI : verifyIntegrity env file (layoutFound head area cd rec) cd1 r1 with
        | error e => rw [hI] at hv; cases hv
        | ok y =>
          obtain ⟨r2, ok⟩ := y
          rw [hI] at hv
          simp only at hv
          have hr := fin hv
          subst hr
          have x2 := verifyIntegrity_ext hI
          refine ⟨x1.trans x2, ?_⟩
          by_cases he : r1.errors = r.errors
          · obtain ⟨vs, ws, hbk, hlen, hr1⟩ := v2ParseSigners_inv hp he
            obtain ⟨ws', rfl, hb, rfl⟩ := V2BlockOK_iff.1 hbk
            have hagree : DigestsAgree (v2Digests ws') := by obtain ⟨_, _, _, _, _, _, _, _, h⟩ := hb; exact h
            have hdne : v2Digests ws' ≠ [] := addDigests_ne_nil.1 (by simpa using hd)
            have hne : ws' ≠ [] := by simpa [v2Digests] using hdne
            have hnm : ¬ DigestsMatch env (signedSections head cd rec) (v2Digests ws') := by
              intro hm
              exact h ⟨ws', ⟨hb, hne, hm⟩, by simpa using hlen⟩
            obtain ⟨es, ok', hes, hI'⟩ := (integrity_declared env hl hagree hdne r1).2 hnm
            rw [hI] at hI'
            simp only [Except.ok.injEq, Prod.mk.injEq] at hI'
            rw [hI'.1]
            exact x1.trans_failed ⟨es, hes, rfl⟩
          · obtain ⟨es, hes⟩ := x1.errors
            have : es ≠ [] := by rintro rfl; exact he (by simpa using hes)
            exact Core.Failed.trans_ext ⟨es, this, hes⟩ x2.errors

/-- v3: a valid block is accepted. -/
theorem verifyScheme_v3_ok {minSdk maxSdk : Int} {block : Bytes} {vs : List V3View} {r : Core} {v3 : Option Core}
    {top0 : Option (List LNode)}
    (h : V3Accepts env (signedSections head cd rec) minSdk maxSdk block vs top0) (hr : r.lineage = none) :
    ∃ ws top, V3Accepts env (signedSections head cd rec) minSdk maxSdk block vs top ∧
      verifyScheme env file (layoutFound head area cd rec) .v3 minSdk maxSdk block r v3 =
      .ok ({ r with certs := r.certs ++ vs.map V3View.chain, warnings := r.warnings ++ ws, lineage := mkLin top }, v3,
        addDigests [] (v3Digests vs)) := by
  obtain ⟨hb, hne, hm, hcov⟩ := h
  have hagree : DigestsAgree (v3Digests vs) := by obtain ⟨_, _, _, _, _, _, _, _, h⟩ := hb; exact h
  obtain ⟨ws, hw⟩ := v3ParseSigners_ok (p := ⟨false, maxSdk, 0⟩) (r := r) (V3BlockOK_iff.2 ⟨hb, rfl⟩)
  obtain ⟨sp, ss⟩ := sortSigners_spec (vs.map V3View.info)
  obtain ⟨top, hcov', hfin⟩ := (finalizeSorted_views hne hb.good sp ss false 0 minSdk maxSdk
    (r := { r with certs := r.certs ++ vs.map V3View.chain, warnings := r.warnings ++ ws }) hr).1 ⟨top0, hcov⟩
  refine ⟨ws, top, ⟨hb, hne, hm, hcov'⟩, ?_⟩
  unfold verifyScheme extractCerts
  simp only [hw, bind, Except.bind]
  rw [if_neg (certs_len_pos hne)]
  have hdne : v3Digests vs ≠ [] := by simpa [v3Digests] using hne
  rw [if_neg (by simpa using addDigests_ne_nil.2 hdne)]
  rw [(integrity_declared env hl hagree hdne _).1 hm]
  simp only [Bool.not_true, Bool.false_eq_true, if_false, finalizeScheme, v3Finalize, hfin]

/-- v3: anything else adds an error. -/
theorem verifyScheme_v3_fail {minSdk maxSdk : Int} {block : Bytes} {r : Core} {v3 : Option Core} (hr : r.lineage = none)
    (h : ¬ ∃ vs top, V3Accepts env (signedSections head cd rec) minSdk maxSdk block vs top)
    {r' : Core} {v3' : Option Core} {m : Digests}
    (hv : verifyScheme env file (layoutFound head area cd rec) .v3 minSdk maxSdk block r v3 = .ok (r', v3', m)) :
    r.Grow r' ∧ r.Failed r' := by
  unfold verifyScheme extractCerts at hv
  simp only at hv
  cases hp : v3ParseSigners env ⟨false, maxSdk, 0⟩ block [] r with
  | error e => rw [hp] at hv; cases hv
  | ok x =>
    obtain ⟨r1, cd1, is⟩ := x
    rw [hp] at hv
    simp only [bind, Except.bind] at hv
    have x1 := v3ParseSigners_ext hp
    by_cases hc : r1.certs.length = 0
    · rw [if_pos hc] at hv
      simp only [Except.ok.injEq, Prod.mk.injEq] at hv
      rw [← hv.1]
      exact ⟨(x1.trans (Core.Ext.addError _ _)).grow, x1.trans_failed (Core.Failed.addError _ _)⟩
    · rw [if_neg hc] at hv
      by_cases hd : cd1.length = 0
      · rw [if_pos hd] at hv
        simp only [Except.ok.injEq, Prod.mk.injEq] at hv
        rw [← hv.1]
        exact ⟨(x1.trans (Core.Ext.addError _ _)).grow, x1.trans_failed (Core.Failed.addError _ _)⟩
      · rw [if_neg hd] at hv
        cases hI : verifyIntegrity env file (layoutFound head area cd rec) cd1 r1 with
        | error e => rw [hI] at hv; cases hv
        | ok y =>
          obtain ⟨r2, ok⟩ := y
          rw [hI] at hv
          simp only at hv
          have x2 := verifyIntegrity_ext hI
          have x3 : r2.Grow r' := by
            cases ok with
            | false =>
              simp only [Bool.not_false, if_true, Except.ok.injEq, Prod.mk.injEq] at hv
              rw [← hv.1]; exact (Core.Ext.refl _).grow
            | true =>
              simp only [Bool.not_true, Bool.false_eq_true, if_false, finalizeScheme, Except.ok.injEq, Prod.mk.injEq] at hv
              rw [← hv.1]; exact v3Finalize_grow _ _ _ _ _ _
          refine ⟨(x1.trans x2).grow.trans x3, ?_⟩
          by_cases he : r1.errors = r.errors
          · obtain ⟨vs, ws, hbk, hr1, rfl⟩ := v3ParseSigners_inv hp he
            obtain ⟨hb, rfl⟩ := V3BlockOK_iff.1 hbk
            have hagree : DigestsAgree (v3Digests vs) := by obtain ⟨_, _, _, _, _, _, _, _, h⟩ := hb; exact h
            have hdne : v3Digests vs ≠ [] := addDigests_ne_nil.1 (by simpa using hd)
            have hne : vs ≠ [] := by simpa [v3Digests] using hdne
            by_cases hm : DigestsMatch env (signedSections head cd rec) (v3Digests vs)
            · rw [(integrity_declared env hl hagree hdne r1).1 hm] at hI
              simp only [Except.ok.injEq, Prod.mk.injEq] at hI
              obtain ⟨rfl, rfl⟩ := hI
              simp only [Bool.not_true, Bool.false_eq_true, if_false, finalizeScheme, Except.ok.injEq, Prod.mk.injEq, v3Finalize] at hv
              obtain ⟨sp, ss⟩ := sortSigners_spec (vs.map V3View.info)
              have hnc : ¬ ∃ top, V3Covers vs (reqLo false minSdk maxSdk) (reqHi 0 maxSdk) top := by
                rintro ⟨top, ht⟩
                exact h ⟨vs, top, hb, hne, hm, ht⟩
              obtain ⟨es, lin, hes, hf⟩ := (finalizeSorted_views hne hb.good sp ss false 0 minSdk maxSdk (r := r1)
                (by rw [hr1]; exact hr)).2 hnc
              rw [hf] at hv
              rw [← hv.1]
              exact x1.trans_failed ⟨es, hes, rfl⟩
            · obtain ⟨es, ok', hes, hI'⟩ := (integrity_declared env hl hagree hdne r1).2 hm
              rw [hI] at hI'
              simp only [Except.ok.injEq, Prod.mk.injEq] at hI'
              have : r1.Failed r2 := by rw [hI'.1]; exact ⟨es, hes, rfl⟩
              exact (x1.trans_failed this).trans_grow x3
          · have := failed_of_ne x1.grow he
            exact (this.trans_ext x2.errors).trans_grow x3

end

end Apk
