import Verif.Spec.Warnings
import Verif.Proofs.Trace
import Verif.Proofs.Frosting
/-! # The warnings of accepted signers and blocks -/
namespace Apk
set_option linter.unusedSimpArgs false

theorem signatureWarnings_eq (recs : List Bytes) : sigWarnings recs = signatureWarnings recs := by
  unfold sigWarnings signatureWarnings
  induction recs with
  | nil => rfl
  | cons r rs ih =>
    by_cases h : algStrength (recAlg r) = 0
    · rw [List.filter_cons_of_pos (by simp [h]), List.map_cons, ih, List.filterMap_cons_some (b := W.unsupportedAlgo (recAlg r)) (by simp [h])]
    · rw [List.filter_cons_of_neg (by simp [h]), ih, List.filterMap_cons_none (by simp [h])]

/-- One attribute of a v2 signer. -/
theorem v2AttrStep_warn {maxSdk : Int} {r r' : Core} {attr : Bytes} (h : v2AttrStep maxSdk r attr = .ok (r', true)) :
    r'.warnings = r.warnings ++ (v2AttrWarning attr).toList := by
  unfold v2AttrStep at h
  cases h1 : rdU32 attr with
  | none => rw [h1] at h; simp at h
  | some q =>
    obtain ⟨id, rest⟩ := q
    have hid : attrId attr = id := by
      unfold rdU32 at h1
      split at h1
      · cases h1
      · cases h1; rfl
    rw [h1] at h
    simp only at h
    unfold v2AttrWarning
    rw [hid]
    by_cases h2 : id = 0xbeeff00d
    · rw [if_pos h2] at h ⊢
      simp only [Option.toList_none, List.append_nil]
      split at h
      · cases h; rfl
      · split at h
        · simp at h
        · split at h
          · cases h; rfl
          · split at h
            · simp at h
            · cases h; rfl
    · rw [if_neg h2] at h ⊢
      cases h; rfl

theorem v2AttrFold_warn {maxSdk : Int} (items : List Bytes) : ∀ {r r' : Core}, foldGo (v2AttrStep maxSdk) r items = .ok (r', true) →
    r'.warnings = r.warnings ++ items.filterMap v2AttrWarning := by
  induction items with
  | nil => intro r r' h; simp only [foldGo, Except.ok.injEq, Prod.mk.injEq] at h; rw [← h.1]; simp
  | cons x items ih =>
    intro r r' h
    rw [foldGo] at h
    cases h1 : v2AttrStep maxSdk r x with
    | error e => rw [h1] at h; cases h
    | ok q =>
      obtain ⟨r1, b⟩ := q
      rw [h1] at h
      simp only [bind, Except.bind] at h
      cases b with
      | false => simp at h
      | true =>
        simp only [if_true] at h
        rw [ih h, v2AttrStep_warn h1, List.append_assoc, List.filterMap_cons]
        cases v2AttrWarning x <;> rfl

theorem v2VerifySigner_warn {env : Env} {maxSdk : Int} {signer : Bytes} {chain : List Cert} {a : Nat} {d : Bytes} {r : Core}
    {cd : Digests} (h : V2SignerOK env maxSdk (Present r) signer chain a d) (hagr : Agrees cd (algDigest a) d) :
    ∃ ws, V2SignerWarnings signer ws ∧ v2VerifySigner env maxSdk signer cd r =
      .ok ({ r with certs := r.certs ++ [chain], warnings := r.warnings ++ ws }, mset cd (algDigest a) d) := by
  have hstr := h.strength
  have h0 := h
  obtain ⟨signedData, sigs, pk, tail, sigRecs, sig, digests, certs, attrs, tail', digestRecs, attrRecs, main, more,
    h1, s1, s2, s3, h2, s4, s5, s6, hsig, hkey, hcert, hchain, hdig, halg, hattr, hattrs⟩ := h
  refine ⟨signatureWarnings sigRecs ++ attrRecs.filterMap v2AttrWarning,
    ⟨signedData, sigs, pk, tail, sigRecs, digests, certs, attrs, tail', attrRecs, h1, s1, s2, s3, h2, s4, s5, s6, hsig.1, hattr, rfl⟩, ?_⟩
  unfold v2VerifySigner
  rw [h1, List.append_assoc, List.append_assoc, rdLP_lp _ _ s1]
  simp only
  rw [rdLP_lp _ _ s2]
  simp only
  rw [parseSignatures_ok hsig]
  simp only [bind, Except.bind]
  rw [rdLP_lp _ _ s3]
  simp only
  rw [parsePublicKey_ok hkey]
  simp only [Bool.not_true, Bool.false_eq_true, if_false]
  have e1 : rdLP signedData = .ok (digests, lp certs ++ (lp attrs ++ tail')) := by
    rw [h2, List.append_assoc, List.append_assoc, rdLP_lp _ _ s4]
  rw [e1]
  simp only
  rw [rdLP_lp _ _ s5]
  simp only
  rw [parseCertificates_ok hcert]
  simp only
  rw [← halg, parseDigests_ok hdig hstr hagr]
  simp only [Bool.not_true, Bool.false_eq_true, if_false]
  rw [rdLP_lp _ _ s6]
  simp only
  rw [(lpSplit_ok_iff attrs attrRecs).2 ⟨hattr.2, hattr.1⟩]
  simp only
  obtain ⟨ws, hw⟩ := (v2AttrFold_spec maxSdk attrRecs
    { r with certs := r.certs ++ [main :: more], warnings := r.warnings ++ sigWarnings sigRecs }).1 hattrs
  have hws := List.append_cancel_left (v2AttrFold_warn attrRecs hw)
  subst hws
  rw [hw]
  simp only [Bool.not_true, Bool.false_eq_true, if_false, List.append_assoc, hchain, signatureWarnings_eq]

/-- One attribute of a v3 signer. -/
theorem v3AttrStep_warn {env : Env} {p : V3Params} {main : Cert} {st st' : AttrSt} {attr : Bytes} (h : v3AttrStep env p main st attr = .ok (st', true)) :
    st'.r.warnings = st.r.warnings ++ (v3AttrWarning p.actingAsV31 p.maxSdk attr).toList ∧
    st'.minSdkFound = (st.minSdkFound || decide (attrId attr = rotationMinSdkAttrId)) := by
  unfold v3AttrStep at h
  cases h1 : rdU32 attr with
  | none => rw [h1] at h; simp at h
  | some q =>
    obtain ⟨id, rest⟩ := q
    have hid : attrId attr = id := by
      unfold rdU32 at h1
      split at h1
      · cases h1
      · cases h1; rfl
    rw [h1] at h
    simp only at h
    unfold v3AttrWarning
    rw [hid]
    by_cases h2 : id = 0x3ba06f8c
    · have hn : ¬ id = rotationMinSdkAttrId := by rw [h2]; decide
      rw [if_pos h2] at h
      rw [if_pos (show id = lineageAttrId from h2)]
      simp only [Option.toList_none, List.append_nil, hn, decide_false, Bool.or_false]
      cases hl : readLineage env rest with
      | error e => rw [hl] at h; cases h
      | ok z =>
        rw [hl] at h
        simp only [bind, Except.bind] at h
        cases z with
        | error e => simp at h
        | ok nodes =>
          simp only at h
          split at h
          · cases h; exact ⟨rfl, rfl⟩
          · split at h
            · cases h; exact ⟨rfl, rfl⟩
            · split at h
              · cases h; exact ⟨rfl, rfl⟩
              · cases h; exact ⟨rfl, rfl⟩
    · rw [if_neg h2] at h
      rw [if_neg (show ¬ id = lineageAttrId from h2)]
      by_cases h3 : id = 0x559f8b02
      · rw [if_pos h3] at h
        have h3' : id = rotationMinSdkAttrId := h3
        simp only [h3', true_and, decide_true, Bool.or_true]
        by_cases hm : 33 ≤ p.maxSdk
        · have hs : supportsSigV31 p.maxSdk = true := by simp [supportsSigV31, hm]
          rw [if_pos hs] at h
          rw [if_pos hm]
          simp only [Option.toList_none, List.append_nil]
          split at h
          · simp at h
          · split at h
            · split at h
              · cases h; exact ⟨rfl, rfl⟩
              · cases h; exact ⟨rfl, rfl⟩
            · cases h; exact ⟨rfl, rfl⟩
        · have hs : ¬ supportsSigV31 p.maxSdk = true := by simp [supportsSigV31]; omega
          rw [if_neg hs] at h
          rw [if_neg hm, if_neg (by decide)]
          cases h
          rw [h3']
          exact ⟨rfl, rfl⟩
      · have h3' : ¬ id = rotationMinSdkAttrId := h3
        rw [if_neg h3] at h
        rw [if_neg (fun q => h3' q.1)]
        simp only [h3', decide_false, Bool.or_false]
        by_cases h4 : id = 0xc2a6b3ba
        · rw [if_pos h4] at h ⊢
          cases hv : p.actingAsV31 with
          | false =>
            rw [hv] at h
            simp only [Bool.not_false, if_true] at h
            cases h
            exact ⟨rfl, rfl⟩
          | true =>
            rw [hv] at h
            simp only [Bool.not_true, Bool.false_eq_true, if_false] at h
            cases h
            exact ⟨by simp, rfl⟩
        · rw [if_neg h4] at h ⊢
          cases h
          exact ⟨rfl, rfl⟩

theorem v3AttrFold_warn {env : Env} {p : V3Params} {main : Cert} (items : List Bytes) : ∀ {st st' : AttrSt},
    foldGo (v3AttrStep env p main) st items = .ok (st', true) →
    st'.r.warnings = st.r.warnings ++ items.filterMap (v3AttrWarning p.actingAsV31 p.maxSdk) ∧
    st'.minSdkFound = (st.minSdkFound || items.any (fun x => decide (attrId x = rotationMinSdkAttrId))) := by
  induction items with
  | nil => intro st st' h; simp only [foldGo, Except.ok.injEq, Prod.mk.injEq] at h; rw [← h.1]; simp
  | cons x items ih =>
    intro st st' h
    rw [foldGo] at h
    cases h1 : v3AttrStep env p main st x with
    | error e => rw [h1] at h; cases h
    | ok q =>
      obtain ⟨r1, b⟩ := q
      rw [h1] at h
      simp only [bind, Except.bind] at h
      cases b with
      | false => simp at h
      | true =>
        simp only [if_true] at h
        obtain ⟨i1, i2⟩ := ih h
        obtain ⟨j1, j2⟩ := v3AttrStep_warn h1
        refine ⟨?_, ?_⟩
        · rw [i1, j1, List.append_assoc, List.filterMap_cons]
          cases v3AttrWarning p.actingAsV31 p.maxSdk x <;> rfl
        · rw [i2, j2, List.any_cons, Bool.or_assoc]

/-- The warnings of the attributes. -/
def v3AttrsWarn (p : V3Params) (recs : List Bytes) : List W :=
  recs.filterMap (v3AttrWarning p.actingAsV31 p.maxSdk) ++
    (if p.rotationMin ≠ 0 ∧ ∀ x ∈ recs, attrId x ≠ rotationMinSdkAttrId then [.rotationAttrMissing] else [])

theorem v3Attrs_warn {env : Env} {p : V3Params} {main : Cert} {d attrs : Bytes} {recs : List Bytes} {lin : Option (List LNode)}
    {r : Core} (h : V3AttrsOK env p main d attrs recs) (hl : LineageOf env recs lin) :
    v3Attrs env p main d r = .ok ({ r with warnings := r.warnings ++ v3AttrsWarn p recs }, mkLin lin) := by
  obtain ⟨⟨tail, rfl⟩, hs, ⟨h1, h2⟩, h3⟩ := h
  obtain ⟨ws, lin', f, h4, h5⟩ := v3AttrFold_ok (main := main) (p := p) recs (st := ⟨r, none, false⟩) h3 (LineageOf.nil env) rfl
  rw [List.nil_append] at h5
  have := h5.unique hl
  subst this
  obtain ⟨k1, k2⟩ := v3AttrFold_warn recs h4
  have k1 := List.append_cancel_left k1
  subst k1
  have k2 : f = recs.any (fun x => decide (attrId x = rotationMinSdkAttrId)) := by simpa using k2
  unfold v3Attrs
  rw [rdLP_lp _ _ hs]
  simp only
  rw [(lpSplit_ok_iff attrs recs).2 ⟨h2, h1⟩]
  simp only
  rw [h4]
  simp only [bind, Except.bind, Bool.not_true, Bool.false_eq_true, if_false]
  have hf : (f = false) ↔ ∀ x ∈ recs, attrId x ≠ rotationMinSdkAttrId := by
    rw [k2, List.any_eq_false]; simp
  unfold v3AttrsWarn
  by_cases hc : p.rotationMin ≠ 0 ∧ f = false
  · rw [if_pos hc, if_pos ⟨hc.1, hf.1 hc.2⟩]
    simp [Core.addWarning]
  · rw [if_neg hc, if_neg (fun q => hc ⟨q.1, hf.2 q.2⟩)]
    simp

theorem v3VerifySigner_warn {env : Env} {p : V3Params} {signer : Bytes} {v : V3View} {r : Core} {cd : Digests}
    (h : V3SignerOK env p.maxSdk p.rotationMin signer v) (hagr : Agrees cd (algDigest v.alg) v.digest) :
    ∃ ws, V3SignerWarnings p.actingAsV31 p.maxSdk p.rotationMin signer ws ∧ v3VerifySigner env p signer cd r =
      .ok ({ r with certs := r.certs ++ [v.chain], warnings := r.warnings ++ ws }, mset cd (algDigest v.alg) v.digest,
        some v.info) := by
  have hstr := h.strength
  obtain ⟨signedData, mn, mx, sigs, pk, tail, sigRecs, sig, digests, certs, smin, smax, attrs, tail', digestRecs, attrRecs,
    main, more, h1, s1, s2, s3, n1, n2, hmn, hmx, h2, s4, s5, s6, n3, n4, hsmin, hsmax, c1, c2, c3, hsig, hkey, hcert, hchain,
    hdig, halg, hattr, hattrs, hlin⟩ := h
  refine ⟨signatureWarnings sigRecs ++ attrRecs.filterMap (v3AttrWarning p.actingAsV31 p.maxSdk) ++
      (if p.rotationMin ≠ 0 ∧ ∀ x ∈ attrRecs, attrId x ≠ rotationMinSdkAttrId then [.rotationAttrMissing] else []),
    ⟨signedData, mn, mx, sigs, pk, tail, sigRecs, digests, certs, smin, smax, attrs, tail', attrRecs, h1, s1, s2, s3, n1, n2, h2, s4, s5, s6,
      n3, n4, hsig.1, hattr, rfl⟩, ?_⟩
  unfold v3VerifySigner
  simp only [List.append_assoc] at h1 h2
  rw [h1, rdLP_lp _ _ s1]
  simp only
  rw [rdU32_le n1]
  simp only
  rw [rdU32_le n2]
  simp only
  rw [if_neg (by rw [← hmn, ← hmx]; omega)]
  unfold v3SignerBody
  rw [rdLP_lp _ _ s2]
  simp only
  rw [parseSignatures_ok hsig]
  simp only [bind, Except.bind]
  rw [rdLP_lp _ _ s3]
  simp only
  rw [parsePublicKey_ok hkey]
  simp only [Bool.not_true, Bool.false_eq_true, if_false]
  have e1 : rdLP signedData = .ok (digests, lp certs ++ (leBytes 4 smin ++ (leBytes 4 smax ++ (lp attrs ++ tail')))) := by
    rw [h2, rdLP_lp _ _ s4]
  rw [e1]
  simp only
  rw [rdLP_lp _ _ s5]
  simp only
  rw [rdU32_le n3]
  simp only
  rw [rdU32_le n4]
  simp only
  have hnm : ¬ toI32 mn ≠ toI32 smin := by rw [← hmn, ← hsmin, c3]; simp
  rw [if_neg hnm]
  unfold v3SignerTail
  rw [parseCertificates_ok hcert]
  simp only
  rw [← halg, parseDigests_ok hdig hstr hagr]
  simp only [bind, Except.bind, Bool.not_true, Bool.false_eq_true, if_false]
  rw [v3Attrs_warn ⟨⟨tail', rfl⟩, s6, hattr, hattrs⟩ hlin]
  simp [v3AttrsWarn, signatureWarnings_eq, hchain, V3View.info, hmn, hmx]

theorem v2Signers_warn {env : Env} {maxSdk : Int} (ss : List Bytes) : ∀ {cd cd' : Digests} {r : Core} {vs},
    V2SignersOK env maxSdk (Present r) cd ss vs cd' →
    ∃ l : List (Bytes × List W), ss = l.map (·.1) ∧ (∀ p ∈ l, V2SignerWarnings p.1 p.2) ∧ v2Signers env maxSdk ss cd r =
      .ok ({ r with certs := r.certs ++ vs.map (·.1), warnings := r.warnings ++ (l.map (·.2)).flatten }, cd') := by
  induction ss with
  | nil =>
    intro cd cd' r vs h
    obtain ⟨rfl, rfl⟩ := h
    exact ⟨[], by simp [v2Signers]⟩
  | cons s ss ih =>
    intro cd cd' r vs h
    obtain ⟨chain, a, d, vs', rfl, h1, h2, h3⟩ := h
    obtain ⟨ws, hx, hw⟩ := v2VerifySigner_warn h1 h2
    rw [v2Signers, hw]
    have := @ih (mset cd (algDigest a) d) cd' { r with certs := r.certs ++ [chain], warnings := r.warnings ++ ws } vs' h3
    obtain ⟨l, hl1, hl2, hw'⟩ := this
    refine ⟨(s, ws) :: l, by rw [List.map_cons, ← hl1], ?_, ?_⟩
    · intro p hp
      rcases List.mem_cons.1 hp with rfl | hp
      · exact hx
      · exact hl2 p hp
    · change v2Signers env maxSdk ss _ _ = _
      rw [hw']
      simp

theorem v3Signers_warn {env : Env} {p : V3Params} (ss : List Bytes) : ∀ {cd cd' : Digests} {r : Core} {acc} {vs},
    V3SignersOK env p.maxSdk p.rotationMin cd ss vs cd' →
    ∃ l : List (Bytes × List W), ss = l.map (·.1) ∧ (∀ q ∈ l, V3SignerWarnings p.actingAsV31 p.maxSdk p.rotationMin q.1 q.2) ∧
      v3Signers env p ss cd r acc =
      .ok ({ r with certs := r.certs ++ vs.map V3View.chain, warnings := r.warnings ++ (l.map (·.2)).flatten }, cd', acc ++ vs.map V3View.info) := by
  induction ss with
  | nil =>
    intro cd cd' r acc vs h
    obtain ⟨rfl, rfl⟩ := h
    exact ⟨[], by simp [v3Signers]⟩
  | cons s ss ih =>
    intro cd cd' r acc vs h
    obtain ⟨v, vs', rfl, h1, h2, h3⟩ := h
    obtain ⟨ws, hx, hw⟩ := v3VerifySigner_warn (r := r) h1 h2
    rw [v3Signers, hw]
    have := @ih (mset cd (algDigest v.alg) v.digest) cd' { r with certs := r.certs ++ [v.chain], warnings := r.warnings ++ ws }
      (acc ++ [v.info]) vs' h3
    obtain ⟨l, hl1, hl2, hw'⟩ := this
    refine ⟨(s, ws) :: l, by rw [List.map_cons, ← hl1], ?_, ?_⟩
    · intro p hp
      rcases List.mem_cons.1 hp with rfl | hp
      · exact hx
      · exact hl2 p hp
    · change v3Signers env p ss _ _ _ = _
      simp only [Option.toList]
      rw [hw']
      simp

theorem v2ParseSigners_warn {env : Env} {maxSdk : Int} {block : Bytes} {cd' : Digests} {r r' : Core}
    (h : v2ParseSigners env maxSdk block [] r = .ok (r', cd')) (he : r'.errors = r.errors) :
    ∃ ws, BlockWarnings V2SignerWarnings block ws ∧ r'.warnings = r.warnings ++ ws := by
  obtain ⟨vs, ws, hb, hn, hr⟩ := v2ParseSigners_inv h he
  obtain ⟨signers, tail, items, h1, h2, h3, h5⟩ := hb
  obtain ⟨l, hl1, hl2, hw⟩ := v2Signers_warn items h5
  refine ⟨_, ⟨items, l, ⟨signers, tail, h1, h2, h3⟩, hl1, hl2, rfl⟩, ?_⟩
  unfold v2ParseSigners at h
  rw [h1, rdLP_lp _ _ h2] at h
  simp only at h
  rw [(lpSplit_ok_iff signers items).2 ⟨h3.2, h3.1⟩] at h
  simp only [hw, bind, Except.bind] at h
  rw [if_neg (by unfold maxApkSigners; omega)] at h
  simp only [Except.ok.injEq, Prod.mk.injEq] at h
  rw [← h.1]

theorem v3ParseSigners_warn {env : Env} {p : V3Params} {block : Bytes} {cd cd' : Digests} {r r' : Core} {is}
    (h : v3ParseSigners env p block cd r = .ok (r', cd', is)) (he : r'.errors = r.errors) :
    ∃ ws, BlockWarnings (V3SignerWarnings p.actingAsV31 p.maxSdk p.rotationMin) block ws ∧ r'.warnings = r.warnings ++ ws := by
  obtain ⟨vs, ws, hb, hr, _⟩ := v3ParseSigners_inv h he
  obtain ⟨signers, tail, items, h1, h2, h3, h5⟩ := hb
  obtain ⟨l, hl1, hl2, hw⟩ := v3Signers_warn (r := r) (acc := []) items h5
  refine ⟨_, ⟨items, l, ⟨signers, tail, h1, h2, h3⟩, hl1, hl2, rfl⟩, ?_⟩
  unfold v3ParseSigners at h
  rw [h1, rdLP_lp _ _ h2] at h
  simp only at h
  rw [(lpSplit_ok_iff signers items).2 ⟨h3.2, h3.1⟩] at h
  simp only [hw, bind, Except.bind] at h
  simp only [Except.ok.injEq, Prod.mk.injEq] at h
  rw [← h.1]

end Apk
