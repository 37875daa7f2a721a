import Verif.Proofs.V3
/-! # v3 signers: a whole signer, a whole block -/
namespace Apk
set_option linter.unusedSimpArgs false

theorem rdU32_le {v : Nat} {rest : Bytes} (h : v < 2 ^ 32) : rdU32 (leBytes 4 v ++ rest) = some (v, rest) := rdU32_some.2 ⟨h, rfl⟩

theorem V3SignerOK.strength {env : Env} {maxSdk rot : Int} {signer : Bytes} {v : V3View}
    (h : V3SignerOK env maxSdk rot signer v) : 0 < algStrength v.alg := by
  obtain ⟨_, _, _, _, _, _, _, _, _, _, _, _, _, _, _, _, _, _, _, _, _, _, _, _, _, _, _, _, _, _, _, _, _, _, _, _, _, ⟨_, _, hs⟩, _⟩ := h
  exact hs.mem.2

/-- What `parseSigners` keeps of a signer. -/
def V3View.info (v : V3View) : SignerInfo := ⟨mkLin v.lineage, v.minSdk, v.maxSdk⟩

/-- A conforming signer is accepted, its chain appended, its digest recorded. -/
theorem v3VerifySigner_ok {env : Env} {p : V3Params} {signer : Bytes} {v : V3View} {r : Core} {cd : Digests}
    (h : V3SignerOK env p.maxSdk p.rotationMin signer v) (hagr : Agrees cd (algDigest v.alg) v.digest) :
    ∃ ws, v3VerifySigner env p signer cd r =
      .ok ({ r with certs := r.certs ++ [v.chain], warnings := r.warnings ++ ws }, mset cd (algDigest v.alg) v.digest,
        some v.info) := by
  have hstr := h.strength
  obtain ⟨signedData, mn, mx, sigs, pk, tail, sigRecs, sig, digests, certs, smin, smax, attrs, tail', digestRecs, attrRecs,
    main, more, h1, s1, s2, s3, n1, n2, hmn, hmx, h2, s4, s5, s6, n3, n4, hsmin, hsmax, c1, c2, c3, hsig, hkey, hcert, hchain,
    hdig, halg, hattr, hattrs, hlin⟩ := h
  unfold v3VerifySigner
  simp only [List.append_assoc] at h1 h2
  rw [h1, rdLP_lp _ _ s1]
  simp only
  rw [rdU32_le n1]
  simp only
  rw [rdU32_le n2]
  simp only
  rw [if_neg (by rw [← hmn, ← hmx]; omega)]
  unfold v3SignerBody
  rw [rdLP_lp _ _ s2]
  simp only
  rw [parseSignatures_ok hsig]
  simp only [bind, Except.bind]
  rw [rdLP_lp _ _ s3]
  simp only
  rw [parsePublicKey_ok hkey]
  simp only [Bool.not_true, Bool.false_eq_true, if_false]
  have e1 : rdLP signedData = .ok (digests, lp certs ++ (leBytes 4 smin ++ (leBytes 4 smax ++ (lp attrs ++ tail')))) := by
    rw [h2, rdLP_lp _ _ s4]
  rw [e1]
  simp only
  rw [rdLP_lp _ _ s5]
  simp only
  rw [rdU32_le n3]
  simp only
  rw [rdU32_le n4]
  simp only
  have hnm : ¬ toI32 mn ≠ toI32 smin := by rw [← hmn, ← hsmin, c3]; simp
  rw [if_neg hnm]
  obtain ⟨ws, hw⟩ := v3SignerTail_ok (env := env) (p := p) (certs := certs) (digests := digests) (pk := pk) (a := v.alg)
    (algos := sigRecs.map recAlg) (d4 := lp attrs ++ tail') (cd := cd) (main := main) (more := more) (d := v.digest)
    (lin := v.lineage) (r := { r with warnings := r.warnings ++ sigWarnings sigRecs }) hstr
    ⟨hcert, ⟨digestRecs, hdig, halg, hagr⟩, attrs, attrRecs, ⟨⟨tail', rfl⟩, s6, hattr, hattrs⟩, hlin⟩
  refine ⟨sigWarnings sigRecs ++ ws, ?_⟩
  rw [hw]
  simp only [List.append_assoc, hchain, V3View.info, hmn, hmx]

theorem Core.Ext.ite_addError (r : Core) (c : Prop) [Decidable c] (e : E) : r.Ext (if c then r.addError e else r) := by
  split
  · exact Core.Ext.addError _ _
  · exact Core.Ext.refl _

/-- Any other signer adds an error (unless checking a signature panics). -/
theorem v3VerifySigner_fail {env : Env} {p : V3Params} {signer : Bytes} {r : Core} {cd : Digests}
    (h : ¬ ∃ v, V3SignerOK env p.maxSdk p.rotationMin signer v ∧ Agrees cd (algDigest v.alg) v.digest)
    {r' : Core} {cd' : Digests} {i : Option SignerInfo} (hv : v3VerifySigner env p signer cd r = .ok (r', cd', i)) :
    r.Ext r' ∧ r.Failed r' := by
  unfold v3VerifySigner at hv
  cases e1 : rdLP signer with
  | error e =>
    rw [e1] at hv
    simp only [Except.ok.injEq, Prod.mk.injEq] at hv
    rw [← hv.1]; exact ⟨Core.Ext.addError _ _, Core.Failed.addError _ _⟩
  | ok q1 =>
  obtain ⟨signedData, b1⟩ := q1
  rw [e1] at hv; simp only at hv
  cases e2 : rdU32 b1 with
  | none =>
    rw [e2] at hv
    simp only [Except.ok.injEq, Prod.mk.injEq] at hv
    rw [← hv.1]; exact ⟨Core.Ext.addError _ _, Core.Failed.addError _ _⟩
  | some q2 =>
  obtain ⟨mn, b2⟩ := q2
  rw [e2] at hv; simp only at hv
  cases e3 : rdU32 b2 with
  | none =>
    rw [e3] at hv
    simp only [Except.ok.injEq, Prod.mk.injEq] at hv
    rw [← hv.1]; exact ⟨Core.Ext.addError _ _, Core.Failed.addError _ _⟩
  | some q3 =>
  obtain ⟨mx, b3⟩ := q3
  rw [e3] at hv; simp only at hv
  have x0 : r.Ext (if toI32 mn < 1 ∨ toI32 mn > toI32 mx then r.addError .sdkRangeInvalid else r) := Core.Ext.ite_addError _ _ _
  have f0 : (toI32 mn < 1 ∨ toI32 mn > toI32 mx) → r.Failed (if toI32 mn < 1 ∨ toI32 mn > toI32 mx then r.addError .sdkRangeInvalid else r) := by
    intro hc; rw [if_pos hc]; exact Core.Failed.addError _ _
  generalize (if toI32 mn < 1 ∨ toI32 mn > toI32 mx then r.addError .sdkRangeInvalid else r) = r0 at hv x0 f0
  cases hb : v3SignerBody env p signedData b3 (toI32 mn) cd r0 with
  | error e => rw [hb] at hv; cases hv
  | ok q =>
  obtain ⟨rb, cdb, lb⟩ := q
  rw [hb] at hv
  simp only [bind, Except.bind, Except.ok.injEq, Prod.mk.injEq] at hv
  obtain ⟨rfl, _, _⟩ := hv
  -- it suffices to look at the body
  suffices hs : r0.Ext rb ∧ (1 ≤ toI32 mn → toI32 mn ≤ toI32 mx → r0.Failed rb) by
    refine ⟨x0.trans hs.1, ?_⟩
    by_cases hr : toI32 mn < 1 ∨ toI32 mn > toI32 mx
    · exact (f0 hr).trans_ext hs.1.errors
    · exact x0.trans_failed (hs.2 (by omega) (by omega))
  have fin : ∀ {r1 : Core} {e : E} {cd0 : Digests} {l0 : Option Lineage}, r0.Ext r1 →
      (.ok (r1.addError e, cd0, l0) : Go (Core × Digests × Option Lineage)) = .ok (rb, cdb, lb) →
      r0.Ext rb ∧ (1 ≤ toI32 mn → toI32 mn ≤ toI32 mx → r0.Failed rb) := by
    intro r1 e cd0 l0 hx h
    simp only [Except.ok.injEq, Prod.mk.injEq] at h
    obtain ⟨rfl, _, _⟩ := h
    exact ⟨hx.trans (Core.Ext.addError _ _), fun _ _ => hx.trans_failed (Core.Failed.addError _ _)⟩
  have fin' : ∀ {r1 : Core} {cd0 : Digests} {l0 : Option Lineage}, r0.Ext r1 → r0.Failed r1 →
      (.ok (r1, cd0, l0) : Go (Core × Digests × Option Lineage)) = .ok (rb, cdb, lb) →
      r0.Ext rb ∧ (1 ≤ toI32 mn → toI32 mn ≤ toI32 mx → r0.Failed rb) := by
    intro r1 cd0 l0 hx hf h
    simp only [Except.ok.injEq, Prod.mk.injEq] at h
    obtain ⟨rfl, _, _⟩ := h
    exact ⟨hx, fun _ _ => hf⟩
  unfold v3SignerBody at hb
  cases e4 : rdLP b3 with
  | error e => rw [e4] at hb; exact fin (Core.Ext.refl _) hb
  | ok q4 =>
  obtain ⟨sigs, b4⟩ := q4
  rw [e4] at hb; simp only at hb
  by_cases hsl : ∃ recs a s, SigList sigs recs a s
  case neg =>
    obtain ⟨r1, ctx, hf, x1, f1⟩ := parseSignatures_fail hsl r0
    rw [hf] at hb
    exact fin' x1 f1 hb
  obtain ⟨sigRecs, a, sig, hsl⟩ := hsl
  rw [parseSignatures_ok hsl] at hb
  simp only [bind, Except.bind] at hb
  have x1 : r0.Ext { r0 with warnings := r0.warnings ++ sigWarnings sigRecs } := Core.Ext.warn _ _
  generalize hr1 : ({ r0 with warnings := r0.warnings ++ sigWarnings sigRecs } : Core) = r1 at hb x1
  cases e5 : rdLP b4 with
  | error e => rw [e5] at hb; exact fin x1 hb
  | ok q5 =>
  obtain ⟨pk, tail⟩ := q5
  rw [e5] at hb; simp only at hb
  by_cases hk : KeyAccepts env pk a signedData sig
  case neg =>
    cases hp : parsePublicKey env pk (a, sig) signedData r1 with
    | error e => rw [hp] at hb; cases hb
    | ok q =>
      obtain ⟨r2, b⟩ := q
      obtain ⟨rfl, x2, f2⟩ := parsePublicKey_fail hk hp
      rw [hp] at hb
      exact fin' (x1.trans x2) (x1.trans_failed f2) hb
  rw [parsePublicKey_ok hk] at hb
  simp only [Bool.not_true, Bool.false_eq_true, if_false] at hb
  cases e6 : rdLP signedData with
  | error e => rw [e6] at hb; exact fin x1 hb
  | ok q6 =>
  obtain ⟨digests, d1⟩ := q6
  rw [e6] at hb; simp only at hb
  cases e7 : rdLP d1 with
  | error e => rw [e7] at hb; exact fin x1 hb
  | ok q7 =>
  obtain ⟨certs, d2⟩ := q7
  rw [e7] at hb; simp only at hb
  cases e8 : rdU32 d2 with
  | none => rw [e8] at hb; exact fin x1 hb
  | some q8 =>
  obtain ⟨smin, d3⟩ := q8
  rw [e8] at hb; simp only at hb
  cases e9 : rdU32 d3 with
  | none => rw [e9] at hb; exact fin x1 hb
  | some q9 =>
  obtain ⟨smax, d4⟩ := q9
  rw [e9] at hb; simp only at hb
  have x2 : r0.Ext (if toI32 mn ≠ toI32 smin then r1.addError .minSdkMismatch else r1) := x1.trans (Core.Ext.ite_addError _ _ _)
  have f2 : toI32 mn ≠ toI32 smin → r0.Failed (if toI32 mn ≠ toI32 smin then r1.addError .minSdkMismatch else r1) := by
    intro hc; rw [if_pos hc]; exact x1.trans_failed (Core.Failed.addError _ _)
  generalize (if toI32 mn ≠ toI32 smin then r1.addError .minSdkMismatch else r1) = r2 at hb x2 f2
  have hmem := hsl.2.2.mem
  have x3 := v3SignerTail_ext hmem.2 hmem.1 hb
  refine ⟨x2.trans x3, ?_⟩
  intro c1 c2
  by_cases hmis : toI32 mn ≠ toI32 smin
  · exact (f2 hmis).trans_ext x3.errors
  · have hmis : toI32 smin = toI32 mn := by
      rcases Decidable.em (toI32 mn = toI32 smin) with h | h
      · exact h.symm
      · exact absurd h hmis
    refine x2.trans_failed (v3SignerTail_fail hmem.2 hmem.1 ?_ hb).2
    rintro ⟨main, more, d, lin, hc, ⟨recs, hdl, hal, hagr⟩, attrs, arecs, ⟨⟨tail', hd4⟩, s6, hlp, hat⟩, hlin⟩
    apply h
    obtain ⟨s1, g1⟩ := rdLP_ok e1
    obtain ⟨n1, g2⟩ := rdU32_some.1 e2
    obtain ⟨n2, g3⟩ := rdU32_some.1 e3
    obtain ⟨s2, g4⟩ := rdLP_ok e4
    obtain ⟨s3, g5⟩ := rdLP_ok e5
    obtain ⟨s4, g6⟩ := rdLP_ok e6
    obtain ⟨s5, g7⟩ := rdLP_ok e7
    obtain ⟨n3, g8⟩ := rdU32_some.1 e8
    obtain ⟨n4, g9⟩ := rdU32_some.1 e9
    refine ⟨⟨main :: more, a, d, toI32 mn, toI32 mx, toI32 smin, toI32 smax, lin⟩,
      ⟨signedData, mn, mx, sigs, pk, tail, sigRecs, sig, digests, certs, smin, smax, attrs, tail', recs, arecs, main, more,
        ?_, s1, s2, s3, n1, n2, rfl, rfl, ?_, s4, s5, s6, n3, n4, rfl, rfl, c1, c2, hmis, hsl, hk, hc, rfl, hdl, hal, hlp, hat,
        hlin⟩, hagr⟩
    · rw [g1, g2, g3, g4, g5]; simp [List.append_assoc]
    · rw [g6, g7, g8, g9, hd4]; simp [List.append_assoc]

theorem v3VerifySigner_ext {env : Env} {p : V3Params} {signer : Bytes} {r r' : Core} {cd cd' : Digests} {i : Option SignerInfo}
    (hv : v3VerifySigner env p signer cd r = .ok (r', cd', i)) : r.Ext r' := by
  by_cases h : ∃ v, V3SignerOK env p.maxSdk p.rotationMin signer v ∧ Agrees cd (algDigest v.alg) v.digest
  · obtain ⟨v, h1, h2⟩ := h
    obtain ⟨ws, hw⟩ := v3VerifySigner_ok (r := r) h1 h2
    rw [hv] at hw
    simp only [Except.ok.injEq, Prod.mk.injEq] at hw
    rw [hw.1]
    exact ⟨⟨_, rfl⟩, rfl, rfl, rfl, ⟨[], by simp⟩, ⟨ws, rfl⟩⟩
  · exact (v3VerifySigner_fail h hv).1

/-- Every signer in the list is accepted in turn. -/
def V3SignersOK (env : Env) (maxSdk rot : Int) : Digests → List Bytes → List V3View → Digests → Prop
  | cd, [], vs, cd' => vs = [] ∧ cd' = cd
  | cd, s :: ss, vs, cd' => ∃ v vs', vs = v :: vs' ∧ V3SignerOK env maxSdk rot s v ∧
      Agrees cd (algDigest v.alg) v.digest ∧ V3SignersOK env maxSdk rot (mset cd (algDigest v.alg) v.digest) ss vs' cd'

theorem v3Signers_ext {env : Env} {p : V3Params} (ss : List Bytes) : ∀ {cd cd' : Digests} {r r' : Core} {acc acc'},
    v3Signers env p ss cd r acc = .ok (r', cd', acc') → r.Ext r' := by
  induction ss with
  | nil =>
    intro cd cd' r r' acc acc' h
    simp only [v3Signers, Except.ok.injEq, Prod.mk.injEq] at h
    rw [← h.1]; exact Core.Ext.refl _
  | cons s ss ih =>
    intro cd cd' r r' acc acc' h
    rw [v3Signers] at h
    cases h1 : v3VerifySigner env p s cd r with
    | error p => rw [h1] at h; cases h
    | ok x =>
      obtain ⟨r1, cd1, i⟩ := x
      rw [h1] at h
      exact (v3VerifySigner_ext h1).trans (ih h)

theorem v3Signers_ok {env : Env} {p : V3Params} (ss : List Bytes) : ∀ {cd cd' : Digests} {r : Core} {acc} {vs},
    V3SignersOK env p.maxSdk p.rotationMin cd ss vs cd' →
    ∃ ws, v3Signers env p ss cd r acc =
      .ok ({ r with certs := r.certs ++ vs.map V3View.chain, warnings := r.warnings ++ ws }, cd', acc ++ vs.map V3View.info) := by
  induction ss with
  | nil =>
    intro cd cd' r acc vs h
    obtain ⟨rfl, rfl⟩ := h
    exact ⟨[], by simp [v3Signers]⟩
  | cons s ss ih =>
    intro cd cd' r acc vs h
    obtain ⟨v, vs', rfl, h1, h2, h3⟩ := h
    obtain ⟨ws, hw⟩ := v3VerifySigner_ok (r := r) h1 h2
    rw [v3Signers, hw]
    have := @ih (mset cd (algDigest v.alg) v.digest) cd' { r with certs := r.certs ++ [v.chain], warnings := r.warnings ++ ws }
      (acc ++ [v.info]) vs' h3
    obtain ⟨ws', hw'⟩ := this
    refine ⟨ws ++ ws', ?_⟩
    change v3Signers env p ss _ _ _ = _
    simp only [Option.toList]
    rw [hw']
    simp

theorem v3Signers_inv {env : Env} {p : V3Params} (ss : List Bytes) : ∀ {cd cd' : Digests} {r r' : Core} {acc acc'},
    v3Signers env p ss cd r acc = .ok (r', cd', acc') → r'.errors = r.errors →
    ∃ vs, V3SignersOK env p.maxSdk p.rotationMin cd ss vs cd' := by
  induction ss with
  | nil =>
    intro cd cd' r r' acc acc' h _
    simp only [v3Signers, Except.ok.injEq, Prod.mk.injEq] at h
    exact ⟨[], rfl, h.2.1.symm⟩
  | cons s ss ih =>
    intro cd cd' r r' acc acc' h he
    rw [v3Signers] at h
    cases h1 : v3VerifySigner env p s cd r with
    | error p => rw [h1] at h; cases h
    | ok x =>
      obtain ⟨r1, cd1, i⟩ := x
      rw [h1] at h
      have hrest : v3Signers env p ss cd1 r1 (acc ++ i.toList) = .ok (r', cd', acc') := h
      have x2 := v3Signers_ext ss hrest
      by_cases hs : ∃ v, V3SignerOK env p.maxSdk p.rotationMin s v ∧ Agrees cd (algDigest v.alg) v.digest
      · obtain ⟨v, q1, q2⟩ := hs
        obtain ⟨ws, hw⟩ := v3VerifySigner_ok (r := r) q1 q2
        rw [h1] at hw
        simp only [Except.ok.injEq, Prod.mk.injEq] at hw
        obtain ⟨e1, e2, e3⟩ := hw
        have he1 : r1.errors = r.errors := by rw [e1]
        obtain ⟨vs, hvs⟩ := ih hrest (by rw [he, he1])
        rw [e2] at hvs
        exact ⟨_, v, vs, rfl, q1, q2, hvs⟩
      · obtain ⟨_, f1⟩ := v3VerifySigner_fail hs h1
        exact absurd he (f1.trans_ext x2.errors).ne

/-- A conforming v3 or v3.1 block. -/
def V3BlockOK (env : Env) (maxSdk rot : Int) (block : Bytes) (vs : List V3View) (cd cd' : Digests) : Prop :=
  ∃ signers tail items, block = lp signers ++ tail ∧ Small signers ∧ LPList signers items ∧
    V3SignersOK env maxSdk rot cd items vs cd'

theorem v3ParseSigners_ext {env : Env} {p : V3Params} {block : Bytes} {cd cd' : Digests} {r r' : Core} {is}
    (h : v3ParseSigners env p block cd r = .ok (r', cd', is)) : r.Ext r' := by
  unfold v3ParseSigners at h
  cases e1 : rdLP block with
  | error e =>
    rw [e1] at h
    simp only [Except.ok.injEq, Prod.mk.injEq] at h
    rw [← h.1]; exact Core.Ext.addError _ _
  | ok q =>
    obtain ⟨signers, tail⟩ := q
    rw [e1] at h
    simp only at h
    cases hs : lpSplit signers with
    | mk items err =>
      rw [hs] at h
      simp only at h
      cases h1 : v3Signers env p items cd r [] with
      | error p => rw [h1] at h; cases h
      | ok x =>
        obtain ⟨r1, cd1, i1⟩ := x
        rw [h1] at h
        have x1 := v3Signers_ext items h1
        simp only [bind, Except.bind] at h
        cases err with
        | some e =>
          simp only [Except.ok.injEq, Prod.mk.injEq] at h
          rw [← h.1]; exact x1.trans (Core.Ext.addError _ _)
        | none =>
          simp only [Except.ok.injEq, Prod.mk.injEq] at h
          rw [← h.1]; exact x1

theorem v3ParseSigners_ok {env : Env} {p : V3Params} {block : Bytes} {cd cd' : Digests} {r : Core}
    {vs : List V3View} (h : V3BlockOK env p.maxSdk p.rotationMin block vs cd cd') :
    ∃ ws, v3ParseSigners env p block cd r =
      .ok ({ r with certs := r.certs ++ vs.map V3View.chain, warnings := r.warnings ++ ws }, cd', vs.map V3View.info) := by
  obtain ⟨signers, tail, items, h1, h2, ⟨h3, h4⟩, h5⟩ := h
  obtain ⟨ws, hw⟩ := v3Signers_ok (r := r) (acc := []) items h5
  refine ⟨ws, ?_⟩
  unfold v3ParseSigners
  rw [h1, rdLP_lp _ _ h2]
  simp only
  rw [(lpSplit_ok_iff signers items).2 ⟨h4, h3⟩]
  simp only [hw, bind, Except.bind, List.nil_append]

theorem v3ParseSigners_inv {env : Env} {p : V3Params} {block : Bytes} {cd cd' : Digests} {r r' : Core} {is}
    (h : v3ParseSigners env p block cd r = .ok (r', cd', is)) (he : r'.errors = r.errors) :
    ∃ vs ws, V3BlockOK env p.maxSdk p.rotationMin block vs cd cd' ∧
      r' = { r with certs := r.certs ++ vs.map V3View.chain, warnings := r.warnings ++ ws } ∧ is = vs.map V3View.info := by
  have h0 := h
  unfold v3ParseSigners at h
  cases e1 : rdLP block with
  | error e =>
    rw [e1] at h
    simp only [Except.ok.injEq, Prod.mk.injEq] at h
    rw [← h.1] at he
    exact absurd he (Core.Failed.addError _ _).ne
  | ok q =>
    obtain ⟨signers, tail⟩ := q
    rw [e1] at h
    simp only at h
    obtain ⟨g1, g2⟩ := rdLP_ok e1
    cases hs : lpSplit signers with
    | mk items err =>
      rw [hs] at h
      simp only at h
      cases h1 : v3Signers env p items cd r [] with
      | error p => rw [h1] at h; cases h
      | ok x =>
        obtain ⟨r1, cd1, i1⟩ := x
        rw [h1] at h
        have x1 := v3Signers_ext items h1
        simp only [bind, Except.bind] at h
        cases err with
        | some e =>
          simp only [Except.ok.injEq, Prod.mk.injEq] at h
          rw [← h.1] at he
          exact absurd he (x1.trans_failed (Core.Failed.addError _ _)).ne
        | none =>
          simp only [Except.ok.injEq, Prod.mk.injEq] at h
          obtain ⟨rfl, rfl, rfl⟩ := h
          obtain ⟨vs, hvs⟩ := v3Signers_inv items h1 he
          obtain ⟨q1, q2⟩ := (lpSplit_ok_iff signers items).1 hs
          have hb : V3BlockOK env p.maxSdk p.rotationMin block vs cd cd1 := ⟨signers, tail, items, g2, g1, ⟨q2, q1⟩, hvs⟩
          obtain ⟨ws, hw⟩ := v3ParseSigners_ok (r := r) hb
          rw [h0] at hw
          simp only [Except.ok.injEq, Prod.mk.injEq, true_and] at hw
          exact ⟨vs, ws, hb, hw.1, hw.2⟩

end Apk
